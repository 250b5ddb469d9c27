import Verif.Proofs.RingWeak
import Verif.Proofs.RingLive
import Verif.Spec.RingWeakLiveSpec

/-! # Progress of the ring buffer's calls under the orderings of the code -/
namespace BigO

variable {α : Type} {T : Nat} {p : Profile} {N : Nat} {σ : Nat → WAct α T}

theorem sizedW_inv (hs : SizedW p N σ) (n : Nat) : WInv N (WRing.at p N σ n) := by
  induction n with
  | zero => exact winv_init N
  | succ n ih => exact winv_act hs.slots (hs.inFlight n) ih (σ n) (hs.few (n + 1))

/-- memory and views only grow -/
structure Frame (s s' : WRing α T) : Prop where
  pub : s.published.top ≤ s'.published.top
  pubView : s'.published.top = s.published.top → ∀ t, s.view t .published ≤ s'.view t .published
  heads : ∀ (c : Nat) l, s.heads[c]? = some l → ∃ l', s'.heads[c]? = some l' ∧ l.last ≤ l'.last ∧
    (l'.last = l.last → l' = l ∧ ∀ t, s.view t (.head c) ≤ s'.view t (.head c))

theorem wframe_of {s s' : WRing α T} (h1 : s'.published = s.published) (h2 : s'.heads = s.heads)
    (h3 : ∀ t, s.view t .published ≤ s'.view t .published) (h4 : ∀ t c, s.view t (.head c) ≤ s'.view t (.head c)) : Frame s s' :=
  ⟨by rw [h1], fun _ => h3, fun c l hl => ⟨l, by rw [h2]; exact hl, Nat.le_refl _, fun _ => ⟨rfl, fun t => h4 t c⟩⟩⟩

theorem wframe_refl (s : WRing α T) : Frame s s := wframe_of rfl rfl (fun _ => Nat.le_refl _) (fun _ _ => Nat.le_refl _)

theorem wframe_trans {s s' s'' : WRing α T} (a : Frame s s') (b : Frame s' s'') : Frame s s'' := by
  refine ⟨Nat.le_trans a.pub b.pub, fun he t => ?_, fun c l hl => ?_⟩
  · have := a.pub; have := b.pub
    exact Nat.le_trans (a.pubView (by omega) t) (b.pubView (by omega) t)
  · obtain ⟨l1, e1, g1, k1⟩ := a.heads c l hl
    obtain ⟨l2, e2, g2, k2⟩ := b.heads c l1 e1
    refine ⟨l2, e2, Nat.le_trans g1 g2, fun he => ?_⟩
    obtain ⟨i1, i2⟩ := k1 (by omega)
    obtain ⟨j1, j2⟩ := k2 (by omega)
    exact ⟨j1.trans i1, fun t => Nat.le_trans (i2 t) (j2 t)⟩

theorem wframe_setPc (s : WRing α T) (t : Fin T) (x : RPc α) : Frame s (s.setPc t x) :=
  wframe_of rfl rfl (fun _ => Nat.le_refl _) (fun _ _ => Nat.le_refl _)

theorem wframe_emit (s : WRing α T) (e : REv α) : Frame s (s.emit e) :=
  wframe_of rfl rfl (fun _ => Nat.le_refl _) (fun _ _ => Nat.le_refl _)

theorem wsee_view (s : WRing α T) (t : Fin T) (l : WLoc) (i : Nat) (u : Fin T) (l' : WLoc) :
    (s.see t l i).view u l' = if u = t ∧ l' = l then i else s.view u l' := by
  by_cases h : u = t
  · subst h; by_cases h' : l' = l <;> simp [WRing.see, View.set, h']
  · simp [WRing.see, h]

theorem wframe_see (s : WRing α T) (t : Fin T) (l : WLoc) (i : Nat) (h : s.view t l ≤ i) : Frame s (s.see t l i) := by
  have : ∀ u l', s.view u l' ≤ (s.see t l i).view u l' := by
    intro u l'
    rw [wsee_view]
    split
    · rename_i h1; obtain ⟨rfl, rfl⟩ := h1; exact h
    · exact Nat.le_refl _
  exact wframe_of rfl rfl (fun _ => this _ _) (fun _ _ => this _ _)

theorem wlearn_view (s : WRing α T) (t : Fin T) (v : View) (u : Fin T) (l' : WLoc) : s.view u l' ≤ (s.learn t v).view u l' := by
  by_cases h : u = t
  · subst h; simp only [WRing.learn, if_true, View.join]; exact Nat.le_max_left _ _
  · simp [WRing.learn, h]

theorem wframe_learn (s : WRing α T) (t : Fin T) (v : View) : Frame s (s.learn t v) :=
  wframe_of rfl rfl (fun _ => wlearn_view ..) (fun _ _ => wlearn_view ..)

theorem wframe_reserve (s : WRing α T) (t : Fin T) (e : α) : Frame s (s.reserve t e) := by
  refine wframe_of rfl rfl (fun u => ?_) (fun u c => ?_) <;>
    · unfold WRing.reserve
      rw [wsee_view]; simp

theorem wframe_store (s : WRing α T) (t : Fin T) (k : Nat) (e : α) : Frame s (s.store t k e) := by
  refine wframe_of rfl rfl (fun u => ?_) (fun u c => ?_) <;>
    · unfold WRing.store
      rw [wsee_view]; simp

theorem wframe_fetch (s : WRing α T) (t : Fin T) (k i : Nat) : Frame s (s.fetch t k i) := by
  refine wframe_of rfl rfl (fun u => ?_) (fun u c => ?_) <;>
    · unfold WRing.fetch
      rw [wsee_view]; simp

theorem wframe_publish (s : WRing α T) (t : Fin T) (v : Nat) : Frame s (s.publish t v) := by
  refine ⟨Nat.le_succ _, fun h => ?_, fun c l hl => ⟨l, hl, Nat.le_refl _, fun _ => ⟨rfl, fun u => ?_⟩⟩⟩
  · change s.published.top + 1 = s.published.top at h; omega
  · unfold WRing.publish
    rw [wsee_view]; simp

theorem wframe_addConsumer (s : WRing α T) (t : Fin T) (i : Nat) (h : s.view t .published ≤ i) : Frame s (s.addConsumer t i) := by
  refine ⟨Nat.le_refl _, fun _ u => ?_, fun c l hl => ⟨l, ?_, Nat.le_refl _, fun _ => ⟨rfl, fun u => ?_⟩⟩⟩
  · unfold WRing.addConsumer
    rw [wsee_view]
    split
    · rename_i h1; obtain ⟨rfl, _⟩ := h1; exact h
    · exact Nat.le_refl _
  · show (s.heads ++ _)[c]? = some l
    rw [List.getElem?_append_left (List.getElem?_eq_some_iff.1 hl).1]; exact hl
  · unfold WRing.addConsumer
    rw [wsee_view]; simp

theorem wframe_claim (s : WRing α T) (t : Fin T) (c : Nat) (l : WCell Nat) (hl : s.heads[c]? = some l) :
    Frame s (s.claim t c l (l.last + 1)) := by
  refine ⟨Nat.le_refl _, fun _ u => ?_, fun c' l' hl' => ?_⟩
  · refine Nat.le_trans ?_ (wlearn_view ..)
    rw [wsee_view]; simp
  · show ∃ l'', (s.heads.set c (l.push (l.last + 1) (l.rel l.top)))[c']? = some l'' ∧ _
    by_cases hcc : c' = c
    · subst hcc
      rw [hl] at hl'
      obtain rfl := Option.some.inj hl'
      refine ⟨_, List.getElem?_set_self (List.getElem?_eq_some_iff.1 hl).1, ?_, ?_⟩
      · rw [WCell.last_push]; omega
      · intro h; rw [WCell.last_push] at h; omega
    · refine ⟨l', by rw [List.getElem?_set_ne (fun h => hcc h.symm)]; exact hl', Nat.le_refl _, fun _ => ⟨rfl, fun u => ?_⟩⟩
      refine Nat.le_trans ?_ (wlearn_view ..)
      rw [wsee_view]
      rw [if_neg (by rintro ⟨_, h⟩; exact hcc (WLoc.head.inj h))]

/-- every action only grows memory and views -/
theorem wact_frame {s : WRing α T} (hN : 0 < N) (h : WInv N s) (hlen : s.log.length < 2 ^ 32) (a : WAct α T) : Frame s (s.act p N a) := by
  have hN' : N ≠ 0 := by omega
  cases a with
  | sync t u => exact wframe_learn ..
  | enqueue t e =>
    simp only [WRing.act]
    cases s.pc t with
    | idle => exact wframe_trans (wframe_reserve ..) (wframe_setPc ..)
    | _ => exact wframe_refl s
  | consumer t i =>
    simp only [WRing.act]
    cases s.pc t with
    | idle =>
      simp only
      split
      · rename_i hr
        rw [readable_iff] at hr
        exact wframe_addConsumer _ _ _ hr.1
      · exact wframe_refl s
    | _ => exact wframe_refl s
  | dequeue t c i =>
    simp only [WRing.act]
    split
    · split
      · rename_i hr
        rw [readable_iff] at hr
        exact wframe_trans (wframe_learn ..) (wframe_trans (wframe_see _ _ _ _ hr.1) (wframe_setPc ..))
      · exact wframe_refl s
    · exact wframe_refl s
  | peekAll t c i =>
    simp only [WRing.act]
    split
    · split
      · rename_i hr
        rw [readable_iff] at hr
        exact wframe_trans (wframe_learn ..) (wframe_trans (wframe_see _ _ _ _ hr.1) (wframe_setPc ..))
      · exact wframe_refl s
    · exact wframe_refl s
  | next t i j ok =>
    have hme := h.cons.pcs t
    change (s.pc t).ok False s.newest at hme
    simp only [WRing.act]
    cases hpc : s.pc t with
    | idle => exact wframe_refl s
    | panicked q => exact wframe_refl s
    | enqReserved e r =>
      simp only [WRing.nextStep, hN', if_false]
      exact wframe_trans (wframe_store ..) (wframe_setPc ..)
    | enqWritten e r =>
      simp only [WRing.nextStep]
      split
      · exact wframe_setPc ..
      · split
        · split
          · exact wframe_trans (wframe_publish ..) (wframe_trans (wframe_setPc ..) (wframe_emit ..))
          · exact wframe_refl s
        · split
          · rename_i hr
            rw [readable_iff] at hr
            split
            · exact wframe_trans (wframe_see _ _ _ _ hr.1) (wframe_setPc ..)
            · exact wframe_see _ _ _ _ hr.1
          · exact wframe_refl s
    | deqHead c hd =>
      simp only [WRing.nextStep]
      split
      · rename_i hr
        rw [readable_iff] at hr
        split
        · exact wframe_trans (wframe_see _ _ _ _ hr.1) (wframe_setPc ..)
        · split
          · exact wframe_trans (wframe_see _ _ _ _ hr.1) (wframe_trans (wframe_setPc ..) (wframe_emit ..))
          · exact wframe_trans (wframe_see _ _ _ _ hr.1) (wframe_setPc ..)
      · exact wframe_refl s
    | deqReload c =>
      simp only [WRing.nextStep]
      split
      · exact wframe_refl s
      · split
        · rename_i hr
          rw [readable_iff] at hr
          exact wframe_trans (wframe_see _ _ _ _ hr.1) (wframe_setPc ..)
        · exact wframe_refl s
    | deqTail c hd tl =>
      rw [hpc] at hme
      obtain ⟨m0, m1, hh, m2, m3⟩ := hme
      have hpub : s.newest.ring.published ≤ s.log.length := h.prod.pub
      have h4 : hd + 1 < 2 ^ 32 := by omega
      simp only [WRing.nextStep, u32Add, h4, if_true]
      split
      · exact wframe_refl s
      · rename_i l hl
        split
        · split
          · rename_i he
            subst he
            exact wframe_trans (wframe_claim _ _ _ _ hl) (wframe_trans (wframe_setPc ..) (wframe_emit ..))
          · exact wframe_refl s
        · split
          · rename_i hr
            rw [readable_iff] at hr
            exact wframe_trans (wframe_see _ _ _ _ hr.1) (wframe_setPc ..)
          · exact wframe_refl s
    | deqClaimed c hd tl =>
      simp only [WRing.nextStep]
      split
      · rename_i hr
        rw [readable_iff] at hr
        have hf := wframe_see s t .reserved i hr.1
        split
        · exact wframe_trans hf (wframe_setPc ..)
        · split
          · exact wframe_trans hf (wframe_trans (wframe_setPc ..) (wframe_emit ..))
          · split
            · exact wframe_trans hf (wframe_trans (wframe_fetch ..) (wframe_trans (wframe_setPc ..) (wframe_emit ..)))
            · exact wframe_refl s
      · exact wframe_refl s
    | peekHead c hd =>
      simp only [WRing.nextStep]
      split
      · rename_i hr
        simp only [Bool.and_eq_true] at hr
        rw [readable_iff] at hr
        split
        · exact wframe_trans (wframe_see _ _ _ _ hr.1.1) (wframe_trans (wframe_setPc ..) (wframe_emit ..))
        · exact wframe_trans (wframe_see _ _ _ _ hr.1.1) (wframe_setPc ..)
      · exact wframe_refl s

theorem wat_frame (hs : SizedW p N σ) {n m : Nat} (hnm : n ≤ m) : Frame (WRing.at p N σ n) (WRing.at p N σ m) := by
  induction m, hnm using Nat.le_induction with
  | base => exact wframe_refl _
  | succ m hm ih => exact wframe_trans ih (wact_frame hs.slots (sizedW_inv hs m) (hs.few m) (σ m))

/-- a thread inside a call moves only by its own turns -/
theorem wpc_stays (s : WRing α T) (t : Fin T) (a : WAct α T) (hbusy : s.pc t ≠ .idle) (ha : ∀ i j ok, a ≠ .next t i j ok) :
    (s.act p N a).pc t = s.pc t := by
  have key : ∀ (t' : Fin T) (s' : WRing α T) (x : RPc α), s'.pc = s.pc → t ≠ t' → (s'.setPc t' x).pc t = s.pc t := by
    intro t' s' x h1 h2
    simp [WRing.setPc, h2, h1]
  cases a with
  | sync t' u => rfl
  | enqueue t' e =>
    simp only [WRing.act]
    cases h : s.pc t' with
    | idle => exact key t' _ _ rfl (by rintro rfl; exact hbusy h)
    | _ => rfl
  | consumer t' i => simp only [WRing.act]; repeat (first | rfl | split)
  | dequeue t' c i =>
    simp only [WRing.act]
    split
    · rename_i h _ _
      split
      · exact key t' _ _ rfl (by rintro rfl; exact hbusy h)
      · rfl
    · rfl
  | peekAll t' c i =>
    simp only [WRing.act]
    split
    · rename_i h _ _
      split
      · exact key t' _ _ rfl (by rintro rfl; exact hbusy h)
      · rfl
    · rfl
  | next t' i j ok =>
    have hne : t ≠ t' := by rintro rfl; exact ha i j ok rfl
    simp only [WRing.act]
    cases s.pc t' <;> simp only [WRing.nextStep, WRing.emit] <;>
      repeat (first | rfl | exact key t' _ _ rfl hne | split)

/-- a step of a thread in `enqueue` -/
theorem wenq_step {s : WRing α T} (hN : 0 < N) (h : WInv N s) (hlen : s.log.length < 2 ^ 32) (t : Fin T) {e : α} {r : Nat}
    (hpc : (s.pc t).enq? = some (e, r)) (i : Nat) (j : Nat → Nat) (ok : Bool) :
    (((s.act p N (.next t i j ok)).pc t = .enqWritten e r ∧
      (s.pc t = .enqWritten e r → s.Possible N t i j ok → s.Fresh t i ok → s.published.last ≠ r)) ∨
    ((s.act p N (.next t i j ok)).pc t = .idle ∧ REv.enqDone e r ∈ (s.act p N (.next t i j ok)).events ∧
      (s.act p N (.next t i j ok)).published.last = r + 1)) := by
  have hN' : N ≠ 0 := by omega
  obtain ⟨h1, h2⟩ := h.prod.hold t e r hpc
  have h3 : r < s.log.length := (List.getElem?_eq_some_iff.1 h2).1
  have h4 : r + 1 < 2 ^ 32 := by omega
  simp only [WRing.act]
  cases hp : s.pc t with
  | enqReserved e' r' =>
    rw [hp] at hpc
    simp only [RPc.enq?, Option.some.injEq, Prod.mk.injEq] at hpc
    obtain ⟨rfl, rfl⟩ := hpc
    left
    simp [WRing.nextStep, hN', WRing.setPc]
  | enqWritten e' r' =>
    rw [hp] at hpc
    simp only [RPc.enq?, Option.some.injEq, Prod.mk.injEq] at hpc
    obtain ⟨rfl, rfl⟩ := hpc
    simp only [WRing.nextStep, u32Add, h4, if_true]
    by_cases hok : ok = true
    · subst hok
      by_cases hl : s.published.last = r'
      · right
        rw [if_pos rfl, if_pos hl]
        refine ⟨by simp [WRing.setPc, WRing.emit], by simp [WRing.setPc, WRing.emit], ?_⟩
        exact WCell.last_push _ _ _
      · left
        rw [if_pos rfl, if_neg hl]
        exact ⟨hp, fun _ _ _ => hl⟩
    · have hok' : ok = false := by simpa using hok
      subst hok'
      left
      have hfr : s.Fresh t i false → s.published.last ≠ r' := by
        intro hf
        unfold WRing.Fresh at hf
        rw [hp] at hf
        rcases hf with hf | hf
        · cases hf
        · exact hf.2
      simp only [Bool.false_eq_true, if_false]
      split
      · rename_i hr
        rw [readable_iff] at hr
        have hle := pub_le h hr.2
        have : ¬ s.published.val i > r' := by omega
        rw [if_neg this]
        exact ⟨hp, fun _ _ => hfr⟩
      · exact ⟨hp, fun _ _ => hfr⟩
  | _ => rw [hp] at hpc; simp [RPc.enq?] at hpc

/-- while a position is reserved and not published, `published_tail` advances -/
theorem wpublished_advances (hs : SizedW p N σ) (hfair : ∀ t, KeepsRunningW p N σ t) (n : Nat)
    (hlt : (WRing.at p N σ n).published.last < (WRing.at p N σ n).log.length) :
    ∃ m, n ≤ m ∧ (WRing.at p N σ n).published.last < (WRing.at p N σ m).published.last := by
  have htop : ∀ m, (WRing.at p N σ m).published.last = (WRing.at p N σ m).published.top := fun m => (sizedW_inv hs m).pub _ (Nat.le_refl _)
  by_contra hcon
  have hcon' : ∀ m, n ≤ m → (WRing.at p N σ m).published.last = (WRing.at p N σ n).published.last := by
    intro m hm
    have h1 := (wat_frame hs hm).pub
    rw [← htop, ← htop] at h1
    by_contra h2
    exact hcon ⟨m, hm, by omega⟩
  obtain ⟨t, e, ht⟩ := (sizedW_inv hs n).prod.cover _ (Nat.le_refl _) hlt
  change ((WRing.at p N σ n).pc t).enq? = some (e, (WRing.at p N σ n).published.last) at ht
  generalize hq : (WRing.at p N σ n).published.last = q at *
  have stays : ∀ m, n ≤ m → ((WRing.at p N σ m).pc t).enq? = some (e, q) := by
    intro m hm
    induction m, hm using Nat.le_induction with
    | base => exact ht
    | succ m hm ih =>
      by_cases htu : ∃ i j ok, σ m = .next t i j ok
      · obtain ⟨i, j, ok, hsp⟩ := htu
        have := hcon' (m + 1) (by omega)
        rw [WRing.at, hsp] at this ⊢
        rcases wenq_step (p := p) hs.slots (sizedW_inv hs m) (hs.few m) t ih i j ok with ⟨h, _⟩ | ⟨_, _, h⟩
        · rw [h]; rfl
        · omega
      · have hb : (WRing.at p N σ m).pc t ≠ .idle := by intro h; rw [h] at ih; cases ih
        rw [WRing.at, wpc_stays _ t _ hb (fun i j ok h => htu ⟨i, j, ok, h⟩)]
        exact ih
  have hin : ∀ m, n ≤ m → ((WRing.at p N σ m).pc t).inside := by
    intro m hm
    have := stays m hm
    revert this
    cases (WRing.at p N σ m).pc t <;> intro h <;> trivial
  have hturn : ∀ k, n ≤ k → ∃ m, k ≤ m ∧ ∃ i j ok, σ m = .next t i j ok ∧ (WRing.at p N σ m).Possible N t i j ok := by
    intro k hk
    obtain ⟨m, hm, h⟩ := (hfair t).turns k
    exact ⟨m, hm, h.resolve_left (fun h => h (hin m (by omega)))⟩
  obtain ⟨m0, hm0, i0, j0, ok0, hsp0, _⟩ := hturn n (Nat.le_refl _)
  have written : ∀ m, m0 + 1 ≤ m → (WRing.at p N σ m).pc t = .enqWritten e q := by
    intro m hm
    have step : ∀ m, n ≤ m → ∀ i j ok, σ m = .next t i j ok → (WRing.at p N σ (m + 1)).pc t = .enqWritten e q := by
      intro m hm i j ok hsp
      have := hcon' (m + 1) (by omega)
      rw [WRing.at, hsp] at this ⊢
      rcases wenq_step (p := p) hs.slots (sizedW_inv hs m) (hs.few m) t (stays m hm) i j ok with ⟨h, _⟩ | ⟨_, _, h⟩
      · exact h
      · omega
    induction m, hm using Nat.le_induction with
    | base => exact step m0 hm0 i0 j0 ok0 hsp0
    | succ m hm ih =>
      by_cases htu : ∃ i j ok, σ m = .next t i j ok
      · obtain ⟨i, j, ok, hsp⟩ := htu
        exact step m (by omega) i j ok hsp
      · rw [WRing.at, wpc_stays _ t _ (by rw [ih]; simp) (fun i j ok h => htu ⟨i, j, ok, h⟩), ih]
  obtain ⟨m, hm, _, i, j, ok, hσ, hpos, hfr⟩ := (hfair t).fresh .publish (fun k => by
    obtain ⟨m, hm, h⟩ := hturn (max k (m0 + 1)) (by omega)
    exact ⟨m, by omega, by rw [written m (by omega)]; rfl, h⟩) (m0 + 1)
  have h1 := hcon' (m + 1) (by omega)
  have h2 := hcon' m (by omega)
  rw [WRing.at, hσ] at h1
  rcases wenq_step (p := p) hs.slots (sizedW_inv hs m) (hs.few m) t (stays m (by omega)) i j ok with ⟨_, h⟩ | ⟨_, _, h⟩
  · exact h (written m hm) hpos hfr h2
  · omega

/-- every reserved position gets published -/
theorem wpublished_passes (hs : SizedW p N σ) (hfair : ∀ t, KeepsRunningW p N σ t) (r : Nat) (n : Nat)
    (hr : r < (WRing.at p N σ n).log.length) : ∃ m, n ≤ m ∧ r < (WRing.at p N σ m).published.last := by
  have loglen : ∀ m, n ≤ m → (WRing.at p N σ n).log.length ≤ (WRing.at p N σ m).log.length := by
    intro m hm
    induction m, hm using Nat.le_induction with
    | base => exact Nat.le_refl _
    | succ m hm ih => exact Nat.le_trans ih (wact_log_prefix _ _).length_le
  have : ∀ q, q ≤ r + 1 → ∃ m, n ≤ m ∧ q ≤ (WRing.at p N σ m).published.last := by
    intro q
    induction q with
    | zero => intro _; exact ⟨n, Nat.le_refl _, Nat.zero_le _⟩
    | succ q ih =>
      intro hq
      obtain ⟨m, hm, h⟩ := ih (by omega)
      by_cases hle : q + 1 ≤ (WRing.at p N σ m).published.last
      · exact ⟨m, hm, hle⟩
      · have := loglen m hm
        obtain ⟨m', hm', h'⟩ := wpublished_advances hs hfair m (by omega)
        exact ⟨m', by omega, by omega⟩
  obtain ⟨m, hm, h⟩ := this (r + 1) (Nat.le_refl _)
  exact ⟨m, hm, by omega⟩

/-- an `enqueue` in flight returns -/
theorem wenq_returns (hs : SizedW p N σ) (hfair : ∀ t, KeepsRunningW p N σ t) (t : Fin T) (n : Nat) (e : α) (r : Nat)
    (hpc : ((WRing.at p N σ n).pc t).enq? = some (e, r)) :
    ∃ m, n < m ∧ (WRing.at p N σ m).pc t = .idle ∧ REv.enqDone e r ∈ (WRing.at p N σ m).events := by
  by_contra hcon
  have stays : ∀ m, n ≤ m → ((WRing.at p N σ m).pc t).enq? = some (e, r) := by
    intro m hm
    induction m, hm using Nat.le_induction with
    | base => exact hpc
    | succ m hm ih =>
      by_cases htu : ∃ i j ok, σ m = .next t i j ok
      · obtain ⟨i, j, ok, hsp⟩ := htu
        rcases wenq_step (p := p) hs.slots (sizedW_inv hs m) (hs.few m) t ih i j ok with ⟨h, _⟩ | ⟨h1, h2, _⟩
        · rw [WRing.at, hsp, h]; rfl
        · exact (hcon ⟨m + 1, by omega, by rw [WRing.at, hsp]; exact h1, by rw [WRing.at, hsp]; exact h2⟩).elim
      · have hb : (WRing.at p N σ m).pc t ≠ .idle := by intro h; rw [h] at ih; cases ih
        rw [WRing.at, wpc_stays _ t _ hb (fun i j ok h => htu ⟨i, j, ok, h⟩)]
        exact ih
  obtain ⟨_, h2⟩ := (sizedW_inv hs n).prod.hold t e r hpc
  obtain ⟨m, hm, hlt⟩ := wpublished_passes hs hfair r n (List.getElem?_eq_some_iff.1 h2).1
  have h3 := ((sizedW_inv hs m).prod.hold t e r (stays m hm)).1
  change (WRing.at p N σ m).published.last ≤ r at h3
  omega

/-- a step of a thread in `dequeue` -/
theorem wdeq_step {s : WRing α T} (hN : 0 < N) (h : WInv N s) (hlen : s.log.length < 2 ^ 32) (t : Fin T) {c : Nat}
    (hpc : (s.pc t).deqOf c) (i : Nat) (j : Nat → Nat) (ok : Bool) (s' : WRing α T) (hs' : s.act p N (.next t i j ok) = s') :
    (s'.pc t = .idle ∧ ∃ x, s'.events = s.events ++ [x] ∧ x.answersDequeue c) ∨
    (p = .checked ∧ ∃ q, s'.pc t = .panicked q) ∨
    (s'.pc t = s.pc t ∧ ¬ s.Possible N t i j ok) ∨
    (∃ hd, s.pc t = .deqHead c hd ∧ s.view t .published ≤ i ∧ i ≤ s.published.top ∧ i ≤ s'.view t .published ∧
      ((hd > i ∧ s'.pc t = .deqReload c) ∨ ∃ tl, s'.pc t = .deqTail c hd tl)) ∨
    (∃ l, s.pc t = .deqReload c ∧ s.heads[c]? = some l ∧ s'.pc t = .deqHead c (l.val i)) ∨
    (∃ hd tl l, s.pc t = .deqTail c hd tl ∧ ok = false ∧ s.heads[c]? = some l ∧ s.view t (.head c) ≤ i ∧ i ≤ l.top ∧
      i ≤ s'.view t (.head c) ∧ s'.pc t = .deqHead c (l.val i)) ∨
    (∃ hd tl l l', s.pc t = .deqTail c hd tl ∧ s.heads[c]? = some l ∧ s'.heads[c]? = some l' ∧ l.last < l'.last ∧ s'.pc t = .deqClaimed c hd tl) := by
  have hN' : N ≠ 0 := by omega
  have hme := h.cons.pcs t
  change (s.pc t).ok False s.newest at hme
  simp only [WRing.act] at hs'
  cases hp : s.pc t with
  | deqHead c' hd =>
    rw [hp] at hpc hs'
    obtain rfl : c' = c := hpc
    simp only [WRing.nextStep] at hs'
    by_cases hr : s.readable t .published s.published.top i = true
    · rw [if_pos hr] at hs'
      rw [readable_iff] at hr
      rw [h.pub i hr.2] at hs'
      by_cases h1 : hd > i
      · rw [if_pos h1] at hs'
        subst hs'
        refine Or.inr (Or.inr (Or.inr (Or.inl ⟨hd, rfl, hr.1, hr.2, ?_, Or.inl ⟨h1, by simp [WRing.setPc]⟩⟩)))
        show i ≤ (s.see t .published i).view t .published
        rw [wsee_view]; simp
      · rw [if_neg h1] at hs'
        by_cases h2 : hd = i
        · rw [if_pos h2] at hs'
          subst hs'
          exact Or.inl ⟨by simp [WRing.setPc, WRing.emit], .deqNone c', rfl, rfl⟩
        · rw [if_neg h2] at hs'
          subst hs'
          refine Or.inr (Or.inr (Or.inr (Or.inl ⟨hd, rfl, hr.1, hr.2, ?_, Or.inr ⟨i, by simp [WRing.setPc]⟩⟩)))
          show i ≤ (s.see t .published i).view t .published
          rw [wsee_view]; simp
    · rw [if_neg hr] at hs'
      subst hs'
      exact Or.inr (Or.inr (Or.inl ⟨hp, by unfold WRing.Possible; rw [hp]; exact hr⟩))
  | deqReload c' =>
    rw [hp] at hpc hs'
    obtain rfl : c' = c := hpc
    simp only [WRing.nextStep] at hs'
    cases hl : s.heads[c']? with
    | none =>
      rw [hl] at hs'
      subst hs'
      refine Or.inr (Or.inr (Or.inl ⟨hp, ?_⟩))
      unfold WRing.Possible; rw [hp]
      rintro ⟨l, h1, _⟩; rw [hl] at h1; cases h1
    | some l =>
      rw [hl] at hs'
      simp only at hs'
      by_cases hr : s.readable t (.head c') l.top i = true
      · rw [if_pos hr] at hs'
        subst hs'
        exact Or.inr (Or.inr (Or.inr (Or.inr (Or.inl ⟨l, rfl, rfl, by simp [WRing.setPc]⟩))))
      · rw [if_neg hr] at hs'
        subst hs'
        refine Or.inr (Or.inr (Or.inl ⟨hp, ?_⟩))
        unfold WRing.Possible; rw [hp]
        rintro ⟨l', h1, h2⟩
        rw [hl] at h1; cases h1; exact hr h2
  | deqTail c' hd tl =>
    rw [hp] at hpc hs' hme
    obtain rfl : c' = c := hpc
    obtain ⟨m0, m1, hh, m2, m3⟩ := hme
    have hpub : s.newest.ring.published ≤ s.log.length := h.prod.pub
    have h4 : hd + 1 < 2 ^ 32 := by omega
    simp only [WRing.nextStep, u32Add, h4, if_true] at hs'
    cases hl : s.heads[c']? with
    | none =>
      rw [hl] at hs'
      subst hs'
      refine Or.inr (Or.inr (Or.inl ⟨hp, ?_⟩))
      unfold WRing.Possible; rw [hp]
      rintro ⟨l, h1, _⟩; rw [hl] at h1; cases h1
    | some l =>
      rw [hl] at hs'
      simp only at hs'
      by_cases hok : ok = true
      · subst hok
        rw [if_pos rfl] at hs'
        by_cases he : l.last = hd
        · rw [if_pos he] at hs'
          subst hs'
          refine Or.inr (Or.inr (Or.inr (Or.inr (Or.inr (Or.inr ⟨hd, tl, l, l.push (hd + 1) (l.rel l.top), rfl, rfl, ?_, ?_, by simp [WRing.setPc, WRing.emit]⟩)))))
          · exact List.getElem?_set_self (List.getElem?_eq_some_iff.1 hl).1
          · rw [WCell.last_push]; omega
        · rw [if_neg he] at hs'
          subst hs'
          refine Or.inr (Or.inr (Or.inl ⟨hp, ?_⟩))
          unfold WRing.Possible; rw [hp]
          rintro ⟨l', h1, h2⟩
          rw [hl] at h1; cases h1
          rcases h2 with h2 | h2
          · exact he h2.2
          · cases h2.1
      · have hok' : ok = false := by simpa using hok
        subst hok'
        simp only [Bool.false_eq_true, if_false] at hs'
        by_cases hr : s.readable t (.head c') l.top i = true
        · rw [if_pos hr] at hs'
          rw [readable_iff] at hr
          subst hs'
          refine Or.inr (Or.inr (Or.inr (Or.inr (Or.inr (Or.inl ⟨hd, tl, l, rfl, rfl, rfl, hr.1, hr.2, ?_, by simp [WRing.setPc]⟩)))))
          show i ≤ (s.see t (.head c') i).view t (.head c')
          rw [wsee_view]; simp
        · rw [if_neg hr] at hs'
          subst hs'
          refine Or.inr (Or.inr (Or.inl ⟨hp, ?_⟩))
          unfold WRing.Possible; rw [hp]
          rintro ⟨l', h1, h2⟩
          rw [hl] at h1; cases h1
          rcases h2 with h2 | h2
          · cases h2.1
          · exact hr h2.2
  | deqClaimed c' hd tl =>
    rw [hp] at hpc hs'
    obtain rfl : c' = c := hpc
    simp only [WRing.nextStep, hN', if_false] at hs'
    by_cases hr : s.readable t .reserved s.reserved.top i = true
    · rw [if_pos hr] at hs'
      cases hsub : u32Sub p (s.reserved.val i) hd with
      | error q =>
        rw [hsub] at hs'
        subst hs'
        refine Or.inr (Or.inl ⟨?_, q, by simp [WRing.setPc]⟩)
        cases p with
        | checked => rfl
        | wrapping =>
          unfold u32Sub at hsub
          split at hsub <;> cases hsub
      | ok d =>
        rw [hsub] at hs'
        simp only at hs'
        by_cases h1 : d > N % 2 ^ 32
        · rw [if_pos h1] at hs'
          subst hs'
          exact Or.inl ⟨by simp [WRing.setPc, WRing.emit], .deqErr c' hd, rfl, rfl⟩
        · rw [if_neg h1] at hs'
          by_cases h2 : s.readable t (.slot (hd % N)) (s.slot (hd % N)).top (j (hd % N)) = true
          · rw [if_pos h2] at hs'
            subst hs'
            exact Or.inl ⟨by simp [WRing.setPc, WRing.emit], .deqSome c' hd _, rfl, rfl⟩
          · rw [if_neg h2] at hs'
            subst hs'
            exact Or.inr (Or.inr (Or.inl ⟨hp, by unfold WRing.Possible; rw [hp]; exact fun h => h2 h.2⟩))
    · rw [if_neg hr] at hs'
      subst hs'
      exact Or.inr (Or.inr (Or.inl ⟨hp, by unfold WRing.Possible; rw [hp]; exact fun h => hr h.1⟩))
  | _ => rw [hp] at hpc; exact hpc.elim

/-- a `dequeue` in flight ends, whatever the other threads do -/
theorem wdeq_ends (hs : SizedW p N σ) (t : Fin T) (hfair : KeepsRunningW p N σ t) (n c : Nat)
    (hpc : ((WRing.at p N σ n).pc t).deqOf c) (hex : ∃ l, (WRing.at p N σ n).heads[c]? = some l) :
    ∃ m, n ≤ m ∧ (((WRing.at p N σ (m + 1)).pc t = .idle ∧
      ∃ x, (WRing.at p N σ (m + 1)).events = (WRing.at p N σ m).events ++ [x] ∧ x.answersDequeue c) ∨
      (p = .checked ∧ ∃ q, (WRing.at p N σ (m + 1)).pc t = .panicked q)) := by
  by_contra hcon
  have busy : ∀ m, ((WRing.at p N σ m).pc t).deqOf c → (WRing.at p N σ m).pc t ≠ .idle := by
    intro m h h'; rw [h'] at h; exact h
  -- a turn of the thread
  have turn : ∀ m, n ≤ m → ((WRing.at p N σ m).pc t).deqOf c → ∀ i j ok, σ m = .next t i j ok →
      ((WRing.at p N σ (m + 1)).pc t = (WRing.at p N σ m).pc t ∧ ¬ (WRing.at p N σ m).Possible N t i j ok) ∨
      (∃ hd, (WRing.at p N σ m).pc t = .deqHead c hd ∧ (WRing.at p N σ m).view t .published ≤ i ∧ i ≤ (WRing.at p N σ m).published.top ∧
        i ≤ (WRing.at p N σ (m + 1)).view t .published ∧
        ((hd > i ∧ (WRing.at p N σ (m + 1)).pc t = .deqReload c) ∨ ∃ tl, (WRing.at p N σ (m + 1)).pc t = .deqTail c hd tl)) ∨
      (∃ l, (WRing.at p N σ m).pc t = .deqReload c ∧ (WRing.at p N σ m).heads[c]? = some l ∧ (WRing.at p N σ (m + 1)).pc t = .deqHead c (l.val i)) ∨
      (∃ hd tl l, (WRing.at p N σ m).pc t = .deqTail c hd tl ∧ ok = false ∧ (WRing.at p N σ m).heads[c]? = some l ∧
        (WRing.at p N σ m).view t (.head c) ≤ i ∧ i ≤ l.top ∧
        i ≤ (WRing.at p N σ (m + 1)).view t (.head c) ∧ (WRing.at p N σ (m + 1)).pc t = .deqHead c (l.val i)) ∨
      (∃ hd tl l l', (WRing.at p N σ m).pc t = .deqTail c hd tl ∧ (WRing.at p N σ m).heads[c]? = some l ∧
        (WRing.at p N σ (m + 1)).heads[c]? = some l' ∧ l.last < l'.last ∧ (WRing.at p N σ (m + 1)).pc t = .deqClaimed c hd tl) := by
    intro m hm hd i j ok hσ
    rcases wdeq_step (p := p) hs.slots (sizedW_inv hs m) (hs.few m) t hd i j ok (WRing.at p N σ (m + 1)) (by rw [WRing.at, hσ]) with h | h | h
    · exact (hcon ⟨m, hm, Or.inl h⟩).elim
    · exact (hcon ⟨m, hm, Or.inr h⟩).elim
    · exact h
  have other : ∀ m, ((WRing.at p N σ m).pc t).deqOf c → (¬ ∃ i j ok, σ m = .next t i j ok) →
      (WRing.at p N σ (m + 1)).pc t = (WRing.at p N σ m).pc t := by
    intro m hd hno
    rw [WRing.at, wpc_stays _ t _ (busy m hd) (fun i j ok h => hno ⟨i, j, ok, h⟩)]
  have stays : ∀ m, n ≤ m → ((WRing.at p N σ m).pc t).deqOf c := by
    intro m hm
    induction m, hm using Nat.le_induction with
    | base => exact hpc
    | succ m hm ih =>
      by_cases htu : ∃ i j ok, σ m = .next t i j ok
      · obtain ⟨i, j, ok, hsp⟩ := htu
        rcases turn m hm ih i j ok hsp with ⟨h, _⟩ | ⟨hd, _, _, _, _, ⟨_, h⟩ | ⟨tl, h⟩⟩ | ⟨l, _, _, h⟩ | ⟨hd, tl, l, _, _, _, _, _, _, h⟩ | ⟨hd, tl, l, l', _, _, _, _, h⟩
        · rw [h]; exact ih
        all_goals rw [h]; rfl
      · rw [other m ih htu]; exact ih
  -- the head and `published_tail` settle
  obtain ⟨l0, hl0⟩ := hex
  have hsome : ∀ m, n ≤ m → ∃ l, (WRing.at p N σ m).heads[c]? = some l := by
    intro m hm
    obtain ⟨l, h, _⟩ := (wat_frame hs hm).heads c l0 hl0
    exact ⟨l, h⟩
  have hlast : ∀ m, n ≤ m → ∀ l, (WRing.at p N σ m).heads[c]? = some l → l.last ≤ (WRing.at p N σ m).published.top := by
    intro m hm l hl
    have h1 := (sizedW_inv hs m).cons.headLe c _ (head_some hl)
    rw [← (sizedW_inv hs m).pub _ (Nat.le_refl _)]; exact h1
  have hbound : ∀ m, (WRing.at p N σ m).published.top ≤ 2 ^ 32 := by
    intro m
    rw [← (sizedW_inv hs m).pub _ (Nat.le_refl _)]
    have h2 : (WRing.at p N σ m).published.last ≤ (WRing.at p N σ m).log.length := (sizedW_inv hs m).prod.pub
    have h3 := hs.few m
    show (WRing.at p N σ m).published.last ≤ 2 ^ 32
    omega
  obtain ⟨n1, hn1, hpub⟩ := eventually_constant (fun m => (WRing.at p N σ m).published.top) (2 ^ 32) n
    (fun a b _ hab => (wat_frame hs hab).pub) (fun a _ => hbound a)
  obtain ⟨n2, hn2, hhd⟩ := eventually_constant (fun m => (((WRing.at p N σ m).heads[c]?).map WCell.last).getD 0) (2 ^ 32) n1
    (by
      intro a b ha hab
      obtain ⟨l, hl⟩ := hsome a (by omega)
      obtain ⟨l', hl', hle, _⟩ := (wat_frame hs hab).heads c l hl
      simp only [hl, hl', Option.map_some, Option.getD_some]
      exact hle)
    (by
      intro a ha
      obtain ⟨l, hl⟩ := hsome a (by omega)
      simp only [hl, Option.map_some, Option.getD_some]
      exact Nat.le_trans (hlast a (by omega) l hl) (hbound a))
  obtain ⟨L, hL⟩ := hsome n2 (by omega)
  have hcell : ∀ m, n2 ≤ m → (WRing.at p N σ m).heads[c]? = some L := by
    intro m hm
    obtain ⟨l', hl', _, hk⟩ := (wat_frame hs hm).heads c L hL
    have := hhd m hm
    simp only [hL, hl', Option.map_some, Option.getD_some] at this
    rw [hl', (hk this).1]
  have hview : ∀ m k, n2 ≤ m → m ≤ k → (WRing.at p N σ m).view t (.head c) ≤ (WRing.at p N σ k).view t (.head c) := by
    intro m k hm hk
    obtain ⟨l', hl', _, hkk⟩ := (wat_frame hs hk).heads c L (hcell m hm)
    rw [hcell k (by omega)] at hl'
    obtain rfl := Option.some.inj hl'
    exact (hkk rfl).2 t
  have hpub' : ∀ m, n2 ≤ m → (WRing.at p N σ m).published.top = (WRing.at p N σ n2).published.top := by
    intro m hm
    exact (hpub m (by omega)).trans (hpub n2 (by omega)).symm
  generalize hP : (WRing.at p N σ n2).published.top = P at hpub'
  have hpview : ∀ m k, n2 ≤ m → m ≤ k → (WRing.at p N σ m).view t .published ≤ (WRing.at p N σ k).view t .published := by
    intro m k hm hk
    exact (wat_frame hs hk).pubView (by rw [hpub' m hm, hpub' k (by omega)]) t
  have noclaim : ∀ m, n2 ≤ m → ∀ l l', (WRing.at p N σ m).heads[c]? = some l → (WRing.at p N σ (m + 1)).heads[c]? = some l' →
      ¬ l.last < l'.last := by
    intro m hm l l' h1 h2
    rw [hcell m hm] at h1
    rw [hcell (m + 1) (by omega)] at h2
    cases h1; cases h2; exact Nat.lt_irrefl _
  -- turns again and again
  have hturn : ∀ k, n ≤ k → ∃ m, k ≤ m ∧ ∃ i j ok, σ m = .next t i j ok ∧ (WRing.at p N σ m).Possible N t i j ok := by
    intro k hk
    obtain ⟨m, hm, h⟩ := hfair.turns k
    refine ⟨m, hm, h.resolve_left (fun h => h ?_)⟩
    have := stays m (by omega)
    revert this
    cases (WRing.at p N σ m).pc t <;> intro h <;> trivial
  -- until it gets one the thread is where it was
  have first : ∀ k, n ≤ k → ∃ m, k ≤ m ∧ (∃ i j ok, σ m = .next t i j ok ∧ (WRing.at p N σ m).Possible N t i j ok) ∧
      (WRing.at p N σ m).pc t = (WRing.at p N σ k).pc t := by
    intro k hk
    classical
    have hex := hturn k hk
    have hm := Nat.find_spec hex
    refine ⟨Nat.find hex, hm.1, hm.2, ?_⟩
    have : ∀ m, k ≤ m → m ≤ Nat.find hex → (WRing.at p N σ m).pc t = (WRing.at p N σ k).pc t := by
      intro m hkm
      induction m, hkm using Nat.le_induction with
      | base => intro _; rfl
      | succ m hkm ih =>
        intro hle
        rw [← ih (by omega)]
        by_cases htu : ∃ i j ok, σ m = .next t i j ok
        · obtain ⟨i, j, ok, hsp⟩ := htu
          have hnp : ¬ (WRing.at p N σ m).Possible N t i j ok := fun h => Nat.find_min hex (show m < _ by omega) ⟨hkm, i, j, ok, hsp, h⟩
          rcases wdeq_step (p := p) hs.slots (sizedW_inv hs m) (hs.few m) t (stays m (by omega)) i j ok (WRing.at p N σ (m + 1)) (by rw [WRing.at, hsp]) with
            h | h | ⟨h, _⟩ | ⟨hd, e1, e2, e3, _⟩ | ⟨l, e1, e2, e3⟩ | ⟨hd, tl, l, e1, e2, e3, e4, e5, _⟩ | ⟨hd, tl, l, l', e1, e2, e3, e4, e5⟩
          · exact (hcon ⟨m, by omega, Or.inl h⟩).elim
          · exact (hcon ⟨m, by omega, Or.inr h⟩).elim
          · exact h
          · exfalso; apply hnp; unfold WRing.Possible; rw [e1]; exact (readable_iff ..).2 ⟨e2, e3⟩
          · -- a step from `deqReload` was possible
            by_contra hne
            apply hnp
            unfold WRing.Possible; rw [e1]
            refine ⟨l, e2, ?_⟩
            by_contra hr
            apply hne
            have : WRing.at p N σ (m + 1) = WRing.at p N σ m := by
              rw [WRing.at, hsp]
              simp only [WRing.act, e1, WRing.nextStep, e2]
              rw [if_neg hr]
            rw [this]
          · exfalso; apply hnp; unfold WRing.Possible; rw [e1]; exact ⟨l, e3, Or.inr ⟨e2, (readable_iff ..).2 ⟨e4, e5⟩⟩⟩
          · by_contra hne
            apply hnp
            unfold WRing.Possible; rw [e1]
            refine ⟨l, e2, ?_⟩
            by_contra hr
            rw [not_or] at hr
            apply hne
            by_cases hok : ok = true
            · have hl : ¬ l.last = hd := fun h => hr.1 ⟨hok, h⟩
              exfalso
              have hc := (sizedW_inv hs m).cons.pcs t
              have e6 : WRing.at p N σ (m + 1) = WRing.at p N σ m ∨ ∃ q, (WRing.at p N σ (m + 1)).pc t = .panicked q := by
                rw [WRing.at, hsp]
                simp only [WRing.act, e1, WRing.nextStep, e2]
                split
                · exact Or.inr ⟨_, by simp [WRing.setPc]; rfl⟩
                · left; rw [if_pos hok, if_neg hl]
              rcases e6 with e6 | ⟨q, e6⟩
              · rw [e6, e1] at e5; cases e5
              · rw [e6] at e5; cases e5
            · exfalso
              have hok' : ok = false := by simpa using hok
              have hrr : ¬ (WRing.at p N σ m).readable t (.head c) l.top i = true := fun h => hr.2 ⟨hok', h⟩
              have e6 : WRing.at p N σ (m + 1) = WRing.at p N σ m ∨ ∃ q, (WRing.at p N σ (m + 1)).pc t = .panicked q := by
                rw [WRing.at, hsp]
                simp only [WRing.act, e1, WRing.nextStep, e2]
                split
                · exact Or.inr ⟨_, by simp [WRing.setPc]; rfl⟩
                · left; rw [if_neg hok, if_neg hrr]
              rcases e6 with e6 | ⟨q, e6⟩
              · rw [e6, e1] at e5; cases e5
              · rw [e6] at e5; cases e5
        · exact other m (stays m (by omega)) htu
    exact this _ hm.1 (Nat.le_refl _)
  -- it loads `published_tail` again and again
  have loads : ∀ k, n2 ≤ k → ∃ m, k ≤ m ∧ ((WRing.at p N σ m).pc t).access = some .tail ∧
      ∃ i j ok, σ m = .next t i j ok ∧ (WRing.at p N σ m).Possible N t i j ok := by
    intro k hk
    obtain ⟨m, hm, i, j, ok, hσ, hpos⟩ := hturn k (by omega)
    have again : ∀ h, (WRing.at p N σ (m + 1)).pc t = .deqHead c h → ∃ m, k ≤ m ∧ ((WRing.at p N σ m).pc t).access = some .tail ∧
        ∃ i j ok, σ m = .next t i j ok ∧ (WRing.at p N σ m).Possible N t i j ok := by
      intro h hh
      obtain ⟨m', hm', hb, he⟩ := first (m + 1) (by omega)
      exact ⟨m', by omega, by rw [he, hh]; rfl, hb⟩
    rcases turn m (by omega) (stays m (by omega)) i j ok hσ with ⟨_, h⟩ | ⟨hd, h, _⟩ | ⟨l, _, _, h⟩ | ⟨hd, tl, l, _, _, _, _, _, _, h⟩ | ⟨hd, tl, l, l', _, h1, h2, h3, _⟩
    · exact (h hpos).elim
    · exact ⟨m, hm, by rw [h]; rfl, i, j, ok, hσ, hpos⟩
    · exact again _ h
    · exact again _ h
    · exact (noclaim m (by omega) l l' h1 h2 h3).elim
  obtain ⟨m1, hm1, hac1, i1, j1, ok1, hσ1, hpos1, hfr1⟩ := hfair.fresh .tail (fun k => by
    obtain ⟨m, hm, h⟩ := loads (max k n2) (by omega)
    exact ⟨m, by omega, h⟩) n2
  -- after a fresh one it never has to wait
  have hv1 : P ≤ (WRing.at p N σ (m1 + 1)).view t .published ∧ ∃ hd tl, (WRing.at p N σ (m1 + 1)).pc t = .deqTail c hd tl := by
    rcases turn m1 (by omega) (stays m1 (by omega)) i1 j1 ok1 hσ1 with ⟨_, h⟩ | ⟨hd, h, h2, h3, h4, h5⟩ | ⟨l, h, _, _⟩ | ⟨hd, tl, l, h, _⟩ | ⟨hd, tl, l, l', h, _⟩
    · exact (h hpos1).elim
    · unfold WRing.Fresh at hfr1
      rw [h] at hfr1
      simp only at hfr1
      rw [hpub' m1 hm1] at hfr1
      refine ⟨by omega, ?_⟩
      rcases h5 with ⟨h5, _⟩ | ⟨tl, h5⟩
      · exfalso
        have hme := (sizedW_inv hs m1).cons.pcs t
        change ((WRing.at p N σ m1).pc t).ok False _ at hme
        rw [h] at hme
        obtain ⟨hh, a1, a2⟩ := hme
        have a3 := (sizedW_inv hs m1).cons.headLe c hh a1
        change hh ≤ (WRing.at p N σ m1).published.last at a3
        have a4 : (WRing.at p N σ m1).published.last = P := ((sizedW_inv hs m1).pub _ (Nat.le_refl _)).trans (hpub' m1 hm1)
        omega
      · exact ⟨hd, tl, h5⟩
    all_goals rw [h] at hac1; cases hac1
  have phase : ∀ m, m1 + 1 ≤ m → (∃ hd, (WRing.at p N σ m).pc t = .deqHead c hd) ∨ ∃ hd tl, (WRing.at p N σ m).pc t = .deqTail c hd tl := by
    intro m hm
    induction m, hm using Nat.le_induction with
    | base => exact Or.inr hv1.2
    | succ m hm ih =>
      by_cases htu : ∃ i j ok, σ m = .next t i j ok
      · obtain ⟨i, j, ok, hsp⟩ := htu
        rcases turn m (by omega) (stays m (by omega)) i j ok hsp with ⟨h, _⟩ | ⟨hd, h, h2, h3, h4, h5⟩ | ⟨l, h, _, _⟩ | ⟨hd, tl, l, _, _, _, _, _, _, h⟩ | ⟨hd, tl, l, l', _, h1, h2, h3, _⟩
        · rw [h]; exact ih
        · rcases h5 with ⟨h5, _⟩ | ⟨tl, h5⟩
          · exfalso
            have hme := (sizedW_inv hs m).cons.pcs t
            change ((WRing.at p N σ m).pc t).ok False _ at hme
            rw [h] at hme
            obtain ⟨hh, a1, a2⟩ := hme
            have a3 := (sizedW_inv hs m).cons.headLe c hh a1
            change hh ≤ (WRing.at p N σ m).published.last at a3
            have a4 : (WRing.at p N σ m).published.last = P := ((sizedW_inv hs m).pub _ (Nat.le_refl _)).trans (hpub' m (by omega))
            have a5 := hpview (m1 + 1) m (by omega) hm
            have a6 := hv1.1
            omega
          · exact Or.inr ⟨hd, tl, h5⟩
        · rcases ih with ⟨hd, ih⟩ | ⟨hd, tl, ih⟩ <;> rw [ih] at h <;> cases h
        · exact Or.inl ⟨_, h⟩
        · exact (noclaim m (by omega) l l' h1 h2 h3).elim
      · rw [other m (stays m (by omega)) htu]; exact ih
  -- so it attempts to claim again and again
  have claims : ∀ k, m1 + 1 ≤ k → ∃ m, k ≤ m ∧ ((WRing.at p N σ m).pc t).access = some .claim ∧
      ∃ i j ok, σ m = .next t i j ok ∧ (WRing.at p N σ m).Possible N t i j ok := by
    intro k hk
    obtain ⟨m, hm, i, j, ok, hσ, hpos⟩ := hturn k (by omega)
    rcases phase m (by omega) with ⟨hd, hh⟩ | ⟨hd, tl, hh⟩
    · rcases phase (m + 1) (by omega) with ⟨hd', hh'⟩ | ⟨hd', tl', hh'⟩
      · exfalso
        rcases turn m (by omega) (stays m (by omega)) i j ok hσ with ⟨_, h⟩ | ⟨_, _, _, _, _, ⟨_, h⟩ | ⟨tl, h⟩⟩ | ⟨l, h, _, _⟩ | ⟨_, _, _, h, _⟩ | ⟨_, _, _, _, h, _⟩
        · exact h hpos
        · rw [hh'] at h; cases h
        · rw [hh'] at h; cases h
        all_goals rw [hh] at h; cases h
      · obtain ⟨m', hm', hb, he⟩ := first (m + 1) (by omega)
        exact ⟨m', by omega, by rw [he, hh']; rfl, hb⟩
    · exact ⟨m, hm, by rw [hh]; rfl, i, j, ok, hσ, hpos⟩
  have hclaims := hfair.fresh .claim (fun k => by
    obtain ⟨m, hm, h⟩ := claims (max k (m1 + 1)) (by omega)
    exact ⟨m, by omega, h⟩)
  -- a fresh attempt fails only against a newer head
  have attempt : ∀ m, m1 + 1 ≤ m → ∀ i j ok, ((WRing.at p N σ m).pc t).access = some .claim → σ m = .next t i j ok →
      (WRing.at p N σ m).Possible N t i j ok → (WRing.at p N σ m).Fresh t i ok →
      ∃ hd tl, (WRing.at p N σ m).pc t = .deqTail c hd tl ∧ L.last ≠ hd ∧ (WRing.at p N σ (m + 1)).pc t = .deqHead c L.last ∧
        L.top ≤ (WRing.at p N σ (m + 1)).view t (.head c) := by
    intro m hm i j ok hac hσ hpos hfr
    rcases turn m (by omega) (stays m (by omega)) i j ok hσ with ⟨_, h⟩ | ⟨hd, h, _⟩ | ⟨l, h, _, _⟩ | ⟨hd, tl, l, h, h2, h3, h4, h5, h6, h7⟩ | ⟨hd, tl, l, l', _, h1, h2, h3, _⟩
    · exact (h hpos).elim
    · rw [h] at hac; cases hac
    · rw [h] at hac; cases hac
    · unfold WRing.Fresh at hfr
      rw [h] at hfr
      rw [hcell m (by omega)] at h3
      obtain rfl := Option.some.inj h3
      rcases hfr with hfr | ⟨l', e1, e2, e3⟩
      · rw [h2] at hfr; cases hfr
      · rw [hcell m (by omega)] at e1
        obtain rfl := Option.some.inj e1
        subst e2
        exact ⟨hd, tl, h, e3, h7, h6⟩
    · exact (noclaim m (by omega) l l' h1 h2 h3).elim
  obtain ⟨m2, hm2, hac2, i2, j2, ok2, hσ2, hpos2, hfr2⟩ := hclaims (m1 + 1)
  obtain ⟨_, _, _, _, hh2, hv2⟩ := attempt m2 hm2 i2 j2 ok2 hac2 hσ2 hpos2 hfr2
  -- and from then on it knows the newest one
  have known : ∀ m, m2 + 1 ≤ m → (WRing.at p N σ m).pc t = .deqHead c L.last ∨ ∃ tl, (WRing.at p N σ m).pc t = .deqTail c L.last tl := by
    intro m hm
    induction m, hm using Nat.le_induction with
    | base => exact Or.inl hh2
    | succ m hm ih =>
      by_cases htu : ∃ i j ok, σ m = .next t i j ok
      · obtain ⟨i, j, ok, hsp⟩ := htu
        rcases turn m (by omega) (stays m (by omega)) i j ok hsp with ⟨h, _⟩ | ⟨hd, h, _, _, _, h5⟩ | ⟨l, h, _, _⟩ | ⟨hd, tl, l, h, _, h3, h4, h5, h6, h7⟩ | ⟨hd, tl, l, l', _, h1, h2, h3, _⟩
        · rw [h]; exact ih
        · have hhd : hd = L.last := by
            rcases ih with ih | ⟨tl, ih⟩ <;> rw [ih] at h
            · exact (RPc.deqHead.inj h).2.symm
            · cases h
          subst hhd
          rcases h5 with ⟨_, h5⟩ | ⟨tl, h5⟩
          · rcases phase (m + 1) (by omega) with ⟨_, h6⟩ | ⟨_, _, h6⟩ <;> rw [h6] at h5 <;> cases h5
          · exact Or.inr ⟨tl, h5⟩
        · rcases phase m (by omega) with ⟨_, h6⟩ | ⟨_, _, h6⟩ <;> rw [h6] at h <;> cases h
        · rw [hcell m (by omega)] at h3
          obtain rfl := Option.some.inj h3
          have h8 := hview (m2 + 1) m (by omega) hm
          have h9 : i = L.top := by omega
          subst h9
          exact Or.inl h7
        · exact (noclaim m (by omega) l l' h1 h2 h3).elim
      · rw [other m (stays m (by omega)) htu]; exact ih
  obtain ⟨m3, hm3, hac3, i3, j3, ok3, hσ3, hpos3, hfr3⟩ := hclaims (m2 + 1)
  obtain ⟨hd, tl, h1, h2, _⟩ := attempt m3 (by omega) i3 j3 ok3 hac3 hσ3 hpos3 hfr3
  rcases known m3 hm3 with h | ⟨tl', h⟩ <;> rw [h] at h1
  · cases h1
  · exact h2 (RPc.deqTail.inj h1).2.1

/-- a `peek_all` in flight ends at its next turn -/
theorem wpeek_step {s : WRing α T} (t : Fin T) {c h : Nat} (hpc : s.pc t = .peekHead c h) (i : Nat) (j : Nat → Nat) (ok : Bool)
    (hpos : s.Possible N t i j ok) :
    ((s.act p N (.next t i j ok)).pc t = .idle ∧
      ∃ x, (s.act p N (.next t i j ok)).events = s.events ++ [x] ∧ x.answersPeek c) ∨
    ∃ q, (s.act p N (.next t i j ok)).pc t = .panicked q := by
  unfold WRing.Possible at hpos
  rw [hpc] at hpos
  have hall : ((List.range N).all fun k => s.readable t (.slot k) (s.slot k).top (j k)) = true := by
    rw [List.all_eq_true]
    intro k hk
    exact hpos.2 k (List.mem_range.1 hk)
  simp only [WRing.act, hpc, WRing.nextStep, hpos.1, hall, Bool.and_self, if_true]
  cases he : peekEvent p N (s.seen i j) c h with
  | error q => exact Or.inr ⟨q, by simp [WRing.setPc]⟩
  | ok e =>
    refine Or.inl ⟨by simp [WRing.setPc, WRing.emit], e, rfl, ?_⟩
    unfold peekEvent at he
    split at he <;> cases he <;> rfl

end BigO
