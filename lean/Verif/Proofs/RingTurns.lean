import Verif.Proofs.RingWeak

/-! # Threads taking turns see sequentially consistent memory -/
set_option linter.unusedSimpArgs false
set_option linter.unusedVariables false
namespace BigO

variable {α : Type} {T : Nat}

theorem peekEvent_congr (p : Profile) (N : Nat) (r r' : Ring α) (c h : Nat) (h1 : r.published = r'.published)
    (h2 : ∀ k, k < N → r.slot k = r'.slot k) : peekEvent p N r c h = peekEvent p N r' c h := by
  have hs : ∀ a b, b ≤ N → r.slice a b = r'.slice a b := by
    intro a b hb
    simp only [Ring.slice]
    apply List.map_congr_left
    intro k hk
    rw [List.mem_range'_1] at hk
    exact h2 k (by omega)
  simp only [peekEvent, Ring.peekAll]
  by_cases hN : N = 0
  · simp [hN]
  · have hl : r'.published % N ≤ N := Nat.le_of_lt (Nat.mod_lt _ (Nat.pos_of_ne_zero hN))
    rw [h1, hs _ _ hl, hs _ N (Nat.le_refl _), hs 0 _ hl]

section
variable {s : WRing α T} {t : Fin T}

theorem utd_read {l : WLoc} {top i : Nat} (hu : top ≤ s.view t l) (hr : s.readable t l top i = true) : i = top := by
  rw [readable_iff] at hr; omega

theorem utd_see_self {l : WLoc} {i : Nat} : (s.see t l i).view t l = i := by simp [WRing.see, View.set]

theorem utd_see_ne {l l' : WLoc} {i : Nat} (h : l' ≠ l) : (s.see t l i).view t l' = s.view t l' := by
  simp [WRing.see, View.set, h]

/-- reading the newest position of a location keeps a thread up to date -/
theorem utd_see (h : s.UpToDate t) (l : WLoc) (i : Nat) (hi : s.view t l ≤ i) : (s.see t l i).UpToDate t := by
  have key : ∀ l', s.view t l' ≤ (s.see t l i).view t l' := by
    intro l'
    by_cases e : l' = l
    · subst e; rw [utd_see_self]; exact hi
    · rw [utd_see_ne e]
  exact ⟨Nat.le_trans h.reserved (key _), Nat.le_trans h.published (key _),
    fun c l' hl => Nat.le_trans (h.heads c l' hl) (key _), fun k => Nat.le_trans (h.slots k) (key _)⟩

theorem utd_learn (h : s.UpToDate t) (v : View) : (s.learn t v).UpToDate t := by
  have key : ∀ l', s.view t l' ≤ (s.learn t v).view t l' := by
    intro l'; simp only [WRing.learn, View.join, if_true]; exact Nat.le_max_left _ _
  exact ⟨Nat.le_trans h.reserved (key _), Nat.le_trans h.published (key _),
    fun c l' hl => Nat.le_trans (h.heads c l' hl) (key _), fun k => Nat.le_trans (h.slots k) (key _)⟩

/-- a thread that synchronises with an up to date one is up to date -/
theorem utd_sync {u : Fin T} (h : s.UpToDate u) : (s.learn t (s.view u)).UpToDate t := by
  have key : ∀ l', s.view u l' ≤ (s.learn t (s.view u)).view t l' := by
    intro l'; simp only [WRing.learn, View.join, if_true]; exact Nat.le_max_right _ _
  exact ⟨Nat.le_trans h.reserved (key _), Nat.le_trans h.published (key _),
    fun c l' hl => Nat.le_trans (h.heads c l' hl) (key _), fun k => Nat.le_trans (h.slots k) (key _)⟩

theorem utd_pc (h : s.UpToDate t) (u : Fin T) (x : RPc α) : (s.setPc u x).UpToDate t := ⟨h.reserved, h.published, h.heads, h.slots⟩
theorem utd_emit (h : s.UpToDate t) (e : REv α) : (s.emit e).UpToDate t := ⟨h.reserved, h.published, h.heads, h.slots⟩

theorem utd_reserve (h : s.UpToDate t) (e : α) : (s.reserve t e).UpToDate t :=
  ⟨Nat.le_of_eq utd_see_self.symm, by
      refine Nat.le_trans h.published (Nat.le_of_eq ?_); exact (utd_see_ne (by simp)).symm,
    fun c l hl => Nat.le_trans (h.heads c l hl) (Nat.le_of_eq (utd_see_ne (by simp)).symm),
    fun k => Nat.le_trans (h.slots k) (Nat.le_of_eq (utd_see_ne (by simp)).symm)⟩

theorem utd_publish (h : s.UpToDate t) (v : Nat) : (s.publish t v).UpToDate t :=
  ⟨Nat.le_trans h.reserved (Nat.le_of_eq (utd_see_ne (by simp)).symm), Nat.le_of_eq utd_see_self.symm,
    fun c l hl => Nat.le_trans (h.heads c l hl) (Nat.le_of_eq (utd_see_ne (by simp)).symm),
    fun k => Nat.le_trans (h.slots k) (Nat.le_of_eq (utd_see_ne (by simp)).symm)⟩

theorem utd_store (h : s.UpToDate t) (k : Nat) (e : α) : (s.store t k e).UpToDate t := by
  refine ⟨Nat.le_trans h.reserved (Nat.le_of_eq (utd_see_ne (by simp)).symm),
    Nat.le_trans h.published (Nat.le_of_eq (utd_see_ne (by simp)).symm),
    fun c l hl => Nat.le_trans (h.heads c l hl) (Nat.le_of_eq (utd_see_ne (by simp)).symm), ?_⟩
  intro x
  by_cases hx : x = k
  · subst hx
    refine Nat.le_of_eq ?_
    simp [WRing.store, WRing.see, View.set, WCell.push]
  · have : ((s.store t k e).slot x).top = (s.slot x).top := by simp [WRing.store, WRing.see, hx]
    rw [this]
    exact Nat.le_trans (h.slots x) (Nat.le_of_eq (utd_see_ne (by simp [hx])).symm)

theorem store_raced (h : s.UpToDate t) (k : Nat) (e : α) : (s.store t k e).raced = s.raced := by
  have := h.slots k
  simp [WRing.store, WRing.see]; omega

theorem utd_claim (h : s.UpToDate t) {c : Nat} {l : WCell Nat} (hc : s.heads[c]? = some l) (v : Nat) : (s.claim t c l v).UpToDate t := by
  unfold WRing.claim
  apply utd_learn
  refine ⟨Nat.le_trans h.reserved (Nat.le_of_eq (utd_see_ne (by simp)).symm),
    Nat.le_trans h.published (Nat.le_of_eq (utd_see_ne (by simp)).symm), ?_,
    fun k => Nat.le_trans (h.slots k) (Nat.le_of_eq (utd_see_ne (by simp)).symm)⟩
  intro c' l' hl'
  change (s.heads.set c (l.push v (l.rel l.top)))[c']? = some l' at hl'
  by_cases hcc : c' = c
  · subst hcc
    rw [List.getElem?_set_self (List.getElem?_eq_some_iff.1 hc).1] at hl'
    obtain rfl := Option.some.inj hl'
    exact Nat.le_of_eq utd_see_self.symm
  · rw [List.getElem?_set_ne (fun h => hcc h.symm)] at hl'
    exact Nat.le_trans (h.heads c' l' hl') (Nat.le_of_eq (utd_see_ne (by simp [hcc])).symm)

theorem utd_addConsumer (h : s.UpToDate t) (i : Nat) (hi : s.view t .published ≤ i) : (s.addConsumer t i).UpToDate t := by
  refine ⟨Nat.le_trans h.reserved (Nat.le_of_eq (utd_see_ne (by simp)).symm),
    Nat.le_trans (Nat.le_trans h.published hi) (Nat.le_of_eq utd_see_self.symm), ?_,
    fun k => Nat.le_trans (h.slots k) (Nat.le_of_eq (utd_see_ne (by simp)).symm)⟩
  intro c l hl
  change (s.heads ++ [WCell.new (s.published.val i)])[c]? = some l at hl
  rcases Nat.lt_or_ge c s.heads.length with g | g
  · rw [List.getElem?_append_left g] at hl
    exact Nat.le_trans (h.heads c l hl) (Nat.le_of_eq (utd_see_ne (by simp)).symm)
  · rw [List.getElem?_append_right g] at hl
    obtain ⟨hlt, hl⟩ := List.getElem?_eq_some_iff.1 hl
    simp at hl
    subst hl
    exact Nat.zero_le _

theorem utd_fetch (h : s.UpToDate t) (k i : Nat) (hi : s.view t (.slot k) ≤ i) : (s.fetch t k i).UpToDate t := by
  have := utd_see h (.slot k) i hi
  exact ⟨this.reserved, this.published, this.heads, this.slots⟩

theorem fetch_raced (h : s.UpToDate t) (k i : Nat) : (s.fetch t k i).raced = s.raced := by
  have := h.slots k
  simp [WRing.fetch, WRing.see]; omega

end

/-- an action of an up to date thread: it stays up to date, makes no data race, and on the newest values does nothing or what the
sequentially consistent model does -/
theorem turn_step (p : Profile) (N : Nat) {s : WRing α T} (a : WAct α T) (h : s.UpToDate a.tid)
    (ha : ∀ t u, a ≠ .sync t u) :
    (s.act p N a).UpToDate a.tid ∧ (s.act p N a).raced = s.raced ∧
    ((s.act p N a).newest = s.newest ∨ ∃ b, (s.act p N a).newest = s.newest.act p N b) := by
  have same : s.UpToDate a.tid ∧ s.raced = s.raced ∧ (s.newest = s.newest ∨ ∃ b, s.newest = s.newest.act p N b) :=
    ⟨h, rfl, Or.inl rfl⟩
  cases a with
  | sync t u => exact (ha t u rfl).elim
  | enqueue t e =>
    change s.UpToDate t at h
    simp only [WRing.act, WAct.tid]
    cases hpc : s.pc t with
    | idle =>
      refine ⟨utd_pc (utd_reserve h e) _ _, rfl, Or.inr ⟨.enqueue t e, ?_⟩⟩
      have hpc' : s.newest.pc t = .idle := hpc
      simp only [RState.act, hpc']
      show ((s.reserve t e).newest).setPc t _ = _
      rw [newest_reserve]; rfl
    | _ => exact same
  | consumer t i =>
    change s.UpToDate t at h
    simp only [WRing.act, WAct.tid]
    cases hpc : s.pc t with
    | idle =>
      simp only
      split
      · rename_i hr
        have hi := utd_read h.published hr
        refine ⟨utd_addConsumer h i ((readable_iff ..).1 hr).1, rfl, Or.inr ⟨.consumer t, ?_⟩⟩
        have hpc' : s.newest.pc t = .idle := hpc
        simp only [RState.act, hpc', newest_addConsumer]
        rw [hi]; rfl
      · exact same
    | _ => exact same
  | dequeue t c i =>
    change s.UpToDate t at h
    simp only [WRing.act, WAct.tid]
    split
    · rename_i l v hpc hc hb
      split
      · rename_i hr
        have h' := utd_learn h v
        have hi := utd_read (h'.heads c l hc) hr
        refine ⟨utd_pc (utd_see h' _ i ((readable_iff ..).1 hr).1) _ _, rfl, Or.inr ⟨.dequeue t c, ?_⟩⟩
        have hpc' : s.newest.pc t = .idle := hpc
        simp only [RState.act, hpc', head_some hc]
        rw [hi]; rfl
      · exact same
    · exact same
  | peekAll t c i =>
    change s.UpToDate t at h
    simp only [WRing.act, WAct.tid]
    split
    · rename_i l v hpc hc hb
      split
      · rename_i hr
        have h' := utd_learn h v
        have hi := utd_read (h'.heads c l hc) hr
        refine ⟨utd_pc (utd_see h' _ i ((readable_iff ..).1 hr).1) _ _, rfl, Or.inr ⟨.peekAll t c, ?_⟩⟩
        have hpc' : s.newest.pc t = .idle := hpc
        simp only [RState.act, hpc', head_some hc]
        rw [hi]; rfl
      · exact same
    · exact same
  | next t i j ok =>
    change s.UpToDate t at h
    simp only [WRing.act, WAct.tid]
    have nx : ∀ (sp : Bool) x, s.pc t = x → s.newest.act p N (.next t sp) = s.newest.nextStep p N t sp x := by
      intro sp x hx; subst hx; rfl
    cases hpc : s.pc t with
    | idle => exact same
    | panicked q => exact same
    | enqReserved e r =>
      simp only [WRing.nextStep]
      by_cases hN : N = 0
      · refine ⟨?_, ?_, Or.inr ⟨.next t false, ?_⟩⟩
        · simp only [hN, if_true]; exact utd_pc h _ _
        · simp only [hN, if_true]; rfl
        · rw [nx false _ hpc]; simp only [RState.nextStep, hN, if_true]; rfl
      · refine ⟨?_, ?_, Or.inr ⟨.next t false, ?_⟩⟩
        · simp only [hN, if_false]; exact utd_pc (utd_store h _ _) _ _
        · simp only [hN, if_false]; exact store_raced h (r % N) e
        · rw [nx false _ hpc]
          simp only [RState.nextStep, hN, if_false]
          show ((s.store t (r % N) e).newest).setPc t _ = _
          rw [newest_store]
    | enqWritten e r =>
      simp only [WRing.nextStep]
      cases hu : u32Add p r 1 with
      | error q =>
        refine ⟨utd_pc h _ _, rfl, Or.inr ⟨.next t false, ?_⟩⟩
        rw [nx false _ hpc]; simp only [RState.nextStep, hu]; rfl
      | ok nxt =>
        simp only
        split
        · split
          · rename_i hl
            refine ⟨utd_emit (utd_pc (utd_publish h _) _ _) _, rfl, Or.inr ⟨.next t false, ?_⟩⟩
            rw [nx false _ hpc]
            have hl' : s.newest.ring.published = r := hl
            simp only [RState.nextStep, hu, hl', and_self, if_true]
            show (((s.publish t nxt).newest).setPc t .idle).emit _ = _
            rw [newest_publish]
          · exact same
        · split
          · rename_i hr
            have hi := utd_read h.published hr
            have hv := ((readable_iff ..).1 hr).1
            split
            · rename_i hgt
              refine ⟨utd_pc (utd_see h _ i hv) _ _, rfl, Or.inr ⟨.next t true, ?_⟩⟩
              rw [nx true _ hpc]
              have hgt' : s.newest.ring.published > r := by rw [hi] at hgt; exact hgt
              simp only [RState.nextStep, hu, reduceCtorEq, and_false, if_false, hgt', if_true]; rfl
            · exact ⟨utd_see h _ i hv, rfl, Or.inl rfl⟩
          · exact same
    | deqHead c hd =>
      simp only [WRing.nextStep]
      split
      · rename_i hr
        have hi := utd_read h.published hr
        have hv := ((readable_iff ..).1 hr).1
        have hval : s.published.val i = s.newest.ring.published := by rw [hi]; rfl
        rw [hval]
        by_cases h1 : hd > s.newest.ring.published
        · simp only [h1, if_true]
          refine ⟨utd_pc (utd_see h _ i hv) _ _, rfl, Or.inr ⟨.next t false, ?_⟩⟩
          rw [nx false _ hpc]; simp only [RState.nextStep, h1, if_true]; rfl
        · by_cases h2 : hd = s.newest.ring.published
          · simp only [h1, h2, gt_iff_lt, Nat.lt_irrefl, if_false, if_true]
            refine ⟨utd_emit (utd_pc (utd_see h _ i hv) _ _) _, rfl, Or.inr ⟨.next t false, ?_⟩⟩
            rw [nx false _ hpc]; simp only [RState.nextStep, h2, gt_iff_lt, Nat.lt_irrefl, if_false, if_true]; rfl
          · simp only [h1, h2, if_false]
            refine ⟨utd_pc (utd_see h _ i hv) _ _, rfl, Or.inr ⟨.next t false, ?_⟩⟩
            rw [nx false _ hpc]; simp only [RState.nextStep, h1, h2, if_false]; rfl
      · exact same
    | deqReload c =>
      simp only [WRing.nextStep]
      split
      · exact same
      · rename_i l hc
        split
        · rename_i hr
          have hi := utd_read (h.heads c l hc) hr
          have hv := ((readable_iff ..).1 hr).1
          refine ⟨utd_pc (utd_see h _ i hv) _ _, rfl, Or.inr ⟨.next t false, ?_⟩⟩
          rw [nx false _ hpc]
          simp only [RState.nextStep, List.getD, head_some hc, Option.getD_some]
          rw [hi]; rfl
        · exact same
    | deqTail c hd tl =>
      simp only [WRing.nextStep]
      cases hu : u32Add p hd 1 with
      | error q =>
        refine ⟨utd_pc h _ _, rfl, Or.inr ⟨.next t false, ?_⟩⟩
        rw [nx false _ hpc]; simp only [RState.nextStep, hu]; rfl
      | ok h' =>
        simp only
        split
        · exact same
        · rename_i l hc
          split
          · split
            · rename_i hl
              refine ⟨utd_emit (utd_pc (utd_claim h hc _) _ _) _, rfl, Or.inr ⟨.next t false, ?_⟩⟩
              rw [nx false _ hpc]
              simp only [RState.nextStep, hu, head_some hc, hl, and_self, if_true]
              show (((s.claim t c l h').newest).setPc t _).emit _ = _
              rw [newest_claim]
            · exact same
          · split
            · rename_i hr
              have hi := utd_read (h.heads c l hc) hr
              have hv := ((readable_iff ..).1 hr).1
              refine ⟨utd_pc (utd_see h _ i hv) _ _, rfl, Or.inr ⟨.next t true, ?_⟩⟩
              rw [nx true _ hpc]
              simp only [RState.nextStep, hu, reduceCtorEq, and_false, if_false, List.getD, head_some hc, Option.getD_some]
              rw [hi]; rfl
            · exact same
    | deqClaimed c hd tl =>
      simp only [WRing.nextStep]
      split
      · rename_i hr
        have hi := utd_read h.reserved hr
        have hv := ((readable_iff ..).1 hr).1
        have hval : s.reserved.val i = s.newest.ring.reserved := by rw [hi]; rfl
        rw [hval]
        cases hu : u32Sub p s.newest.ring.reserved hd with
        | error q =>
          refine ⟨utd_pc (utd_see h _ i hv) _ _, rfl, Or.inr ⟨.next t false, ?_⟩⟩
          rw [nx false _ hpc]; simp only [RState.nextStep, hu]; rfl
        | ok d =>
          simp only
          by_cases hd1 : d > N % 2 ^ 32
          · simp only [hd1, if_true]
            refine ⟨utd_emit (utd_pc (utd_see h _ i hv) _ _) _, rfl, Or.inr ⟨.next t false, ?_⟩⟩
            rw [nx false _ hpc]; simp only [RState.nextStep, hu, hd1, if_true]; rfl
          · simp only [hd1, if_false]
            by_cases hN : N = 0
            · rw [if_pos hN]
              refine ⟨utd_pc (utd_see h _ i hv) _ _, rfl, Or.inr ⟨.next t false, ?_⟩⟩
              rw [nx false _ hpc]; simp only [RState.nextStep, hu, hd1, if_false]; rw [if_pos hN]; rfl
            · rw [if_neg hN]
              split
              · rename_i hr2
                have hj := utd_read (h.slots _) hr2
                have hv2 := ((readable_iff ..).1 hr2).1
                have h' := utd_see h .reserved i hv
                have hvw : (s.see t .reserved i).view t (.slot (hd % N)) = s.view t (.slot (hd % N)) := utd_see_ne (by simp)
                refine ⟨utd_emit (utd_pc (utd_fetch h' _ _ (by rw [hvw]; exact hv2)) _ _) _, fetch_raced h' (hd % N) (j (hd % N)),
                  Or.inr ⟨.next t false, ?_⟩⟩
                rw [nx false _ hpc]; simp only [RState.nextStep, hu, hd1, if_false]; rw [if_neg hN, hj]; rfl
              · exact same
      · exact same
    | peekHead c hd =>
      simp only [WRing.nextStep]
      split
      · rename_i hr
        rw [Bool.and_eq_true, List.all_eq_true] at hr
        have hi := utd_read h.published hr.1
        have hv := ((readable_iff ..).1 hr.1).1
        have hpe : peekEvent p N (s.seen i j) c hd = peekEvent p N s.newest.ring c hd := by
          apply peekEvent_congr
          · show s.published.val i = s.published.last
            rw [hi]; rfl
          · intro k hk
            have := utd_read (h.slots k) (hr.2 k (List.mem_range.2 hk))
            show (s.slot k).val (j k) = (s.slot k).last
            rw [this]; rfl
        rw [hpe]
        cases he : peekEvent p N s.newest.ring c hd with
        | ok e =>
          refine ⟨utd_emit (utd_pc (utd_see h _ i hv) _ _) _, rfl, Or.inr ⟨.next t false, ?_⟩⟩
          rw [nx false _ hpc]; simp only [RState.nextStep, he]; rfl
        | error q =>
          refine ⟨utd_pc (utd_see h _ i hv) _ _, rfl, Or.inr ⟨.next t false, ?_⟩⟩
          rw [nx false _ hpc]; simp only [RState.nextStep, he]; rfl
      · exact same

theorem turns_run (p : Profile) (N : Nat) (acts : List (WAct α T)) :
    ∀ (s : WRing α T) (t : Fin T), s.UpToDate t → TakingTurns t acts →
      (s.run p N acts).raced = s.raced ∧ ∃ bs, (s.run p N acts).newest = s.newest.run p N bs := by
  induction acts with
  | nil => intro s t _ _; exact ⟨rfl, [], rfl⟩
  | cons a acts ih =>
    intro s t hu ht
    have go : ∀ (u : Fin T), (s.act p N a).UpToDate u → TakingTurns u acts → (s.act p N a).raced = s.raced →
        ((s.act p N a).newest = s.newest ∨ ∃ b, (s.act p N a).newest = s.newest.act p N b) →
        (s.run p N (a :: acts)).raced = s.raced ∧ ∃ bs, (s.run p N (a :: acts)).newest = s.newest.run p N bs := by
      intro u h1 h2 h3 h4
      obtain ⟨r1, bs, r2⟩ := ih _ u h1 h2
      refine ⟨r1.trans h3, ?_⟩
      rcases h4 with h4 | ⟨b, h4⟩
      · exact ⟨bs, by rw [← h4]; exact r2⟩
      · exact ⟨b :: bs, by show _ = (s.newest.act p N b).run p N bs; rw [← h4]; exact r2⟩
    by_cases hsync : ∃ u v, a = .sync u v
    · obtain ⟨u, v, rfl⟩ := hsync
      obtain ⟨h1, h2⟩ := ht
      refine go u ?_ h2 rfl (Or.inl rfl)
      rcases h1 with rfl | rfl
      · exact utd_learn hu _
      · exact utd_sync hu
    · have hns : ∀ u v, a ≠ .sync u v := fun u v hh => hsync ⟨u, v, hh⟩
      have htid : a.tid = t ∧ TakingTurns t acts := by
        cases a <;> first | exact (hns _ _ rfl).elim | exact ht
      obtain ⟨rfl, ht'⟩ := htid
      obtain ⟨s1, s2, s3⟩ := turn_step p N a hu hns
      exact go _ s1 ht' s2 s3

theorem utd_init (t : Fin T) : (WRing.init α T).UpToDate t :=
  ⟨Nat.le_refl _, Nat.le_refl _, by intro c l hl; simp [WRing.init] at hl, fun _ => Nat.le_refl _⟩

end BigO
