import Verif.Proofs.AllocRingSim
import Verif.Spec.AllocWeakSpec

/-! # The allocator with weak memory: with save points and requests one after another nothing stale is read -/
namespace BigO

/-- the newest values only -/
def AWeak.fine (w : AWeak) : AFine :=
  { core := w.core, ring := { reserved := w.reserved.last, published := w.published.last, slot := fun j => (w.slot j).last },
    rpc := w.rpc, begun := w.begun }

theorem loc_push_last (l : Loc) (v : Nat) : (l.push v).last = v := by simp [Loc.push, Loc.last]
theorem slotLoc_push_last (l : SlotLoc) (x : Slot) : (l.push x).last = some x := by simp [SlotLoc.push, SlotLoc.last]

structure WkInv (ready : Nat → Prop) (w : AWeak) : Prop where
  below : ∀ u l, w.rview u l ≤ w.top l
  handed : ∀ v ∈ w.handed, ∀ l, v l ≤ w.top l
  new : ∀ u, ready u → ∀ l, w.rview u l = w.top l
  mine : ∀ u, w.core.Measures u → ∀ v, ready v ↔ v = u
  clean : ¬ w.raced

theorem measures_iff (pc : APc) : pc.measures = true ↔ inSave pc = true ∨ inDelta pc = true := by
  cases pc <;> simp [APc.measures, inSave, inDelta]

theorem readable_newest {w : AWeak} {t l i} (hv : w.rview t l = w.top l) (hr : w.readable t l i = true) : i = w.top l := by
  simp only [AWeak.readable, Bool.and_eq_true, decide_eq_true_eq] at hr
  omega

/-- thread `t`, which measures, takes a step in the ring buffer -/
theorem WkInv.ring {ready : Nat → Prop} {w w' : AWeak} {t : Nat} (h : WkInv ready w) (hm : w.core.Measures t)
    (hothers : ∀ u, u ≠ t → w'.core.th u = w.core.th u) (hview : ∀ u, u ≠ t → w'.rview u = w.rview u)
    (ht : ∀ l, w'.rview t l = w'.top l) (htop : ∀ l, w.top l ≤ w'.top l) (hh : w'.handed = w.handed) (hc : ¬ w'.raced) :
    WkInv ready w' := by
  refine ⟨?_, ?_, ?_, ?_, hc⟩
  · intro u l
    by_cases hu : u = t
    · subst hu; exact Nat.le_of_eq (ht l)
    · rw [hview u hu]; exact Nat.le_trans (h.below u l) (htop l)
  · intro v hv l
    rw [hh] at hv
    exact Nat.le_trans (h.handed v hv l) (htop l)
  · intro u hu
    have := (h.mine t hm u).1 hu
    subst this
    exact ht
  · intro u hu v
    by_cases he : u = t
    · subst he; exact h.mine u hm v
    · refine h.mine u ?_ v
      unfold AConc.Measures at hu ⊢
      rw [hothers u he] at hu
      exact hu

theorem see_rview (w : AWeak) (t u : Nat) (l : RLoc) (i : Nat) (l' : RLoc) :
    (w.see t l i).rview u l' = if u = t then (if l' = l then i else w.rview t l') else w.rview u l' := by
  unfold AWeak.see
  by_cases hu : u = t <;> simp [hu]

/-- seeing the newest value changes nothing -/
theorem see_newest {w : AWeak} {t l} (hv : ∀ l, w.rview t l = w.top l) : w.see t l (w.top l) = w := by
  have : (w.see t l (w.top l)).rview = w.rview := by
    funext u l'
    rw [see_rview]
    split
    · subst_vars
      split
      · subst_vars; exact (hv _).symm
      · rfl
    · rfl
  unfold AWeak.see at this ⊢
  simp only at this
  rw [this]

theorem loc_at_top (l : Loc) : l.val l.top = l.last := rfl

theorem FInv.measures_of_ring {f : AFine} (h : FInv f) {t} (hr : f.rpc t ≠ .out) : f.core.Measures t := by
  unfold AConc.Measures
  cases hx : f.rpc t with
  | out => exact absurd hx hr
  | reserved x r => rw [(h.pend t x r (Or.inl hx)).2.2]; rfl
  | written x r => rw [(h.pend t x r (Or.inr hx)).2.2]; rfl
  | peekHead k hh => rw [(h.peek t k hh hx).1]; rfl
  | reading k mn mx rest => rw [(h.reading t k mn mx rest hx).1]; rfl
  | panicked e => exact absurd hx (h.calm t e)

theorem goto_others {s : AConc} {t u : Nat} {pc} (h : u ≠ t) : (s.goto t pc).th u = s.th u := by
  simp [AConc.goto, h]

theorem fine_setRpc (w : AWeak) (t : Nat) (x : FPc) : (w.setRpc t x).fine = w.fine.setRpc t x := rfl
theorem fine_see (w : AWeak) (t : Nat) (l : RLoc) (i : Nat) : (w.see t l i).fine = w.fine := rfl

theorem fine_reserve (w : AWeak) (t : Nat) : (w.reserve t).fine =
    { w.fine with ring := { w.fine.ring with reserved := (w.fine.ring.reserved + 1) % 2 ^ 32 }, begun := w.begun + 1 } := by
  unfold AWeak.reserve
  rw [fine_see]
  simp only [AWeak.fine, loc_push_last]

theorem fine_store (w : AWeak) (t j : Nat) (x : Slot) : (w.store t j x).fine = { w.fine with ring := w.fine.ring.write j x } := by
  unfold AWeak.store
  rw [fine_see]
  simp only [AWeak.fine, Ring.write]
  congr 2
  funext k
  split
  · rw [slotLoc_push_last]
  · rfl

theorem fine_publish (w : AWeak) (t v : Nat) (c : AConc) : ({ w.publish t v with core := c } : AWeak).fine =
    { w.fine with ring := { w.fine.ring with published := v }, core := c } := by
  simp only [AWeak.publish, AWeak.see, AWeak.fine, loc_push_last]

theorem fine_fetch (w : AWeak) (t j i : Nat) : (w.fetch t j i).fine = w.fine := rfl

theorem top_see (w : AWeak) (t : Nat) (l : RLoc) (i : Nat) (l' : RLoc) : (w.see t l i).top l' = w.top l' := by cases l' <;> rfl
theorem top_setRpc (w : AWeak) (t : Nat) (x : FPc) (l' : RLoc) : (w.setRpc t x).top l' = w.top l' := by cases l' <;> rfl
theorem top_core (w : AWeak) (c : AConc) (l' : RLoc) : ({ w with core := c } : AWeak).top l' = w.top l' := by cases l' <;> rfl

/-- a change of `rpc` and `core` by the thread that measures -/
theorem WkInv.quiet {ready : Nat → Prop} {w : AWeak} {t : Nat} (h : WkInv ready w) (hm : w.core.Measures t) (c : AConc) (x : FPc)
    (hc : ∀ u, u ≠ t → c.th u = w.core.th u) : WkInv ready (({ w with core := c } : AWeak).setRpc t x) :=
  h.ring hm hc (fun _ _ => rfl) (fun l => by
      rw [top_setRpc, top_core]; exact h.new t ((h.mine t hm t).2 rfl) l)
    (fun l => by cases l <;> exact Nat.le_refl _) rfl h.clean

theorem WkInv.reserve {ready : Nat → Prop} {w : AWeak} {t : Nat} (h : WkInv ready w) (hm : w.core.Measures t) (x : FPc) :
    WkInv ready ((w.reserve t).setRpc t x) := by
  have hnew := h.new t ((h.mine t hm t).2 rfl)
  refine h.ring hm (fun _ _ => rfl) ?_ ?_ ?_ rfl h.clean
  · intro u hu; funext l'
    show (AWeak.see _ _ _ _).rview u l' = _
    rw [see_rview, if_neg hu]
  · intro l
    show (AWeak.see _ _ _ _).rview t l = _
    rw [see_rview, if_pos rfl]
    cases l <;> simp [AWeak.top, AWeak.setRpc, AWeak.reserve, AWeak.see, Loc.push] <;> exact hnew _
  · intro l
    cases l <;> simp [AWeak.top, AWeak.setRpc, AWeak.reserve, AWeak.see, Loc.push]

theorem WkInv.store {ready : Nat → Prop} {w : AWeak} {t : Nat} (h : WkInv ready w) (hm : w.core.Measures t) (j : Nat) (y : Slot) (x : FPc) :
    WkInv ready ((w.store t j y).setRpc t x) := by
  have hnew := h.new t ((h.mine t hm t).2 rfl)
  refine h.ring hm (fun _ _ => rfl) ?_ ?_ ?_ rfl ?_
  · intro u hu; funext l'
    show (AWeak.see _ _ _ _).rview u l' = _
    rw [see_rview, if_neg hu]
  · intro l
    show (AWeak.see _ _ _ _).rview t l = _
    rw [see_rview, if_pos rfl]
    cases l with
    | slot k =>
      by_cases hk : k = j
      · subst hk; simp [AWeak.top, AWeak.setRpc, AWeak.store, AWeak.see, SlotLoc.push]
      · simp [AWeak.top, AWeak.setRpc, AWeak.store, AWeak.see, hk]; exact hnew (.slot k)
    | _ => simp [AWeak.top, AWeak.setRpc, AWeak.store, AWeak.see]; exact hnew _
  · intro l
    cases l with
    | slot k =>
      by_cases hk : k = j
      · subst hk; simp [AWeak.top, AWeak.setRpc, AWeak.store, AWeak.see, SlotLoc.push]
      · simp [AWeak.top, AWeak.setRpc, AWeak.store, AWeak.see, hk]
    | _ => simp [AWeak.top, AWeak.setRpc, AWeak.store, AWeak.see]
  · show ¬ (w.raced ∨ w.rview t (.slot j) < (w.slot j).top ∨ ∃ u, w.rview t (.reads j u) < w.reads j u)
    rintro (hr | hr | ⟨u, hr⟩)
    · exact h.clean hr
    · have := hnew (.slot j); simp only [AWeak.top] at this; omega
    · have := hnew (.reads j u); simp only [AWeak.top] at this; omega

theorem WkInv.publish {ready : Nat → Prop} {w : AWeak} {t : Nat} (h : WkInv ready w) (hm : w.core.Measures t) (v : Nat) (x : FPc) (c : AConc)
    (hc : ∀ u, u ≠ t → c.th u = w.core.th u) : WkInv ready (({ w.publish t v with core := c } : AWeak).setRpc t x) := by
  have hnew := h.new t ((h.mine t hm t).2 rfl)
  refine h.ring hm hc ?_ ?_ ?_ rfl h.clean
  · intro u hu; funext l'
    show (AWeak.see _ _ _ _).rview u l' = _
    rw [see_rview, if_neg hu]
  · intro l
    show (AWeak.see _ _ _ _).rview t l = _
    rw [see_rview, if_pos rfl]
    cases l <;> simp [AWeak.top, AWeak.setRpc, AWeak.publish, AWeak.see, Loc.push] <;> exact hnew _
  · intro l
    cases l <;> simp [AWeak.top, AWeak.setRpc, AWeak.publish, AWeak.see, Loc.push]

theorem WkInv.fetch {ready : Nat → Prop} {w : AWeak} {t : Nat} (h : WkInv ready w) (hm : w.core.Measures t) (j : Nat) (x : FPc) :
    WkInv ready ((w.fetch t j (w.top (.slot j))).setRpc t x) := by
  have hnew := h.new t ((h.mine t hm t).2 rfl)
  refine h.ring hm (fun _ _ => rfl) ?_ ?_ ?_ rfl ?_
  · intro u hu; funext l'
    show (AWeak.see _ _ _ _).rview u l' = _
    rw [see_rview, if_neg hu, see_rview, if_neg hu]
  · intro l
    show (AWeak.see _ _ _ _).rview t l = _
    rw [see_rview, if_pos rfl, see_rview, if_pos rfl]
    cases l with
    | reads k u =>
      by_cases hk : k = j ∧ u = t
      · obtain ⟨rfl, rfl⟩ := hk; simp [AWeak.top, AWeak.setRpc, AWeak.fetch, AWeak.see]
      · simp [AWeak.top, AWeak.setRpc, AWeak.fetch, AWeak.see, hk]; exact hnew (.reads k u)
    | slot k =>
      by_cases hk : k = j
      · subst hk; simp [AWeak.top, AWeak.setRpc, AWeak.fetch, AWeak.see]
      · simp [AWeak.top, AWeak.setRpc, AWeak.fetch, AWeak.see, hk]; exact hnew (.slot k)
    | _ => simp [AWeak.top, AWeak.setRpc, AWeak.fetch, AWeak.see]; exact hnew _
  · intro l
    cases l with
    | reads k u =>
      by_cases hk : k = j ∧ u = t
      · obtain ⟨rfl, rfl⟩ := hk; simp [AWeak.top, AWeak.setRpc, AWeak.fetch, AWeak.see]
      · simp [AWeak.top, AWeak.setRpc, AWeak.fetch, AWeak.see, hk]
    | _ => simp [AWeak.top, AWeak.setRpc, AWeak.fetch, AWeak.see]
  · show ¬ (w.raced ∨ w.rview t (.slot j) < (w.slot j).top)
    rintro (hr | hr)
    · exact h.clean hr
    · have := hnew (.slot j); simp only [AWeak.top] at this; omega

/-- a step in a ring operation -/
theorem ringStep_fine {ready : Nat → Prop} {w w' : AWeak} {t i ok} (h : WkInv ready w) (hi : FInv w.fine) (hr : w.rpc t ≠ .out)
    (hs : w.ringStep t i ok (w.rpc t) = some w') :
    w.fine.ringStep t ok (w.rpc t) = some w'.fine ∧ WkInv ready w' := by
  have hm : w.core.Measures t := hi.measures_of_ring hr
  have hnew := h.new t ((h.mine t hm t).2 rfl)
  have hsee : ∀ l, w.see t l (w.top l) = w := fun l => see_newest hnew
  cases hx : w.rpc t with
  | out => exact absurd hx hr
  | panicked e => rw [hx] at hs; cases hs
  | reserved x r =>
    rw [hx] at hs
    simp only [AWeak.ringStep] at hs
    have hN : w.core.size ≠ 0 := Nat.pos_iff_ne_zero.1 hi.size
    rw [if_neg hN] at hs
    injection hs with hs
    subst hs
    refine ⟨?_, h.store hm _ _ _⟩
    rw [fine_setRpc, fine_store]
    exact if_neg hN
  | written x r =>
    rw [hx] at hs
    simp only [AWeak.ringStep] at hs
    simp only [AFine.ringStep]
    show (match u32Add w.core.profile r 1 with | .error e => _ | .ok next => _) = _ ∧ _
    cases hu : u32Add w.core.profile r 1 with
    | error e =>
      rw [hu] at hs
      injection hs with hs
      subst hs
      exact ⟨rfl, h.quiet hm w.core _ (fun _ _ => rfl)⟩
    | ok next =>
      rw [hu] at hs
      simp only at hs ⊢
      by_cases hok : ok = true
      · rw [if_pos hok] at hs ⊢
        by_cases hp : w.published.last = r
        · rw [if_pos hp] at hs
          injection hs with hs
          subst hs
          refine ⟨?_, h.publish hm _ _ _ (fun u hu => goto_others hu)⟩
          rw [fine_setRpc, fine_publish]
          exact if_pos hp
        · rw [if_neg hp] at hs; cases hs
      · rw [if_neg hok] at hs ⊢
        by_cases hrd : w.readable t .published i = true
        · rw [if_pos hrd] at hs
          have hi' := readable_newest (hnew _) hrd
          subst hi'
          have hval : w.published.val (w.top .published) = w.published.last := rfl
          rw [hsee, hval] at hs
          by_cases hp : w.published.last > r
          · rw [if_pos hp] at hs
            injection hs with hs
            subst hs
            exact ⟨if_pos hp, h.quiet hm w.core _ (fun _ _ => rfl)⟩
          · rw [if_neg hp] at hs
            injection hs with hs
            subst hs
            exact ⟨if_neg hp, h.quiet hm w.core _ (fun _ _ => rfl)⟩
        · rw [if_neg hrd] at hs; cases hs
  | peekHead k hh =>
    rw [hx] at hs
    simp only [AWeak.ringStep] at hs
    simp only [AFine.ringStep]
    by_cases hrd : w.readable t .published i = true
    · rw [if_pos hrd] at hs
      have hi' := readable_newest (hnew _) hrd
      subst hi'
      have hval : w.published.val (w.top .published) = w.published.last := rfl
      rw [hsee, hval] at hs
      show (match peekIndices w.core.profile w.core.size hh w.published.last with
        | .panic e => _ | .diverges => _ | .ok (.error _) => _ | .ok (.ok js) => _) = _ ∧ _
      split at hs
      · rename_i e he
        injection hs with hs; subst hs
        rw [he]
        exact ⟨rfl, h.quiet hm w.core _ (fun _ _ => rfl)⟩
      · cases hs
      · rename_i e he
        injection hs with hs; subst hs
        rw [he]
        exact ⟨rfl, h.quiet hm _ _ (fun u hu => goto_others hu)⟩
      · rename_i js he
        injection hs with hs; subst hs
        rw [he]
        exact ⟨rfl, h.quiet hm w.core _ (fun _ _ => rfl)⟩
    · rw [if_neg hrd] at hs; cases hs
  | reading k mn mx rest =>
    rw [hx] at hs
    cases rest with
    | nil =>
      simp only [AWeak.ringStep] at hs
      injection hs with hs; subst hs
      exact ⟨rfl, h.quiet hm _ _ (fun u hu => goto_others hu)⟩
    | cons q rest =>
      obtain ⟨j, fd⟩ := q
      simp only [AWeak.ringStep] at hs
      simp only [AFine.ringStep]
      by_cases hrd : w.readable t (.slot j) i = true
      · rw [if_pos hrd] at hs
        have hi' := readable_newest (hnew _) hrd
        subst hi'
        have hval : (w.slot j).val (w.top (.slot j)) = (w.slot j).last := rfl
        rw [hval] at hs
        have hf : w.fine.ring.slot j = (w.slot j).last := rfl
        rw [hf]
        cases hl : (w.slot j).last with
        | none =>
          rw [hl] at hs
          injection hs with hs; subst hs
          exact ⟨rfl, h.fetch hm _ _⟩
        | some x =>
          rw [hl] at hs
          injection hs with hs; subst hs
          exact ⟨rfl, h.fetch hm _ _⟩
      · rw [if_neg hrd] at hs; cases hs

/-- a step of the statistics alone -/
theorem WkInv.core {ready : Nat → Prop} {w : AWeak} {t i ok} {c : AConc} (h : WkInv ready w) (hr : atRing (w.core.th t).pc = false)
    (hc : w.core.step t i ok = some c) (l : List RView) (hl : ∀ v ∈ l, ∀ x, v x ≤ w.top x) :
    WkInv ready { w with core := c, handed := l } := by
  have hs := core_step hr hc
  refine ⟨fun u l => ?_, fun v hv x => ?_, fun u hu x => ?_, ?_, h.clean⟩
  · exact Nat.le_trans (h.below u l) (by cases l <;> exact Nat.le_refl _)
  · exact Nat.le_trans (hl v hv x) (by cases x <;> exact Nat.le_refl _)
  · exact (h.new u hu x).trans (by cases x <;> rfl)
  · intro u hu
    refine h.mine u ?_
    by_cases he : u = t
    · subst he
      have hu' : ((c.th u).pc).measures = true := hu
      rw [measures_iff] at hu'
      show (w.core.th u).pc.measures = true
      rw [measures_iff]
      exact hu'.imp hs.save hs.delta
    · have hu' : ((c.th u).pc).measures = true := hu
      rw [hs.others u he] at hu'
      exact hu'

theorem outStep_fine {ready : Nat → Prop} {w w' : AWeak} {t i ok} (h : WkInv ready w) (hr : w.rpc t = .out)
    (hs : w.outStep t i ok (w.core.th t).pc = some w') :
    w.fine.outStep t i ok (w.core.th t).pc = some w'.fine ∧ WkInv ready w' := by
  have hcore : atRing (w.core.th t).pc = false → (w.core.step t i ok).map (fun c => ({ w with core := c } : AWeak)) = some w' →
      (w.core.step t i ok).map (fun c => ({ w.fine with core := c } : AFine)) = some w'.fine ∧ WkInv ready w' := by
    intro ha hm
    obtain ⟨c, hc, rfl⟩ := Option.map_eq_some_iff.1 hm
    rw [hc]
    exact ⟨rfl, h.core ha hc w.handed h.handed⟩
  cases hpc : (w.core.th t).pc <;> rw [hpc] at hs <;> simp only [AWeak.outStep] at hs
  case spEnqueue mn mx =>
    have hm : w.core.Measures t := by unfold AConc.Measures; rw [hpc]; rfl
    injection hs with hs; subst hs
    refine ⟨?_, h.reserve hm _⟩
    rw [fine_setRpc, fine_reserve]
    rfl
  case spConsumer =>
    have hm : w.core.Measures t := by unfold AConc.Measures; rw [hpc]; rfl
    have hnew := h.new t ((h.mine t hm t).2 rfl)
    by_cases hrd : w.readable t .published i = true
    · rw [if_pos hrd] at hs
      have hi' := readable_newest (hnew _) hrd
      subst hi'
      have hval : w.published.val (w.top .published) = w.published.last := rfl
      rw [see_newest hnew, hval] at hs
      injection hs with hs; subst hs
      refine ⟨rfl, ?_⟩
      refine h.ring hm (fun u hu => goto_others hu) (fun _ _ => rfl) (fun l => ?_) (fun l => ?_) rfl h.clean
      · rw [top_core]; exact hnew l
      · cases l <;> exact Nat.le_refl _
    · rw [if_neg hrd] at hs; cases hs
  case dPeek k =>
    have hm : w.core.Measures t := by unfold AConc.Measures; rw [hpc]; rfl
    obtain ⟨sp, hsp, rfl⟩ := Option.map_eq_some_iff.1 hs
    refine ⟨?_, h.quiet hm w.core _ (fun _ _ => rfl)⟩
    show (w.core.saved[k]?).map _ = _
    rw [hsp]
    rfl
  case spLoad hd rest got =>
    cases rest with
    | nil =>
      simp only at hs
      obtain ⟨c, hc, rfl⟩ := Option.map_eq_some_iff.1 hs
      refine ⟨?_, h.core (by rw [hpc]; rfl) hc _ ?_⟩
      · show (w.core.step t i ok).map _ = _
        rw [hc]
        rfl
      · intro v hv x
        rcases List.mem_append.1 hv with hv | hv
        · exact h.handed v hv x
        · rw [List.mem_singleton] at hv; subst hv; exact h.below t x
    | cons a b => exact hcore (by rw [hpc]; rfl) hs
  all_goals exact hcore (by rw [hpc]; rfl) hs

theorem learn_rview (w : AWeak) (t u : Nat) (v : RView) (l : RLoc) :
    (w.learn t v).rview u l = if u = t then Nat.max (w.rview t l) (v l) else w.rview u l := by
  unfold AWeak.learn
  by_cases hu : u = t <;> simp [hu]

/-- entering a call, or synchronising -/
theorem enter_fine {ready : Nat → Prop} {w w' : AWeak} {a : AAct} (h : WkInv ready w) (hmay : mayAct w.core ready a)
    (ha : ∀ t i ok, a ≠ .step t i ok) (hs : w.act a = some w') :
    w.fine.act a = some w'.fine ∧ WkInv (turns w.core ready a) w' := by
  have keep : ∀ {c : AConc}, EnterStep w.core c a → (∀ t, a ≠ .save t) → (∀ t k, a ≠ .delta t k) → ∀ u, c.Measures u → w.core.Measures u := by
    intro c hc h1 h2 u hu
    by_cases he : u = a.tid
    · subst he
      have hu' : ((c.th a.tid).pc).measures = true := hu
      rcases (measures_iff _).1 hu' with e | e
      · obtain ⟨t, e⟩ := hc.save e; exact absurd e (h1 t)
      · obtain ⟨t, k, e⟩ := hc.delta e; exact absurd e (h2 t k)
    · unfold AConc.Measures at hu ⊢
      rw [hc.others u he] at hu
      exact hu
  cases a with
  | step t i ok => exact absurd rfl (ha t i ok)
  | call t x =>
    obtain ⟨c, hc, rfl⟩ := Option.map_eq_some_iff.1 hs
    refine ⟨?_, ?_⟩
    · show (w.core.act _).map _ = _
      rw [hc]; rfl
    · have hk := keep (enter_step (by simp) hc) (by simp) (by simp)
      exact ⟨fun u l => by rw [top_core]; exact h.below u l, fun v hv l => by rw [top_core]; exact h.handed v hv l,
        fun u hu l => by rw [top_core]; exact h.new u hu l, fun u hu => h.mine u (hk u hu), h.clean⟩
  | save t =>
    obtain ⟨c, hc, rfl⟩ := Option.map_eq_some_iff.1 hs
    refine ⟨?_, ?_⟩
    · show (w.core.act _).map _ = _
      rw [hc]; rfl
    · refine ⟨fun u l => by rw [top_core]; exact h.below u l, fun v hv l => by rw [top_core]; exact h.handed v hv l,
        fun u hu l => ?_, fun u hu v => ?_, h.clean⟩
      · have hu' : u = t := hu
        subst hu'
        rw [top_core]
        exact h.new u hmay.1 l
      · have : u = t := by
          by_contra hne
          refine hmay.2 u ?_
          have hu' : ((c.th u).pc).measures = true := hu
          rw [(enter_step (by simp) hc).others u hne] at hu'
          exact hu'
        subst this
        exact Iff.rfl
  | delta t k =>
    obtain ⟨c, hc, rfl⟩ := Option.map_eq_some_iff.1 hs
    have hle : ∀ l, ((w.handed[k]?).getD fun _ => 0) l ≤ w.top l := by
      intro l
      cases hk : w.handed[k]? with
      | none => exact Nat.zero_le _
      | some v => exact h.handed v (List.mem_of_getElem? hk) l
    have htop : ∀ l, ({ w.learn t ((w.handed[k]?).getD fun _ => 0) with core := c } : AWeak).top l = w.top l := by
      intro l; cases l <;> rfl
    refine ⟨?_, ?_⟩
    · show (w.core.act _).map _ = _
      rw [hc]; rfl
    · refine ⟨fun u l => ?_, fun v hv l => by rw [htop]; exact h.handed v hv l, fun u hu l => ?_, fun u hu v => ?_, h.clean⟩
      · rw [htop]
        show (w.learn t _).rview u l ≤ _
        rw [learn_rview]
        split
        · exact Nat.max_le.2 ⟨h.below t l, hle l⟩
        · exact h.below u l
      · have hu' : u = t := hu
        subst hu'
        rw [htop]
        show (w.learn u _).rview u l = _
        rw [learn_rview, if_pos rfl, h.new u hmay.1 l]
        exact Nat.max_eq_left (hle l)
      · have : u = t := by
          by_contra hne
          refine hmay.2 u ?_
          have hu' : ((c.th u).pc).measures = true := hu
          rw [(enter_step (by simp) hc).others u hne] at hu'
          exact hu'
        subst this
        exact Iff.rfl
  | sync t y =>
    obtain ⟨c, hc, rfl⟩ := Option.map_eq_some_iff.1 hs
    have htop : ∀ l, ({ w.learn t (w.rview y) with core := c } : AWeak).top l = w.top l := by intro l; cases l <;> rfl
    refine ⟨?_, ?_⟩
    · show (w.core.act _).map _ = _
      rw [hc]; rfl
    · have hk := keep (enter_step (by simp) hc) (by simp) (by simp)
      refine ⟨fun u l => ?_, fun v hv l => by rw [htop]; exact h.handed v hv l, fun u hu l => ?_, fun u hu v => ?_, h.clean⟩
      · rw [htop]
        show (w.learn t _).rview u l ≤ _
        rw [learn_rview]
        split
        · exact Nat.max_le.2 ⟨h.below t l, h.below y l⟩
        · exact h.below u l
      · rw [htop]
        show (w.learn t _).rview u l = _
        rw [learn_rview]
        have hb := h.below t l
        have hy := h.below y l
        have hu' : ready u ∨ (u = t ∧ ready y ∧ ¬ w.core.Measures y) := hu
        split
        · rename_i e
          subst e
          rcases hu' with hu' | ⟨_, hu', _⟩
          · rw [h.new u hu' l]; exact Nat.max_eq_left hy
          · rw [h.new y hu' l]; exact Nat.max_eq_right hb
        · rename_i e
          rcases hu' with hu' | ⟨e', _⟩
          · exact h.new u hu' l
          · exact absurd e' e
      · show (ready v ∨ (v = t ∧ ready y ∧ ¬ w.core.Measures y)) ↔ v = u
        have hm := h.mine u (hk u hu)
        constructor
        · rintro (e | ⟨_, e, hn⟩)
          · exact (hm v).1 e
          · have := (hm y).1 e
            subst this
            exact absurd (hk y hu) hn
        · intro e; exact Or.inl ((hm v).2 e)

/-- one action -/
theorem wact_fine {ready : Nat → Prop} {w w' : AWeak} {a : AAct} (h : WkInv ready w) (hi : FInv w.fine) (hmay : mayAct w.core ready a)
    (hs : w.act a = some w') : w.fine.act a = some w'.fine ∧ WkInv (turns w.core ready a) w' := by
  by_cases ha : ∀ t i ok, a ≠ .step t i ok
  · exact enter_fine h hmay ha hs
  · push Not at ha
    obtain ⟨t, i, ok, rfl⟩ := ha
    have hs' : w.step t i ok = some w' := hs
    show w.fine.step t i ok = _ ∧ WkInv ready w'
    cases hx : w.rpc t with
    | out =>
      have e1 : w.step t i ok = w.outStep t i ok (w.core.th t).pc := by simp only [AWeak.step, hx]
      have e2 : w.fine.step t i ok = w.fine.outStep t i ok (w.core.th t).pc := by
        unfold AFine.step
        rw [show w.fine.rpc t = .out from hx]
        rfl
      rw [e1] at hs'
      rw [e2]
      exact outStep_fine h hx hs'
    | _ =>
      have hne : w.rpc t ≠ .out := by rw [hx]; simp
      have e1 : w.step t i ok = w.ringStep t i ok (w.rpc t) := by unfold AWeak.step; simp only [hx]
      have e2 : w.fine.step t i ok = w.fine.ringStep t ok (w.rpc t) := by
        unfold AFine.step
        rw [show w.fine.rpc t = w.rpc t from rfl, hx]
      rw [e1] at hs'
      rw [e2]
      exact ringStep_fine h hi hne hs'

/-! ## one thread in the ring buffer at a time -/

/-- two threads are never in ring operations at the same time -/
def Single (f : AFine) : Prop := ∀ u v, f.rpc u ≠ .out → f.rpc v ≠ .out → u = v

theorem WkInv.single {ready : Nat → Prop} {w : AWeak} (h : WkInv ready w) (hi : FInv w.fine) : Single w.fine := by
  intro u v hu hv
  have h1 := h.mine u (hi.measures_of_ring hu)
  have h2 := h.mine v (hi.measures_of_ring hv)
  exact ((h2 u).1 ((h1 u).2 rfl))

theorem pending_ne_out {x : FPc} {e r} (h : Pending x e r) : x ≠ .out := by
  rintro rfl; exact not_pending_out e r h

theorem pending_unique {x : FPc} {e e' r r'} (h : Pending x e r) (h' : Pending x e' r') : r = r' := by
  rcases h with h | h <;> rcases h' with h' | h' <;> rw [h] at h' <;> injection h'

theorem Single.window {f : AFine} (h : Single f) (hi : FInv f) : Window f := by
  unfold Window
  by_contra hne
  have hsz := hi.size
  obtain ⟨t, x, hp⟩ := hi.cover f.ring.published (Nat.le_refl _) (by omega)
  obtain ⟨u, y, hq⟩ := hi.cover (f.ring.published + 1) (by omega) (by omega)
  have := h t u (pending_ne_out hp) (pending_ne_out hq)
  subst this
  have := pending_unique hp hq
  omega

/-- the requests under way fit in the ring -/
def RunFits (f : AFine) : Prop := ∀ (t k mn mx : Nat) rest, f.rpc t = .reading k mn mx rest →
  ∃ sp, f.core.saved[k]? = some sp ∧ f.ring.published ≤ sp.head + f.core.size

theorem RunFits.notOverrun {f : AFine} (h : RunFits f) (hs : Single f) (hi : FInv f) : NotOverrun f := by
  intro t k mn mx rest sp hr _ hsp
  obtain ⟨sp', e, h1⟩ := h t k mn mx rest hr
  rw [hsp] at e; injection e with e; subst e
  by_contra hne
  have hle := hi.le
  obtain ⟨u, y, hq⟩ := hi.cover f.ring.published (Nat.le_refl _) (by omega)
  have := hs t u (by rw [hr]; simp) (pending_ne_out hq)
  subst this
  rw [hr] at hq
  exact not_pending_reading _ _ _ _ _ _ hq

theorem RunFits.act {f f' : AFine} {a} (h : RunFits f) (hs : Single f) (hi : FInv f) (ha : f.act a = some f') : RunFits f' := by
  intro u k mn mx rest hr
  rcases act_cases ha with ⟨t, i, ok, rfl, hst⟩ | ⟨_, c, hc, _, rfl⟩
  · by_cases hu : u = t
    · subst hu
      cases hst with
      | core c hr' hpc hc => rw [show ({ f with core := c } : AFine).rpc u = f.rpc u from rfl, hr'] at hr; cases hr
      | consumer hr' hpc => rw [show ({ f with core := f.core.goto u (.spCur1 f.ring.published) } : AFine).rpc u = f.rpc u from rfl, hr'] at hr; cases hr
      | peekOk k' hh js hr' hp =>
        rw [setRpc_same] at hr
        injection hr with e1 e2 e3 e4
        subst e1
        obtain ⟨_, sp, hsp, hh'⟩ := hi.peek u k' hh hr'
        subst hh'
        refine ⟨sp, hsp, ?_⟩
        rw [peekIndices_eq hi.size hi.size32 (hi.heads k' sp hsp) (Nat.lt_of_le_of_lt hi.le hi.small)] at hp
        show f.ring.published ≤ sp.head + f.core.size
        by_contra hne
        have hne' : f.ring.published > sp.head + f.core.size := Nat.lt_of_not_le hne
        rw [if_pos hne'] at hp
        injection hp with hp
        cases hp
      | read k' mn' mx' j fd rest' x hr' hp =>
        rw [setRpc_same] at hr
        injection hr with e1 e2 e3 e4
        subst e1
        exact h u k' mn' mx' _ hr'
      | _ => rw [setRpc_same] at hr; cases hr
    · have hr0 : f.rpc u = .reading k mn mx rest := by
        rw [← hr]
        cases hst <;> first | rfl | exact (setRpc_other hu).symm
      obtain ⟨sp, hsp, hle⟩ := h u k mn mx rest hr0
      cases hst with
      | core c hr' hpc hc =>
        have hcs := core_step hpc hc
        refine ⟨sp, hcs.savedKept k sp hsp, ?_⟩
        show f.ring.published ≤ sp.head + c.size
        rw [hcs.size]
        exact hle
      | publish x r next hr' hn hok hp =>
        exact absurd (hs u t (by rw [hr0]; simp) (by rw [hr']; simp)) hu
      | _ => exact ⟨sp, hsp, hle⟩
  · obtain ⟨sp, hsp, hle⟩ := h u k mn mx rest hr
    refine ⟨sp, ?_, ?_⟩
    · show c.saved[k]? = some sp
      rw [hc.saved]; exact hsp
    · show f.ring.published ≤ sp.head + c.size
      rw [hc.size]; exact hle

/-! ## whole executions -/

theorem wsched_cons {w w' : AWeak} {a as} (h : w.sched (a :: as) = some w') : ∃ g, w.act a = some g ∧ g.sched as = some w' := by
  simp only [AWeak.sched] at h
  cases hg : w.act a with
  | none => rw [hg] at h; cases h
  | some g => rw [hg] at h; exact ⟨g, rfl, h⟩

theorem wbegun_act {w w' : AWeak} {a} (h : w.act a = some w') : w.begun ≤ w'.begun := by
  have hstep : ∀ {t i ok}, w.step t i ok = some w' → w.begun ≤ w'.begun := by
    intro t i ok h
    unfold AWeak.step at h
    split at h
    · unfold AWeak.outStep at h
      split at h
      · injection h with h; subst h; exact Nat.le_succ _
      · split at h
        · injection h with h; subst h; exact Nat.le_refl _
        · cases h
      all_goals
        obtain ⟨c, _, rfl⟩ := Option.map_eq_some_iff.1 h
        exact Nat.le_refl _
    · unfold AWeak.ringStep at h
      split at h
      · cases h
      · cases h
      · split at h <;> injection h with h <;> subst h <;> exact Nat.le_refl _
      · split at h
        · injection h with h; subst h; exact Nat.le_refl _
        · split at h
          · split at h
            · injection h with h; subst h; exact Nat.le_refl _
            · cases h
          · split at h
            · split at h <;> injection h with h <;> subst h <;> exact Nat.le_refl _
            · cases h
      · split at h
        · split at h
          · injection h with h; subst h; exact Nat.le_refl _
          · cases h
          · injection h with h; subst h; exact Nat.le_refl _
          · injection h with h; subst h; exact Nat.le_refl _
        · cases h
      · injection h with h; subst h; exact Nat.le_refl _
      · split at h
        · split at h <;> injection h with h <;> subst h <;> exact Nat.le_refl _
        · cases h
  cases a with
  | step t i ok => exact hstep h
  | _ =>
    obtain ⟨c, _, rfl⟩ := Option.map_eq_some_iff.1 h
    exact Nat.le_refl _

theorem wbegun_sched : ∀ (as : List AAct) (w w' : AWeak), w.sched as = some w' → w.begun ≤ w'.begun := by
  intro as
  induction as with
  | nil => intro w w' h; simp [AWeak.sched] at h; subst h; exact Nat.le_refl _
  | cons a as ih =>
    intro w w' h
    obtain ⟨g, hg, hs⟩ := wsched_cons h
    exact Nat.le_trans (wbegun_act hg) (ih g w' hs)

/-- everything known of an execution in which save points and requests are made one after another -/
structure WkSim (ready : Nat → Prop) (w : AWeak) (L : List Slot) (P : Nat → APc) : Prop where
  inv : WkInv ready w
  sim : FSim w.fine L P
  fits : RunFits w.fine

theorem wkInv_init (p : Profile) (N : Nat) (s : Stats) : WkInv anyone (AWeak.init p N s) := by
  have ht : ∀ l, (AWeak.init p N s).top l = 0 := by intro l; cases l <;> rfl
  refine ⟨fun u l => Nat.zero_le _, ?_, fun u _ l => (ht l).symm, ?_, id⟩
  · intro v hv; cases hv
  · intro u hu
    have : (APc.idle).measures = true := hu
    cases this

theorem wkSim_init {p : Profile} {N : Nat} (hN : 0 < N) (hN32 : N < 2 ^ 32) (s : Stats) :
    WkSim anyone (AWeak.init p N s) [] (fun _ => .idle) := by
  refine ⟨wkInv_init p N s, fsim_init hN hN32 s, ?_⟩
  intro t k mn mx rest h
  cases h

theorem wksim_sched : ∀ (as rest : List AAct) {ready : Nat → Prop} {w w' : AWeak} {L P}, WkSim ready w L P → OneAfterAnother ready w (as ++ rest) →
    w.sched as = some w' → w'.begun < 2 ^ 32 →
    ∃ ready' L' P' as', WkSim ready' w' L' P' ∧ OneAfterAnother ready' w' rest ∧ Skips as' as ∧
      (w.core.over L P).sched as' = some (w'.core.over L' P') ∧ w.fine.sched as = some w'.fine := by
  intro as
  induction as with
  | nil =>
    intro rest ready w w' L P h ho hs _
    simp [AWeak.sched] at hs
    subst hs
    exact ⟨ready, L, P, [], h, ho, .nil, rfl, rfl⟩
  | cons a as ih =>
    intro rest ready w w' L P h ho hs hb
    obtain ⟨g, hg, hs'⟩ := wsched_cons hs
    have hbg : g.begun < 2 ^ 32 := Nat.lt_of_le_of_lt (wbegun_sched as g w' hs') hb
    obtain ⟨hmay, ho'⟩ := ho
    have hi := h.sim.inv
    have hsing := h.inv.single hi
    obtain ⟨hf, hinv⟩ := wact_fine h.inv hi hmay hg
    obtain ⟨L1, P1, as1, h1, hk, hr1⟩ := h.sim.act (hsing.window hi) (h.fits.notOverrun hsing hi) hf hbg
    obtain ⟨rd, L2, P2, as2, h2, ho2, hk2, hr2, hf2⟩ := ih rest ⟨hinv, h1, h.fits.act hsing hi hf⟩ (ho' g hg) hs' hb
    have hff : w.fine.sched (a :: as) = some w'.fine := by
      simp only [AFine.sched, hf]; exact hf2
    have hr1' : (w.core.over L P).sched as1 = some (g.core.over L1 P1) := hr1
    rcases hk with rfl | ⟨rfl, t, i, ok, rfl⟩
    · exact ⟨rd, L2, P2, a :: as2, h2, ho2, .keep a hk2, sched_append.2 ⟨_, hr1', hr2⟩, hff⟩
    · simp [AConc.sched] at hr1'
      exact ⟨rd, L2, P2, as2, h2, ho2, .skip t i ok hk2, by rw [hr1']; exact hr2, hff⟩

end BigO
