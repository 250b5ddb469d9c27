import Verif.Props.RingConc

/-!
# What `peek_all` returns while enqueues are in flight, exactly (C38)
-/
set_option linter.unusedSimpArgs false
namespace BigO

variable {α : Type} {T : Nat}

/-- while the enqueue that took over a slot has not stored its element, the slot holds the previous one -/
def SInv (N : Nat) (s : RState α T) : Prop := ∀ t e q, s.pc t = .enqReserved e (q + N) → s.ring.slot (q % N) = s.log[q]?

theorem sinv_frame {N : Nat} {s s' : RState α T} (h : SInv N s) (hp : PInv N s) (hslot : s'.ring.slot = s.ring.slot)
    (hlog : s.log <+: s'.log) (hpc : ∀ t e r, s'.pc t = .enqReserved e r → s.pc t = .enqReserved e r) : SInv N s' := by
  intro t e q ht
  have h1 := hpc t e _ ht
  have h2 := (hp.hold t e (q + N) (by rw [h1]; rfl)).2
  have h3 : q + N < s.log.length := (List.getElem?_eq_some_iff.1 h2).1
  rw [hslot, h t e q h1]
  obtain ⟨l, hl⟩ := hlog
  rw [← hl, List.getElem?_append_left (by omega)]

theorem setPc_reserved {s : RState α T} {t : Fin T} {x : RPc α} (hx : ∀ e r, x ≠ .enqReserved e r) {t' : Fin T} {e : α} {r : Nat}
    (h : (s.setPc t x).pc t' = .enqReserved e r) : s.pc t' = .enqReserved e r := by
  rw [setPc_pc] at h
  split at h
  · exact absurd h (hx _ _)
  · exact h

theorem sinv_act {p : Profile} {N : Nat} (hN : 0 < N) {s : RState α T} (hT : s.inFlight ≤ N) (hp : PInv N s) (h : SInv N s)
    (a : RAct α T) (hT' : (s.act p N a).inFlight ≤ N) (hp' : PInv N (s.act p N a)) : SInv N (s.act p N a) := by
  have hN' : N ≠ 0 := by omega
  have hwin := inflight_le hp
  have hwin' := inflight_le hp'
  cases a with
  | enqueue t e =>
    simp only [RState.act] at hwin' hT' ⊢
    cases hpc : s.pc t with
    | idle =>
      rw [hpc] at hwin' hT'
      simp only at hwin' hT' ⊢
      have hlen : s.log.length + 1 ≤ s.ring.published + N := by
        have : (s.log ++ [e]).length ≤ s.ring.published + N := Nat.le_trans hwin' (Nat.add_le_add_left hT' _)
        simpa using this
      intro t' e' q ht
      rw [setPc_pc] at ht
      change s.ring.slot (q % N) = (s.log ++ [e])[q]?
      split at ht
      · have hq : s.ring.reserved = q + N := (RPc.enqReserved.inj ht).2
        rw [hp.res] at hq
        rw [List.getElem?_append_left (by omega)]
        exact hp.slots q (by omega) (by omega) (Or.inl (by omega))
      · have h3 := (List.getElem?_eq_some_iff.1 (hp.hold t' e' (q + N) (by rw [ht]; rfl)).2).1
        rw [List.getElem?_append_left (by omega)]
        exact h t' e' q ht
    | _ => exact h
  | consumer t =>
    simp only [RState.act]
    cases hpc : s.pc t with
    | idle => exact sinv_frame h hp rfl (List.prefix_refl _) (fun _ _ _ x => x)
    | _ => exact h
  | dequeue t c =>
    simp only [RState.act]
    cases hpc : s.pc t with
    | idle =>
      cases hc : s.heads[c]? with
      | none => exact h
      | some hd => exact sinv_frame h hp rfl (List.prefix_refl _) (fun _ _ _ x => setPc_reserved (by simp) x)
    | _ => exact h
  | peekAll t c =>
    simp only [RState.act]
    cases hpc : s.pc t with
    | idle =>
      cases hc : s.heads[c]? with
      | none => exact h
      | some hd => exact sinv_frame h hp rfl (List.prefix_refl _) (fun _ _ _ x => setPc_reserved (by simp) x)
    | _ => exact h
  | next t sp =>
    simp only [RState.act]
    cases hpc : s.pc t with
    | idle => exact h
    | panicked q => exact h
    | enqReserved e r =>
      simp only [RState.nextStep, hN', if_false]
      intro t' e' q ht
      rw [setPc_pc] at ht
      split at ht
      · cases ht
      rename_i hne
      have ht' : s.pc t' = .enqReserved e' (q + N) := ht
      have h1 := hp.hold t e r (by rw [hpc]; rfl)
      have h2 := hp.hold t' e' (q + N) (by rw [ht']; rfl)
      have hr : r < s.log.length := (List.getElem?_eq_some_iff.1 h1.2).1
      have hq : q + N < s.log.length := (List.getElem?_eq_some_iff.1 h2.2).1
      have hdiff : q % N ≠ r % N := by
        intro hmod
        have hmod' : (q + N) % N = r % N := by simpa using hmod
        have : q + N = r := by
          rcases Nat.le_total (q + N) r with hle | hle
          · exact mod_inj_window hmod' hle (by omega)
          · exact (mod_inj_window hmod'.symm hle (by omega)).symm
        subst this
        exact hne (hp.uniq t' t e' e (q + N) (by rw [ht']; rfl) (by rw [hpc]; rfl))
      change (if q % N = r % N then some e else s.ring.slot (q % N)) = s.log[q]?
      rw [if_neg hdiff]
      exact h t' e' q ht'
    | enqWritten e r =>
      simp only [RState.nextStep]
      split
      · exact sinv_frame h hp rfl (List.prefix_refl _) (fun _ _ _ x => setPc_reserved (by simp) x)
      · split
        · exact sinv_frame h hp rfl (List.prefix_refl _) (fun _ _ _ x => setPc_reserved (by simp) x)
        · split
          · exact sinv_frame h hp rfl (List.prefix_refl _) (fun _ _ _ x => setPc_reserved (by simp) x)
          · exact h
    | deqHead c hd =>
      simp only [RState.nextStep]
      split
      · exact sinv_frame h hp rfl (List.prefix_refl _) (fun _ _ _ x => setPc_reserved (by simp) x)
      · split
        · exact sinv_frame h hp rfl (List.prefix_refl _) (fun _ _ _ x => setPc_reserved (by simp) x)
        · exact sinv_frame h hp rfl (List.prefix_refl _) (fun _ _ _ x => setPc_reserved (by simp) x)
    | deqReload c => exact sinv_frame h hp rfl (List.prefix_refl _) (fun _ _ _ x => setPc_reserved (by simp) x)
    | deqTail c hd tl =>
      simp only [RState.nextStep]
      split
      · exact sinv_frame h hp rfl (List.prefix_refl _) (fun _ _ _ x => setPc_reserved (by simp) x)
      · split
        · exact sinv_frame h hp rfl (List.prefix_refl _) (fun _ _ _ x => setPc_reserved (by simp) x)
        · exact sinv_frame h hp rfl (List.prefix_refl _) (fun _ _ _ x => setPc_reserved (by simp) x)
    | deqClaimed c hd tl =>
      simp only [RState.nextStep]
      split
      · exact sinv_frame h hp rfl (List.prefix_refl _) (fun _ _ _ x => setPc_reserved (by simp) x)
      · split
        · exact sinv_frame h hp rfl (List.prefix_refl _) (fun _ _ _ x => setPc_reserved (by simp) x)
        · exact sinv_frame h hp rfl (List.prefix_refl _) (fun _ _ _ x => setPc_reserved (by simp) x)
    | peekHead c hd =>
      simp only [RState.nextStep]
      split
      · exact sinv_frame h hp rfl (List.prefix_refl _) (fun _ _ _ x => setPc_reserved (by simp) x)
      · exact sinv_frame h hp rfl (List.prefix_refl _) (fun _ _ _ x => setPc_reserved (by simp) x)

theorem within_prefix {p : Profile} {N : Nat} {a b : List (RAct α T)} (h : Within p N (a ++ b)) : Within p N a := by
  refine ⟨h.slots, h.size, fun k => ?_, ?_⟩
  · have := h.inFlight (min k a.length)
    rwa [List.take_append_of_le_length (Nat.min_le_right _ _), ← List.take_eq_take_min] at this
  · have := h.few
    rw [run_append] at this
    exact Nat.lt_of_le_of_lt (run_log_prefix (p := p) (N := N) b _).length_le this

theorem sinv_of {p : Profile} {N : Nat} {acts : List (RAct α T)} (hw : Within p N acts) : SInv N ((RState.init α T).run p N acts) := by
  induction acts using List.reverseRecOn with
  | nil => intro t e q h; cases h
  | append_singleton l a ih =>
    have hl := within_prefix hw
    have h1 := (inv_of rfl hl).1
    have h2 := (inv_of rfl hw).1
    have h3 := hl.inFlight l.length
    have h4 := hw.inFlight (l ++ [a]).length
    rw [List.take_length] at h3 h4
    rw [run_append] at h2 h4 ⊢
    exact sinv_act hw.slots h3 h1 (ih hl) a h4 h2

/-- an enqueue has stored its element at position `q` but not published it -/
def RState.storedAt (s : RState α T) (q : Nat) : Prop := ∃ t e, s.pc t = .enqWritten e q

open Classical in
/-- C38, exactly what happens: `peek_all` fails iff more than `N` elements beyond the consumer's position are published when it
looks; otherwise it returns one value per pending element: for each, that element - unless the enqueue that reuses its slot has
already stored its own element, which is then returned in its place, without any sign. (So the property is false, and this says
precisely when.) -/
theorem C38_peek_all_exactly_partial (p : Profile) (N : Nat) (acts : List (RAct α T)) (s : RState α T)
    (hs : (RState.init α T).run p N acts = s) (hw : Within p N acts) (t : Fin T) (sp : Bool) (c h : Nat)
    (hpc : s.pc t = .peekHead c h) :
    h ≤ s.ring.published ∧
    (h + N < s.ring.published → (s.act p N (.next t sp)).events = s.events ++ [.peekErr c]) ∧
    (s.ring.published ≤ h + N → ∃ s1 s2,
      (s.act p N (.next t sp)).events = s.events ++ [.peekOk c h s.ring.published s1 s2] ∧
      s1 ++ s2 = (List.range' h (s.ring.published - h)).map
        (fun i => if s.storedAt (i + N) then s.log[i + N]? else s.log[i]?)) := by
  obtain ⟨hp, hk⟩ := inv_of hs hw
  have hsi : SInv N s := hs ▸ sinv_of hw
  have hme := hk.pcs t
  rw [hpc] at hme
  obtain ⟨hh, m1, m2⟩ := hme
  have hpub := hp.pub
  have hle : h ≤ s.ring.published := Nat.le_trans m2 (hk.headLe _ _ m1)
  have hres := hp.res
  have hN := hw.slots
  have hN' : N ≠ 0 := by omega
  have hNs := hw.size
  have hin : s.log.length ≤ s.ring.published + N := by
    have := hw.inFlight acts.length
    rw [List.take_length, hs] at this
    exact Nat.le_trans (inflight_le hp) (Nat.add_le_add_left this _)
  refine ⟨hle, fun hov => ?_, fun hov => ?_⟩
  · have he : h ≠ s.ring.published := by omega
    have hov' : s.ring.published - h > N := by omega
    simp only [RState.act, hpc, RState.nextStep, peekEvent, Ring.peekAll, hN', if_false, u32Sub, hle, if_true,
      Nat.mod_eq_of_lt hNs, he, hov']
    rfl
  · simp only [RState.act, hpc, RState.nextStep, peekEvent, Ring.peekAll, hN', if_false, u32Sub, hle, if_true,
      Nat.mod_eq_of_lt hNs]
    by_cases he : h = s.ring.published
    · refine ⟨[], [], ?_, ?_⟩
      · simp only [he, if_true]; rfl
      · rw [he, Nat.sub_self]; rfl
    · have hov : ¬ s.ring.published - h > N := by omega
      simp only [he, if_false, hov]
      obtain ⟨d, hd⟩ : ∃ d, h + d = s.ring.published := ⟨s.ring.published - h, by omega⟩
      have hr := range_mod (N := N) (head := h) (d := d) hN (by omega) (by omega)
      have hwin : ((List.range' h d).map (· % N)).map s.ring.slot = (List.range' h (s.ring.published - h)).map
          (fun i => if s.storedAt (i + N) then s.log[i + N]? else s.log[i]?) := by
        rw [show s.ring.published - h = d by omega, List.map_map]
        apply List.map_congr_left
        intro i hi
        rw [List.mem_range'_1] at hi
        simp only [Function.comp_apply]
        by_cases hst : s.storedAt (i + N)
        · rw [if_pos hst]
          obtain ⟨t', e', ht'⟩ := hst
          have h1 := (List.getElem?_eq_some_iff.1 (hp.hold t' e' (i + N) (by rw [ht']; rfl)).2).1
          have := hp.slots (i + N) h1 (by omega) (Or.inr ⟨t', e', ht'⟩)
          rwa [Nat.add_mod_right] at this
        · rw [if_neg hst]
          by_cases hfar : s.log.length ≤ i + N
          · exact hp.slots i (by omega) hfar (Or.inl (by omega))
          · obtain ⟨t', e', ht'⟩ := hp.cover (i + N) (by omega) (by omega)
            cases hx : s.pc t' with
            | enqReserved e2 r2 =>
              rw [hx] at ht'
              simp only [RPc.enq?, Option.some.injEq, Prod.mk.injEq] at ht'
              obtain ⟨rfl, rfl⟩ := ht'
              exact hsi t' _ i hx
            | enqWritten e2 r2 =>
              rw [hx] at ht'
              simp only [RPc.enq?, Option.some.injEq, Prod.mk.injEq] at ht'
              obtain ⟨rfl, rfl⟩ := ht'
              exact absurd ⟨t', _, hx⟩ hst
            | _ => rw [hx] at ht'; simp [RPc.enq?] at ht'
      rw [hd] at hr
      by_cases hlt : h % N < s.ring.published % N
      · rw [if_pos hlt] at hr
        refine ⟨_, _, by simp only [hlt, if_true]; rfl, ?_⟩
        rw [← hwin, hr]; simp [Ring.slice]
      · rw [if_neg hlt] at hr
        refine ⟨_, _, by simp only [hlt, if_false]; rfl, ?_⟩
        rw [← hwin, hr]; simp [Ring.slice]

/-- C38, when the answer is right: a `peek_all` that succeeds returns exactly the pending elements if and only if no enqueue in
flight has stored, in the slot of a pending element, something else. -/
theorem C38_right_iff_partial (p : Profile) (N : Nat) (acts : List (RAct α T)) (s : RState α T)
    (hs : (RState.init α T).run p N acts = s) (hw : Within p N acts) (t : Fin T) (sp : Bool) (c h : Nat)
    (hpc : s.pc t = .peekHead c h) (s1 s2 : List (Option α))
    (hok : (s.act p N (.next t sp)).events = s.events ++ [.peekOk c h s.ring.published s1 s2]) :
    s1 ++ s2 = ((s.log.take s.ring.published).drop h).map some ↔
      ∀ i, h ≤ i → i < s.ring.published → ∀ t' e, s.pc t' = .enqWritten e (i + N) → s.log[i]? = some e := by
  obtain ⟨hle, herr, hgood⟩ := C38_peek_all_exactly_partial p N acts s hs hw t sp c h hpc
  have hp := (inv_of hs hw).1
  have hpub := hp.pub
  have hov : s.ring.published ≤ h + N := by
    by_contra hc
    rw [herr (by omega)] at hok
    simp at hok
  obtain ⟨a, b, h1, h2⟩ := hgood hov
  rw [hok] at h1
  have h3 := List.append_cancel_left h1
  simp only [List.cons.injEq, REv.peekOk.injEq, and_true, true_and] at h3
  obtain ⟨rfl, rfl⟩ := h3
  have hpend : ((s.log.take s.ring.published).drop h).map some = (List.range' h (s.ring.published - h)).map (fun i => s.log[i]?) := by
    apply List.ext_getElem
    · simp; omega
    · intro i h1 h2
      simp only [List.length_map, List.length_range'] at h2
      simp only [List.getElem_map, List.getElem_range', List.getElem_drop, Nat.one_mul, List.getElem_take]
      exact (List.getElem?_eq_getElem _).symm
  rw [h2, hpend]
  constructor
  · intro heq i hi1 hi2 t' e ht'
    have := List.map_inj_left.1 heq i (List.mem_range'_1.2 ⟨hi1, by omega⟩)
    rw [if_pos ⟨t', e, ht'⟩] at this
    rw [← this]
    exact (hp.hold t' e (i + N) (by rw [ht']; rfl)).2
  · intro hall
    apply List.map_congr_left
    intro i hi
    rw [List.mem_range'_1] at hi
    split
    · rename_i hst
      obtain ⟨t', e, ht'⟩ := hst
      rw [hall i hi.1 (by omega) t' e ht', (hp.hold t' e (i + N) (by rw [ht']; rfl)).2]
    · rfl

/-- non-vacuity: both cases occur - in the schedule of `C38_peek_all_can_be_corrupted` before and after the third element is stored -/
example : ∃ s : RState Nat 2, (RState.init Nat 2).run .checked 2 [.consumer 0, .enqueue 0 1, .next 0 false, .next 0 false, .enqueue 0 2,
      .next 0 false, .next 0 false, .enqueue 0 3, .peekAll 1 0] = s ∧ s.pc 1 = .peekHead 0 0 ∧
    (s.act .checked 2 (.next 1 false)).events.getLast? = some (.peekOk 0 0 2 [some 1, some 2] []) ∧
    (((s.act .checked 2 (.next 0 false)).act .checked 2 (.next 1 false)).events.getLast? = some (.peekOk 0 0 2 [some 3, some 2] [])) :=
  ⟨_, rfl, rfl, by rfl, by rfl⟩

end BigO
