import Verif.Proofs.Chain

set_option linter.unusedSimpArgs false
set_option linter.unusedSectionVars false
set_option linter.unnecessarySimpa false

namespace BigO
open F

variable {E : FloatEnv} (L : FloatLaws E)
include L

/-- both tests of a tier, comparing the quotients themselves -/
theorem quot_dom {x g x' g' : F} (h : (E.div x g).isNum → (E.div x' g').isNum ∧ (E.div x' g').toE ≤ (E.div x g).toE)
    {ps qs : List Prop} (hr : ¬ below E x' g' → ¬ within E x' g' → Dom ps qs) :
    Dom (below E x' g' :: within E x' g' :: ps) (below E x g :: within E x g :: qs) := by
  obtain ⟨t, c, d, ht, hc, -, t0, t1, c0, c1, -, hlow, -⟩ := L.tol_consts
  refine ⟨fun hq => ?_, fun hn => ⟨fun hq => ?_, fun hn2 => hr hn hn2⟩⟩
  · unfold below at *
    rw [oneMinusTol_eq L ht hc t1] at *
    rw [F.lt_def] at *
    obtain ⟨a, b⟩ := h hq.1
    exact ⟨a, trivial, lt_of_le_of_lt b hq.2.2⟩
  · unfold below within at *
    rw [oneMinusTol_eq L ht hc t1] at hn
    rw [ht, abs_le_iff L, sub_one_isNum_iff L] at hq
    rw [ht, abs_le_iff L, sub_one_isNum_iff L]
    obtain ⟨a, b⟩ := h hq.1
    refine ⟨a, ?_, le_trans (sub_one_mono L a hq.1 b) hq.2.2⟩
    have : (fin c).toE ≤ (E.div x' g').toE := by
      rw [F.lt_def] at hn; push Not at hn
      exact hn a trivial
    have := sub_one_mono L (a := fin c) trivial a this
    rw [sub_one_toE L] at this
    exact le_trans hlow this

theorem analyse_anti (P : PowfLaws E) {a b : ℝ} {u2 n1 n2 : F} (ha : 0 < a) (hab : a ≤ b) (h2 : fin 0 ≤ u2)
    (hn : fin 0 ≤ E.div n2 n1) (hfin : ∃ x, u2 = fin x) :
    (analyseComplexity E (fin b) u2 n1 n2).asU32 ≤ (analyseComplexity E (fin a) u2 n1 n2).asU32 := by
  have hb : 0 < b := lt_of_lt_of_le ha hab
  rw [analyse_eq_pick, analyse_eq_pick]
  rcases nonneg_cases h2 with hpos | hz
  · obtain ⟨x, rfl⟩ := hfin
    have hx : 0 < x := by simpa using hpos
    have hna := div_fin_num L hpos ha
    have hnb := div_fin_num L hpos hb
    have hle : (E.div (fin x) (fin b)).toE ≤ (E.div (fin x) (fin a)).toE := by
      rw [div_fin_fin_pos hx ha.ne', div_fin_fin_pos hx hb.ne']
      exact L.rnd_mono _ _ (div_le_div_of_nonneg_left hx.le ha hab)
    have hr : E.div (fin x) (fin b) ≤ E.div (fin x) (fin a) := ⟨hnb, hna, hle⟩
    apply pick_mono
    unfold tests
    refine quot_dom L (fun _ => ⟨hnb, hle⟩) fun hbel _ => ?_
    have hrp := not_below_pos L hbel hnb
    refine tier_dom L _ hrp hr fun _ _ => ?_
    refine tier_dom L _ hrp hr fun _ _ => ?_
    refine tier_dom L _ hrp hr fun _ _ => ?_
    refine tier_dom L _ hrp hr fun _ _ => ?_
    refine tier_dom L _ hrp hr fun _ _ => ?_
    refine tier_dom L _ hrp hr fun _ _ => ?_
    refine quot_dom L ?_ fun _ _ => trivial
    have pa := P.powf_pos (fin a) (E.div n2 n1) (by simpa using ha) hn
    have pb := P.powf_pos (fin b) (E.div n2 n1) (by simpa using hb) hn
    have pm := P.powf_mono (fin a) (fin b) (E.div n2 n1) (by simpa using ha) (by simpa using hab) hn
    generalize E.powf (fin a) (E.div n2 n1) = g at *
    generalize E.powf (fin b) (E.div n2 n1) = g' at *
    have hrpos : ∀ y, 0 < y → 0 ≤ (E.rnd y).toE := by
      intro y hy
      have h0 := L.rnd_nat 0 (by norm_num)
      have := L.rnd_mono 0 y hy.le
      simp at h0; rw [h0] at this; simpa using this
    intro _
    cases g with
    | nan => exact absurd pa.1 (by simp)
    | nzero => exact absurd trivial pa.2
    | inf s =>
      cases s
      · cases g' with
        | nan => exact absurd pb.1 (by simp)
        | nzero => exact absurd trivial pb.2
        | inf s' =>
          cases s'
          · exact ⟨by simp [FloatEnv.div, zero, Xor, not_lt.2 hx.le], le_refl _⟩
          · exact absurd rfl pb.2
        | fin y => simp at pm
      · exact absurd rfl pa.2
    | fin y =>
      have hy : 0 ≤ y := by simpa using pa.2
      cases g' with
      | nan => exact absurd pb.1 (by simp)
      | nzero => exact absurd trivial pb.2
      | inf s' =>
        cases s'
        · refine ⟨by simp [FloatEnv.div, zero, Xor, not_lt.2 hx.le], ?_⟩
          rcases hy.lt_or_eq with hy | rfl
          · rw [div_fin_fin_pos hx hy.ne']
            simpa [FloatEnv.div, zero, Xor, not_lt.2 hx.le] using hrpos _ (by positivity)
          · simp [FloatEnv.div, FloatEnv.divFin, zero, infS, Xor, not_lt.2 hx.le, hx.ne']
        · exact absurd rfl pb.2
      | fin y' =>
        have hyy : y ≤ y' := by simpa using pm
        rcases hy.lt_or_eq with hy | rfl
        · have hy' : 0 < y' := by linarith
          rw [div_fin_fin_pos hx hy.ne', div_fin_fin_pos hx hy'.ne']
          exact ⟨L.rnd_num _, L.rnd_mono _ _ (div_le_div_of_nonneg_left hx.le hy hyy)⟩
        · rcases (show (0:ℝ) ≤ y' from hyy).lt_or_eq with hy' | rfl
          · rw [div_fin_fin_pos hx hy'.ne']
            exact ⟨L.rnd_num _, by simp [FloatEnv.div, FloatEnv.divFin, infS, Xor, not_lt.2 hx.le, hx.ne']⟩
          · exact ⟨by simp [FloatEnv.div, FloatEnv.divFin, infS, Xor, not_lt.2 hx.le, hx.ne'], le_refl _⟩
  · have : pick (tests E (fin b) u2 n1 n2) = 0 := by
      unfold tests pick; simp [zero_below L (show fin 0 < fin b by simpa using hb) hz]
    omega

end BigO
