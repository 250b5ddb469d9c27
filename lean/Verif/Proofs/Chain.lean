import Verif.Proofs.FloatMono

set_option linter.unusedSimpArgs false
set_option linter.unusedSectionVars false
set_option linter.unnecessarySimpa false

namespace BigO
open F

open Classical in
/-- position of the first proposition that holds (length if none) -/
noncomputable def pick : List Prop → ℕ
  | [] => 0
  | p :: ps => if p then 0 else pick ps + 1

/-- `Dom ps qs`: position by position, `q` implies `p` as long as no earlier `p` holds -/
def Dom : List Prop → List Prop → Prop
  | [], [] => True
  | p :: ps, q :: qs => (q → p) ∧ (¬ p → Dom ps qs)
  | _, _ => False

theorem pick_mono : ∀ {ps qs : List Prop}, Dom ps qs → pick ps ≤ pick qs
  | [], [], _ => le_refl _
  | p :: ps, q :: qs, h => by
    unfold pick
    by_cases hp : p
    · simp [hp]
    · have hq : ¬ q := fun hq => hp (h.1 hq)
      simp [hp, hq]
      exact pick_mono (h.2 hp)
  | [], _ :: _, h => h.elim
  | _ :: _, [], h => h.elim

theorem pick_le_iff {ps : List Prop} {k : ℕ} (hk : k < ps.length) : pick ps ≤ k ↔ ∃ i, ∃ h : i < ps.length, i ≤ k ∧ ps[i] := by
  induction ps generalizing k with
  | nil => simp at hk
  | cons p ps ih =>
    unfold pick
    by_cases hp : p
    · simp only [hp, if_true]
      constructor
      · intro _; exact ⟨0, by simp, by omega, by simpa using hp⟩
      · intro _; omega
    · simp only [hp, if_false]
      cases k with
      | zero =>
        constructor
        · intro h; omega
        · rintro ⟨i, h, hi, hpi⟩
          have : i = 0 := by omega
          subst this
          exact absurd (by simpa using hpi) hp
      | succ k =>
        have := ih (k := k) (by simpa using hk)
        constructor
        · intro h
          obtain ⟨i, h1, h2, h3⟩ := this.1 (by omega)
          exact ⟨i+1, by simpa using h1, by omega, by simpa using h3⟩
        · rintro ⟨i, h, hi, hpi⟩
          cases i with
          | zero => exact absurd (by simpa using hpi) hp
          | succ i =>
            have := this.2 ⟨i, by simpa using h, by omega, by simpa using hpi⟩
            omega

variable (E : FloatEnv)

/-- the two tests of a tier: quotient `x / g` below `1 - tol`; within tolerance of 1 -/
def below (x g : F) : Prop := E.div x g < oneMinusTol E
def within (x g : F) : Prop := F.abs (E.sub (E.div x g) (fin 1)) ≤ E.tol

/-- the tests of `analyse_complexity`, in order -/
noncomputable def tests (u1 u2 n1 n2 : F) : List Prop :=
  let r := E.div u2 u1
  [below E u2 u1, within E u2 u1,
   below E r (E.div (E.log2 n2) (E.log2 n1)), within E r (E.div (E.log2 n2) (E.log2 n1)),
   below E r (E.div n2 n1), within E r (E.div n2 n1),
   below E r (E.div (E.mul n2 (E.log2 n2)) (E.mul n1 (E.log2 n1))),
   within E r (E.div (E.mul n2 (E.log2 n2)) (E.mul n1 (E.log2 n1))),
   below E r (E.powi (E.div n2 n1) 2), within E r (E.powi (E.div n2 n1) 2),
   below E r (E.powi (E.div n2 n1) 3), within E r (E.powi (E.div n2 n1) 3),
   below E r (E.powi (E.div n2 n1) 4), within E r (E.powi (E.div n2 n1) 4),
   below E u2 (E.powf u1 (E.div n2 n1)), within E u2 (E.powf u1 (E.div n2 n1))]

open Classical in
theorem rank_ite {p : Prop} {c d : Complexity} {k : ℕ} {ps : List Prop} (hc : c.asU32 = k)
    (hd : d.asU32 = (k + 1) + pick ps) : (if p then c else d).asU32 = k + pick (p :: ps) := by
  unfold pick
  by_cases hp : p
  · simp [hp, hc]
  · simp only [hp, if_false, hd]; omega

theorem analyse_eq_pick (u1 u2 n1 n2 : F) :
    (analyseComplexity E u1 u2 n1 n2).asU32 = pick (tests E u1 u2 n1 n2) := by
  rw [← Nat.zero_add (pick _)]
  unfold analyseComplexity tests
  iterate 16 refine rank_ite rfl ?_
  rfl

variable {E} (L : FloatLaws E)
include L

theorem tier_dom (g : F) {a b : F} (ha : fin 0 < a) (hab : a ≤ b) {ps qs : List Prop}
    (h : ¬ below E a g → ¬ within E a g → Dom ps qs) :
    Dom (below E a g :: within E a g :: ps) (below E b g :: within E b g :: qs) :=
  ⟨tier_first L g ha hab, fun h1 => ⟨tier_second L g ha hab h1, h h1⟩⟩

omit L in
theorem F.le_of_pos {a b : F} (ha : fin 0 < a) (hab : a ≤ b) : fin 0 < b := by
  rw [F.lt_def] at *; rw [F.le_def] at hab; exact ⟨ha.1, hab.2.1, lt_of_lt_of_le ha.2.2 hab.2.2⟩

/-- the quotient of the first tier is positive if the first test fails (and it is a number) -/
theorem not_below_pos {a g : F} (h : ¬ below E a g) (hn : (E.div a g).isNum) : fin 0 < E.div a g := by
  obtain ⟨t, c, d, ht, hc, -, t0, t1, c0, c1, -⟩ := L.tol_consts
  unfold below at h
  rw [oneMinusTol_eq L ht hc t1, F.lt_def] at h
  push Not at h
  rw [F.lt_def]
  exact ⟨trivial, hn, lt_of_lt_of_le (by simpa using c0) (h hn trivial)⟩

omit L in
theorem nonneg_cases {x : F} (h : fin 0 ≤ x) : fin 0 < x ∨ x = fin 0 ∨ x = nzero := by
  cases x with
  | nan => simp at h
  | inf s => cases s <;> simp_all [F.le_def, F.lt_def]
  | nzero => simp
  | fin x =>
    simp only [fin_le_fin] at h
    rcases h.lt_or_eq with h | h
    · left; simpa using h
    · right; left; rw [h]

theorem zero_below {u1 z : F} (h1 : fin 0 < u1) (hz : z = fin 0 ∨ z = nzero) : below E z u1 := by
  obtain ⟨t, c, d, ht, hc, -, t0, t1, c0, c1, -⟩ := L.tol_consts
  unfold below
  rw [oneMinusTol_eq L ht hc t1, F.lt_def]
  rcases F.pos_cases h1 with rfl | ⟨x, hx, rfl⟩
  · rcases hz with rfl | rfl <;> simp [FloatEnv.div, zero, Xor, c0]
  · rcases hz with rfl | rfl <;> simp [FloatEnv.div, FloatEnv.divFin, zero, Xor, c0, hx.ne', hx.le, not_lt.2 hx.le]

theorem finite_below_inf {x : ℝ} : below E (fin x) (inf false) := by
  obtain ⟨t, c, d, ht, hc, -, t0, t1, c0, c1, -⟩ := L.tol_consts
  unfold below
  rw [oneMinusTol_eq L ht hc t1, F.lt_def]
  simp only [FloatEnv.div, zero]
  split_ifs <;> simp [c0]

theorem div_fin_num {a : F} {z : ℝ} (ha : fin 0 < a) (hz : 0 < z) : (E.div a (fin z)).isNum := by
  rcases F.pos_cases ha with rfl | ⟨x, hx, rfl⟩
  · simp [FloatEnv.div, infS]
  · rw [div_fin_fin_pos hx hz.ne']; exact L.rnd_num _

/-- main monotonicity lemma -/
theorem analyse_mono {u1 u2 u2' n1 n2 : F} (h1 : fin 0 < u1) (h2 : fin 0 ≤ u2) (h : u2 ≤ u2') :
    (analyseComplexity E u1 u2 n1 n2).asU32 ≤ (analyseComplexity E u1 u2' n1 n2).asU32 := by
  rw [analyse_eq_pick, analyse_eq_pick]
  rcases nonneg_cases h2 with hpos | hz
  · have hpos' := F.le_of_pos hpos h
    rcases F.pos_cases h1 with rfl | ⟨z, hz, rfl⟩
    · rcases F.pos_cases hpos with rfl | ⟨x, hx, rfl⟩
      · rcases F.pos_cases hpos' with rfl | ⟨y, hy, rfl⟩
        · exact le_refl _
        · rw [F.le_def] at h; simp at h
      · have : pick (tests E (inf false) (fin x) n1 n2) = 0 := by
          unfold tests pick; simp [finite_below_inf L]
        omega
    · have hn := div_fin_num L hpos hz
      have hn' := div_fin_num L hpos' hz
      have hr : E.div u2 (fin z) ≤ E.div u2' (fin z) := ⟨hn, hn', ratio_mono L h1 hpos h hn hn'⟩
      apply pick_mono
      unfold tests
      refine tier_dom L _ hpos h fun hb _ => ?_
      have hrp := not_below_pos L hb hn
      refine tier_dom L _ hrp hr fun _ _ => ?_
      refine tier_dom L _ hrp hr fun _ _ => ?_
      refine tier_dom L _ hrp hr fun _ _ => ?_
      refine tier_dom L _ hrp hr fun _ _ => ?_
      refine tier_dom L _ hrp hr fun _ _ => ?_
      refine tier_dom L _ hrp hr fun _ _ => ?_
      exact tier_dom L _ hpos h fun _ _ => trivial
  · have : pick (tests E u1 u2 n1 n2) = 0 := by
      unfold tests pick; simp [zero_below L h1 hz]
    omega

end BigO
