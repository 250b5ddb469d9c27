import Verif.Props.OnModel
import Mathlib.Data.Nat.Choose.Central
import Mathlib.Data.Nat.Factorial.BigOperators
/-!
# C95, logarithmic cost: from how many elements on the verdict is right

Create and delete passes over operations of cost `a * log m`: the two passes cost `a * log n!` and `a * log ((2n)! / n!)`. For the two
tolerances the crate ships with, the exact numbers of elements at which the verdict changes. The ranges that the estimates leave open are
finite and are settled case by case, by comparing powers of natural numbers; the theorems are for all numbers of elements.
-/
namespace BigO
open F

/-- the elements of the first pass multiplied, and those of the second -/
def secondProd (n : ℕ) : ℕ := (n + 1).ascFactorial n

theorem secondProd_mul (n : ℕ) : n.factorial * secondProd n = (2 * n).factorial := by
  rw [secondProd, Nat.factorial_mul_ascFactorial, two_mul]

theorem secondProd_succ (n : ℕ) : secondProd (n + 1) = secondProd n * (2 * (2 * n + 1)) := by
  have h1 := secondProd_mul (n + 1)
  have h2 := secondProd_mul n
  rw [show 2 * (n + 1) = 2 * n + 1 + 1 by ring, Nat.factorial_succ n, Nat.factorial_succ (2 * n + 1), Nat.factorial_succ (2 * n), ← h2] at h1
  have hp : 0 < (n + 1) * n.factorial := Nat.mul_pos (Nat.succ_pos n) n.factorial_pos
  refine Nat.eq_of_mul_eq_mul_left hp (h1.trans ?_)
  ring

theorem secondProd_pos (n : ℕ) : 0 < secondProd n := by
  have := secondProd_mul n
  exact Nat.pos_of_ne_zero fun h => (2 * n).factorial_ne_zero (by rw [← this, h, mul_zero])

theorem secondProd_central (n : ℕ) : secondProd n = n.factorial * n.centralBinom := by
  have h1 := secondProd_mul n
  have h2 := Nat.choose_mul_factorial_mul_factorial (n := 2 * n) (k := n) (by omega)
  rw [show 2 * n - n = n by omega, ← Nat.centralBinom_eq_two_mul_choose] at h2
  refine Nat.eq_of_mul_eq_mul_left n.factorial_pos ?_
  rw [h1, ← h2]; ring

/-- the usages of the two passes, and their ratio -/
theorem log_usages {a : ℝ} (ha : 0 < a) {n : ℕ} (hn : 2 ≤ n) :
    0 < resizingUsage (fun m => a * Real.logb 2 m) n 0 ∧ 0 ≤ resizingUsage (fun m => a * Real.logb 2 m) n 1 ∧
    0 < Real.log (n.factorial : ℝ) ∧
    resizingUsage (fun m => a * Real.logb 2 m) n 1 / resizingUsage (fun m => a * Real.logb 2 m) n 0 =
      Real.log (secondProd n : ℝ) / Real.log (n.factorial : ℝ) := by
  have hl2 : 0 < Real.log 2 := Real.log_pos (by norm_num)
  have e0 : ∏ i ∈ Finset.range n, (0 * n + i + 1) = n.factorial := by
    rw [← Finset.prod_range_add_one_eq_factorial]
    exact Finset.prod_congr rfl fun i _ => by ring
  have e1 : ∏ i ∈ Finset.range n, (1 * n + i + 1) = secondProd n := by
    rw [secondProd, Nat.ascFactorial_eq_prod_range]
    exact Finset.prod_congr rfl fun i _ => by ring
  have hA : 0 < Real.log (n.factorial : ℝ) := by
    apply Real.log_pos
    have : 2 ≤ n.factorial := hn.trans n.self_le_factorial
    exact_mod_cast (by omega : 1 < n.factorial)
  have hB : 0 ≤ Real.log (secondProd n : ℝ) := Real.log_nonneg (by exact_mod_cast secondProd_pos n)
  rw [usage_log, usage_log, log_sum_prod, log_sum_prod, e0, e1]
  exact ⟨by positivity, by positivity, hA, mul_div_mul_left _ _ (by positivity)⟩

/-! ## Comparing logarithms by comparing powers -/

def powBits : List ℕ :=
  [262144, 131072, 65536, 32768, 16384, 8192, 4096, 2048, 1024, 512, 256, 128, 64, 32, 16, 8, 4, 2, 1]

/-- the binary logarithm of `x ^ k`, rounded down (checked by its users, never relied upon) -/
def logDown (x k : ℕ) : ℕ := powBits.foldl (fun p b => bif Nat.ble (2 ^ (p + b)) (x ^ k) then p + b else p) 0

theorem log_ge_of_pow {x k p : ℕ} (h : Nat.ble (2 ^ p) (x ^ k) = true) : (p:ℝ) * Real.log 2 ≤ k * Real.log x := by
  have h := Nat.le_of_ble_eq_true h
  rw [← Real.log_pow, ← Real.log_pow]
  exact Real.log_le_log (by positivity) (by exact_mod_cast h)

theorem log_le_of_pow {x k p : ℕ} (hx : 0 < x) (h : Nat.ble (x ^ k) (2 ^ p) = true) : (k:ℝ) * Real.log x ≤ p * Real.log 2 := by
  have h := Nat.le_of_ble_eq_true h
  rw [← Real.log_pow, ← Real.log_pow]
  exact Real.log_le_log (by positivity) (by exact_mod_cast h)

/-- evidence for `log B / log A < (1 + p/q) * log (3n) / log n` -/
def ratioBelow (p q n A B : ℕ) : Bool :=
  Nat.ble (2 ^ logDown A 200) (A ^ 200) && Nat.ble (B ^ 200) (2 ^ (logDown B 200 + 1)) &&
  Nat.ble (n ^ 20000) (2 ^ (logDown n 20000 + 1)) && Nat.ble (2 ^ logDown (3 * n) 20000) ((3 * n) ^ 20000) &&
  Nat.blt (q * (logDown B 200 + 1) * (logDown n 20000 + 1)) ((q + p) * logDown (3 * n) 20000 * logDown A 200)

/-- evidence for the converse, and for `1 + p/q < log B / log A` -/
def ratioAbove (p q n A B : ℕ) : Bool :=
  Nat.blt (A ^ (q + p)) (B ^ q) &&
  Nat.ble (A ^ 200) (2 ^ (logDown A 200 + 1)) && Nat.ble (2 ^ logDown B 200) (B ^ 200) &&
  Nat.ble (2 ^ logDown n 20000) (n ^ 20000) && Nat.ble ((3 * n) ^ 20000) (2 ^ (logDown (3 * n) 20000 + 1)) &&
  Nat.ble ((q + p) * (logDown (3 * n) 20000 + 1) * (logDown A 200 + 1)) (q * logDown B 200 * logDown n 20000)

theorem log_growth_fact {n : ℕ} : Real.logb 2 ((n:ℝ) * 3) / Real.logb 2 n = Real.log ((3 * n : ℕ) : ℝ) / Real.log n := by
  have hl2 : Real.log 2 ≠ 0 := (Real.log_pos (by norm_num)).ne'
  rw [Real.logb, Real.logb, div_div_div_cancel_right₀ hl2]
  congr 2
  push_cast; ring

theorem ratioBelow_sound {p q n A B : ℕ} (hq : 0 < q) (hn : 2 ≤ n) (hA : 2 ≤ A) (hB : 0 < B) (h : ratioBelow p q n A B = true) :
    Real.log B / Real.log A < (1 + (p:ℝ) / q) * (Real.log ((3 * n : ℕ) : ℝ) / Real.log n) := by
  simp only [ratioBelow, Bool.and_eq_true] at h
  obtain ⟨⟨⟨⟨h1, h2⟩, h3⟩, h4⟩, h5⟩ := h
  have g1 := log_ge_of_pow h1
  have g2 := log_le_of_pow hB h2
  have g3 := log_le_of_pow (by omega) h3
  have g4 := log_ge_of_pow h4
  have g5 : q * (logDown B 200 + 1) * (logDown n 20000 + 1) < (q + p) * logDown (3 * n) 20000 * logDown A 200 :=
    by simpa [Nat.blt] using h5
  have hl2 : 0 < Real.log 2 := Real.log_pos (by norm_num)
  have hlA : 0 < Real.log (A:ℝ) := Real.log_pos (by exact_mod_cast (by omega : 1 < A))
  have hln : 0 < Real.log (n:ℝ) := Real.log_pos (by exact_mod_cast (by omega : 1 < n))
  have hl3 : 0 < Real.log ((3 * n : ℕ):ℝ) := Real.log_pos (by exact_mod_cast (by omega : 1 < 3 * n))
  have hlB : 0 ≤ Real.log (B:ℝ) := Real.log_nonneg (by exact_mod_cast hB)
  have hq' : (0:ℝ) < q := by exact_mod_cast hq
  rw [show (1 + (p:ℝ) / q) * (Real.log ((3 * n : ℕ) : ℝ) / Real.log n) = ((q + p) * Real.log ((3 * n : ℕ):ℝ)) / (q * Real.log n) by
    field_simp, div_lt_div_iff₀ hlA (by positivity)]
  have g5' : (q:ℝ) * ((logDown B 200 + 1 : ℕ):ℝ) * ((logDown n 20000 + 1 : ℕ):ℝ) <
      (q + p) * (logDown (3 * n) 20000 : ℕ) * (logDown A 200 : ℕ) := by exact_mod_cast g5
  clear h1 h2 h3 h4 h5 g5
  generalize ((logDown B 200 + 1 : ℕ):ℝ) = b at *
  generalize ((logDown n 20000 + 1 : ℕ):ℝ) = c at *
  have hd : (0:ℝ) ≤ (logDown (3 * n) 20000 : ℕ) := Nat.cast_nonneg _
  have ha : (0:ℝ) ≤ (logDown A 200 : ℕ) := Nat.cast_nonneg _
  generalize ((logDown (3 * n) 20000 : ℕ):ℝ) = d at *
  generalize ((logDown A 200 : ℕ):ℝ) = a at *
  generalize Real.log (A:ℝ) = lA at *
  generalize Real.log (B:ℝ) = lB at *
  generalize Real.log (n:ℝ) = ln at *
  generalize Real.log ((3 * n : ℕ):ℝ) = l3 at *
  generalize Real.log 2 = L at *
  have k1 : ((200:ℕ):ℝ) = 200 := by norm_num
  have k2 : ((20000:ℕ):ℝ) = 20000 := by norm_num
  rw [k1] at g1 g2
  rw [k2] at g3 g4
  have m1 : (200 * lB) * (20000 * ln) ≤ (b * L) * (c * L) := mul_le_mul g2 g3 (by positivity) (le_trans (by positivity) g2)
  have m2 : (d * L) * (a * L) ≤ (20000 * l3) * (200 * lA) := mul_le_mul g4 g1 (by positivity) (by positivity)
  have m3 : (q:ℝ) * ((b * L) * (c * L)) < (q + p) * ((d * L) * (a * L)) := by
    have := mul_lt_mul_of_pos_right g5' (by positivity : 0 < L * L)
    nlinarith
  have hp : (0:ℝ) ≤ q + p := by positivity
  have n1 := mul_le_mul_of_nonneg_left m1 hq'.le
  have n2 := mul_le_mul_of_nonneg_left m2 hp
  nlinarith

theorem ratioAbove_sound {p q n A B : ℕ} (hq : 0 < q) (hn : 2 ≤ n) (hA : 2 ≤ A) (hB : 0 < B) (h : ratioAbove p q n A B = true) :
    1 + (p:ℝ) / q < Real.log B / Real.log A ∧
    (1 + (p:ℝ) / q) * (Real.log ((3 * n : ℕ) : ℝ) / Real.log n) ≤ Real.log B / Real.log A := by
  simp only [ratioAbove, Bool.and_eq_true] at h
  obtain ⟨⟨⟨⟨⟨h0, h1⟩, h2⟩, h3⟩, h4⟩, h5⟩ := h
  have g0 : A ^ (q + p) < B ^ q := by simpa [Nat.blt] using h0
  have g1 := log_le_of_pow (by omega) h1
  have g2 := log_ge_of_pow h2
  have g3 := log_ge_of_pow h3
  have g4 := log_le_of_pow (by omega) h4
  have g5 := Nat.le_of_ble_eq_true h5
  have hl2 : 0 < Real.log 2 := Real.log_pos (by norm_num)
  have hlA : 0 < Real.log (A:ℝ) := Real.log_pos (by exact_mod_cast (by omega : 1 < A))
  have hln : 0 < Real.log (n:ℝ) := Real.log_pos (by exact_mod_cast (by omega : 1 < n))
  have hl3 : 0 < Real.log ((3 * n : ℕ):ℝ) := Real.log_pos (by exact_mod_cast (by omega : 1 < 3 * n))
  have hlB : 0 ≤ Real.log (B:ℝ) := Real.log_nonneg (by exact_mod_cast hB)
  have hq' : (0:ℝ) < q := by exact_mod_cast hq
  constructor
  · rw [lt_div_iff₀ hlA]
    have : Real.log ((A:ℝ) ^ (q + p)) < Real.log ((B:ℝ) ^ q) := Real.log_lt_log (by positivity) (by exact_mod_cast g0)
    rw [Real.log_pow, Real.log_pow] at this
    push_cast at this
    refine lt_of_mul_lt_mul_left (a := (q:ℝ)) ?_ hq'.le
    calc _ = (q + p) * Real.log (A:ℝ) := by field_simp
      _ < _ := this
  rw [show (1 + (p:ℝ) / q) * (Real.log ((3 * n : ℕ) : ℝ) / Real.log n) = ((q + p) * Real.log ((3 * n : ℕ):ℝ)) / (q * Real.log n) by
    field_simp, div_le_div_iff₀ (by positivity) hlA]
  have g5' : ((q:ℝ) + p) * ((logDown (3 * n) 20000 + 1 : ℕ):ℝ) * ((logDown A 200 + 1 : ℕ):ℝ) ≤
      q * (logDown B 200 : ℕ) * (logDown n 20000 : ℕ) := by exact_mod_cast g5
  have hb : (0:ℝ) ≤ (logDown B 200 : ℕ) := Nat.cast_nonneg _
  have hc : (0:ℝ) ≤ (logDown n 20000 : ℕ) := Nat.cast_nonneg _
  generalize ((logDown B 200 : ℕ):ℝ) = b at *
  generalize ((logDown n 20000 : ℕ):ℝ) = c at *
  generalize ((logDown (3 * n) 20000 + 1 : ℕ):ℝ) = d at *
  generalize ((logDown A 200 + 1 : ℕ):ℝ) = a at *
  clear g0 h0 h1 h2 h3 h4 h5 g5
  generalize Real.log (A:ℝ) = lA at *
  generalize Real.log (B:ℝ) = lB at *
  generalize Real.log (n:ℝ) = ln at *
  generalize Real.log ((3 * n : ℕ):ℝ) = l3 at *
  generalize Real.log 2 = L at *
  have k1 : ((200:ℕ):ℝ) = 200 := by norm_num
  have k2 : ((20000:ℕ):ℝ) = 20000 := by norm_num
  rw [k1] at g1 g2
  rw [k2] at g3 g4
  have m1 : (b * L) * (c * L) ≤ (200 * lB) * (20000 * ln) := mul_le_mul g2 g3 (by positivity) (by positivity)
  have m2 : (20000 * l3) * (200 * lA) ≤ (d * L) * (a * L) := mul_le_mul g4 g1 (by positivity) (le_trans (by positivity) g4)
  have m3 : ((q:ℝ) + p) * ((d * L) * (a * L)) ≤ q * ((b * L) * (c * L)) := by
    have := mul_le_mul_of_nonneg_right g5' (by positivity : 0 ≤ L * L)
    nlinarith
  have hp : (0:ℝ) ≤ q + p := by positivity
  have n1 := mul_le_mul_of_nonneg_left m1 hq'.le
  have n2 := mul_le_mul_of_nonneg_left m2 hp
  nlinarith

/-! ## Checking every number of elements in a range -/

/-- check `f` numbers of elements, from `n` on (`A` and `B` being the products of the two passes) -/
def sweep (ck : ℕ → ℕ → ℕ → Bool) : ℕ → ℕ → ℕ → ℕ → Bool
  | 0, _, _, _ => true
  | f + 1, n, A, B => ck n A B && sweep ck f (n + 1) (A * (n + 1)) (B * (2 * (2 * n + 1)))

theorem sweep_sound (ck : ℕ → ℕ → ℕ → Bool) (f n : ℕ) (h : sweep ck f n n.factorial (secondProd n) = true) (m : ℕ)
    (h1 : n ≤ m) (h2 : m < n + f) : ck m m.factorial (secondProd m) = true := by
  induction f generalizing n with
  | zero => omega
  | succ f ih =>
    rw [sweep, Bool.and_eq_true] at h
    rcases Nat.eq_or_lt_of_le h1 with rfl | hlt
    · exact h.1
    · refine ih (n + 1) ?_ hlt (by omega)
      rw [Nat.factorial_succ, secondProd_succ, mul_comm (n + 1)]
      exact h.2

set_option maxRecDepth 100000 in
theorem sweep_tenth_bad : sweep (ratioAbove 1 10) 136 2 (2:ℕ).factorial (secondProd 2) = true := by decide +kernel

set_option maxRecDepth 100000 in
theorem sweep_tenth_good : sweep (ratioBelow 1 10) 118 138 (138:ℕ).factorial (secondProd 138) = true := by decide +kernel

set_option maxRecDepth 100000 in
theorem sweep_quarter_bad : sweep (ratioAbove 1 4) 5 2 (2:ℕ).factorial (secondProd 2) = true := by decide +kernel

set_option maxRecDepth 100000 in
theorem sweep_quarter_good : sweep (ratioBelow 1 4) 131 7 (7:ℕ).factorial (secondProd 7) = true := by decide +kernel

set_option maxRecDepth 100000 in
theorem sweep_quarter_grows : sweep (fun _ A B => Nat.blt (A ^ 5) (B ^ 4)) 670 7 (7:ℕ).factorial (secondProd 7) = true := by decide +kernel

set_option maxRecDepth 100000 in
theorem sweep_quarter_level : sweep (fun _ A B => Nat.ble (B ^ 4) (A ^ 5)) 23 677 (677:ℕ).factorial (secondProd 677) = true := by
  decide +kernel

/-! ## Estimates for large numbers of elements -/

theorem log_factorial_le {n : ℕ} (hn : 1 ≤ n) : Real.log (n.factorial : ℝ) ≤ (n + 1) * Real.log n - n + 1 := by
  induction n, hn using Nat.le_induction with
  | base => simp
  | succ n hn ih =>
    have hn' : (0:ℝ) < n := by exact_mod_cast hn
    have h1 : (1:ℝ) / (n + 1) ≤ Real.log (n + 1) - Real.log n := by
      rw [← Real.log_div (by positivity) (by positivity)]
      have := Real.one_sub_inv_le_log_of_pos (show (0:ℝ) < (n + 1) / n by positivity)
      refine le_trans (le_of_eq ?_) this
      field_simp; ring
    rw [div_le_iff₀ (by positivity)] at h1
    rw [Nat.factorial_succ, Nat.cast_mul, Real.log_mul (by positivity) (by positivity)]
    push_cast
    nlinarith

theorem log_factorial_ge (n : ℕ) : (n:ℝ) * Real.log n - n ≤ Real.log (n.factorial : ℝ) := by
  have h := log_sum_ge n
  have e := log_sum_prod n 0
  have e0 : ∏ i ∈ Finset.range n, (0 + i + 1) = n.factorial := by
    rw [← Finset.prod_range_add_one_eq_factorial]
    exact Finset.prod_congr rfl fun i _ => by ring
  rw [e0] at e
  simp only [zero_add] at e
  rwa [← e]

theorem log_second_le (n : ℕ) : Real.log (secondProd n : ℝ) ≤ Real.log (n.factorial : ℝ) + n * Real.log 4 := by
  have h : secondProd n ≤ n.factorial * 4 ^ n := by
    rw [secondProd_central]; exact Nat.mul_le_mul_left _ (Nat.centralBinom_le_four_pow n)
  have hp := secondProd_pos n
  have : Real.log (secondProd n : ℝ) ≤ Real.log ((n.factorial * 4 ^ n : ℕ) : ℝ) :=
    Real.log_le_log (by exact_mod_cast hp) (by exact_mod_cast h)
  rwa [Nat.cast_mul, Real.log_mul (by positivity) (by positivity), Nat.cast_pow, Real.log_pow] at this

theorem log_second_ge {n : ℕ} (hn : 4 ≤ n) :
    Real.log (n.factorial : ℝ) + n * Real.log 4 - Real.log n ≤ Real.log (secondProd n : ℝ) := by
  have h : n.factorial * 4 ^ n ≤ n * secondProd n := by
    rw [secondProd_central, mul_left_comm]; exact Nat.mul_le_mul_left _ (Nat.four_pow_lt_mul_centralBinom n hn).le
  have : Real.log ((n.factorial * 4 ^ n : ℕ) : ℝ) ≤ Real.log ((n * secondProd n : ℕ) : ℝ) :=
    Real.log_le_log (by exact_mod_cast Nat.mul_pos n.factorial_pos (by positivity)) (by exact_mod_cast h)
  have hp := secondProd_pos n
  rw [Nat.cast_mul, Real.log_mul (by positivity) (by positivity), Nat.cast_pow, Real.log_pow, Nat.cast_mul,
    Real.log_mul (by positivity) (by exact_mod_cast hp.ne')] at this
  push_cast at this
  linarith

/-! ## The verdict, in terms of the products of the two passes -/

theorem log_verdict {tol a : ℝ} (ht : 0 < tol) (ht1 : tol < 1) (ha : 0 < a) {n : ℕ} (hn : 2 ≤ n) :
    let v := analyseSetResizing (exactEnv tol) (fin (resizingUsage (fun m => a * Real.logb 2 m) n 0))
      (fin (resizingUsage (fun m => a * Real.logb 2 m) n 1)) (fin n)
    let r := Real.log (secondProd n : ℝ) / Real.log (n.factorial : ℝ)
    (v = .o1 ↔ r ≤ 1 + tol) ∧
    (v.asU32 ≤ Complexity.betweenO1AndOLogN.asU32 ↔ r ≤ 1 + tol ∨ r < Real.log ((3 * n : ℕ):ℝ) / Real.log n) ∧
    (v.asU32 ≤ Complexity.oLogN.asU32 ↔ r ≤ 1 + tol ∨ r < (1 + tol) * (Real.log ((3 * n : ℕ):ℝ) / Real.log n)) := by
  obtain ⟨p1, p2, pA, e⟩ := log_usages ha hn
  have h := C10_acceptance tol _ _ n ht ht1 p1 p2 (by exact_mod_cast hn)
  dsimp only at h ⊢
  rw [e, log_growth_fact] at h
  refine ⟨?_, h.2.2.1, h.2.2.2.1⟩
  rw [← h.2.1]
  have hr : 1 ≤ Real.log (secondProd n : ℝ) / Real.log (n.factorial : ℝ) := by
    rw [le_div_iff₀ pA, one_mul]
    apply Real.log_le_log (by positivity)
    have : n.factorial ≤ secondProd n := by
      rw [secondProd_central]; exact Nat.le_mul_of_pos_right _ (Nat.centralBinom_pos n)
    exact_mod_cast this
  constructor
  · intro hv; rw [hv]
  · intro hv
    have g0 := mt h.1.1 (show ¬ _ < (1:ℝ) by nlinarith)
    have e0 : Complexity.betterThanO1.asU32 = 0 := rfl
    have e1 : Complexity.o1.asU32 = 1 := rfl
    exact asU32_injective (by omega)

theorem factorial_ge_two {n : ℕ} (hn : 2 ≤ n) : 2 ≤ n.factorial := hn.trans n.self_le_factorial

theorem tenth_good {tol : ℝ} (ht : 1 / 10 ≤ tol) (ht1 : tol < 1) {a : ℝ} (ha : 0 < a) {n : ℕ} (hn : 138 ≤ n) :
    (analyseSetResizing (exactEnv tol) (fin (resizingUsage (fun m => a * Real.logb 2 m) n 0))
      (fin (resizingUsage (fun m => a * Real.logb 2 m) n 1)) (fin n)).asU32 ≤ Complexity.oLogN.asU32 := by
  rcases Nat.lt_or_ge n 256 with h | h
  · rw [(log_verdict (by linarith) ht1 ha (by omega)).2.2]
    right
    have := ratioBelow_sound (by norm_num) (by omega) (factorial_ge_two (by omega)) (secondProd_pos n)
      (sweep_sound _ _ _ sweep_tenth_good n hn (by omega))
    refine lt_of_lt_of_le this (mul_le_mul_of_nonneg_right ?_ ?_)
    · push_cast; linarith
    · exact div_nonneg (Real.log_nonneg (by exact_mod_cast (by omega : 1 ≤ 3 * n))) (Real.log_nonneg (by exact_mod_cast (by omega : 1 ≤ n)))
  · exact log_accepted_256 tol a ht ht1 ha n h

/-- **C95** (logarithmic cost): not reported worse than `O(log n)`, if each pass has at least 138 elements. Missing: fewer elements, for
which it is false (`C95_log_counterexample`). -/
theorem C95_log_partial (tol a : ℝ) (ht : 1 / 10 ≤ tol) (ht1 : tol < 1) (ha : 0 < a) (n : ℕ) (hn : 138 ≤ n) :
    (analyseSetResizing (exactEnv tol) (fin (resizingUsage (fun m => a * Real.logb 2 m) n 0))
      (fin (resizingUsage (fun m => a * Real.logb 2 m) n 1)) (fin n)).asU32 ≤ Complexity.oLogN.asU32 :=
  tenth_good ht ht1 ha hn

/-- **C95** (logarithmic cost) with the lenient tolerance: 7 elements suffice. Missing: fewer elements, for which it is false
(`C95_log_counterexample_quarter`). -/
theorem C95_log_quarter_partial (tol a : ℝ) (ht : 1 / 4 ≤ tol) (ht1 : tol < 1) (ha : 0 < a) (n : ℕ) (hn : 7 ≤ n) :
    (analyseSetResizing (exactEnv tol) (fin (resizingUsage (fun m => a * Real.logb 2 m) n 0))
      (fin (resizingUsage (fun m => a * Real.logb 2 m) n 1)) (fin n)).asU32 ≤ Complexity.oLogN.asU32 := by
  rcases Nat.lt_or_ge n 138 with h | h
  · rw [(log_verdict (by linarith) ht1 ha (by omega)).2.2]
    right
    have := ratioBelow_sound (by norm_num) (by omega) (factorial_ge_two (by omega)) (secondProd_pos n)
      (sweep_sound _ _ _ sweep_quarter_good n hn (by omega))
    refine lt_of_lt_of_le this (mul_le_mul_of_nonneg_right ?_ ?_)
    · push_cast; linarith
    · exact div_nonneg (Real.log_nonneg (by exact_mod_cast (by omega : 1 ≤ 3 * n))) (Real.log_nonneg (by exact_mod_cast (by omega : 1 ≤ n)))
  · exact tenth_good (by linarith) ht1 ha h

theorem ratioAbove_worse {p q : ℕ} (hq : 0 < q) {tol : ℝ} (ht : 0 < tol) (hpq : tol ≤ (p:ℝ) / q) (ht1 : tol < 1) {a : ℝ} (ha : 0 < a)
    {n : ℕ} (hn : 2 ≤ n) (h : ratioAbove p q n n.factorial (secondProd n) = true) :
    Complexity.oLogN.asU32 < (analyseSetResizing (exactEnv tol) (fin (resizingUsage (fun m => a * Real.logb 2 m) n 0))
      (fin (resizingUsage (fun m => a * Real.logb 2 m) n 1)) (fin n)).asU32 := by
  rw [← not_le, (log_verdict ht ht1 ha hn).2.2]
  obtain ⟨h1, h2⟩ := ratioAbove_sound hq hn (factorial_ge_two hn) (secondProd_pos n) h
  rintro (h | h)
  · linarith
  · refine absurd (lt_of_lt_of_le h (le_trans (mul_le_mul_of_nonneg_right ?_ ?_) h2)) (lt_irrefl _)
    · linarith
    · exact div_nonneg (Real.log_nonneg (by exact_mod_cast (by omega : 1 ≤ 3 * n))) (Real.log_nonneg (by exact_mod_cast (by omega : 1 ≤ n)))

/-- **C95** is false of small sets: with fewer than 138 elements in each pass and a tolerance up to 10%, operations of exactly
logarithmic cost are found worse than `O(log n)`. -/
theorem C95_log_counterexample (tol a : ℝ) (ht : 0 < tol) (ht1 : tol ≤ 1 / 10) (ha : 0 < a) (n : ℕ) (h2 : 2 ≤ n) (hn : n < 138) :
    Complexity.oLogN.asU32 < (analyseSetResizing (exactEnv tol) (fin (resizingUsage (fun m => a * Real.logb 2 m) n 0))
      (fin (resizingUsage (fun m => a * Real.logb 2 m) n 1)) (fin n)).asU32 :=
  ratioAbove_worse (p := 1) (q := 10) (by norm_num) ht (by push_cast; linarith) (by linarith) ha h2
    (sweep_sound _ _ _ sweep_tenth_bad n h2 (by omega))

/-- **C95** is false of small sets with a tolerance up to 25% too: with fewer than 7 elements in each pass. -/
theorem C95_log_counterexample_quarter (tol a : ℝ) (ht : 0 < tol) (ht1 : tol ≤ 1 / 4) (ha : 0 < a) (n : ℕ) (h2 : 2 ≤ n) (hn : n < 7) :
    Complexity.oLogN.asU32 < (analyseSetResizing (exactEnv tol) (fin (resizingUsage (fun m => a * Real.logb 2 m) n 0))
      (fin (resizingUsage (fun m => a * Real.logb 2 m) n 1)) (fin n)).asU32 :=
  ratioAbove_worse (p := 1) (q := 4) (by norm_num) ht (by push_cast; linarith) (by linarith) ha h2
    (sweep_sound _ _ _ sweep_quarter_bad n h2 (by omega))

/-- **C95** (logarithmic cost, large sets): as soon as `(n/e)^tol` reaches 4 (from 696 elements on at 25%, from 2,850,000 on at 10%),
operations of logarithmic cost are reported as `O(1)`: create and delete passes cannot tell them from operations of constant cost. -/
theorem C95_log_looks_constant (tol a : ℝ) (ht : 0 < tol) (ht1 : tol < 1) (ha : 0 < a) (n : ℕ)
    (hN : 4 ≤ ((n:ℝ) / Real.exp 1) ^ tol) :
    analyseSetResizing (exactEnv tol) (fin (resizingUsage (fun m => a * Real.logb 2 m) n 0))
      (fin (resizingUsage (fun m => a * Real.logb 2 m) n 1)) (fin n) = .o1 := by
  have hn : 2 ≤ n := by
    by_contra hc
    have : (n:ℝ) ≤ 1 := by exact_mod_cast (by omega : n ≤ 1)
    have h1 : (n:ℝ) / Real.exp 1 ≤ 1 := by
      rw [div_le_one (Real.exp_pos 1)]
      exact this.trans (Real.one_le_exp (by norm_num))
    have := Real.rpow_le_one (by positivity) h1 ht.le
    linarith
  have hn' : (0:ℝ) < n := by positivity
  rw [(log_verdict ht ht1 ha hn).1]
  obtain ⟨-, -, pA, -⟩ := log_usages ha hn
  rw [div_le_iff₀ pA]
  have hl : Real.log 4 ≤ tol * (Real.log n - 1) := by
    have := Real.log_le_log (by norm_num) hN
    rwa [Real.log_rpow (by positivity), Real.log_div hn'.ne' (Real.exp_pos 1).ne', Real.log_exp] at this
  have h1 := log_second_le n
  have h2 := mul_le_mul_of_nonneg_left (log_factorial_ge n) ht.le
  have h3 := mul_le_mul_of_nonneg_left hl hn'.le
  nlinarith

/-- **C95**, the lenient tolerance of 25%: what is reported for operations of logarithmic cost, for every number of elements. -/
theorem C95_log_thresholds_quarter (a : ℝ) (ha : 0 < a) (n : ℕ) (hn : 2 ≤ n) :
    let v := analyseSetResizing (exactEnv (1 / 4)) (fin (resizingUsage (fun m => a * Real.logb 2 m) n 0))
      (fin (resizingUsage (fun m => a * Real.logb 2 m) n 1)) (fin n)
    (Complexity.oLogN.asU32 < v.asU32 ↔ n < 7) ∧ (v = .o1 ↔ 677 ≤ n) := by
  intro v
  have hpos : 0 < Real.log (n.factorial : ℝ) := (log_usages ha hn).2.2.1
  have hb : n < 7 → Complexity.oLogN.asU32 < v.asU32 :=
    fun h => C95_log_counterexample_quarter (1 / 4) a (by norm_num) (by norm_num) ha n hn h
  refine ⟨⟨fun h => ?_, hb⟩, ⟨fun h => ?_, fun h => ?_⟩⟩
  · by_contra hc
    exact absurd (C95_log_quarter_partial (1 / 4) a (by norm_num) (by norm_num) ha n (by omega)) (not_le.2 h)
  · by_contra hc
    rcases Nat.lt_or_ge n 7 with h7 | h7
    · have := hb h7
      rw [h] at this
      exact absurd this (by decide)
    · have g := sweep_sound _ _ _ sweep_quarter_grows n h7 (by omega)
      have g : n.factorial ^ 5 < secondProd n ^ 4 := by simpa [Nat.blt] using g
      have hle := (log_verdict (by norm_num) (by norm_num) ha hn).1.1 h
      rw [div_le_iff₀ hpos] at hle
      have hlt : Real.log ((n.factorial:ℝ) ^ 5) < Real.log ((secondProd n:ℝ) ^ 4) :=
        Real.log_lt_log (by positivity) (by exact_mod_cast g)
      rw [Real.log_pow, Real.log_pow] at hlt
      push_cast at hlt
      linarith
  · rcases Nat.lt_or_ge n 700 with h7 | h7
    · have g := sweep_sound _ _ _ sweep_quarter_level n h (by omega)
      have g := Nat.le_of_ble_eq_true g
      rw [(log_verdict (by norm_num) (by norm_num) ha hn).1, div_le_iff₀ hpos]
      have hp := secondProd_pos n
      have hlt : Real.log ((secondProd n:ℝ) ^ 4) ≤ Real.log ((n.factorial:ℝ) ^ 5) :=
        Real.log_le_log (by positivity) (by exact_mod_cast g)
      rw [Real.log_pow, Real.log_pow] at hlt
      push_cast at hlt
      linarith
    · refine C95_log_looks_constant (1 / 4) a (by norm_num) (by norm_num) ha n ?_
      have h256 : (256:ℝ) ≤ (n:ℝ) / Real.exp 1 := by
        rw [le_div_iff₀ (Real.exp_pos 1)]
        have := Real.exp_one_lt_d9
        have : (700:ℝ) ≤ n := by exact_mod_cast h7
        linarith
      calc (4:ℝ) = (256:ℝ) ^ (1 / 4 : ℝ) := by
            rw [show (256:ℝ) = 4 ^ (4:ℝ) by norm_num, ← Real.rpow_mul (by norm_num)]; norm_num
        _ ≤ _ := Real.rpow_le_rpow (by norm_num) h256 (by norm_num)

/-- **C95**, the strict tolerance of 10%: with fewer than 138 elements operations of logarithmic cost are reported as worse than
`O(log n)`; from 138 to 2^20 elements on as exactly `O(log n)`; from 2,850,000 elements on as `O(1)`. -/
theorem C95_log_thresholds_tenth (a : ℝ) (ha : 0 < a) (n : ℕ) (hn : 2 ≤ n) :
    let v := analyseSetResizing (exactEnv (1 / 10)) (fin (resizingUsage (fun m => a * Real.logb 2 m) n 0))
      (fin (resizingUsage (fun m => a * Real.logb 2 m) n 1)) (fin n)
    (Complexity.oLogN.asU32 < v.asU32 ↔ n < 138) ∧ (138 ≤ n → n ≤ 2 ^ 20 → v = .oLogN) ∧ (2850400 ≤ n → v = .o1) := by
  intro v
  have hpos : 0 < Real.log (n.factorial : ℝ) := (log_usages ha hn).2.2.1
  have hn' : (0:ℝ) < n := by positivity
  have hl4 : Real.log 4 = 2 * Real.log 2 := by
    rw [show (4:ℝ) = 2 ^ 2 by norm_num, Real.log_pow]; norm_num
  refine ⟨⟨fun h => ?_, fun h => C95_log_counterexample (1 / 10) a (by norm_num) (by norm_num) ha n hn h⟩, fun h1 h2 => ?_, fun h => ?_⟩
  · by_contra hc
    exact absurd (tenth_good (tol := 1 / 10) (by norm_num) (by norm_num) ha (by omega)) (not_le.2 h)
  · have hup : v.asU32 ≤ Complexity.oLogN.asU32 := tenth_good (tol := 1 / 10) (by norm_num) (by norm_num) ha h1
    have hlog : Real.log n ≤ 20 * Real.log 2 := by
      rw [show (20:ℝ) = (20:ℕ) by norm_num, ← Real.log_pow]
      exact Real.log_le_log hn' (by exact_mod_cast h2)
    have hge := log_second_ge (n := n) (by omega)
    have hle := log_factorial_le (n := n) (by omega)
    have hsmall : Real.log n ≤ n / 256 - 1 + 8 * Real.log 2 := by
      have := Real.log_le_sub_one_of_pos (show (0:ℝ) < n / 256 by positivity)
      rw [Real.log_div hn'.ne' (by norm_num), show (256:ℝ) = 2 ^ 8 by norm_num, Real.log_pow] at this
      push_cast at this
      linarith
    have hd := Real.log_two_lt_d9
    have h138 : (138:ℝ) ≤ n := by exact_mod_cast h1
    have hlgn : 0 < Real.log (n:ℝ) := Real.log_pos (by linarith)
    have hlow : ¬ v.asU32 ≤ Complexity.betweenO1AndOLogN.asU32 := by
      rw [(log_verdict (by norm_num) (by norm_num) ha hn).2.1]
      have hprod : (n:ℝ) * Real.log n ≤ n * (20 * Real.log 2) := mul_le_mul_of_nonneg_left hlog hn'.le
      rintro (h | h)
      · rw [div_le_iff₀ hpos] at h
        nlinarith
      · rw [div_lt_div_iff₀ hpos hlgn] at h
        have e3 : Real.log ((3 * n : ℕ):ℝ) = Real.log 3 + Real.log n := by
          push_cast; rw [Real.log_mul (by norm_num) hn'.ne']
        rw [e3] at h
        have h3 := log3_bounds.2
        have hl2 : 0 < Real.log 2 := Real.log_pos (by norm_num)
        have m1 := mul_le_mul_of_nonneg_right hge hlgn.le
        have m2 := mul_le_mul_of_nonneg_left hle (show 0 ≤ Real.log 3 from Real.log_nonneg (by norm_num))
        have m3 : Real.log 3 * ((n + 1) * Real.log n - n + 1) ≤ 8 / 5 * Real.log 2 * ((n + 1) * Real.log n - n + 1) :=
          mul_le_mul_of_nonneg_right h3 (hpos.le.trans hle)
        rw [hl4] at m1
        have hd1 := Real.log_two_gt_d9
        have : 0 < Real.log 2 * (Real.log n * (2 / 5 * n - 8 / 5) + 8 / 5 * (n - 1)) - Real.log n * Real.log n := by
          have : Real.log n * Real.log n ≤ Real.log n * (n / 256 - 1 + 8 * Real.log 2) := mul_le_mul_of_nonneg_left hsmall hlgn.le
          nlinarith
        nlinarith
    have e2 : Complexity.betweenO1AndOLogN.asU32 + 1 = Complexity.oLogN.asU32 := rfl
    exact asU32_injective (by omega)
  · refine C95_log_looks_constant (1 / 10) a (by norm_num) (by norm_num) ha n ?_
    have hb : ((4:ℝ)) ^ (10:ℝ) ≤ (n:ℝ) / Real.exp 1 := by
      rw [le_div_iff₀ (Real.exp_pos 1)]
      have := Real.exp_one_lt_d9
      have : (2850400:ℝ) ≤ n := by exact_mod_cast h
      norm_num
      linarith
    calc (4:ℝ) = ((4:ℝ) ^ (10:ℝ)) ^ (1 / 10 : ℝ) := by
          rw [← Real.rpow_mul (by norm_num)]; norm_num
      _ ≤ _ := Real.rpow_le_rpow (by positivity) hb (by norm_num)

/-- with the tolerance of 25% and 700 elements per pass, a balanced tree is reported as `O(1)`; with 100 elements it is not, and it is
not reported worse than `O(log n)` either; with 10% and 100 elements it is reported as worse -/
example : (analyseSetResizing (exactEnv (1 / 4)) (fin (resizingUsage (fun m => 3 * Real.logb 2 m) 700 0))
      (fin (resizingUsage (fun m => 3 * Real.logb 2 m) 700 1)) (fin (700 : ℕ)) = .o1) ∧
    (analyseSetResizing (exactEnv (1 / 4)) (fin (resizingUsage (fun m => 3 * Real.logb 2 m) 100 0))
      (fin (resizingUsage (fun m => 3 * Real.logb 2 m) 100 1)) (fin (100 : ℕ)) ≠ .o1) ∧
    (Complexity.oLogN.asU32 < (analyseSetResizing (exactEnv (1 / 10)) (fin (resizingUsage (fun m => 3 * Real.logb 2 m) 100 0))
      (fin (resizingUsage (fun m => 3 * Real.logb 2 m) 100 1)) (fin (100 : ℕ))).asU32) :=
  ⟨(C95_log_thresholds_quarter 3 (by norm_num) 700 (by norm_num)).2.2 (by norm_num),
   mt (C95_log_thresholds_quarter 3 (by norm_num) 100 (by norm_num)).2.1 (by norm_num),
   (C95_log_thresholds_tenth 3 (by norm_num) 100 (by norm_num)).1.2 (by norm_num)⟩

end BigO
