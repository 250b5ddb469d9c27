import Verif.Proofs.ReadBack
import Verif.Props.DisplayShipped
import Verif.Props.PassTime
import Verif.Props.Verdict

/-!
# C69: the figures of a report can be read back
-/
namespace BigO
open F

/-! ## single figures -/

theorem durUnit_cases (d : Duration) : (durUnit d = (9, ['s']) ∧ 10 ^ 9 ≤ d) ∨ (durUnit d = (6, ['m', 's']) ∧ 10 ^ 6 ≤ d) ∨
    (durUnit d = (3, ['µ', 's']) ∧ 10 ^ 3 ≤ d) ∨ durUnit d = (0, ['n', 's']) := by
  unfold durUnit
  split_ifs with h1 h2 h3
  · exact Or.inl ⟨rfl, h1⟩
  · exact Or.inr (Or.inl ⟨rfl, h2⟩)
  · exact Or.inr (Or.inr (Or.inl ⟨rfl, h3⟩))
  · exact Or.inr (Or.inr (Or.inr rfl))

theorem durUnit_head (d : Duration) : NotDigitHead (durUnit d).2 ∧ (durUnit d).2.head? ≠ some '.' := by
  rcases durUnit_cases d with ⟨h, -⟩ | ⟨h, -⟩ | ⟨h, -⟩ | h <;> rw [h] <;> refine ⟨?_, by decide⟩ <;>
    (intro c hc; simp at hc; subst hc; decide)

theorem durUnit_lookup (d : Duration) :
    [(['n', 's'], (1:ℝ)), (['µ', 's'], 10 ^ 3), (['m', 's'], 10 ^ 6), (['s'], 10 ^ 9)].lookup (durUnit d).2 = some (10 ^ (durUnit d).1) := by
  rcases durUnit_cases d with ⟨h, -⟩ | ⟨h, -⟩ | ⟨h, -⟩ | h <;> rw [h] <;> simp [List.lookup]

/-- **C69** (durations): a duration in a report is shown exactly. -/
theorem C69_duration (d : Duration) : readDuration (stdDur d) = some (d : ℝ) := by
  obtain ⟨h1, h2⟩ := durUnit_head d
  unfold readDuration readQuantity stdDur
  rw [String.toList_ofList, read_decimal (Nat.mod_lt _ (by positivity)) h1 h2, durUnit_lookup]
  simp only [Option.map_some, Option.some.injEq]
  generalize (durUnit d).1 = k
  have hp : (0:ℝ) < 10 ^ k := by positivity
  have h : (d : ℝ) = 10 ^ k * ((d / 10 ^ k : ℕ) : ℝ) + ((d % 10 ^ k : ℕ) : ℝ) := by
    exact_mod_cast (Nat.div_add_mod d (10 ^ k)).symm
  rw [add_mul, div_mul_cancel₀ _ hp.ne']
  linarith

/-- **C69** (rounded durations): with three decimals, a duration is shown to within one part in 2000. -/
theorem C69_duration_rounded (up : TieRule) (d : Duration) :
    ∃ y, readDuration (stdDur3 up d) = some y ∧ |y - (d : ℝ)| ≤ (d : ℝ) / 2000 := by
  obtain ⟨h1, h2⟩ := durUnit_head d
  refine ⟨_, by
    unfold readDuration readQuantity stdDur3
    rw [String.toList_ofList, read_fixed _ _ h1 h2, durUnit_lookup]; rfl, ?_⟩
  simp only
  by_cases h0 : durUnit d = (0, ['n', 's'])
  · rw [h0]
    have hb := roundTie_best up (x := (d : ℝ) * 10 ^ 3 / 10 ^ 0) (by positivity) ((d * 10 ^ 3 : ℕ) : ℤ)
    have ec : (((d * 10 ^ 3 : ℕ) : ℤ) : ℝ) = (d : ℝ) * 10 ^ 3 := by push_cast; norm_num
    rw [ec, pow_zero, div_one, sub_self, abs_zero] at hb
    have := abs_nonpos_iff.1 hb
    rw [show ((roundTie up ((d:ℝ) * 10 ^ 3 / 10 ^ 0) : ℕ) : ℝ) = (d : ℝ) * 10 ^ 3 by rw [pow_zero, div_one]; linarith]
    have : (d : ℝ) * 10 ^ 3 / 10 ^ 3 * 10 ^ 0 - d = 0 := by norm_num
    rw [this, abs_zero]; positivity
  have hU : (10:ℝ) ^ (durUnit d).1 ≤ d := by
    rcases durUnit_cases d with ⟨h, hd⟩ | ⟨h, hd⟩ | ⟨h, hd⟩ | h
    · rw [h]; exact_mod_cast hd
    · rw [h]; exact_mod_cast hd
    · rw [h]; exact_mod_cast hd
    · exact absurd h h0
  generalize (durUnit d).1 = k at *
  have hp : (0:ℝ) < 10 ^ k := by positivity
  generalize (10:ℝ) ^ k = U at *
  have hn := roundTie_near up (x := (d : ℝ) * 10 ^ 3 / U) (by positivity)
  generalize ((roundTie up ((d : ℝ) * 10 ^ 3 / U) : ℕ) : ℝ) = m at *
  have e : m / 10 ^ 3 * U - d = (m - (d : ℝ) * 10 ^ 3 / U) * (U / 10 ^ 3) := by field_simp
  rw [e, abs_mul, abs_of_pos (by positivity : 0 < U / 10 ^ 3)]
  calc |m - (d : ℝ) * 10 ^ 3 / U| * (U / 10 ^ 3) ≤ 1 / 2 * (U / 10 ^ 3) := by gcongr
    _ ≤ (d : ℝ) / 2000 := by linarith

/-- a number with unit, read back -/
theorem readBytes_num (up : TieRule) (k : ℕ) {x scale : ℝ} (hx : 0 ≤ x) {unit : String} {lo hi : ℝ}
    (hu : (unit, scale, lo, hi) ∈ unitTable ∨ (unit = "GiB" ∧ scale = 2 ^ 30)) :
    readBytes (stdNum up k (fin x) ++ unit) = some ((roundTie up (x * 10 ^ k) : ℝ) / 10 ^ k * scale) := by
  have hcases : (unit = "b" ∧ scale = 1) ∨ (unit = "KiB" ∧ scale = 2 ^ 10) ∨ (unit = "MiB" ∧ scale = 2 ^ 20) ∨ (unit = "GiB" ∧ scale = 2 ^ 30) := by
    rcases hu with hu | hu
    · simp only [unitTable, List.mem_cons, Prod.mk.injEq, List.not_mem_nil, or_false] at hu
      rcases hu with ⟨a, b, -⟩ | ⟨a, b, -⟩ | ⟨a, b, -⟩
      · exact Or.inl ⟨a, b⟩
      · exact Or.inr (Or.inl ⟨a, b⟩)
      · exact Or.inr (Or.inr (Or.inl ⟨a, b⟩))
    · exact Or.inr (Or.inr (Or.inr hu))
  unfold readBytes readQuantity stdNum
  simp only
  rw [if_pos hx, abs_of_nonneg hx, String.toList_append, String.toList_ofList, List.nil_append]
  have hhead : NotDigitHead unit.toList ∧ unit.toList.head? ≠ some '.' := by
    rcases hcases with ⟨rfl, -⟩ | ⟨rfl, -⟩ | ⟨rfl, -⟩ | ⟨rfl, -⟩ <;> refine ⟨?_, by decide⟩ <;>
      (intro c hc; simp at hc; subst hc; decide)
  rw [read_fixed _ _ hhead.1 hhead.2]
  rcases hcases with ⟨rfl, rfl⟩ | ⟨rfl, rfl⟩ | ⟨rfl, rfl⟩ | ⟨rfl, rfl⟩ <;> simp [List.lookup]

theorem roundTie_error (up : TieRule) (k : ℕ) {x : ℝ} (hx : 0 ≤ x) : |(roundTie up (x * 10 ^ k) : ℝ) / 10 ^ k - x| ≤ 1 / 2 / 10 ^ k := by
  have hp : (0:ℝ) < 10 ^ k := by positivity
  have h := roundTie_near up (x := x * 10 ^ k) (by positivity)
  have e : (roundTie up (x * 10 ^ k) : ℝ) / 10 ^ k - x = ((roundTie up (x * 10 ^ k) : ℝ) - x * 10 ^ k) / 10 ^ k := by field_simp
  rw [e, abs_div, abs_of_pos hp]
  gcongr

/-- `1e-3` in `f32`, and a difference that is below it -/
theorem whole_near {E : FloatEnv} (hE : E.rnd = binary32.round) (up : TieRule) {x : ℝ} (hx : 0 ≤ x) (h : stdWhole E (fin x) = true) :
    |(roundTie up (x * 10 ^ 0) : ℝ) / 10 ^ 0 - x| ≤ 1 / 200 := by
  rw [pow_zero, mul_one, div_one]
  refine (roundTie_best up hx ⌊x + 1 / 2⌋).trans ?_
  unfold stdWhole at h
  replace h := @of_decide_eq_true _ (_) h
  unfold roundF at h
  simp only at h
  rw [if_pos hx] at h
  have hb : |(⌊x + 1 / 2⌋ : ℝ) - x| ≤ 1 / 2 := by
    have h1 := Int.floor_le (x + 1 / 2)
    have h2 := Int.lt_floor_add_one (x + 1 / 2)
    rw [abs_le]; constructor <;> linarith
  generalize hw : (⌊x + 1 / 2⌋ : ℝ) - x = w at *
  by_contra hc
  rw [not_le] at hc
  have hw0 : w ≠ 0 := by rintro rfl; rw [abs_zero] at hc; linarith
  have hsub : E.sub (fin (⌊x + 1 / 2⌋ : ℝ)) (fin x) = binary32.round w := by
    show E.rnd0 ((⌊x + 1 / 2⌋ : ℝ) - x) = _
    rw [hw]; unfold FloatEnv.rnd0; rw [if_neg hw0, hE]
  rw [hsub, hE] at h
  have b0 : (2:ℝ) ^ (-100 : ℤ) ≤ 1 / 1000 := by rw [zpow_neg]; norm_num
  obtain ⟨y, hy, hyn, hy0, hyr, -⟩ := r32_near (x := |w|) (b0.trans (by linarith)) (by linarith)
  obtain ⟨z, hz, -, hz0, hzr, -⟩ := r32_near (x := 1 / 1000) b0 (by norm_num)
  have hab : F.abs (binary32.round w) = fin y := by
    rcases le_or_gt 0 w with hs | hs
    · rw [abs_of_nonneg hs] at hy; rw [hy]; simp [F.abs, abs_of_pos hy0]
    · rw [abs_of_neg hs, neg_neg] at hyn; rw [hyn]; simp [F.abs, abs_of_pos hy0]
  rw [hab, hz, F.fin_lt_fin] at h
  have e24 : (2:ℝ) ^ (-24 : ℤ) = 1 / 2 ^ 24 := by rw [zpow_neg]; norm_num
  rw [e24] at hyr hzr
  rw [abs_le] at hyr hzr
  have h24 : (1:ℝ) / 2 ^ 24 ≤ 1 / 100 := by norm_num
  generalize (1:ℝ) / 2 ^ 24 = ε at *
  nlinarith [hyr.1, hzr.2, abs_nonneg w]

/-- what is shown of an amount, read back -/
theorem about_of_shows (up : TieRule) {num : String → F → String} {bytes : ℝ} (hb : 0 ≤ bytes) {text : String}
    (hnum : ∀ unit x, 0 ≤ x → (num unit (fin x) = stdNum up 2 (fin x) ∨
      (unit = "b" ∧ num unit (fin x) = stdNum up 0 (fin x) ∧ |(roundTie up (x * 10 ^ 0) : ℝ) / 10 ^ 0 - x| ≤ 1 / 200)))
    (h : ShowsAbout num bytes text) : AboutBytes bytes text := by
  obtain ⟨unit, scale, shown, rfl, hrel, hun⟩ := h
  have e22 : (2:ℝ) ^ (-22 : ℤ) = 1 / 2 ^ 22 := by rw [zpow_neg]; norm_num
  rw [e22] at hrel
  have hscale : (unit = "b" → scale = 1) ∧ 0 < scale ∧ (scale = 1 ∨ 1 < shown) := by
    rcases hun with ⟨lo, hi, hm, h1, h2⟩ | ⟨rfl, rfl, h1⟩
    · simp only [unitTable, List.mem_cons, Prod.mk.injEq, List.not_mem_nil, or_false] at hm
      rcases hm with ⟨rfl, rfl, rfl, rfl⟩ | ⟨rfl, rfl, rfl, rfl⟩ | ⟨rfl, rfl, rfl, rfl⟩
      · exact ⟨fun _ => rfl, by norm_num, Or.inl rfl⟩
      · exact ⟨fun h => absurd h (by decide), by norm_num, Or.inr h1⟩
      · exact ⟨fun h => absurd h (by decide), by norm_num, Or.inr h1⟩
    · exact ⟨fun h => absurd h (by decide), by norm_num, Or.inr h1⟩
  have hu : ∃ lo hi, (unit, scale, lo, hi) ∈ unitTable ∨ (unit = "GiB" ∧ scale = 2 ^ 30) := by
    rcases hun with ⟨lo, hi, hm, -⟩ | ⟨a, b, -⟩
    · exact ⟨lo, hi, Or.inl hm⟩
    · exact ⟨0, 0, Or.inr ⟨a, b⟩⟩
  obtain ⟨lo, hi, hu⟩ := hu
  obtain ⟨hs1, hs0, hs⟩ := hscale
  have h22 : (1:ℝ) / 2 ^ 22 ≤ 1 / 100000 := by norm_num
  have h22' : (0:ℝ) < 1 / 2 ^ 22 := by norm_num
  generalize (1:ℝ) / 2 ^ 22 = ε at *
  have hx : 0 ≤ shown := by
    by_contra hneg
    rw [not_le] at hneg
    have : shown * scale < 0 := mul_neg_of_neg_of_pos hneg hs0
    rw [abs_le] at hrel
    nlinarith [hrel.1]
  have hfin : ∀ b : ℝ, |b - shown| ≤ 1 / 200 → |b * scale - bytes| ≤ 1 / 200 + bytes / 199 := by
    intro b hbs
    have e : b * scale - bytes = (b - shown) * scale + (shown * scale - bytes) := by ring
    have h1 : |b * scale - bytes| ≤ 1 / 200 * scale + bytes * ε := by
      rw [e]
      refine (abs_add_le _ _).trans (add_le_add ?_ hrel)
      rw [abs_mul, abs_of_pos hs0]
      gcongr
    refine h1.trans ?_
    rcases hs with rfl | hs
    · nlinarith
    · have h2 : scale ≤ shown * scale := by nlinarith
      rw [abs_le] at hrel
      nlinarith [hrel.2]
  rcases hnum unit shown hx with e | ⟨hb', e, hd⟩
  · refine ⟨_, by rw [e]; exact readBytes_num up 2 hx hu, hfin _ ((roundTie_error up 2 hx).trans (by norm_num))⟩
  · exact ⟨_, by rw [e]; exact readBytes_num up 0 hx hu, hfin _ hd⟩

theorem excursion_nonneg {s : SpacePass} (h : PlausibleReading s) (n : ℕ) : 0 ≤ excursionPerElement s n := by
  unfold excursionPerElement
  have : (s.usedBefore : ℝ) ≤ s.maxUsed := by exact_mod_cast h.before_le
  exact div_nonneg (le_max_of_le_left (by linarith)) (Nat.cast_nonneg _)

/-- **C69** (memory of a pass): the amount shown for a pass, read back, is the largest excursion per element, up to 0.005 bytes and
half a per cent. -/
theorem C69_memory (E : FloatEnv) (hE : E.rnd = binary32.round) (up : TieRule) (p : Profile) (s : SpacePass) (h : PlausibleReading s) (n : ℕ) (hn : 1 ≤ n)
    (hn' : n ≤ 2 ^ 32) : ∃ cell, fmtOverN (stdText E up) p s n = .ok cell ∧ MemoryCell s n cell := by
  obtain ⟨sign, amount, h1, h2, h3, h4⟩ := C75_text_shipped (stdText E up) hE p s h n hn hn'
  refine ⟨_, h1, sign, amount, rfl, h2, h3, about_of_shows up (excursion_nonneg h n) ?_ h4⟩
  intro unit x hx
  by_cases hc : (stdText E up).whole (fin x) && unit == "b"
  · rw [if_pos hc]
    simp only [Bool.and_eq_true, beq_iff_eq] at hc
    exact Or.inr ⟨hc.2, rfl, whole_near hE up hx hc.1⟩
  · rw [if_neg hc]; exact Or.inl rfl

/-- **C69** (memory totals): the totals shown, read back, are those of both passes, up to 0.005 bytes and half a per cent; `allocated` and
`freed` are exact. -/
theorem C69_totals (E : FloatEnv) (hE : E.rnd = binary32.round) (up : TieRule) (p : Profile) (m : SpaceMeasurements) (h1 : PlausibleReading m.pass1)
    (h2 : PlausibleReading m.pass2) :
    ∃ change aux, AboutBytes |(totalChange m : ℝ)| change ∧ AboutBytes (totalAuxiliary m) aux ∧
      displaySpace (stdText E up) p m =
        .ok ((if totalChange m < 0 then "freed" else "allocated") ++ ": " ++ change ++ "; auxiliary used space: " ++ aux) := by
  obtain ⟨change, aux, a, b, c⟩ := C81_totals_shipped (stdText E up) hE p m h1 h2
  exact ⟨change, aux, about_of_shows up (abs_nonneg _) (fun _ _ _ => Or.inl rfl) a,
    about_of_shows up (Nat.cast_nonneg _) (fun _ _ _ => Or.inl rfl) b, c⟩

/-- **C69** (time per element): the time per element shown, read back, is the elapsed time over the number of elements, up to a nanosecond
and one part in 1999. -/
theorem C69_time_per_element (log2 : F → F) (powi : F → ℕ → F) (powf : F → F → F) (tol : F) (up : TieRule) (d : Duration)
    (hd : PlausibleTime d) (n : ℕ) (hn : 1 ≤ n) (hn' : n ≤ 2 ^ 32) :
    ∃ t, timePerElement (binary64Env log2 powi powf tol) d n = .ok t ∧ AboutDuration ((d : ℝ) / n) (stdDur3 up t) := by
  obtain ⟨x, h1, h2⟩ := C81_time_per_element_shipped log2 powi powf tol d hd n hn hn'
  obtain ⟨y, h3, h4⟩ := C69_duration_rounded up x
  refine ⟨x, h1, y, h3, ?_⟩
  have hμ : (0:ℝ) ≤ (d : ℝ) / n := by positivity
  generalize (d : ℝ) / n = μ at *
  have h51 : (3:ℝ) / 2 ^ 51 ≤ 1 / 10 ^ 9 := by norm_num
  generalize (3:ℝ) / 2 ^ 51 = ε at *
  rw [abs_le] at *
  constructor <;> nlinarith [h2.1, h2.2, h4.1, h4.2]

/-! ## whole reports -/

/-- a cell of a table: not empty, without spaces and line ends -/
def IsWord (s : String) : Prop := s.toList ≠ [] ∧ ∀ c ∈ s.toList, c ≠ ' ' ∧ c ≠ '\n'

theorem piecesAt_append (sep : Char) (a b : List Char) : piecesAt sep (a ++ sep :: b) = piecesAt sep a ++ piecesAt sep b := by
  induction a with
  | nil => simp [piecesAt]
  | cons c a ih =>
    simp only [List.cons_append, piecesAt, ih]
    split_ifs
    · rfl
    · cases h : piecesAt sep a with
      | nil => cases a <;> simp [piecesAt] at h; split_ifs at h; split at h <;> simp at h
      | cons p ps => rfl

theorem piecesAt_single (sep : Char) {a : List Char} (h : ∀ c ∈ a, c ≠ sep) : piecesAt sep a = [a] := by
  induction a with
  | nil => rfl
  | cons c a ih =>
    simp only [piecesAt, ih (fun x hx => h x (List.mem_cons_of_mem _ hx)), if_neg (h c List.mem_cons_self)]

theorem lines_cons {a : String} (b : String) (h : ∀ c ∈ a.toList, c ≠ '\n') : linesOf (a ++ ("\n" ++ b)) = a :: linesOf b := by
  unfold linesOf
  rw [String.toList_append, String.toList_append, show ("\n" : String).toList = ['\n'] by decide, List.singleton_append, piecesAt_append,
    piecesAt_single _ h]
  simp

theorem words_append (a b : String) : wordsOf (a ++ (" " ++ b)) = wordsOf a ++ wordsOf b := by
  unfold wordsOf
  rw [String.toList_append, String.toList_append, show (" " : String).toList = [' '] by decide, List.singleton_append, piecesAt_append]
  simp

theorem words_single {a : String} (h : IsWord a) : wordsOf a = [a] := by
  unfold wordsOf
  rw [piecesAt_single _ (fun c hc => (h.2 c hc).1)]
  simp [h.1]

theorem words_space (b : String) : wordsOf (" " ++ b) = wordsOf b := by
  have := words_append "" b
  rw [String.empty_append] at this
  rw [this]
  simp [wordsOf, piecesAt]

theorem words_pad (w : ℕ) (b : String) : wordsOf (padLeft w b) = wordsOf b := by
  unfold padLeft
  generalize w - b.length = k
  induction k with
  | zero => simp
  | succ k ih =>
    rw [List.replicate_succ, String.ofList_cons, String.append_assoc, show String.singleton ' ' = " " by decide, words_space, ih]

/-- without line ends -/
def OneLine (s : String) : Prop := ∀ c ∈ s.toList, c ≠ '\n'

theorem OneLine.append {a b : String} (ha : OneLine a) (hb : OneLine b) : OneLine (a ++ b) := by
  intro c hc
  rw [String.toList_append] at hc
  rcases List.mem_append.1 hc with h | h
  · exact ha c h
  · exact hb c h

theorem IsWord.oneLine {a : String} (h : IsWord a) : OneLine a := fun c hc => (h.2 c hc).2

theorem OneLine.pad {a : String} (w : ℕ) (h : OneLine a) : OneLine (padLeft w a) := by
  refine OneLine.append ?_ h
  intro c hc
  rw [String.toList_ofList] at hc
  rw [List.eq_of_mem_replicate hc]; decide

/-- a row without its line end -/
def rowLine (k time space : String) (cols : List String) (pe : String) : String :=
  k ++ ") " ++ padLeft 13 time ++ "  " ++ padLeft 14 space ++
    (cols.map fun c => "  " ++ padLeft 12 c).foldl (· ++ ·) "" ++ "  " ++ padLeft 12 pe

theorem row_eq (k time space : String) (cols : List String) (pe : String) :
    tableRow k time space cols pe = rowLine k time space cols pe ++ "\n" := by
  unfold tableRow rowLine; simp only [String.append_assoc]

theorem words_two (a b : String) : wordsOf (a ++ ("  " ++ b)) = wordsOf a ++ wordsOf b := by
  rw [show ("  " : String) = " " ++ " " by decide, String.append_assoc, words_append, words_space]

theorem cols_words {cols : List String} (hc : ∀ c ∈ cols, IsWord c) : ∀ (acc : String),
    wordsOf ((cols.map fun c => "  " ++ padLeft 12 c).foldl (· ++ ·) acc) = wordsOf acc ++ cols := by
  induction cols with
  | nil => intro acc; simp
  | cons c cols ih =>
    intro acc
    rw [List.map_cons, List.foldl_cons, ih (fun x hx => hc x (List.mem_cons_of_mem _ hx)), words_two, words_pad,
      words_single (hc c List.mem_cons_self)]
    simp

theorem row_words {k time space : String} {cols : List String} {pe : String} (hk : IsWord (k ++ ")")) (ht : IsWord time) (hs : IsWord space)
    (hc : ∀ c ∈ cols, IsWord c) (hp : IsWord pe) :
    wordsOf (rowLine k time space cols pe) = [k ++ ")", time, space] ++ cols ++ [pe] := by
  unfold rowLine
  generalize hfold : (cols.map fun c => "  " ++ padLeft 12 c).foldl (· ++ ·) "" = mid
  have hmid2 : ∀ a, wordsOf (a ++ mid) = wordsOf a ++ cols := by
    intro a
    have e : ∀ (l : List String) (x y : String), l.foldl (· ++ ·) (x ++ y) = x ++ l.foldl (· ++ ·) y := by
      intro l
      induction l with
      | nil => intro x y; rfl
      | cons z l ih => intro x y; rw [List.foldl_cons, String.append_assoc, ih, List.foldl_cons]
    rw [← hfold, ← e, String.append_empty, cols_words hc]
  rw [show k ++ ") " = (k ++ ")") ++ " " by rw [String.append_assoc]; rfl]
  have two : ∀ a b, wordsOf (a ++ "  " ++ b) = wordsOf a ++ wordsOf b := fun a b => by rw [String.append_assoc, words_two]
  have one : ∀ a b, wordsOf (a ++ " " ++ b) = wordsOf a ++ wordsOf b := fun a b => by rw [String.append_assoc, words_append]
  rw [two, hmid2, two, one, words_pad, words_pad, words_pad, words_single hk, words_single ht, words_single hs, words_single hp]
  simp

theorem foldl_oneLine {cols : List String} (hc : ∀ c ∈ cols, IsWord c) : ∀ (acc : String), OneLine acc →
    OneLine ((cols.map fun c => "  " ++ padLeft 12 c).foldl (· ++ ·) acc) := by
  induction cols with
  | nil => intro acc h; exact h
  | cons c cols ih =>
    intro acc h
    rw [List.map_cons, List.foldl_cons]
    exact ih (fun x hx => hc x (List.mem_cons_of_mem _ hx)) _
      (h.append (OneLine.append (by unfold OneLine; decide) ((hc c List.mem_cons_self).oneLine.pad 12)))

theorem row_oneLine {k time space : String} {cols : List String} {pe : String} (hk : IsWord (k ++ ")")) (ht : IsWord time) (hs : IsWord space)
    (hc : ∀ c ∈ cols, IsWord c) (hp : IsWord pe) : OneLine (rowLine k time space cols pe) := by
  have h2 : OneLine "  " := by unfold OneLine; decide
  unfold rowLine
  rw [show k ++ ") " = (k ++ ")") ++ " " by rw [String.append_assoc]; rfl]
  exact (((((((hk.oneLine.append (by unfold OneLine; decide)).append (ht.oneLine.pad 13)).append h2).append (hs.oneLine.pad 14)).append
    (foldl_oneLine hc _ (by unfold OneLine; decide))).append h2).append (hp.oneLine.pad 12))

/-! ### cells are words -/

theorem digit_ok {c : Char} (h : c.isDigit = true) : c ≠ ' ' ∧ c ≠ '\n' := by
  constructor <;> (rintro rfl; exact absurd h (by decide))

theorem fixedText_ok (k m : ℕ) : ∀ c ∈ fixedText k m, c ≠ ' ' ∧ c ≠ '\n' := by
  intro c hc
  unfold fixedText at hc
  rcases List.mem_append.1 hc with h | h
  · exact digit_ok (toDigits_digits _ c h)
  · split_ifs at h
    · simp at h
    · rcases List.mem_cons.1 h with rfl | h
      · decide
      · exact digit_ok (padZeros_digits _ _ c h)

theorem fixedText_ne (k m : ℕ) : fixedText k m ≠ [] := by
  unfold fixedText
  have := Nat.length_toDigits_pos (b := 10) (n := m / 10 ^ k)
  intro h
  rw [List.append_eq_nil_iff] at h
  rw [h.1] at this
  simp at this

theorem durUnit_ok (d : Duration) : ∀ c ∈ (durUnit d).2, c ≠ ' ' ∧ c ≠ '\n' := by
  rcases durUnit_cases d with ⟨h, -⟩ | ⟨h, -⟩ | ⟨h, -⟩ | h <;> rw [h] <;> decide

theorem fracDigits_ok : ∀ (k frac : ℕ), frac < 10 ^ k → ∀ c ∈ fracDigits k frac, c ≠ ' ' ∧ c ≠ '\n' :=
  fun k frac h c hc => digit_ok ((fracDigits_spec k frac h).1 c hc)

theorem durUnit_ne (d : Duration) : (durUnit d).2 ≠ [] := by
  rcases durUnit_cases d with ⟨h, -⟩ | ⟨h, -⟩ | ⟨h, -⟩ | h <;> rw [h] <;> decide

theorem stdDur_word (d : Duration) : IsWord (stdDur d) := by
  unfold stdDur IsWord
  rw [String.toList_ofList]
  unfold decimalText
  refine ⟨fun h => durUnit_ne d (List.append_eq_nil_iff.1 h).2, ?_⟩
  intro c hc
  rcases List.mem_append.1 hc with hc | hc
  · rcases List.mem_append.1 hc with hc | hc
    · exact digit_ok (toDigits_digits _ c hc)
    · split_ifs at hc
      · simp at hc
      · rcases List.mem_cons.1 hc with rfl | h
        · decide
        · exact fracDigits_ok _ _ (Nat.mod_lt _ (by positivity)) c h
  · exact durUnit_ok d c hc

theorem stdDur3_word (up : TieRule) (d : Duration) : IsWord (stdDur3 up d) := by
  unfold stdDur3 IsWord
  rw [String.toList_ofList]
  refine ⟨fun h => durUnit_ne d (List.append_eq_nil_iff.1 h).2, ?_⟩
  intro c hc
  rcases List.mem_append.1 hc with hc | hc
  · exact fixedText_ok _ _ c hc
  · exact durUnit_ok d c hc

theorem toString_word (n : ℕ) : IsWord (toString n) := by
  unfold IsWord
  rw [Nat.toString_eq_repr, Nat.toList_repr]
  refine ⟨?_, fun c hc => digit_ok (toDigits_digits _ c hc)⟩
  have := Nat.length_toDigits_pos (b := 10) (n := n)
  intro h
  rw [h] at this
  simp at this

theorem IsWord.append {a b : String} (ha : ∀ c ∈ a.toList, c ≠ ' ' ∧ c ≠ '\n') (hb : IsWord b) : IsWord (a ++ b) := by
  unfold IsWord
  rw [String.toList_append]
  refine ⟨fun h => hb.1 (List.append_eq_nil_iff.1 h).2, ?_⟩
  intro c hc
  rcases List.mem_append.1 hc with h | h
  · exact ha c h
  · exact hb.2 c h

theorem stdNum_ok (up : TieRule) (k : ℕ) (x : F) : ∀ c ∈ (stdNum up k x).toList, c ≠ ' ' ∧ c ≠ '\n' := by
  unfold stdNum
  split
  · decide
  · decide
  · decide
  · rw [String.toList_ofList]
    intro c hc
    rcases List.mem_cons.1 hc with rfl | h
    · decide
    · exact fixedText_ok _ _ c h
  · rw [String.toList_ofList]
    intro c hc
    rcases List.mem_append.1 hc with h | h
    · split_ifs at h
      · simp at h
      · simp at h; subst h; decide
    · exact fixedText_ok _ _ c h

theorem memUnit_word (x : F) : IsWord (memUnit x) := by
  unfold memUnit
  split_ifs <;> (unfold IsWord; decide)

theorem memSign_ok (T : TextEnv) (s : SpacePass) (n : ℕ) : ∀ c ∈ (memSign T s n).toList, c ≠ ' ' ∧ c ≠ '\n' := by
  unfold memSign
  simp only
  split_ifs <;> decide

theorem fmtOverN_word {E : FloatEnv} {up : TieRule} {p : Profile} {s : SpacePass} {n : ℕ} {cell : String}
    (h : fmtOverN (stdText E up) p s n = .ok cell) : IsWord cell := by
  unfold fmtOverN at h
  split at h
  · cases h
  · simp only [Except.ok.injEq] at h
    subst h
    rw [String.append_assoc]
    refine IsWord.append (memSign_ok _ _ _) (IsWord.append ?_ (memUnit_word _))
    split_ifs
    · exact stdNum_ok up 0 _
    · exact stdNum_ok up 2 _

theorem displaySpace_oneLine {E : FloatEnv} {up : TieRule} {p : Profile} {m : SpaceMeasurements} {text : String}
    (h : displaySpace (stdText E up) p m = .ok text) : OneLine text := by
  have hh : ∀ x, OneLine (humanReadable (stdText E up) x) := by
    intro x
    unfold humanReadable
    exact (IsWord.append (stdNum_ok up 2 _) (memUnit_word x)).oneLine
  unfold displaySpace at h
  split at h
  · cases h
  · split at h
    · cases h
    · split at h
      · cases h
      · simp only [Except.ok.injEq] at h
        subst h
        refine OneLine.append (OneLine.append (OneLine.append (OneLine.append ?_ (by unfold OneLine; decide)) (hh _)) (by unfold OneLine; decide)) (hh _)
        split_ifs <;> (unfold OneLine; decide)

theorem verdict_oneLine (c : Complexity) : OneLine c.asTimePrettyStr ∧ OneLine c.asSpacePrettyStr := by
  cases c <;> refine ⟨?_, ?_⟩ <;> (unfold OneLine; decide +kernel)

/-- the lines of a report -/
theorem report_lines {E : FloatEnv} {up : TieRule} {p : Profile} {time space : Complexity} {m : SpaceMeasurements} {title header l1 l2 : String}
    (h1 : PlausibleReading m.pass1) (h2 : PlausibleReading m.pass2) (hE : E.rnd = binary32.round)
    (ht : OneLine title) (hh : OneLine header) (hl1 : OneLine l1) (hl2 : OneLine l2) :
    ∃ text total, displayAnalysis (stdText E up) p time space m
        (.ok (title ++ "\n" ++ (header ++ "\n") ++ (l1 ++ "\n") ++ (l2 ++ "\n"))) = .ok text ∧
      linesOf text = [title, header, l1, l2, "--> Algorithm  Time Analysis: " ++ time.asTimePrettyStr, total, ""] ∧
      TotalsLine m space.asSpacePrettyStr total := by
  obtain ⟨change, aux, a, b, c⟩ := C69_totals E hE up p m h1 h2
  refine ⟨_, _, by unfold displayAnalysis; rw [c]; rfl, ?_, change, aux, a, b, rfl⟩
  have hs := displaySpace_oneLine c
  have ht' : OneLine ("--> Algorithm  Time Analysis: " ++ time.asTimePrettyStr) := OneLine.append (by unfold OneLine; decide) (verdict_oneLine time).1
  have hsp : OneLine ("--> Algorithm Space Analysis: " ++ space.asSpacePrettyStr ++ " (" ++
      ((if totalChange m < 0 then "freed" else "allocated") ++ ": " ++ change ++ "; auxiliary used space: " ++ aux) ++ ")") :=
    OneLine.append (OneLine.append (OneLine.append (OneLine.append (by unfold OneLine; decide) (verdict_oneLine space).2) (by unfold OneLine; decide)) hs)
      (by unfold OneLine; decide)
  generalize (if totalChange m < 0 then "freed" else "allocated") = w at *
  rw [show (")\n" : String) = ")" ++ "\n" by decide]
  generalize hY : "--> Algorithm Space Analysis: " = Y at *
  have e1 : ∀ R : String, "--> Algorithm  Time Analysis: " ++ (time.asTimePrettyStr ++ R) = ("--> Algorithm  Time Analysis: " ++ time.asTimePrettyStr) ++ R :=
    fun R => by rw [String.append_assoc]
  have e2 : Y ++ (space.asSpacePrettyStr ++ (" (" ++ (w ++ (": " ++ (change ++ ("; auxiliary used space: " ++ (aux ++ (")" ++ "\n")))))))) =
      (Y ++ space.asSpacePrettyStr ++ " (" ++ (w ++ ": " ++ change ++ "; auxiliary used space: " ++ aux) ++ ")") ++ ("\n" ++ "") := by
    simp only [String.append_assoc, String.append_empty]
  have e3 : Y ++ space.asSpacePrettyStr ++ " (" ++ w ++ ": " ++ change ++ "; auxiliary used space: " ++ aux ++ ")" =
      Y ++ space.asSpacePrettyStr ++ " (" ++ (w ++ ": " ++ change ++ "; auxiliary used space: " ++ aux) ++ ")" := by
    simp only [String.append_assoc]
  rw [e3]
  generalize Y ++ space.asSpacePrettyStr ++ " (" ++ (w ++ ": " ++ change ++ "; auxiliary used space: " ++ aux) ++ ")" = Z at *
  simp only [String.append_assoc]
  rw [e1, e2, lines_cons _ ht, lines_cons _ hh, lines_cons _ hl1, lines_cons _ hl2, lines_cons _ ht', lines_cons _ hsp]
  rfl

section
variable (log2 : F → F) (powi : F → ℕ → F) (powf : F → F → F) (tol : F) (E : FloatEnv) (hE : E.rnd = binary32.round) (up : TieRule) (p : Profile)
include hE

/-- **C69** (report of a regular algorithm): the report of any plausible measurements consists of a title, a header, one line per pass, whose
words give back the measurements of that pass, the time verdict, and the space verdict with the memory totals. -/
theorem C69_regular_report (a : AnalysisOf RegularMeasurements) (hname : ∀ c ∈ a.m.name.toList, c ≠ '\n')
    (h1 : PlausibleReading a.m.space.pass1) (h2 : PlausibleReading a.m.space.pass2) (t1 : PlausibleTime a.m.time.pass1)
    (t2 : PlausibleTime a.m.time.pass2) (n1 : 1 ≤ a.m.info.pass1n) (n1' : a.m.info.pass1n < 2 ^ 32) (n2 : 1 ≤ a.m.info.pass2n)
    (n2' : a.m.info.pass2n < 2 ^ 32) :
    ∃ text header l1 l2 total, reportRegular (binary64Env log2 powi powf tol) (stdText E up) p a = .ok text ∧
      linesOf text = ["'" ++ a.m.name ++ "' regular-algorithm measurements:", header, l1, l2,
        "--> Algorithm  Time Analysis: " ++ a.time.asTimePrettyStr, total, ""] ∧
      RegularRow "1)" a.m.time.pass1 a.m.space.pass1 a.m.info.pass1n l1 ∧ RegularRow "2)" a.m.time.pass2 a.m.space.pass2 a.m.info.pass2n l2 ∧
      TotalsLine a.m.space a.space.asSpacePrettyStr total := by
  obtain ⟨s1, hs1, ms1⟩ := C69_memory E hE up p _ h1 1 le_rfl (by norm_num)
  obtain ⟨s2, hs2, ms2⟩ := C69_memory E hE up p _ h2 1 le_rfl (by norm_num)
  obtain ⟨e1, he1, me1⟩ := C69_memory E hE up p _ h1 _ n1 n1'.le
  obtain ⟨e2, he2, me2⟩ := C69_memory E hE up p _ h2 _ n2 n2'.le
  obtain ⟨p1, hp1, mp1⟩ := C69_time_per_element log2 powi powf tol up _ t1 _ n1 n1'.le
  obtain ⟨p2, hp2, mp2⟩ := C69_time_per_element log2 powi powf tol up _ t2 _ n2 n2'.le
  have w1 : ∀ c ∈ [toString a.m.info.pass1n, e1], IsWord c := by
    intro c hc
    simp only [List.mem_cons, List.not_mem_nil, or_false] at hc
    rcases hc with rfl | rfl
    · exact toString_word _
    · exact fmtOverN_word he1
  have w2 : ∀ c ∈ [toString a.m.info.pass2n, e2], IsWord c := by
    intro c hc
    simp only [List.mem_cons, List.not_mem_nil, or_false] at hc
    rcases hc with rfl | rfl
    · exact toString_word _
    · exact fmtOverN_word he2
  have k1 : IsWord ("1" ++ ")") := by unfold IsWord; decide
  have k2 : IsWord ("2" ++ ")") := by unfold IsWord; decide
  obtain ⟨text, total, r1, r2, r3⟩ := report_lines (up := up) (p := p) (time := a.time) (space := a.space) (m := a.m.space)
    (title := "'" ++ a.m.name ++ "' regular-algorithm measurements:")
    (header := "pass          Δt              Δs             n            s⁻           t⁻")
    (l1 := rowLine "1" (stdDur a.m.time.pass1) s1 [toString a.m.info.pass1n, e1] (stdDur3 up p1))
    (l2 := rowLine "2" (stdDur a.m.time.pass2) s2 [toString a.m.info.pass2n, e2] (stdDur3 up p2)) h1 h2 hE
    (OneLine.append (OneLine.append (by unfold OneLine; decide) hname) (by unfold OneLine; decide)) (by unfold OneLine; decide +kernel)
    (row_oneLine k1 (stdDur_word _) (fmtOverN_word hs1) w1 (stdDur3_word up _)) (row_oneLine k2 (stdDur_word _) (fmtOverN_word hs2) w2 (stdDur3_word up _))
  refine ⟨text, _, _, _, total, ?_, r2, ⟨_, _, _, _, row_words k1 (stdDur_word _) (fmtOverN_word hs1) w1 (stdDur3_word up _), C69_duration _, ms1, me1, mp1⟩,
    ⟨_, _, _, _, row_words k2 (stdDur_word _) (fmtOverN_word hs2) w2 (stdDur3_word up _), C69_duration _, ms2, me2, mp2⟩, r3⟩
  rw [← r1]
  unfold reportRegular
  congr 1
  unfold displayRegular displaySpacePass
  simp only [hs1, hs2, he1, he2, hp1, hp2, bind, Except.bind, pure, Except.pure, row_eq]
  rw [show "' regular-algorithm measurements:\n" = "' regular-algorithm measurements:" ++ "\n" by decide +kernel,
    show "pass          Δt              Δs             n            s⁻           t⁻\n" =
      "pass          Δt              Δs             n            s⁻           t⁻" ++ "\n" by decide +kernel]
  simp only [String.append_assoc, stdText]

/-- **C69** (report of a read or update operation): the same for the tables with set sizes and repetitions.) -/
theorem C69_constant_set_report (a : AnalysisOf ConstantSetMeasurements) (hname : ∀ c ∈ a.m.name.toList, c ≠ '\n')
    (h1 : PlausibleReading a.m.space.pass1) (h2 : PlausibleReading a.m.space.pass2) (t1 : PlausibleTime a.m.time.pass1)
    (t2 : PlausibleTime a.m.time.pass2) (n1 : 1 ≤ a.m.info.repetitions) (n1' : a.m.info.repetitions < 2 ^ 32) :
    ∃ text header l1 l2 total, reportConstantSet (binary64Env log2 powi powf tol) (stdText E up) p a = .ok text ∧
      linesOf text = ["'" ++ a.m.name ++ "' constant set iterator-algorithm measurements:", header, l1, l2,
        "--> Algorithm  Time Analysis: " ++ a.time.asTimePrettyStr, total, ""] ∧
      OperationRow "1)" a.m.time.pass1 a.m.space.pass1 [a.m.info.pass1SetSize, a.m.info.repetitions] a.m.info.repetitions l1 ∧
      OperationRow "2)" a.m.time.pass2 a.m.space.pass2 [a.m.info.pass2SetSize, a.m.info.repetitions] a.m.info.repetitions l2 ∧
      TotalsLine a.m.space a.space.asSpacePrettyStr total := by
  obtain ⟨s1, hs1, ms1⟩ := C69_memory E hE up p _ h1 1 le_rfl (by norm_num)
  obtain ⟨s2, hs2, ms2⟩ := C69_memory E hE up p _ h2 1 le_rfl (by norm_num)
  obtain ⟨p1, hp1, mp1⟩ := C69_time_per_element log2 powi powf tol up _ t1 _ n1 n1'.le
  obtain ⟨p2, hp2, mp2⟩ := C69_time_per_element log2 powi powf tol up _ t2 _ n1 n1'.le
  have w : ∀ l : List ℕ, ∀ c ∈ l.map toString, IsWord c := by
    intro l c hc
    obtain ⟨x, -, rfl⟩ := List.mem_map.1 hc
    exact toString_word x
  have k1 : IsWord ("1" ++ ")") := by unfold IsWord; decide
  have k2 : IsWord ("2" ++ ")") := by unfold IsWord; decide
  obtain ⟨text, total, r1, r2, r3⟩ := report_lines (up := up) (p := p) (time := a.time) (space := a.space) (m := a.m.space)
    (title := "'" ++ a.m.name ++ "' constant set iterator-algorithm measurements:")
    (header := "pass          Δt              Δs            Σn            ⊆r            t⁻")
    (l1 := rowLine "1" (stdDur a.m.time.pass1) s1 ([a.m.info.pass1SetSize, a.m.info.repetitions].map toString) (stdDur3 up p1))
    (l2 := rowLine "2" (stdDur a.m.time.pass2) s2 ([a.m.info.pass2SetSize, a.m.info.repetitions].map toString) (stdDur3 up p2)) h1 h2 hE
    (OneLine.append (OneLine.append (by unfold OneLine; decide) hname) (by unfold OneLine; decide +kernel)) (by unfold OneLine; decide +kernel)
    (row_oneLine k1 (stdDur_word _) (fmtOverN_word hs1) (w _) (stdDur3_word up _)) (row_oneLine k2 (stdDur_word _) (fmtOverN_word hs2) (w _) (stdDur3_word up _))
  refine ⟨text, _, _, _, total, ?_, r2, ⟨_, _, _, row_words k1 (stdDur_word _) (fmtOverN_word hs1) (w _) (stdDur3_word up _), C69_duration _, ms1, mp1⟩,
    ⟨_, _, _, row_words k2 (stdDur_word _) (fmtOverN_word hs2) (w _) (stdDur3_word up _), C69_duration _, ms2, mp2⟩, r3⟩
  rw [← r1]
  unfold reportConstantSet
  congr 1
  unfold displayConstantSet displaySpacePass
  simp only [hs1, hs2, hp1, hp2, bind, Except.bind, pure, Except.pure, row_eq]
  rw [show "' constant set iterator-algorithm measurements:\n" = "' constant set iterator-algorithm measurements:" ++ "\n" by decide +kernel,
    show "pass          Δt              Δs            Σn            ⊆r            t⁻\n" = "pass          Δt              Δs            Σn            ⊆r            t⁻" ++ "\n" by decide +kernel]
  simp only [String.append_assoc, stdText, List.map_cons, List.map_nil]

/-- **C69** (report of a create or delete operation): the same for the tables with the size of the set after each pass.) -/
theorem C69_set_resizing_report (a : AnalysisOf SetResizingMeasurements) (hname : ∀ c ∈ a.m.name.toList, c ≠ '\n')
    (h1 : PlausibleReading a.m.space.pass1) (h2 : PlausibleReading a.m.space.pass2) (t1 : PlausibleTime a.m.time.pass1)
    (t2 : PlausibleTime a.m.time.pass2) (n1 : 1 ≤ a.m.info.deltaSetSize) (n1'' : a.m.info.deltaSetSize < 2 ^ 31) :
    ∃ text header l1 l2 total, reportSetResizing (binary64Env log2 powi powf tol) (stdText E up) p a = .ok text ∧
      linesOf text = ["'" ++ a.m.name ++ "' set resizing iterator-algorithm measurements:", header, l1, l2,
        "--> Algorithm  Time Analysis: " ++ a.time.asTimePrettyStr, total, ""] ∧
      OperationRow "1)" a.m.time.pass1 a.m.space.pass1 [a.m.info.deltaSetSize] a.m.info.deltaSetSize l1 ∧
      OperationRow "2)" a.m.time.pass2 a.m.space.pass2 [a.m.info.deltaSetSize * 2] a.m.info.deltaSetSize l2 ∧
      TotalsLine a.m.space a.space.asSpacePrettyStr total := by
  have n1' : a.m.info.deltaSetSize < 2 ^ 32 := lt_trans n1'' (by norm_num)
  have hmul : u32Mul p a.m.info.deltaSetSize 2 = .ok (a.m.info.deltaSetSize * 2) := by
    unfold u32Mul; rw [if_pos (by omega)]
  obtain ⟨s1, hs1, ms1⟩ := C69_memory E hE up p _ h1 1 le_rfl (by norm_num)
  obtain ⟨s2, hs2, ms2⟩ := C69_memory E hE up p _ h2 1 le_rfl (by norm_num)
  obtain ⟨p1, hp1, mp1⟩ := C69_time_per_element log2 powi powf tol up _ t1 _ n1 n1'.le
  obtain ⟨p2, hp2, mp2⟩ := C69_time_per_element log2 powi powf tol up _ t2 _ n1 n1'.le
  have w : ∀ l : List ℕ, ∀ c ∈ l.map toString, IsWord c := by
    intro l c hc
    obtain ⟨x, -, rfl⟩ := List.mem_map.1 hc
    exact toString_word x
  have k1 : IsWord ("1" ++ ")") := by unfold IsWord; decide
  have k2 : IsWord ("2" ++ ")") := by unfold IsWord; decide
  obtain ⟨text, total, r1, r2, r3⟩ := report_lines (up := up) (p := p) (time := a.time) (space := a.space) (m := a.m.space)
    (title := "'" ++ a.m.name ++ "' set resizing iterator-algorithm measurements:")
    (header := "pass          Δt              Δs            Σn            t⁻")
    (l1 := rowLine "1" (stdDur a.m.time.pass1) s1 ([a.m.info.deltaSetSize].map toString) (stdDur3 up p1))
    (l2 := rowLine "2" (stdDur a.m.time.pass2) s2 ([a.m.info.deltaSetSize * 2].map toString) (stdDur3 up p2)) h1 h2 hE
    (OneLine.append (OneLine.append (by unfold OneLine; decide) hname) (by unfold OneLine; decide +kernel)) (by unfold OneLine; decide +kernel)
    (row_oneLine k1 (stdDur_word _) (fmtOverN_word hs1) (w _) (stdDur3_word up _)) (row_oneLine k2 (stdDur_word _) (fmtOverN_word hs2) (w _) (stdDur3_word up _))
  refine ⟨text, _, _, _, total, ?_, r2, ⟨_, _, _, row_words k1 (stdDur_word _) (fmtOverN_word hs1) (w _) (stdDur3_word up _), C69_duration _, ms1, mp1⟩,
    ⟨_, _, _, row_words k2 (stdDur_word _) (fmtOverN_word hs2) (w _) (stdDur3_word up _), C69_duration _, ms2, mp2⟩, r3⟩
  rw [← r1]
  unfold reportSetResizing
  congr 1
  unfold displaySetResizing displaySpacePass
  simp only [hs1, hs2, hp1, hp2, hmul, bind, Except.bind, pure, Except.pure, row_eq]
  rw [show "' set resizing iterator-algorithm measurements:\n" = "' set resizing iterator-algorithm measurements:" ++ "\n" by decide +kernel,
    show "pass          Δt              Δs            Σn            t⁻\n" = "pass          Δt              Δs            Σn            t⁻" ++ "\n" by decide +kernel]
  simp only [String.append_assoc, stdText, List.map_cons, List.map_nil]

omit hE in
theorem toString_unique {n n' : ℕ} (hn : toString n = toString n') : n = n' := by
  have := congrArg String.toList hn
  rw [Nat.toString_eq_repr, Nat.toString_eq_repr, Nat.toList_repr, Nat.toList_repr] at this
  rw [← Nat.ofDigitChars_ten_toDigits (n := n), this, Nat.ofDigitChars_ten_toDigits]

omit hE in
theorem regularRow_unique {k : String} {t t' : Duration} {s s' : SpacePass} {n n' : ℕ} {line : String} (h : RegularRow k t s n line)
    (h' : RegularRow k t' s' n' line) : t = t' ∧ n = n' := by
  obtain ⟨d, m, e, q, hw, hd, -⟩ := h
  obtain ⟨d', m', e', q', hw', hd', -⟩ := h'
  rw [hw] at hw'
  simp only [List.cons.injEq, true_and] at hw'
  obtain ⟨rfl, -, hn, -⟩ := hw'
  rw [hd] at hd'
  exact ⟨by exact_mod_cast Option.some.inj hd', toString_unique hn⟩

omit hE in
theorem operationRow_unique {k : String} {t t' : Duration} {s s' : SpacePass} {l l' : List ℕ} {n n' : ℕ} {line : String}
    (h : OperationRow k t s l n line) (h' : OperationRow k t' s' l' n' line) : t = t' ∧ l = l' := by
  obtain ⟨d, m, q, hw, hd, -⟩ := h
  obtain ⟨d', m', q', hw', hd', -⟩ := h'
  rw [hw] at hw'
  simp only [List.cons_append, List.nil_append, List.cons.injEq, true_and] at hw'
  obtain ⟨rfl, -, hl⟩ := hw'
  rw [hd] at hd'
  refine ⟨by exact_mod_cast Option.some.inj hd', ?_⟩
  have h1 : l.map (fun n : ℕ => toString n) = l'.map (fun n : ℕ => toString n) := (List.append_inj' hl rfl).1
  exact List.map_injective_iff.2 (fun a b hab => toString_unique hab) h1

/-- every verdict -/
def everyVerdict : List Complexity := [.betterThanO1, .o1, .betweenO1AndOLogN, .oLogN, .betweenOLogNAndON, .oN, .betweenONAndONLogN, .oNLogN, .betweenONLogNAndON2, .oN2, .betweenON2AndON3, .oN3, .betweenON3AndON4, .oN4, .betweenON4AndOkN, .okN, .worseThanExponential]

omit hE in
theorem everyVerdict_mem (c : Complexity) : c ∈ everyVerdict := by cases c <;> decide

omit hE in
/-- no space verdict followed by a bracket begins another one followed by a bracket -/
theorem verdict_bracket_prefix : ∀ c c' : Complexity,
    (c.asSpacePrettyStr ++ " (").toList <+: (c'.asSpacePrettyStr ++ " (").toList → c = c' := by
  have key : ∀ c ∈ everyVerdict, ∀ c' ∈ everyVerdict,
      ((c.asSpacePrettyStr ++ " (").toList.isPrefixOf (c'.asSpacePrettyStr ++ " (").toList = true) → c = c' := by decide +kernel
  intro c c' h
  exact key c (everyVerdict_mem c) c' (everyVerdict_mem c') (List.isPrefixOf_iff_prefix.2 h)

omit hE in
theorem totals_verdict {m m' : SpaceMeasurements} {c c' : Complexity} {line : String} (h : TotalsLine m c.asSpacePrettyStr line)
    (h' : TotalsLine m' c'.asSpacePrettyStr line) : c = c' := by
  obtain ⟨x, y, -, -, h1⟩ := h
  obtain ⟨x', y', -, -, h2⟩ := h'
  rw [h1] at h2
  have h3 := congrArg String.toList h2
  simp only [String.toList_append, List.append_assoc] at h3
  replace h3 := List.append_cancel_left h3
  have p1 : ∀ r : List Char, (c.asSpacePrettyStr ++ " (").toList <+: c.asSpacePrettyStr.toList ++ (" (".toList ++ r) := by
    intro r; rw [String.toList_append, ← List.append_assoc]; exact List.prefix_append _ _
  have p2 : ∀ r : List Char, (c'.asSpacePrettyStr ++ " (").toList <+: c'.asSpacePrettyStr.toList ++ (" (".toList ++ r) := by
    intro r; rw [String.toList_append, ← List.append_assoc]; exact List.prefix_append _ _
  rcases List.prefix_or_prefix_of_prefix (p1 _) (h3 ▸ p2 _) with hh | hh
  · exact verdict_bracket_prefix _ _ hh
  · exact (verdict_bracket_prefix _ _ hh).symm

omit hE in
theorem middle_unique (u v w x : String) (hh : u ++ v ++ w = u ++ x ++ w) : v = x := by
  have h1 := congrArg String.toList hh
  simp only [String.toList_append, List.append_assoc] at h1
  exact String.toList_inj.1 (List.append_cancel_right (List.append_cancel_left h1))

omit hE in
theorem time_line_unique {c c' : Complexity} (hv : "--> Algorithm  Time Analysis: " ++ c.asTimePrettyStr = "--> Algorithm  Time Analysis: " ++ c'.asTimePrettyStr) :
    c = c' :=
  C16_texts_injective.2.1 (middle_unique "--> Algorithm  Time Analysis: " c.asTimePrettyStr "" c'.asTimePrettyStr
    (by rw [String.append_empty, String.append_empty, hv]))

/-- **C69** (nothing is lost): two plausible analyses of regular algorithms with the same report have the same name, durations, numbers of
elements and verdicts. -/
theorem C69_regular_unambiguous (a b : AnalysisOf RegularMeasurements)
    (ha : (∀ c ∈ a.m.name.toList, c ≠ '\n') ∧ PlausibleReading a.m.space.pass1 ∧ PlausibleReading a.m.space.pass2 ∧
      PlausibleTime a.m.time.pass1 ∧ PlausibleTime a.m.time.pass2 ∧ 1 ≤ a.m.info.pass1n ∧ a.m.info.pass1n < 2 ^ 32 ∧ 1 ≤ a.m.info.pass2n ∧
      a.m.info.pass2n < 2 ^ 32)
    (hb : (∀ c ∈ b.m.name.toList, c ≠ '\n') ∧ PlausibleReading b.m.space.pass1 ∧ PlausibleReading b.m.space.pass2 ∧
      PlausibleTime b.m.time.pass1 ∧ PlausibleTime b.m.time.pass2 ∧ 1 ≤ b.m.info.pass1n ∧ b.m.info.pass1n < 2 ^ 32 ∧ 1 ≤ b.m.info.pass2n ∧
      b.m.info.pass2n < 2 ^ 32)
    (h : reportRegular (binary64Env log2 powi powf tol) (stdText E up) p a = reportRegular (binary64Env log2 powi powf tol) (stdText E up) p b) :
    a.m.name = b.m.name ∧ a.m.time = b.m.time ∧ a.m.info = b.m.info ∧ a.time = b.time ∧ a.space = b.space := by
  obtain ⟨x1, x2, x3, x4, x5, x6, x7, x8, x9⟩ := ha
  obtain ⟨y1, y2, y3, y4, y5, y6, y7, y8, y9⟩ := hb
  obtain ⟨ta, ha, la1, la2, ga, ra, sa, ra1, ra2, ra3⟩ := C69_regular_report log2 powi powf tol E hE up p a x1 x2 x3 x4 x5 x6 x7 x8 x9
  obtain ⟨tb, hb, lb1, lb2, gb, rb, sb, rb1, rb2, rb3⟩ := C69_regular_report log2 powi powf tol E hE up p b y1 y2 y3 y4 y5 y6 y7 y8 y9
  rw [ra, rb, Except.ok.injEq] at h
  subst h
  rw [sa] at sb
  simp only [List.cons.injEq, and_true] at sb
  obtain ⟨hname, -, rfl, rfl, hv, rfl⟩ := sb
  obtain ⟨e1, e2⟩ := regularRow_unique ra1 rb1
  obtain ⟨e3, e4⟩ := regularRow_unique ra2 rb2
  refine ⟨middle_unique _ _ _ _ hname, ?_, ?_, time_line_unique hv, totals_verdict ra3 rb3⟩
  · cases hta : a.m.time; cases htb : b.m.time; simp only [hta, htb] at e1 e3; rw [e1, e3]
  · cases hta : a.m.info; cases htb : b.m.info; simp only [hta, htb] at e2 e4; rw [e2, e4]

/-- **C69** (nothing is lost): the same of the reports of read and update operations, -/
theorem C69_constant_set_unambiguous (a b : AnalysisOf ConstantSetMeasurements)
    (ha : (∀ c ∈ a.m.name.toList, c ≠ '\n') ∧ PlausibleReading a.m.space.pass1 ∧ PlausibleReading a.m.space.pass2 ∧
      PlausibleTime a.m.time.pass1 ∧ PlausibleTime a.m.time.pass2 ∧ 1 ≤ a.m.info.repetitions ∧ a.m.info.repetitions < 2 ^ 32)
    (hb : (∀ c ∈ b.m.name.toList, c ≠ '\n') ∧ PlausibleReading b.m.space.pass1 ∧ PlausibleReading b.m.space.pass2 ∧
      PlausibleTime b.m.time.pass1 ∧ PlausibleTime b.m.time.pass2 ∧ 1 ≤ b.m.info.repetitions ∧ b.m.info.repetitions < 2 ^ 32)
    (h : reportConstantSet (binary64Env log2 powi powf tol) (stdText E up) p a = reportConstantSet (binary64Env log2 powi powf tol) (stdText E up) p b) :
    a.m.name = b.m.name ∧ a.m.time = b.m.time ∧ a.m.info = b.m.info ∧ a.time = b.time ∧ a.space = b.space := by
  obtain ⟨x1, x2, x3, x4, x5, x6, x7⟩ := ha
  obtain ⟨y1, y2, y3, y4, y5, y6, y7⟩ := hb
  obtain ⟨ta, ha, la1, la2, ga, ra, sa, ra1, ra2, ra3⟩ := C69_constant_set_report log2 powi powf tol E hE up p a x1 x2 x3 x4 x5 x6 x7
  obtain ⟨tb, hb, lb1, lb2, gb, rb, sb, rb1, rb2, rb3⟩ := C69_constant_set_report log2 powi powf tol E hE up p b y1 y2 y3 y4 y5 y6 y7
  rw [ra, rb, Except.ok.injEq] at h
  subst h
  rw [sa] at sb
  simp only [List.cons.injEq, and_true] at sb
  obtain ⟨hname, -, rfl, rfl, hv, rfl⟩ := sb
  obtain ⟨e1, e2⟩ := operationRow_unique ra1 rb1
  obtain ⟨e3, e4⟩ := operationRow_unique ra2 rb2
  simp only [List.cons.injEq, and_true] at e2 e4
  refine ⟨middle_unique _ _ _ _ hname, ?_, ?_, time_line_unique hv, totals_verdict ra3 rb3⟩
  · cases hta : a.m.time; cases htb : b.m.time; simp only [hta, htb] at e1 e3; rw [e1, e3]
  · cases hta : a.m.info; cases htb : b.m.info; simp only [hta, htb] at e2 e4; rw [e2.1, e2.2, e4.1]

/-- and of those of create and delete operations. -/
theorem C69_set_resizing_unambiguous (a b : AnalysisOf SetResizingMeasurements)
    (ha : (∀ c ∈ a.m.name.toList, c ≠ '\n') ∧ PlausibleReading a.m.space.pass1 ∧ PlausibleReading a.m.space.pass2 ∧
      PlausibleTime a.m.time.pass1 ∧ PlausibleTime a.m.time.pass2 ∧ 1 ≤ a.m.info.deltaSetSize ∧ a.m.info.deltaSetSize < 2 ^ 31)
    (hb : (∀ c ∈ b.m.name.toList, c ≠ '\n') ∧ PlausibleReading b.m.space.pass1 ∧ PlausibleReading b.m.space.pass2 ∧
      PlausibleTime b.m.time.pass1 ∧ PlausibleTime b.m.time.pass2 ∧ 1 ≤ b.m.info.deltaSetSize ∧ b.m.info.deltaSetSize < 2 ^ 31)
    (h : reportSetResizing (binary64Env log2 powi powf tol) (stdText E up) p a = reportSetResizing (binary64Env log2 powi powf tol) (stdText E up) p b) :
    a.m.name = b.m.name ∧ a.m.time = b.m.time ∧ a.m.info = b.m.info ∧ a.time = b.time ∧ a.space = b.space := by
  obtain ⟨x1, x2, x3, x4, x5, x6, x7⟩ := ha
  obtain ⟨y1, y2, y3, y4, y5, y6, y7⟩ := hb
  obtain ⟨ta, ha, la1, la2, ga, ra, sa, ra1, ra2, ra3⟩ := C69_set_resizing_report log2 powi powf tol E hE up p a x1 x2 x3 x4 x5 x6 x7
  obtain ⟨tb, hb, lb1, lb2, gb, rb, sb, rb1, rb2, rb3⟩ := C69_set_resizing_report log2 powi powf tol E hE up p b y1 y2 y3 y4 y5 y6 y7
  rw [ra, rb, Except.ok.injEq] at h
  subst h
  rw [sa] at sb
  simp only [List.cons.injEq, and_true] at sb
  obtain ⟨hname, -, rfl, rfl, hv, rfl⟩ := sb
  obtain ⟨e1, e2⟩ := operationRow_unique ra1 rb1
  obtain ⟨e3, e4⟩ := operationRow_unique ra2 rb2
  simp only [List.cons.injEq, and_true] at e2 e4
  refine ⟨middle_unique _ _ _ _ hname, ?_, ?_, time_line_unique hv, totals_verdict ra3 rb3⟩
  · cases hta : a.m.time; cases htb : b.m.time; simp only [hta, htb] at e1 e3; rw [e1, e3]
  · cases hta : a.m.info; cases htb : b.m.info; simp only [hta, htb] at e2; rw [e2]
end

/-! ## Concrete cases -/

example : stdDur 1500000 = "1.5ms" ∧ stdDur 999 = "999ns" ∧ stdDur 1000000001 = "1.000000001s" ∧ stdDur 12030 = "12.03µs" ∧ stdDur 0 = "0ns" := by
  decide

example : wordsOf "1)       1.5ms          +2.00KiB" = ["1)", "1.5ms", "+2.00KiB"] ∧ linesOf "a b\nc\n" = ["a b", "c", ""] := by decide

def readBackExample : AnalysisOf RegularMeasurements :=
  ⟨.oN2, .oN, ⟨"quadratic", ⟨1000, 2000⟩, ⟨10 ^ 6, 4020000⟩, ⟨⟨5000, 9000, 9000, 5000⟩, ⟨9000, 17000, 17000, 9000⟩⟩⟩⟩

example (up : TieRule) (p : Profile) (E : FloatEnv) (hE : E.rnd = binary32.round) (log2 : F → F) (powi : F → ℕ → F) (powf : F → F → F) (tol : F) :
    ∃ text header l1 l2 total, reportRegular (binary64Env log2 powi powf tol) (stdText E up) p readBackExample = .ok text ∧
      linesOf text = ["'" ++ readBackExample.m.name ++ "' regular-algorithm measurements:", header, l1, l2,
        "--> Algorithm  Time Analysis: " ++ readBackExample.time.asTimePrettyStr, total, ""] ∧
      RegularRow "1)" 1000000 ⟨5000, 9000, 9000, 5000⟩ 1000 l1 ∧ RegularRow "2)" 4020000 ⟨9000, 17000, 17000, 9000⟩ 2000 l2 ∧
      TotalsLine readBackExample.m.space readBackExample.space.asSpacePrettyStr total :=
  C69_regular_report log2 powi powf tol E hE up p readBackExample (by decide) ⟨by decide, by decide, by decide, by decide⟩
    ⟨by decide, by decide, by decide, by decide⟩ (by unfold PlausibleTime; decide) (by unfold PlausibleTime; decide) (by decide) (by decide) (by decide)
    (by decide)

end BigO
