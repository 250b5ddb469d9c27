import Verif.Spec.ReportSpec
import Verif.Props.Display
import Verif.Proofs.Shipped

/-!
# C81: reports show each pass's own numbers and both verdicts
-/
namespace BigO

theorem ShowsInOrder.prepend {text : String} {xs : List String} (p : String) (h : ShowsInOrder text xs) : ShowsInOrder (p ++ text) xs := by
  cases xs with
  | nil => trivial
  | cons x xs =>
    obtain ⟨a, b, rfl, h⟩ := h
    exact ⟨p ++ a, b, by simp only [String.append_assoc], h⟩

theorem ShowsInOrder.here {text : String} {xs : List String} (x : String) (h : ShowsInOrder text xs) : ShowsInOrder (x ++ text) (x :: xs) :=
  ⟨"", text, by simp, h⟩

theorem row_shows (k time space : String) (cols : List String) (pe rest : String) (xs : List String) (h : ShowsInOrder rest xs) :
    ShowsInOrder (tableRow k time space cols pe ++ rest) ((k ++ ") ") :: time :: space :: (cols ++ pe :: "\n" :: xs)) := by
  have hcols : ∀ (cols : List String) (acc tail : String) (ys : List String), ShowsInOrder tail ys →
      ∃ b, (cols.map fun c => "  " ++ padLeft 12 c).foldl (· ++ ·) acc ++ tail = acc ++ b ∧ ShowsInOrder b (cols ++ ys) := by
    intro cols
    induction cols with
    | nil => intro acc tail ys h; exact ⟨tail, rfl, h⟩
    | cons c cols ih =>
      intro acc tail ys h
      obtain ⟨b, hb, hs⟩ := ih (acc ++ ("  " ++ padLeft 12 c)) tail ys h
      refine ⟨"  " ++ padLeft 12 c ++ b, ?_, ?_⟩
      · rw [List.map_cons, List.foldl_cons, hb]; simp only [String.append_assoc]
      · unfold padLeft
        simp only [String.append_assoc, List.cons_append]
        exact ShowsInOrder.prepend _ (ShowsInOrder.prepend _ (ShowsInOrder.here c hs))
  have hpe : ShowsInOrder ("  " ++ padLeft 12 pe ++ "\n" ++ rest) (pe :: "\n" :: xs) := by
    unfold padLeft
    simp only [String.append_assoc]
    exact ShowsInOrder.prepend _ (ShowsInOrder.prepend _ (ShowsInOrder.here pe (ShowsInOrder.here "\n" h)))
  obtain ⟨b, hb, hs⟩ := hcols cols "" _ _ hpe
  have e : tableRow k time space cols pe ++ rest = (k ++ ") ") ++ (padLeft 13 time ++ ("  " ++ (padLeft 14 space ++ b))) := by
    unfold tableRow
    simp only [String.append_assoc, String.empty_append] at hb ⊢
    rw [hb]
  rw [e]
  refine ShowsInOrder.here _ ?_
  unfold padLeft
  simp only [String.append_assoc]
  exact ShowsInOrder.prepend _ (ShowsInOrder.here _ (ShowsInOrder.prepend _ (ShowsInOrder.prepend _ (ShowsInOrder.here _ hs))))

theorem bind_inv {α β : Type} {x : Rs α} {f : α → Rs β} {b : β} (h : (x >>= f) = .ok b) : ∃ a, x = .ok a ∧ f a = .ok b := by
  cases x with
  | error e => exact absurd h (by simp [bind, Except.bind])
  | ok a => exact ⟨a, rfl, h⟩

section
variable (E : FloatEnv) (T : TextEnv) (p : Profile)

theorem analysis_shows {time space : Complexity} {m : SpaceMeasurements} {meas : Rs String} {text : String} {rows : List String}
    (h : displayAnalysis T p time space m meas = .ok text)
    (hrows : ∀ t, meas = .ok t → ∀ rest xs, ShowsInOrder rest xs → ShowsInOrder (t ++ rest) (rows ++ xs)) :
    ∃ total, displaySpace T p m = .ok total ∧
      ShowsInOrder text (rows ++ [time.asTimePrettyStr, "\n", space.asSpacePrettyStr, total]) := by
  unfold displayAnalysis at h
  obtain ⟨t, ht, h⟩ := bind_inv h
  obtain ⟨s, hs, h⟩ := bind_inv h
  refine ⟨s, hs, ?_⟩
  cases h
  simp only [String.append_assoc]
  apply hrows t ht
  refine ShowsInOrder.prepend _ (ShowsInOrder.here _ (ShowsInOrder.here _ (ShowsInOrder.prepend _ (ShowsInOrder.here _ ?_))))
  exact ShowsInOrder.prepend _ (ShowsInOrder.here _ trivial)

/-- **C81** (regular algorithms): the report shows, in this order, the name; per pass its number, its duration, its memory, its
number of elements, its memory and its time per element, on one line; then the time verdict, the space verdict and the memory
totals. -/
theorem C81_regular_report (a : AnalysisOf RegularMeasurements) (text : String) (h : reportRegular E T p a = .ok text) :
    ∃ s1 s2 e1 e2 t1 t2 total,
      displaySpacePass T p a.m.space.pass1 = .ok s1 ∧ displaySpacePass T p a.m.space.pass2 = .ok s2 ∧
      fmtOverN T p a.m.space.pass1 a.m.info.pass1n = .ok e1 ∧ fmtOverN T p a.m.space.pass2 a.m.info.pass2n = .ok e2 ∧
      timePerElement E a.m.time.pass1 a.m.info.pass1n = .ok t1 ∧ timePerElement E a.m.time.pass2 a.m.info.pass2n = .ok t2 ∧
      displaySpace T p a.m.space = .ok total ∧
      ShowsInOrder text
        ["'" ++ a.m.name ++ "'",
         "1) ", T.dur a.m.time.pass1, s1, toString a.m.info.pass1n, e1, T.dur3 t1, "\n",
         "2) ", T.dur a.m.time.pass2, s2, toString a.m.info.pass2n, e2, T.dur3 t2, "\n",
         a.time.asTimePrettyStr, "\n", a.space.asSpacePrettyStr, total] := by
  have h' := h
  unfold reportRegular displayAnalysis at h'
  obtain ⟨t, ht, -⟩ := bind_inv h'
  unfold displayRegular at ht
  obtain ⟨s1, hs1, ht⟩ := bind_inv ht
  obtain ⟨s2, hs2, ht⟩ := bind_inv ht
  obtain ⟨e1, he1, ht⟩ := bind_inv ht
  obtain ⟨e2, he2, ht⟩ := bind_inv ht
  obtain ⟨t1, ht1, ht⟩ := bind_inv ht
  obtain ⟨t2, ht2, ht⟩ := bind_inv ht
  obtain ⟨total, htot, hs⟩ := analysis_shows T p
    (rows := ["'" ++ a.m.name ++ "'", "1) ", T.dur a.m.time.pass1, s1, toString a.m.info.pass1n, e1, T.dur3 t1, "\n",
         "2) ", T.dur a.m.time.pass2, s2, toString a.m.info.pass2n, e2, T.dur3 t2, "\n"]) h (by
      intro t' ht' rest xs hxs
      unfold displayRegular at ht'
      simp only [hs1, hs2, he1, he2, ht1, ht2, bind, Except.bind, pure, Except.pure, Except.ok.injEq] at ht'
      rw [← ht']
      rw [show "'" ++ a.m.name ++ "' regular-algorithm measurements:\n" =
        ("'" ++ a.m.name ++ "'") ++ " regular-algorithm measurements:\n" by simp only [String.append_assoc]; rfl]
      rw [String.append_assoc, String.append_assoc, String.append_assoc, String.append_assoc]
      refine ShowsInOrder.here _ (ShowsInOrder.prepend _ (ShowsInOrder.prepend _ ?_))
      exact row_shows "1" _ _ [_, _] _ _ _ (row_shows "2" _ _ [_, _] _ _ _ hxs))
  exact ⟨s1, s2, e1, e2, t1, t2, total, hs1, hs2, he1, he2, ht1, ht2, htot, hs⟩

/-- **C81** (read and update operations): per pass its number, duration, memory, set size, repetitions and time per repetition. -/
theorem C81_constant_set_report (a : AnalysisOf ConstantSetMeasurements) (text : String) (h : reportConstantSet E T p a = .ok text) :
    ∃ s1 s2 t1 t2 total,
      displaySpacePass T p a.m.space.pass1 = .ok s1 ∧ displaySpacePass T p a.m.space.pass2 = .ok s2 ∧
      timePerElement E a.m.time.pass1 a.m.info.repetitions = .ok t1 ∧ timePerElement E a.m.time.pass2 a.m.info.repetitions = .ok t2 ∧
      displaySpace T p a.m.space = .ok total ∧
      ShowsInOrder text
        ["'" ++ a.m.name ++ "'",
         "1) ", T.dur a.m.time.pass1, s1, toString a.m.info.pass1SetSize, toString a.m.info.repetitions, T.dur3 t1, "\n",
         "2) ", T.dur a.m.time.pass2, s2, toString a.m.info.pass2SetSize, toString a.m.info.repetitions, T.dur3 t2, "\n",
         a.time.asTimePrettyStr, "\n", a.space.asSpacePrettyStr, total] := by
  have h' := h
  unfold reportConstantSet displayAnalysis at h'
  obtain ⟨t, ht, -⟩ := bind_inv h'
  unfold displayConstantSet at ht
  obtain ⟨s1, hs1, ht⟩ := bind_inv ht
  obtain ⟨s2, hs2, ht⟩ := bind_inv ht
  obtain ⟨t1, ht1, ht⟩ := bind_inv ht
  obtain ⟨t2, ht2, ht⟩ := bind_inv ht
  obtain ⟨total, htot, hs⟩ := analysis_shows T p
    (rows := ["'" ++ a.m.name ++ "'",
         "1) ", T.dur a.m.time.pass1, s1, toString a.m.info.pass1SetSize, toString a.m.info.repetitions, T.dur3 t1, "\n",
         "2) ", T.dur a.m.time.pass2, s2, toString a.m.info.pass2SetSize, toString a.m.info.repetitions, T.dur3 t2, "\n"]) h (by
      intro t' ht' rest xs hxs
      unfold displayConstantSet at ht'
      simp only [hs1, hs2, ht1, ht2, bind, Except.bind, pure, Except.pure, Except.ok.injEq] at ht'
      rw [← ht']
      rw [show "'" ++ a.m.name ++ "' constant set iterator-algorithm measurements:\n" =
        ("'" ++ a.m.name ++ "'") ++ " constant set iterator-algorithm measurements:\n" by simp only [String.append_assoc]; rfl]
      rw [String.append_assoc, String.append_assoc, String.append_assoc, String.append_assoc]
      refine ShowsInOrder.here _ (ShowsInOrder.prepend _ (ShowsInOrder.prepend _ ?_))
      exact row_shows "1" _ _ [_, _] _ _ _ (row_shows "2" _ _ [_, _] _ _ _ hxs))
  exact ⟨s1, s2, t1, t2, total, hs1, hs2, ht1, ht2, htot, hs⟩

/-- **C81** (create and delete operations): per pass its number, duration, memory, the size the set has after it and the time per
element of that pass. (`hn`: the doubled set size fits in 32 bits, see C74 for larger ones.) -/
theorem C81_set_resizing_report (a : AnalysisOf SetResizingMeasurements) (text : String) (hn : a.m.info.deltaSetSize < 2 ^ 31)
    (h : reportSetResizing E T p a = .ok text) :
    ∃ s1 s2 t1 t2 total,
      displaySpacePass T p a.m.space.pass1 = .ok s1 ∧ displaySpacePass T p a.m.space.pass2 = .ok s2 ∧
      timePerElement E a.m.time.pass1 a.m.info.deltaSetSize = .ok t1 ∧ timePerElement E a.m.time.pass2 a.m.info.deltaSetSize = .ok t2 ∧
      displaySpace T p a.m.space = .ok total ∧
      ShowsInOrder text
        ["'" ++ a.m.name ++ "'",
         "1) ", T.dur a.m.time.pass1, s1, toString a.m.info.deltaSetSize, T.dur3 t1, "\n",
         "2) ", T.dur a.m.time.pass2, s2, toString (2 * a.m.info.deltaSetSize), T.dur3 t2, "\n",
         a.time.asTimePrettyStr, "\n", a.space.asSpacePrettyStr, total] := by
  have h' := h
  unfold reportSetResizing displayAnalysis at h'
  obtain ⟨t, ht, -⟩ := bind_inv h'
  unfold displaySetResizing at ht
  obtain ⟨s1, hs1, ht⟩ := bind_inv ht
  obtain ⟨s2, hs2, ht⟩ := bind_inv ht
  obtain ⟨t1, ht1, ht⟩ := bind_inv ht
  obtain ⟨n2, hn2, ht⟩ := bind_inv ht
  obtain ⟨t2, ht2, ht⟩ := bind_inv ht
  have en2 : n2 = 2 * a.m.info.deltaSetSize := by
    unfold u32Mul at hn2
    rw [if_pos (by omega)] at hn2
    cases hn2
    omega
  rw [← en2]
  obtain ⟨total, htot, hs⟩ := analysis_shows T p
    (rows := ["'" ++ a.m.name ++ "'", "1) ", T.dur a.m.time.pass1, s1, toString a.m.info.deltaSetSize, T.dur3 t1, "\n",
         "2) ", T.dur a.m.time.pass2, s2, toString n2, T.dur3 t2, "\n"]) h (by
      intro t' ht' rest xs hxs
      unfold displaySetResizing at ht'
      simp only [hs1, hs2, ht1, ht2, hn2, bind, Except.bind, pure, Except.pure, Except.ok.injEq] at ht'
      rw [← ht']
      rw [show "'" ++ a.m.name ++ "' set resizing iterator-algorithm measurements:\n" =
        ("'" ++ a.m.name ++ "'") ++ " set resizing iterator-algorithm measurements:\n" by simp only [String.append_assoc]; rfl]
      rw [String.append_assoc, String.append_assoc, String.append_assoc, String.append_assoc]
      refine ShowsInOrder.here _ (ShowsInOrder.prepend _ (ShowsInOrder.prepend _ ?_))
      exact row_shows "1" _ _ [_] _ _ _ (row_shows "2" _ _ [_] _ _ _ hxs))
  exact ⟨s1, s2, t1, t2, total, hs1, hs2, ht1, ht2, htot, hs⟩

end

theorem humanReadable_exact (t : ℝ) (T : TextEnv) (hT : T.f32 = exactEnv t) {r : ℝ} (hr0 : 0 ≤ r) : ShowsBytes T r (humanReadable T (F.fin r)) := by
  have hscale : ∀ k : ℝ, 0 < k → T.f32.div (F.fin r) (F.fin k) = F.fin (r / k) := by
    intro k hk; rw [hT, ex_div hr0 hk]
  unfold humanReadable memUnit memScaled
  simp only [F.fin_lt_fin]
  by_cases h30 : (2:ℝ) ^ 30 < r
  · refine ⟨"GiB", 2 ^ 30, ?_, Or.inr ⟨rfl, rfl, ?_⟩⟩
    · simp only [if_pos h30, hscale _ (show (0:ℝ) < 2 ^ 30 by norm_num)]
    · rw [lt_div_iff₀ (by norm_num)]; linarith
  · by_cases h20 : (2:ℝ) ^ 20 < r
    · refine ⟨"MiB", 2 ^ 20, ?_, Or.inl ⟨1, 2 ^ 10, by simp [unitTable], ?_, ?_⟩⟩
      · simp only [if_neg h30, if_pos h20, hscale _ (show (0:ℝ) < 2 ^ 20 by norm_num)]
      · rw [lt_div_iff₀ (by norm_num)]; linarith
      · rw [div_le_iff₀ (by norm_num)]; norm_num at h30 ⊢; linarith
    · by_cases h10 : (2:ℝ) ^ 10 < r
      · refine ⟨"KiB", 2 ^ 10, ?_, Or.inl ⟨1, 2 ^ 10, by simp [unitTable], ?_, ?_⟩⟩
        · simp only [if_neg h30, if_neg h20, if_pos h10, hscale _ (show (0:ℝ) < 2 ^ 10 by norm_num)]
        · rw [lt_div_iff₀ (by norm_num)]; linarith
        · rw [div_le_iff₀ (by norm_num)]; norm_num at h20 ⊢; linarith
      · refine ⟨"b", 1, ?_, Or.inl ⟨-1, 2 ^ 10, by simp [unitTable], ?_, ?_⟩⟩
        · simp only [if_neg h30, if_neg h20, if_neg h10, div_one]
        · rw [div_one]; linarith
        · rw [div_one]; linarith

/-- **C81** (memory totals, exact arithmetic): the totals are the growth over both passes, called `allocated` or, if negative,
`freed`, and the auxiliary space, each in its unit. -/
theorem C81_totals (t : ℝ) (T : TextEnv) (hT : T.f32 = exactEnv t) (p : Profile) (m : SpaceMeasurements)
    (h1 : PlausibleReading m.pass1) (h2 : PlausibleReading m.pass2) :
    ∃ change aux, ShowsBytes T |(totalChange m : ℝ)| change ∧ ShowsBytes T (totalAuxiliary m) aux ∧
      displaySpace T p m =
        .ok ((if totalChange m < 0 then "freed" else "allocated") ++ ": " ++ change ++ "; auxiliary used space: " ++ aux) := by
  refine ⟨_, _, humanReadable_exact t T hT (abs_nonneg _), humanReadable_exact t T hT (Nat.cast_nonneg _), ?_⟩
  unfold displaySpace
  rw [C76_delta p m h1 h2, C76_auxiliary p m h1 h2]
  obtain ⟨a1, a2, a3, a4⟩ := h1
  obtain ⟨b1, b2, b3, b4⟩ := h2
  simp only
  unfold isizeAbs
  have hb : |((m.pass1.usedAfter : ℤ) - m.pass1.usedBefore) + ((m.pass2.usedAfter : ℤ) - m.pass2.usedBefore)| < 2 ^ 63 := by
    rw [abs_lt]; constructor <;> omega
  rw [isizeRes_ok (le_trans (by norm_num) (abs_nonneg _)) hb]
  have e0 : T.f32.rnd0 ((|((m.pass1.usedAfter : ℤ) - m.pass1.usedBefore) + ((m.pass2.usedAfter : ℤ) - m.pass2.usedBefore)| : ℤ) : ℝ) =
      F.fin |(totalChange m : ℝ)| := by
    rw [Int.cast_abs, hT]
    unfold FloatEnv.rnd0 totalChange
    push_cast
    split_ifs with h
    · rw [h]
    · rfl
  simp only [e0]
  rw [hT, ex_ofNat]
  have e1 : (0 ≤ ((m.pass1.usedAfter : ℤ) - m.pass1.usedBefore) + ((m.pass2.usedAfter : ℤ) - m.pass2.usedBefore)) ↔ ¬ totalChange m < 0 := by
    unfold totalChange; omega
  by_cases hc : totalChange m < 0
  · rw [if_pos hc, if_neg (fun h => e1.1 h hc)]; rfl
  · rw [if_neg hc, if_pos (e1.2 hc)]; rfl

/-- **C81** (time per element, exact arithmetic): the duration shown per element is the elapsed time over the number of elements,
to the nearest nanosecond. -/
theorem C81_time_per_element (t : ℝ) (d : Duration) (hd : PlausibleTime d) (n : ℕ) (hn : 1 ≤ n) :
    ∃ x : ℕ, timePerElement (exactEnv t) d n = .ok x ∧ |(x : ℝ) - (d : ℝ) / n| ≤ 1 / 2 := by
  have hnpos : (0:ℝ) < n := by exact_mod_cast hn
  unfold timePerElement
  rw [ex_asSecs, ex_ofNat, ex_div (by positivity) hnpos]
  have hlt : (d : ℝ) / 10 ^ 9 < 2 ^ 64 := by
    rw [div_lt_iff₀ (by positivity)]
    have : d < 2 ^ 53 * 10 ^ 9 := by
      have h : d / 10 ^ 9 < 2 ^ 53 := hd
      exact (Nat.div_lt_iff_lt_mul (by norm_num)).1 h
    have h2 : (d : ℝ) < ((2 ^ 53 * 10 ^ 9 : ℕ) : ℝ) := by exact_mod_cast this
    refine h2.trans ?_
    norm_num
  have hq : (d : ℝ) / 10 ^ 9 / n ≤ (d : ℝ) / 10 ^ 9 := div_le_self (by positivity) (by exact_mod_cast hn)
  unfold fromSecsF64
  simp only
  rw [if_pos ⟨by positivity, lt_of_le_of_lt hq hlt⟩]
  refine ⟨_, rfl, ?_⟩
  have e : (d : ℝ) / 10 ^ 9 / n * 10 ^ 9 = (d : ℝ) / n := by
    field_simp
  rw [e]
  exact halfEven_near (by positivity)

/-! ## Concrete cases -/

/-- a report of a regular test that doubles its work: the hypothesis of `C81_regular_report` is met -/
example (E : FloatEnv) (L : FloatLaws E) (T : TextEnv) (p : Profile) :
    ∃ text, reportRegular E T p ⟨.oN, .o1, ⟨"sum", ⟨1000, 2000⟩, ⟨5000000, 10000000⟩, ⟨⟨1000, 5000, 9000, 1000⟩, ⟨1000, 5000, 9000, 1000⟩⟩⟩⟩ = .ok text :=
  (C74_no_panic_partial E L T p _ _ ⟨by norm_num, by norm_num, by norm_num, by norm_num⟩ ⟨by norm_num, by norm_num, by norm_num, by norm_num⟩
    (by unfold PlausibleTime; norm_num) (by unfold PlausibleTime; norm_num) _ _ _).1 1000 2000 (by norm_num) (by norm_num) (by norm_num) (by norm_num)

example (E : FloatEnv) (L : FloatLaws E) (T : TextEnv) (p : Profile) :
    ∃ text, reportSetResizing E T p ⟨.oN, .o1, ⟨"sum", ⟨1000⟩, ⟨5000000, 10000000⟩, ⟨⟨1000, 5000, 9000, 1000⟩, ⟨1000, 5000, 9000, 1000⟩⟩⟩⟩ = .ok text :=
  (C74_no_panic_partial E L T p _ _ ⟨by norm_num, by norm_num, by norm_num, by norm_num⟩ ⟨by norm_num, by norm_num, by norm_num, by norm_num⟩
    (by unfold PlausibleTime; norm_num) (by unfold PlausibleTime; norm_num) _ _ _).2.2 1000 (by norm_num) (by norm_num)

/-- memory that shrank by 3000 bytes in total -/
example : totalChange ⟨⟨5000, 1000, 9000, 1000⟩, ⟨1000, 2000, 9000, 1000⟩⟩ = -3000 ∧
    totalAuxiliary ⟨⟨5000, 1000, 9000, 1000⟩, ⟨1000, 2000, 9000, 1000⟩⟩ = 11000 := by decide

end BigO
