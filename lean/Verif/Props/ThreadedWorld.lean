import Verif.Props.ThreadedTests
import Verif.Props.MeteredWorld

/-!
# C117, a concrete case: the passes of `example_weak_passes` in a whole test
-/
namespace BigO

/-- the first pass is of two threads, which allocate 100 and 50 bytes and free the 100; the second one starts where the first one ended and allocates 20
bytes; 1 ms each -/
theorem example_tpasses : ∃ x1 x2 : TPass, OrdinaryTPass .checked 1024 x1 ∧ OrdinaryTPass .checked 1024 x2 ∧ x1.finish = x2.start ∧
    x1.calls = [.alloc 100 true, .alloc 50 true, .dealloc 100] ∧ x2.calls = [.alloc 20 true] ∧ x1.time = 1000000 ∧ x2.time = 1000000 ∧
    (∀ b, x1.CouldNeed b → 50 ≤ b) ∧ (∀ b, x2.CouldNeed b → b = 20) ∧ x1.CouldNeed 150 ∧ x2.CouldNeed 20 := by
  obtain ⟨w2, w4, p1, -, p2, hone, hb, s1, s2⟩ := example_weak_passes
  have sched_of : ∀ {w w' : AWeak} {acts calls}, WeakPass 1 w acts w' calls → w.sched acts = some w' := by
    rintro w w' acts calls ⟨_, _, ⟨_, _, _, _, _, rfl, h2, _, _, h3, _, _, _, _, h4, _⟩, _⟩
    exact wsched_append.2 ⟨_, h2, wsched_append.2 ⟨_, h3, h4⟩⟩
  have r1 := sched_of p1
  have r2 := sched_of p2
  have rall : (AWeak.init .checked 1024 (fun _ => 0)).sched (exWeakPass1 ++ exWeakPass2) = some w4 := wsched_append.2 ⟨_, r1, r2⟩
  have e1 : ((AWeak.init .checked 1024 (fun _ => 0)).sched exWeakPass1).map (fun f => ((f.core.loc .currentUsedMemory).top,
      (List.range 4).map (f.core.loc .currentUsedMemory).val, f.begun)) = some (3, [0, 100, 150, 50], 1) := by decide +kernel
  have e2 : ((AWeak.init .checked 1024 (fun _ => 0)).sched (exWeakPass1 ++ exWeakPass2)).map (fun f => ((f.core.loc .currentUsedMemory).top,
      (f.core.loc .currentUsedMemory).val 3, (f.core.loc .currentUsedMemory).val 4, (f.core.th 1).pc)) = some (4, 50, 70, .idle) := by
    decide +kernel
  rw [r1] at e1
  rw [rall] at e2
  simp only [Option.map_some, Option.some.injEq, Prod.mk.injEq, List.range_succ, List.range_zero, List.nil_append,
    List.map_cons, List.map_nil, List.cons_append, List.cons.injEq, and_true] at e1 e2
  obtain ⟨t1, ⟨v0, v1, v2, v3⟩, b1⟩ := e1
  obtain ⟨t2, v3', v4, idle⟩ := e2
  have q4 : w4.core.Quiescent := by
    intro u
    by_cases h1 : u = 1
    · subst h1; exact idle
    · rw [wuntouched (u := u) _ (fun a ha e => h1 (e.symm.trans ((show ∀ a ∈ exWeakPass2, AAct.tid a = 1 by decide) a ha))) r2]
      exact p2.quiet u
  have u2 : w2.core.used = 50 := by unfold AConc.used Loc.last; rw [t1]; exact v3
  have u4 : w4.core.used = 70 := by unfold AConc.used Loc.last; rw [t2]; exact v4
  -- what was in use in the passes
  have in1 : ∀ v, UsedBetween (AWeak.init .checked 1024 fun _ => 0).core w2.core v → v = 0 ∨ v = 100 ∨ v = 150 ∨ v = 50 := by
    rintro v ⟨i, -, hi, rfl⟩
    rw [t1] at hi
    obtain rfl | rfl | rfl | rfl : i = 0 ∨ i = 1 ∨ i = 2 ∨ i = 3 := by omega
    · exact Or.inl v0
    · exact Or.inr (Or.inl v1)
    · exact Or.inr (Or.inr (Or.inl v2))
    · exact Or.inr (Or.inr (Or.inr v3))
  have in2 : ∀ v, UsedBetween w2.core w4.core v → v = 50 ∨ v = 70 := by
    rintro v ⟨i, hl, hi, rfl⟩
    rw [t1] at hl
    rw [t2] at hi
    obtain rfl | rfl : i = 3 ∨ i = 4 := by omega
    · exact Or.inl v3'
    · exact Or.inr v4
  let x1 : TPass := ⟨AWeak.init .checked 1024 fun _ => 0, exWeakPass1, w2, [.alloc 100 true, .alloc 50 true, .dealloc 100], 1, 1000000⟩
  let x2 : TPass := ⟨w2, exWeakPass2, w4, [.alloc 20 true], 1, 1000000⟩
  have hone' : OneAfterAnother anyone (AWeak.init .checked 1024 (fun _ => 0)) (exWeakPass1 ++ exWeakPass2) := by simpa using hone
  have o1 : OrdinaryTPass .checked 1024 x1 := by
    refine ⟨⟨[], rfl, ?_⟩, p1, ?_, ?_, ?_⟩
    · refine C116_one_measuring_thread _ _ _ (show _ = some w2 from r1) 1 ?_
      intro a ha
      have key : exWeakPass1.all (fun a => match a with | .save u => u == 1 | .delta u _ => u == 1 | _ => true) = true := by decide
      have key := List.all_eq_true.1 key a ha
      refine ⟨?_, ?_⟩
      · rintro u rfl; simpa using key
      · rintro u k rfl; simpa using key
    · show w2.begun < _
      rw [b1]; norm_num
    · show PlausibleTime 1000000
      unfold PlausibleTime; decide
    · intro b hb'
      rcases in1 b hb' with rfl | rfl | rfl | rfl <;> norm_num
  have o2 : OrdinaryTPass .checked 1024 x2 := by
    refine ⟨⟨exWeakPass1, r1, hone'⟩, p2, ?_, ?_, ?_⟩
    · show w4.begun < _
      rw [hb]; norm_num
    · show PlausibleTime 1000000
      unfold PlausibleTime; decide
    · intro b hb'
      rcases in2 b hb' with rfl | rfl <;> norm_num
  have end1 : x1.QuietAt w2 := ⟨exWeakPass1, [], (List.append_nil _).symm, r1, rfl, p2.quiet⟩
  have end2 : x2.QuietAt w4 := ⟨exWeakPass2, [], (List.append_nil _).symm, r2, rfl, q4⟩
  have lo1 : ∀ b, x1.CouldNeed b → 50 ≤ b := by
    rintro b ⟨peak, ⟨-, hq⟩, rfl⟩
    have h1 := hq w2 end1
    have h2 : x1.start.core.used = 0 := rfl
    omega
  have hi2 : ∀ b, x2.CouldNeed b → b = 20 := by
    rintro b ⟨peak, ⟨hu, hq⟩, rfl⟩
    have h1 := hq w4 end2
    have h2 : x2.start.core.used = 50 := u2
    rcases in2 peak hu with rfl | rfl <;> omega
  have found : ∀ (x : TPass) (sp : SpacePass), OrdinaryTPass .checked 1024 x → x.finish.core.passSpace x.start.core.saved.length = some sp →
      x.CouldNeed (bytesUsed sp) := by
    intro x sp ho hsp
    obtain ⟨m, e, -, -, -, -, -, hm⟩ := C117_pass (by norm_num) (by norm_num) x () ho
    unfold meterThreads at e
    simp only [hsp, Except.ok.injEq, Prod.mk.injEq, PassResult.mk.injEq, and_true, true_and] at e
    subst e
    exact hm
  exact ⟨x1, x2, o1, o2, rfl, rfl, rfl, rfl, rfl, lo1, hi2, found x1 _ o1 s1, found x2 _ o2 s2⟩

/-- a test in which these are the first and the second pass (and what happens when it is reset is the same as in the first) -/
noncomputable def threadsEnv (T : TextEnv) (x1 x2 : TPass) : RegEnv :=
  ⟨.checked, idealShipped, T, fun _ => "", fun _ c => meterThreads (.ok (match c with | .pass2 => x2 | _ => x1, 0))⟩

-- the test is passed as O(1) in time and space, in one round
example (T : TextEnv) (retries : ℕ) : ∃ x1 x2 : TPass, x1.calls = [.alloc 100 true, .alloc 50 true, .dealloc 100] ∧ x2.calls = [.alloc 20 true] ∧
    (testAlgorithm (threadsEnv T x1 x2) ⟨"threads", retries, 1000, 2000, .o1, .o1⟩ []).1 = .ok () := by
  obtain ⟨x1, x2, o1, o2, -, k1, k2, t1, t2, g1, g2, -, -⟩ := example_tpasses
  refine ⟨x1, x2, k1, k2, (C117_regular_accepts ideal_library (Or.inl rfl) (N := 1024) (by norm_num) (by norm_num) (threadsEnv T x1 x2) rfl
    (fun _ c => .ok (match c with | .pass2 => x2 | _ => x1, 0)) ⟨"threads", retries, 1000, 2000, .o1, .o1⟩ quadratic_sizes ?_ ?_ []
    (fun _ _ _ => rfl) ?_ (by norm_num) (fun _ _ _ => ⟨_, _, rfl⟩) ?_).1⟩
  · rintro c h; cases h; simp [Covered, Complexity.asU32]
  · rintro c h; cases h; simp [Covered, Complexity.asU32]
  · intro h c x r _ e
    cases c <;> cases e <;> first | exact o1 | exact o2
  · intro h1 h2 y1 y2 r1 r2 _ _ e1 e2
    cases e1
    cases e2
    refine ⟨⟨by rw [t1]; decide, fun b hb => lt_of_lt_of_le (by norm_num) (g1 b hb)⟩, fun b1 b2 hb1 hb2 => ⟨?_, ?_⟩⟩
    · rintro l ⟨⟩
      rw [t1, t2]
      simp only [MeetsLimit, seconds, abitMore]; norm_num
    · rintro l ⟨⟩
      have l1 : (50 : ℝ) ≤ b1 := by exact_mod_cast g1 b1 hb1
      have l2 : (b2 : ℝ) ≤ 20 := by exact_mod_cast (g2 b2 hb2).le
      have : (b2 : ℝ) * abitMore ≤ 20 * 2 := mul_le_mul l2 (by unfold abitMore; norm_num) (by unfold abitMore; norm_num) (by norm_num)
      simp only [MeetsLimit]
      rw [div_le_iff₀ (by linarith)]
      linarith

-- and the other way round never, however often it is retried
example (T : TextEnv) (retries : ℕ) : ∃ x1 x2 : TPass, x1.calls = [.alloc 20 true] ∧ x2.calls = [.alloc 100 true, .alloc 50 true, .dealloc 100] ∧
    ∃ e, (testAlgorithm (threadsEnv T x1 x2) ⟨"threads", retries, 1000, 2000, .o1, .o1⟩ []).1 = .error e := by
  obtain ⟨x2, x1, o2, o1, -, k2, k1, t2, t1, g2, g1, -, -⟩ := example_tpasses
  refine ⟨x1, x2, k1, k2, C117_regular_rejects ideal_library (Or.inl rfl) (N := 1024) (by norm_num) (by norm_num) (threadsEnv T x1 x2) rfl
    (fun _ c => .ok (match c with | .pass2 => x2 | _ => x1, 0)) ⟨"threads", retries, 1000, 2000, .o1, .o1⟩ quadratic_sizes ?_ ?_ []
    (fun _ _ _ => rfl) ?_ ?_⟩
  · rintro c h; cases h; simp [Covered, Complexity.asU32]
  · rintro c h; cases h; simp [Covered, Complexity.asU32]
  · intro h c x r _ e
    cases c <;> cases e <;> first | exact o1 | exact o2
  · intro h1 h2 y1 y2 r1 r2 _ _ e1 e2
    cases e1
    cases e2
    refine ⟨⟨by rw [t1]; decide, fun b hb => by rw [g1 b hb]; norm_num⟩, fun b1 b2 hb1 hb2 h => ?_⟩
    have hs := h.space _ rfl
    have l2 : (50 : ℝ) ≤ b2 := by exact_mod_cast g2 b2 hb2
    have l1 : (b1 : ℝ) = 20 := by exact_mod_cast g1 b1 hb1
    have : (50 : ℝ) * (1 / 2) ≤ (b2 : ℝ) * abitLess := mul_le_mul l2 (by unfold abitLess; norm_num) (by norm_num) (by positivity)
    simp only [MeetsLimit] at hs
    rw [l1, div_le_iff₀ (by norm_num)] at hs
    linarith

/-- the asynchronous test of the same two passes, with a reset that does what the first one does -/
noncomputable def threadsBuilder (x1 x2 : TPass) : Builder Unit Unit :=
  ⟨"threads", some fun _ _ => meterThreads (.ok (x1, ())), some 5, none, 1000, some fun _ _ => meterThreads (.ok (x1, ())), none,
    2000, some fun _ _ => meterThreads (.ok (x2, ())), none, some .o1, some .o1, none, []⟩

-- it is passed as O(1) in time and space, in one round
example (T : TextEnv) : ∃ x1 x2 : TPass, x1.calls = [.alloc 100 true, .alloc 50 true, .dealloc 100] ∧ x2.calls = [.alloc 20 true] ∧
    (testAsync ⟨.checked, idealShipped, T, fun _ => ""⟩ (threadsBuilder x1 x2) []).1 = .ok () := by
  obtain ⟨x1, x2, o1, o2, -, k1, k2, t1, t2, g1, g2, -, -⟩ := example_tpasses
  refine ⟨x1, x2, k1, k2, (C117_async_accepts ideal_library (Or.inl rfl) (N := 1024) (by norm_num) (by norm_num)
    ⟨.checked, idealShipped, T, fun _ => ""⟩ rfl (fun s _ _ => .ok (match s with | .pass2 => x2 | _ => x1, ())) (threadsBuilder x1 x2)
    quadratic_sizes ?_ ?_ [] ?_ ?_ (show 2000 < 2 ^ 32 by norm_num) rfl rfl (fun s _ _ _ => ⟨_, _, rfl⟩) ?_ ?_).1⟩
  · rintro c h; cases h; exact Or.inl (by decide)
  · rintro c h; cases h; exact Or.inl (by decide)
  · intro s f hf h i _
    cases s <;> cases hf <;> rfl
  · intro s h i x r _ e
    cases s <;> cases e <;> first | exact o1 | exact o2
  · rintro c (h | h) <;> cases h
  · intro h1 h2 i1 i2 y1 y2 r1 r2 _ _ e1 e2
    cases e1
    cases e2
    refine ⟨⟨by rw [t1]; decide, fun b hb => lt_of_lt_of_le (by norm_num) (g1 b hb)⟩, fun b1 b2 hb1 hb2 => ⟨?_, ?_⟩⟩
    · rintro l ⟨⟩
      rw [t1, t2]
      simp only [MeetsLimit, seconds, abitMore]; norm_num
    · rintro l ⟨⟩
      have l1 : (50 : ℝ) ≤ b1 := by exact_mod_cast g1 b1 hb1
      have l2 : (b2 : ℝ) ≤ 20 := by exact_mod_cast (g2 b2 hb2).le
      have : (b2 : ℝ) * abitMore ≤ 20 * 2 := mul_le_mul l2 (by unfold abitMore; norm_num) (by unfold abitMore; norm_num) (by norm_num)
      simp only [MeetsLimit]
      rw [div_le_iff₀ (by linarith)]
      linarith

/-- a CRUD test whose first and second passes they are, whatever the operation -/
noncomputable def threadsCrud (T : TextEnv) (x1 x2 : TPass) : CrudEnv :=
  ⟨.checked, idealShipped, T, fun _ ph _ _ _ _ => meterThreads (.ok (match ph with | .pass2 => x2 | _ => x1, 0)), fun _ => 10 ^ 6, fun _ _ => .ok ()⟩

theorem threads_can {x1 x2 : TPass} {S : List Ev → Prop} {cfg : CrudCfg} {op : Op} {y1 y2 : TPass}
    (h : CanDoT S (fun _ ph _ _ _ _ => .ok (match ph with | .pass2 => x2 | _ => x1, 0)) cfg op y1 y2) : y1 = x1 ∧ y2 = x2 := by
  obtain ⟨⟨t, r, -, e⟩, ⟨t', r', -, e'⟩⟩ := h
  cases e; cases e'
  exact ⟨rfl, rfl⟩

-- creating and reading 1000 elements: passed as O(1)
example (T : TextEnv) (max : ℕ) (hm : 1 ≤ max) : ∃ x1 x2 : TPass, x1.calls = [.alloc 100 true, .alloc 50 true, .dealloc 100] ∧
    x2.calls = [.alloc 20 true] ∧ (testCrud (threadsCrud T x1 x2) (doublingCfg .o1) max []).1 = .ok () := by
  obtain ⟨x1, x2, o1, o2, -, k1, k2, t1, t2, g1, g2, -, -⟩ := example_tpasses
  refine ⟨x1, x2, k1, k2, C117_crud_accepts ideal_library (Or.inl rfl) (N := 1024) (by norm_num) (by norm_num) (threadsCrud T x1 x2) rfl
    (fun _ ph _ _ _ _ => .ok (match ph with | .pass2 => x2 | _ => x1, 0)) (doublingCfg .o1) max hm [] (fun _ _ _ _ _ _ _ => rfl) ?_
    (doubling_fits _).1 ?_ (fun _ _ _ => rfl) (fun _ _ _ _ _ _ _ => ⟨_, _, rfl⟩) ?_⟩
  · intro h ph op a b th d r _ e
    cases ph <;> cases e <;> first | exact o1 | exact o2
  · intro op h
    cases op <;> simp [SaneOp, Covered, doublingCfg, Complexity.asU32] at h ⊢
  · intro op hop y1 y2 hc
    obtain ⟨rfl, rfl⟩ := threads_can hc
    refine ⟨⟨by rw [t1]; decide, fun b hb => lt_of_lt_of_le (by norm_num) (g1 b hb)⟩, fun b1 b2 hb1 hb2 => ?_⟩
    have time : seconds y2.time * abitMore / seconds y1.time ≤ 1 + 1 / 10 := by
      rw [t1, t2]
      simp only [seconds, abitMore]; norm_num
    have space : (b2 : ℝ) * abitMore / b1 ≤ 1 + 1 / 10 := by
      have l1 : (50 : ℝ) ≤ b1 := by exact_mod_cast g1 b1 hb1
      have l2 : (b2 : ℝ) ≤ 20 := by exact_mod_cast (g2 b2 hb2).le
      have : (b2 : ℝ) * abitMore ≤ 20 * 2 := mul_le_mul l2 (by unfold abitMore; norm_num) (by unfold abitMore; norm_num) (by norm_num)
      rw [div_le_iff₀ (by linarith)]
      linarith
    cases op with
    | update => simp [doublingCfg] at hop
    | delete => simp [doublingCfg] at hop
    | create => exact ⟨time, space⟩
    | read => constructor <;> rintro l ⟨⟩ <;> assumption

-- and the other way round never
example (T : TextEnv) (max : ℕ) (hm : 1 ≤ max) : ∃ x1 x2 : TPass, x1.calls = [.alloc 20 true] ∧
    x2.calls = [.alloc 100 true, .alloc 50 true, .dealloc 100] ∧ (testCrud (threadsCrud T x1 x2) (doublingCfg .o1) max []).1 ≠ .ok () := by
  obtain ⟨x2, x1, o2, o1, -, k2, k1, t2, t1, g2, g1, -, -⟩ := example_tpasses
  refine ⟨x1, x2, k1, k2, C117_crud_rejects ideal_library (Or.inl rfl) (N := 1024) (by norm_num) (by norm_num) (threadsCrud T x1 x2) rfl
    (fun _ ph _ _ _ _ => .ok (match ph with | .pass2 => x2 | _ => x1, 0)) (doublingCfg .o1) max hm [] (fun _ _ _ _ _ _ _ => rfl) ?_
    (doubling_fits _).2 .create (by decide) (by rintro (h | h) <;> cases h) ?_⟩
  · intro h ph op a b th d r _ e
    cases ph <;> cases e <;> first | exact o1 | exact o2
  · intro cfg' hr y1 y2 hc
    obtain ⟨rfl, rfl⟩ := threads_can hc
    refine ⟨⟨by rw [t1]; decide, fun b hb => by rw [g1 b hb]; norm_num⟩, fun b1 b2 hb1 hb2 h => ?_⟩
    have hs := h.space
    rw [hr.smax] at hs
    have l2 : (50 : ℝ) ≤ b2 := by exact_mod_cast g2 b2 hb2
    have l1 : (b1 : ℝ) = 20 := by exact_mod_cast g1 b1 hb1
    have : (50 : ℝ) * (1 / 2) ≤ (b2 : ℝ) * abitLess := mul_le_mul l2 (by unfold abitLess; norm_num) (by norm_num) (by positivity)
    have hs' : (b2 : ℝ) * abitLess / b1 ≤ 1 + 1 / 10 := hs
    rw [l1, div_le_iff₀ (by norm_num)] at hs'
    linarith

end BigO
