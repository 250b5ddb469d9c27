import Verif.Props.Metered

/-!
# C108, a concrete world: all the heap calls of a whole test, from the start of the process
-/
namespace BigO

/-- an algorithm that fills a vector of eight bytes per element and drops it, 1 µs per element; the reset does nothing -/
def vectorDeed : RegCall → Deed
  | .reset => ⟨[], 100⟩
  | .pass1 => ⟨[.call (.alloc 8000 true), .call (.dealloc 8000)], 1000 * 1000⟩
  | .pass2 => ⟨[.call (.alloc 16000 true), .call (.dealloc 16000)], 2000 * 1000⟩

/-- which closures were called -/
def calledOf : List RegEv → List RegCall
  | [] => []
  | .call c _ :: l => c :: calledOf l
  | _ :: l => calledOf l

/-- everything the process asked of the allocator: for each call, a save point and what the closure did -/
def vectorHeap : List RegCall → List AllocEv
  | [] => []
  | c :: l => .savePoint :: (vectorDeed c).heap ++ vectorHeap l

/-- the world -/
noncomputable def vectorEnv (T : TextEnv) : RegEnv :=
  ⟨.checked, idealShipped, T, fun _ => "", fun h c => meter .checked 1024 (vectorHeap (calledOf h)) (.ok (vectorDeed c, 0))⟩

theorem vector_live (cs : List RegCall) (es : List AllocEv) : liveBlocks [] (vectorHeap cs ++ es) = liveBlocks [] es := by
  induction cs with
  | nil => rfl
  | cons c l ih => cases c <;> simpa [vectorHeap, vectorDeed, liveBlocks, liveAfter] using ih

theorem vector_respects (cs : List RegCall) (es : List AllocEv) : Respects [] (vectorHeap cs ++ es) ↔ Respects [] es := by
  induction cs with
  | nil => rfl
  | cons c l ih => cases c <;> simpa [vectorHeap, vectorDeed, Respects, respects, liveAfter] using ih

theorem vector_calls (cs : List RegCall) (es : List AllocEv) (h : ∀ c ∈ callsOf es, succeeds c = true) :
    ∀ c ∈ callsOf (vectorHeap cs ++ es), succeeds c = true := by
  induction cs with
  | nil => exact h
  | cons c l ih => cases c <;> simpa [vectorHeap, vectorDeed, callsOf, succeeds] using ih

theorem vector_savePoints (cs : List RegCall) : savePoints (vectorHeap cs) = cs.length := by
  induction cs with
  | nil => rfl
  | cons c l ih => cases c <;> simpa [vectorHeap, vectorDeed, savePoints] using ih

theorem vector_total (k : Ctr) (cs : List RegCall) (es : List AllocEv) : total k (vectorHeap cs ++ es) ≤ 64000 * cs.length + total k es := by
  induction cs with
  | nil => simp [vectorHeap]
  | cons c l ih =>
    unfold total at ih ⊢
    have hc : ∀ n, n ≤ 16000 → contribution k (.alloc n true) ≤ 16000 ∧ contribution k (.dealloc n) ≤ 16000 := by
      intro n hn
      constructor <;> simp only [contribution] <;> split_ifs <;> omega
    have h1 := hc 8000 (by norm_num)
    have h2 := hc 16000 (by norm_num)
    cases c <;> simp only [vectorHeap, vectorDeed, callsOf, List.cons_append, List.nil_append, List.map_cons, List.sum_cons, List.length_cons] <;> omega

theorem vector_ordinary (cs : List RegCall) (hcs : cs.length < 2 ^ 20) (c : RegCall) :
    OrdinaryDoing .checked 1024 ⟨vectorHeap cs, vectorDeed c⟩ where
  heap := by
    have e0 : liveBlocks [] (vectorHeap cs) = [] := by have := vector_live cs []; rwa [List.append_nil] at this
    have ht : ∀ k, total k (vectorDeed c).heap ≤ 64000 := fun k => by
      have := vector_total k [c] []
      have e : total k (vectorHeap [c] ++ []) = total k (vectorDeed c).heap := by simp [vectorHeap, total, callsOf]
      rw [e] at this
      simpa [total, callsOf] using this
    refine ⟨?_, ?_, ?_, fun k _ => ⟨?_, Or.inr ?_⟩, ?_, ?_⟩
    · show Respects [] (vectorHeap cs ++ _)
      rw [vector_respects]
      cases c <;> simp [vectorDeed, Respects, respects, liveAfter]
    · refine vector_calls cs _ ?_
      cases c <;> simp [vectorDeed, callsOf, succeeds]
    · show ∀ x ∈ liveTrace (liveBlocks [] (vectorHeap cs)) _, _
      rw [e0]
      cases c <;> simp [vectorDeed, liveTrace, liveAfter]
    · have := ht k
      show total k (vectorDeed c).heap < _
      omega
    · have := vector_total k cs (vectorDeed c).heap
      have := ht k
      show total k (vectorHeap cs ++ (vectorDeed c).heap) < _
      omega
    · show savePoints (vectorHeap cs) + 1 + savePoints (vectorDeed c).heap < 2 ^ 32
      rw [vector_savePoints]
      have : savePoints (vectorDeed c).heap = 0 := by cases c <;> rfl
      omega
    · show savePoints (vectorDeed c).heap ≤ _
      have : savePoints (vectorDeed c).heap = 0 := by cases c <;> rfl
      omega
  clock := by
    show PlausibleTime (vectorDeed c).time
    unfold PlausibleTime; cases c <;> decide
  fewBytes := by
    have e0 : liveBlocks [] (vectorHeap cs) = [] := by have := vector_live cs []; rwa [List.append_nil] at this
    show ∀ x ∈ liveTrace (liveBlocks [] (vectorHeap cs)) _, _
    rw [e0]
    cases c <;> simp [vectorDeed, liveTrace, liveAfter]

theorem vector_need (cs : List RegCall) :
    heapNeed (vectorHeap cs) (vectorDeed .pass1).heap = 8000 ∧ heapNeed (vectorHeap cs) (vectorDeed .pass2).heap = 16000 := by
  have e0 : liveBlocks [] (vectorHeap cs) = [] := by have := vector_live cs []; rwa [List.append_nil] at this
  unfold heapNeed
  rw [e0]
  decide

theorem calledOf_length (h : List RegEv) : (calledOf h).length = (regCallsOf h).length := by
  induction h with
  | nil => rfl
  | cons e l ih =>
    cases e with
    | call c m => exact congrArg (· + 1) ih
    | out x => exact ih
    | sleep => exact ih

/-- no test makes more than three calls per round -/
theorem few_calls (env : RegEnv) (cfg : RegCfg) : (regCallsOf (testAlgorithm env cfg []).2).length ≤ 3 * (cfg.maxRetry + 1) := by
  obtain ⟨as, last, ext, h1, -, h4, -, h6⟩ := test_history (env := env) cfg []
  have hr : ∀ l : List Attempt, (roundCalls l).length = 3 * l.length := by
    intro l
    induction l with
    | nil => rfl
    | cons a l ih =>
      have : (Attempt.calls a).length = 3 := rfl
      unfold roundCalls at ih ⊢
      rw [List.map_cons, List.flatten_cons, List.length_append, ih, List.length_cons, this]; ring
  rw [h1, List.nil_append, h4, List.length_append, hr]
  rcases h6 with ⟨k, -, a, rfl, -⟩ | ⟨k, -, a, rfl, -⟩ | ⟨k, rfl, -⟩ | ⟨k, hb, -⟩
  · have : (Attempt.calls a).length = 3 := rfl
    omega
  · have : (Attempt.calls a).length = 3 := rfl
    omega
  · simp only [List.length_nil]; omega
  · have := hb.1.length_le
    simp only [List.length_map, List.length_cons, List.length_nil] at this
    omega

theorem vector_few (T : TextEnv) {cfg : RegCfg} (hr : cfg.maxRetry ≤ 1000) {h : List RegEv} (hh : h <+: (testAlgorithm (vectorEnv T) cfg []).2) :
    (calledOf h).length < 2 ^ 20 := by
  rw [calledOf_length]
  have h1 : (regCallsOf h).length ≤ _ := (hh.sublist.filter RegEv.isCall).length_le
  have h2 : (regCallsOf (testAlgorithm (vectorEnv T) cfg []).2).length ≤ 3 * (cfg.maxRetry + 1) := few_calls _ cfg
  unfold regCallsOf at h2
  omega

theorem vector_pass (c : RegCall) {d : Deed} {r : ℕ} (e : (Except.ok (vectorDeed c, 0) : Rs (Deed × ℕ)) = .ok (d, r)) :
    d = vectorDeed c := by cases e; rfl

theorem vector_noticeable (cs : List RegCall) : Doing.Noticeable ⟨vectorHeap cs, vectorDeed .pass1⟩ :=
  ⟨(by decide : 0 < (vectorDeed .pass1).time), by rw [show heapNeed _ _ = 8000 from (vector_need cs).1]; decide⟩

-- the test is passed as O(n) in time and space, in one round
example (T : TextEnv) (retries : ℕ) (hr : retries ≤ 1000) :
    (testAlgorithm (vectorEnv T) ⟨"vector", retries, 1000, 2000, .oN, .oN⟩ []).1 = .ok () := by
  refine (C108_regular_accepts ideal_library (Or.inl rfl) (N := 1024) (by norm_num) (by norm_num) (vectorEnv T) rfl (fun h => vectorHeap (calledOf h))
    (fun _ c => .ok (vectorDeed c, 0)) ⟨"vector", retries, 1000, 2000, .oN, .oN⟩ quadratic_sizes ?_ ?_ [] (fun _ _ _ => rfl) ?_ (by norm_num) (fun _ _ _ => ⟨_, _, rfl⟩) ?_).1
  · rintro c h; cases h; simp [Covered, Complexity.asU32]
  · rintro c h; cases h; simp [Covered, Complexity.asU32]
  · intro h c d r hh e
    rw [vector_pass c e]
    exact vector_ordinary _ (vector_few T hr hh) c
  · intro h1 h2 d1 d2 r1 r2 _ _ e1 e2
    rw [vector_pass _ e1, vector_pass _ e2]
    refine ⟨vector_noticeable _, ?_, ?_⟩
    · rintro l ⟨⟩
      simp only [MeetsLimit, grows, seconds, abitMore, vectorDeed]; norm_num
    · rintro l ⟨⟩
      simp only [(vector_need _).1, (vector_need _).2, MeetsLimit, grows, abitMore]; norm_num

-- and never as O(1) in space
example (T : TextEnv) (retries : ℕ) (hr : retries ≤ 1000) :
    ∃ e, (testAlgorithm (vectorEnv T) ⟨"vector", retries, 1000, 2000, .oN, .o1⟩ []).1 = .error e := by
  refine C108_regular_rejects ideal_library (Or.inl rfl) (N := 1024) (by norm_num) (by norm_num) (vectorEnv T) rfl (fun h => vectorHeap (calledOf h))
    (fun _ c => .ok (vectorDeed c, 0)) ⟨"vector", retries, 1000, 2000, .oN, .o1⟩ quadratic_sizes ?_ ?_ [] (fun _ _ _ => rfl) ?_ ?_
  · rintro c h; cases h; simp [Covered, Complexity.asU32]
  · rintro c h; cases h; simp [Covered, Complexity.asU32]
  · intro h c d r hh e
    rw [vector_pass c e]
    exact vector_ordinary _ (vector_few T hr hh) c
  · intro h1 h2 d1 d2 r1 r2 _ _ e1 e2
    rw [vector_pass _ e1, vector_pass _ e2]
    refine ⟨vector_noticeable _, fun h => ?_⟩
    have := h.space _ rfl
    simp only [(vector_need _).1, (vector_need _).2, MeetsLimit, abitLess] at this
    norm_num at this

/-! ## The same passes in asynchronous and CRUD tests

Simplification of these cases: before each pass the same was asked of the allocator. -/

/-- the asynchronous test -/
noncomputable def vectorBuilder (smax : Complexity) : Builder Unit Unit :=
  let run (c : RegCall) : AFn Unit := fun _ _ => meter .checked 1024 (vectorHeap [.pass1, .pass2]) (.ok (vectorDeed c, ()))
  ⟨"vector", some (run .reset), some 5, none, 1000, some (run .pass1), none, 2000, some (run .pass2), none, some .oN, some smax, none, []⟩

/-- what its closures do -/
def vectorStep : AStep → RegCall
  | .pass1 => .pass1
  | .pass2 => .pass2
  | _ => .reset

example (T : TextEnv) : (testAsync ⟨.checked, idealShipped, T, fun _ => ""⟩ (vectorBuilder .oN) []).1 = .ok () := by
  refine (C108_async_accepts ideal_library (Or.inl rfl) (N := 1024) (by norm_num) (by norm_num) ⟨.checked, idealShipped, T, fun _ => ""⟩ rfl
    (fun _ => vectorHeap [.pass1, .pass2]) (fun s _ _ => .ok (vectorDeed (vectorStep s), ())) (vectorBuilder .oN)
    quadratic_sizes ?_ ?_ [] ?_ ?_ (show 2000 < 2 ^ 32 by norm_num) rfl rfl (fun s _ _ _ => ⟨_, _, rfl⟩) ?_ ?_).1
  · rintro c h; cases h; exact Or.inl (by decide)
  · rintro c h; cases h; exact Or.inl (by decide)
  · intro s f hf h i _
    cases s <;> cases hf <;> rfl
  · intro s h i d r _ e
    cases e
    exact vector_ordinary _ (by decide) _
  · rintro c (h | h) <;> cases h
  · intro h1 h2 i1 i2 d1 d2 r1 r2 _ _ e1 e2
    cases e1
    cases e2
    refine ⟨vector_noticeable _, ?_, ?_⟩
    · rintro l ⟨⟩
      simp only [MeetsLimit, grows, seconds, abitMore, vectorDeed, vectorStep, vectorBuilder]; norm_num
    · rintro l ⟨⟩
      simp only [vectorStep, (vector_need _).1, (vector_need _).2, MeetsLimit, grows, abitMore, vectorBuilder]; norm_num

example (T : TextEnv) : ∃ e, (testAsync ⟨.checked, idealShipped, T, fun _ => ""⟩ (vectorBuilder .o1) []).1 = .error e := by
  refine C108_async_rejects ideal_library (Or.inl rfl) (N := 1024) (by norm_num) (by norm_num) ⟨.checked, idealShipped, T, fun _ => ""⟩ rfl
    (fun _ => vectorHeap [.pass1, .pass2]) (fun s _ _ => .ok (vectorDeed (vectorStep s), ())) (vectorBuilder .o1)
    quadratic_sizes ?_ ?_ [] ?_ ?_ ?_
  · rintro c h; cases h; exact Or.inl (by decide)
  · rintro c h; cases h; exact Or.inl (by decide)
  · intro s f hf h i _
    cases s <;> cases hf <;> rfl
  · intro s h i d r _ e
    cases e
    exact vector_ordinary _ (by decide) _
  · intro h1 h2 i1 i2 d1 d2 r1 r2 _ _ e1 e2
    cases e1
    cases e2
    refine ⟨vector_noticeable _, fun h => ?_⟩
    have := h.space _ rfl
    simp only [vectorStep, (vector_need _).1, (vector_need _).2, MeetsLimit, abitLess] at this
    norm_num at this

/-- the CRUD test: creating and reading 1000 elements, whatever the range -/
noncomputable def vectorCrud (T : TextEnv) : CrudEnv :=
  ⟨.checked, idealShipped, T, fun _ ph _ _ _ _ => meter .checked 1024 (vectorHeap [.pass1, .pass2])
    (.ok (vectorDeed (match ph with | .pass2 => .pass2 | _ => .pass1), 0)), fun _ => 10 ^ 6, fun _ _ => .ok ()⟩

theorem vector_can {S : List Ev → Prop} {cfg : CrudCfg} {op : Op} {y1 y2 : Doing}
    (h : CanDo S (fun _ => vectorHeap [.pass1, .pass2]) (fun _ ph _ _ _ _ => .ok (vectorDeed (match ph with | .pass2 => .pass2 | _ => .pass1), 0))
      cfg op y1 y2) : y1 = ⟨vectorHeap [.pass1, .pass2], vectorDeed .pass1⟩ ∧ y2 = ⟨vectorHeap [.pass1, .pass2], vectorDeed .pass2⟩ := by
  obtain ⟨⟨t, r, -, e1, e2⟩, ⟨t', r', -, e1', e2'⟩⟩ := h
  obtain ⟨b1, d1⟩ := y1
  obtain ⟨b2, d2⟩ := y2
  cases e1; cases e2; cases e1'; cases e2'
  exact ⟨rfl, rfl⟩

example (T : TextEnv) (max : ℕ) (hm : 1 ≤ max) : (testCrud (vectorCrud T) (doublingCfg .oN) max []).1 = .ok () := by
  refine C108_crud_accepts ideal_library (Or.inl rfl) (N := 1024) (by norm_num) (by norm_num) (vectorCrud T) rfl (fun _ => vectorHeap [.pass1, .pass2])
    (fun _ ph _ _ _ _ => .ok (vectorDeed (match ph with | .pass2 => .pass2 | _ => .pass1), 0)) (doublingCfg .oN) max hm [] (fun _ _ _ _ _ _ _ => rfl) ?_
    (doubling_fits _).1 ?_ (fun _ _ _ => rfl) (fun _ _ _ _ _ _ _ => ⟨_, _, rfl⟩) ?_
  · intro h ph op a b th d r _ e
    cases e
    exact vector_ordinary _ (by decide) _
  · intro op h
    cases op <;> simp [SaneOp, Covered, doublingCfg, Complexity.asU32] at h ⊢
  · intro op hop y1 y2 hc
    obtain ⟨rfl, rfl⟩ := vector_can hc
    refine ⟨vector_noticeable _, ?_⟩
    cases op with
    | update => simp [doublingCfg] at hop
    | delete => simp [doublingCfg] at hop
    | create =>
      constructor <;> left
      · simp only [seconds, abitMore, vectorDeed]; norm_num
      · simp only [(vector_need _).1, (vector_need _).2, abitMore]; norm_num
    | read =>
      constructor <;> rintro l ⟨⟩
      · simp only [MeetsLimit, grows, seconds, abitMore, doublingCfg, vectorDeed]; norm_num
      · simp only [(vector_need _).1, (vector_need _).2, MeetsLimit, grows, abitMore, doublingCfg]; norm_num

example (T : TextEnv) (max : ℕ) (hm : 1 ≤ max) : (testCrud (vectorCrud T) (doublingCfg .o1) max []).1 ≠ .ok () := by
  refine C108_crud_rejects ideal_library (Or.inl rfl) (N := 1024) (by norm_num) (by norm_num) (vectorCrud T) rfl (fun _ => vectorHeap [.pass1, .pass2])
    (fun _ ph _ _ _ _ => .ok (vectorDeed (match ph with | .pass2 => .pass2 | _ => .pass1), 0)) (doublingCfg .o1) max hm [] (fun _ _ _ _ _ _ _ => rfl) ?_
    (doubling_fits _).2 .create (by decide) (by rintro (h | h) <;> cases h) ?_
  · intro h ph op a b th d r _ e
    cases e
    exact vector_ordinary _ (by decide) _
  · intro cfg' hr y1 y2 hc
    obtain ⟨rfl, rfl⟩ := vector_can hc
    refine ⟨vector_noticeable _, fun h => ?_⟩
    have := h.space
    rw [hr.smax] at this
    simp only [MeetsResizingLimit, doublingCfg, (vector_need _).1, (vector_need _).2, abitLess] at this
    norm_num at this

end BigO
