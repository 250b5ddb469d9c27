import Verif.Proofs.CrudLimits
import Mathlib.Data.String.Basic

/-!
# Proofs about the CRUD runner: the message when it gives up
-/
namespace BigO

/-- how often a key was counted -/
def countOf (m : List (String × Nat)) (k : String) : Nat := ((m.find? fun x => x.1 = k).map Prod.snd).getD 0

/-- ascending keys -/
def Asc (m : List (String × Nat)) : Prop := m.Pairwise fun a b => a.1 < b.1

theorem countOf_nil (k) : countOf [] k = 0 := rfl
theorem countOf_cons (x : String × Nat) (m k) : countOf (x :: m) k = if x.1 = k then x.2 else countOf m k := by
  unfold countOf
  rw [List.find?_cons]
  by_cases h : x.1 = k
  · simp [h]
  · simp [h]

theorem bump_keys (k : String) (m : List (String × Nat)) : ∀ w, (∃ c, (w, c) ∈ bumpCount k m) ↔ w = k ∨ ∃ c, (w, c) ∈ m := by
  induction m with
  | nil => intro w; simp [bumpCount]
  | cons x m ih =>
    obtain ⟨k', c⟩ := x
    intro w
    unfold bumpCount
    split
    · rename_i h; subst h
      constructor
      · rintro ⟨d, hd⟩
        rcases List.mem_cons.1 hd with h | h
        · left; exact (Prod.mk.injEq _ _ _ _ ▸ h).1
        · exact Or.inr ⟨d, List.mem_cons_of_mem _ h⟩
      · rintro (rfl | ⟨d, hd⟩)
        · exact ⟨c + 1, List.mem_cons_self⟩
        · rcases List.mem_cons.1 hd with h | h
          · cases h; exact ⟨_, List.mem_cons_self⟩
          · exact ⟨d, List.mem_cons_of_mem _ h⟩
    · split
      · constructor
        · rintro ⟨d, hd⟩
          rcases List.mem_cons.1 hd with h | h
          · cases h; exact Or.inl rfl
          · exact Or.inr ⟨d, h⟩
        · rintro (rfl | ⟨d, hd⟩)
          · exact ⟨1, List.mem_cons_self⟩
          · exact ⟨d, List.mem_cons_of_mem _ hd⟩
      · constructor
        · rintro ⟨d, hd⟩
          rcases List.mem_cons.1 hd with h | h
          · exact Or.inr ⟨d, by rw [h]; exact List.mem_cons_self⟩
          · rcases (ih w).1 ⟨d, h⟩ with h | ⟨d', h⟩
            · exact Or.inl h
            · exact Or.inr ⟨d', List.mem_cons_of_mem _ h⟩
        · rintro (h | ⟨d, hd⟩)
          · obtain ⟨d, hd⟩ := (ih w).2 (Or.inl h)
            exact ⟨d, List.mem_cons_of_mem _ hd⟩
          · rcases List.mem_cons.1 hd with h | h
            · exact ⟨d, by rw [h]; exact List.mem_cons_self⟩
            · obtain ⟨d', hd'⟩ := (ih w).2 (Or.inr ⟨d, h⟩)
              exact ⟨d', List.mem_cons_of_mem _ hd'⟩

theorem bump_asc (k : String) (m : List (String × Nat)) (h : Asc m) : Asc (bumpCount k m) := by
  induction m with
  | nil => simp [bumpCount, Asc]
  | cons x m ih =>
    obtain ⟨k', c⟩ := x
    have h1 := List.pairwise_cons.1 h
    unfold bumpCount
    split
    · exact List.pairwise_cons.2 ⟨fun y hy => h1.1 y hy, h1.2⟩
    · rename_i hne
      split
      · rename_i hlt
        refine List.pairwise_cons.2 ⟨fun y hy => ?_, h⟩
        rcases List.mem_cons.1 hy with rfl | hy
        · exact hlt
        · exact lt_trans hlt (h1.1 y hy)
      · rename_i hge
        refine List.pairwise_cons.2 ⟨fun y hy => ?_, ih h1.2⟩
        rcases (bump_keys k m y.1).1 ⟨y.2, hy⟩ with e | ⟨d, hd⟩
        · show k' < y.1
          rw [e]
          exact lt_of_le_of_ne (not_lt.1 hge) (Ne.symm hne)
        · exact h1.1 (y.1, d) hd

theorem bump_count (k : String) (m : List (String × Nat)) (h : Asc m) (w : String) :
    countOf (bumpCount k m) w = countOf m w + if k = w then 1 else 0 := by
  induction m with
  | nil => simp [bumpCount, countOf_cons, countOf_nil]
  | cons x m ih =>
    obtain ⟨k', c⟩ := x
    have h1 := List.pairwise_cons.1 h
    unfold bumpCount
    split
    · rename_i he; subst he
      rw [countOf_cons, countOf_cons]
      by_cases hw : k = w <;> simp [hw]
    · rename_i hne
      split
      · rename_i hlt
        rw [countOf_cons]
        by_cases hw : k = w
        · subst hw
          rw [if_pos rfl, if_pos rfl, countOf_cons, if_neg (Ne.symm hne)]
          have : countOf m k = 0 := by
            unfold countOf
            have hnone : m.find? (fun x => decide (x.1 = k)) = none := by
              rw [List.find?_eq_none]
              intro y hy
              have := lt_trans hlt (h1.1 y hy)
              simpa using (ne_of_gt this)
            rw [hnone]; rfl
          rw [this]
        · simp [hw]
      · rw [countOf_cons, countOf_cons, ih h1.2]
        by_cases hw : k' = w
        · subst hw; simp [hne]
        · simp [hw]

theorem countOf_mem {m : List (String × Nat)} (h : Asc m) {x : String × Nat} (hx : x ∈ m) : countOf m x.1 = x.2 := by
  induction m with
  | nil => cases hx
  | cons y m ih =>
    have h1 := List.pairwise_cons.1 h
    rw [countOf_cons]
    rcases List.mem_cons.1 hx with rfl | hx'
    · rw [if_pos rfl]
    · rw [if_neg (ne_of_lt (h1.1 x hx')), ih h1.2 hx']

/-- the counts of all errors -/
theorem counts_spec (errors : List CrudError) :
    Asc (errors.foldr (fun e acc => bumpCount (errorKey e) acc) []) ∧
    (∀ w, (∃ c, (w, c) ∈ errors.foldr (fun e acc => bumpCount (errorKey e) acc) []) ↔ ∃ e ∈ errors, errorKey e = w) ∧
    ∀ w, countOf (errors.foldr (fun e acc => bumpCount (errorKey e) acc) []) w = errors.countP fun e => errorKey e = w := by
  induction errors with
  | nil => exact ⟨List.Pairwise.nil, by simp, fun w => rfl⟩
  | cons e l ih =>
    obtain ⟨h1, h2, h3⟩ := ih
    rw [List.foldr_cons]
    refine ⟨bump_asc _ _ h1, fun w => ?_, fun w => ?_⟩
    · rw [bump_keys, h2]
      constructor
      · rintro (rfl | ⟨e', h, rfl⟩)
        · exact ⟨e, List.mem_cons_self, rfl⟩
        · exact ⟨e', List.mem_cons_of_mem _ h, rfl⟩
      · rintro ⟨e', h, rfl⟩
        rcases List.mem_cons.1 h with rfl | h
        · exact Or.inl rfl
        · exact Or.inr ⟨e', h, rfl⟩
    · rw [bump_count _ _ h1, h3, List.countP_cons]
      by_cases h : errorKey e = w <;> simp [h]

theorem join_foldr (f : String × Nat → String) (m : List (String × Nat)) :
    m.foldr (fun x acc => acc ++ f x) "" = String.join (m.reverse.map f) := by
  unfold String.join
  rw [List.foldl_map, List.foldl_reverse]

theorem errorLine_eq (x : String × Nat) : errorLine x = summaryLine x.1 x.2 := by
  unfold errorLine summaryLine
  split
  · simp [String.append_assoc]
  · simp [String.append_assoc]

/-- the text is a summary of the errors -/
theorem previousErrors_summary (errors : List CrudError) : SummaryOf errors (previousErrors errors) := by
  obtain ⟨h1, h2, h3⟩ := counts_spec errors
  refine ⟨((errors.foldr (fun e acc => bumpCount (errorKey e) acc) []).map Prod.fst).reverse, ?_, ?_, ?_⟩
  · rw [List.pairwise_reverse, List.pairwise_map]
    exact h1
  · intro w
    rw [List.mem_reverse, List.mem_map]
    have := h2 w
    constructor
    · rintro ⟨⟨k, c⟩, h, rfl⟩; exact this.1 ⟨c, h⟩
    · intro h; obtain ⟨c, hc⟩ := this.2 h; exact ⟨(w, c), hc, rfl⟩
  · unfold previousErrors
    dsimp only
    rw [join_foldr]
    congr 1
    rw [← List.map_reverse, List.map_map]
    apply List.map_congr_left
    intro x hx
    rw [List.mem_reverse] at hx
    have := countOf_mem h1 hx
    rw [h3] at this
    rw [errorLine_eq]
    simp only [Function.comp]
    rw [← this]
    rfl

/-- the errors of the rejected attempts before number `k` -/
noncomputable def rejectionsBefore (env : CrudEnv) (cfg : CrudCfg) (t : List Ev) (k : Nat) : List CrudError :=
  (List.range k).filterMap (rejection env cfg t)

/-- the outcome of the loop -/
theorem testLoop_outcome (env : CrudEnv) (cfg : CrudCfg) (max : Nat) (t0 : List Ev) (left : Nat) : ∀ (k : Nat),
    left ≥ 1 → k + left = max →
    ∃ j, k ≤ j ∧ j < max ∧ (∀ i, k ≤ i → i < j → Retried env cfg t0 i) ∧
      match (attempt env cfg j (beforeAttempt env cfg t0 j)).1 with
      | .ok _ => (testLoop env cfg max left k (rejectionsBefore env cfg t0 k) (beforeAttempt env cfg t0 k)).1 = .ok ()
      | .panic e => (testLoop env cfg max left k (rejectionsBefore env cfg t0 k) (beforeAttempt env cfg t0 k)).1 = .error e
      | .fail e =>
        (e.failedAnalysis = "Time" → (j + 1 = max ∧ (testLoop env cfg max left k (rejectionsBefore env cfg t0 k) (beforeAttempt env cfg t0 k)).1 =
          .error (.msg ("After " ++ toString max ++ " attempts, gave up retrying: " ++ e.text ++
            ".\nPrevious attempts failed at:\n" ++ previousErrors (rejectionsBefore env cfg t0 j)))) ∨
          (j + 1 < max ∧ ∃ p, resetAfter env cfg t0 j = .error p ∧
            (testLoop env cfg max left k (rejectionsBefore env cfg t0 k) (beforeAttempt env cfg t0 k)).1 = .error p)) ∧
        (e.failedAnalysis ≠ "Time" → (testLoop env cfg max left k (rejectionsBefore env cfg t0 k) (beforeAttempt env cfg t0 k)).1 =
          .error (.msg ("At attempt #" ++ toString (j + 1) ++ ", SPACE complexity mismatch: " ++ e.text ++ "\n"))) := by
  induction left with
  | zero => intro k h; omega
  | succ left ih =>
    intro k _ hk
    rw [testLoop_step]
    have hnext : beforeAttempt env cfg t0 (k + 1) = (attempt env cfg k (beforeAttempt env cfg t0 k)).2 ++ betweenAttempts k := rfl
    have hT : TimeRejected env cfg t0 k ↔ ∃ e, (attempt env cfg k (beforeAttempt env cfg t0 k)).1 = .fail e ∧ e.failedAnalysis = "Time" := Iff.rfl
    have hRs : resetAfter env cfg t0 k =
      env.resetFn ((attempt env cfg k (beforeAttempt env cfg t0 k)).2 ++ [.out (retryText k)]) 100 := rfl
    have hR : rejectionsBefore env cfg t0 (k + 1) = rejectionsBefore env cfg t0 k ++ (rejection env cfg t0 k).toList := by
      unfold rejectionsBefore
      rw [List.range_succ, List.filterMap_append]
      congr 1
    have hrej : rejection env cfg t0 k = match (attempt env cfg k (beforeAttempt env cfg t0 k)).1 with
      | .fail e => some e
      | _ => none := rfl
    generalize hx : attempt env cfg k (beforeAttempt env cfg t0 k) = x at hnext hT hrej hRs
    obtain ⟨r, t'⟩ := x
    have stop : ∀ i, k ≤ i → i < k → Retried env cfg t0 i := fun i _ _ => by omega
    cases r with
    | ok a => exact ⟨k, le_refl _, by omega, stop, by rw [hx]⟩
    | panic e => exact ⟨k, le_refl _, by omega, stop, by rw [hx]⟩
    | fail e =>
      by_cases he : e.failedAnalysis = "Time"
      · simp only [if_pos he]
        by_cases hlt : k < max - 1
        · rw [if_pos hlt]
          cases hr : env.resetFn (t' ++ [.out (retryText k)]) 100 with
          | error p =>
            exact ⟨k, le_refl _, by omega, stop, by
              rw [hx]; exact ⟨fun _ => Or.inr ⟨by omega, p, hRs.trans hr, rfl⟩, fun h => absurd he h⟩⟩
          | ok u =>
            simp only
            obtain ⟨j, h1, h2, h3, h4⟩ := ih (k + 1) (by omega) (by omega)
            rw [hnext, hR, hrej] at h4
            refine ⟨j, by omega, h2, fun i hi hij => ?_, h4⟩
            by_cases hik : i = k
            · subst hik; exact ⟨hT.2 ⟨e, rfl, he⟩, hRs.trans hr⟩
            · exact h3 i (by omega) hij
        · rw [if_neg hlt]
          exact ⟨k, le_refl _, by omega, stop, by rw [hx]; exact ⟨fun _ => Or.inl ⟨by omega, rfl⟩, fun h => absurd he h⟩⟩
      · simp only [if_neg he]
        exact ⟨k, le_refl _, by omega, stop, by rw [hx]; exact ⟨fun h => absurd h he, fun _ => rfl⟩⟩

end BigO
