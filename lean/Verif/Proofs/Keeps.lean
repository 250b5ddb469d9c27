import Verif.Proofs.Retry
import Mathlib.Tactic.SplitIfs

namespace BigO

/-- every event that the computation logs is as `Q` says, given the history before it -/
def Keeps {ε α : Type} (Q : List ε → ε → Prop) (m : P ε α) : Prop :=
  ∀ t, ∃ ext, (m t).2 = t ++ ext ∧ ∀ pre ev post, ext = pre ++ ev :: post → Q (t ++ pre) ev

variable {ε α β : Type} {Q : List ε → ε → Prop}

theorem Keeps.mono {Q' : List ε → ε → Prop} {m : P ε α} (h : Keeps Q m) (hq : ∀ t ev, Q t ev → Q' t ev) : Keeps Q' m := by
  intro t
  obtain ⟨ext, h1, h2⟩ := h t
  exact ⟨ext, h1, fun pre ev post he => hq _ _ (h2 pre ev post he)⟩

theorem Keeps.pure (a : α) : Keeps Q (Pure.pure a : P ε α) := fun t => ⟨[], by simp [P.pure_eq], by simp⟩

theorem Keeps.lift (x : Rs α) : Keeps Q (P.lift x : P ε α) := fun t => ⟨[], by simp [P.lift], by simp⟩

theorem Keeps.single {m : P ε α} (h : ∀ t, ∃ ev, (m t).2 = t ++ [ev] ∧ Q t ev) : Keeps Q m := by
  intro t
  obtain ⟨ev, h1, h2⟩ := h t
  refine ⟨[ev], h1, fun pre x post he => ?_⟩
  cases pre with
  | nil => simp only [List.nil_append, List.cons.injEq] at he; rw [← he.1, List.append_nil]; exact h2
  | cons y l => simp at he

theorem Keeps.log {ev : ε} (h : ∀ t, Q t ev) : Keeps Q (P.log ev) := Keeps.single fun t => ⟨ev, rfl, h t⟩

theorem Keeps.bind {m : P ε α} {f : α → P ε β} (h : Keeps Q m) (h' : ∀ a, Keeps Q (f a)) : Keeps Q (m >>= f) := by
  intro t
  obtain ⟨e1, h1, q1⟩ := h t
  rw [P.bind_eq]
  generalize hm : m t = x at *
  obtain ⟨y, t1⟩ := x
  simp only at h1
  cases y with
  | error e => exact ⟨e1, h1, q1⟩
  | ok a =>
    obtain ⟨e2, h2, q2⟩ := h' a t1
    refine ⟨e1 ++ e2, by simp only; rw [h2, h1]; simp, fun pre ev post he => ?_⟩
    rcases List.append_eq_append_iff.1 he with ⟨l, hl, hl'⟩ | ⟨l, hl, hl'⟩
    · have := q2 l ev post hl'
      rw [h1] at this
      rw [hl, ← List.append_assoc]; exact this
    · cases l with
      | nil =>
        simp only [List.nil_append] at hl'
        have := q2 [] ev post (by simpa using hl'.symm)
        rw [h1] at this
        simp only [List.append_nil] at hl this ⊢
        rw [← hl]; exact this
      | cons y l =>
        simp only [List.cons_append, List.cons.injEq] at hl'
        obtain ⟨rfl, -⟩ := hl'
        exact q1 pre ev l hl

theorem Keeps.ite {c : Prop} [Decidable c] {m m' : P ε α} (h : Keeps Q m) (h' : Keeps Q m') : Keeps Q (if c then m else m') := by
  split_ifs <;> assumption

theorem Keeps.retryLoop {I : Type} {sleep : ε} {attempt : I → P ε (RetryResult I)} (hs : ∀ t, Q t sleep) (ha : ∀ i, Keeps Q (attempt i)) (n : Nat) :
    ∀ i errs e, Keeps Q (BigO.retryLoop sleep attempt n i errs e) := by
  induction n with
  | zero => intro i errs e; unfold BigO.retryLoop; exact .pure _
  | succ n ih =>
    intro i errs e
    unfold BigO.retryLoop
    refine (Keeps.log hs).bind fun _ => (ha i).bind fun r => ?_
    cases r with
    | ok => exact .pure _
    | fatal x => exact .pure _
    | transient i' e' => exact ih i' _ e'

theorem Keeps.retryWith {I : Type} {sleep : ε} {first : P ε (RetryResult I)} {attempt : I → P ε (RetryResult I)} (hs : ∀ t, Q t sleep)
    (hf : Keeps Q first) (ha : ∀ i, Keeps Q (attempt i)) (n : Nat) : Keeps Q (BigO.retryWith sleep first attempt n) := by
  unfold BigO.retryWith
  refine hf.bind fun r => ?_
  cases r with
  | ok => exact .pure _
  | fatal x => exact .pure _
  | transient i e => exact .retryLoop hs ha n i _ e

theorem Keeps.resolve (errors : List String → String) (max : Nat) (r : ResolvedResult) : Keeps Q (resolveOrPanic errors max r : P ε Unit) := by
  cases r <;> unfold resolveOrPanic <;> first | exact .pure _ | exact .lift _

end BigO
