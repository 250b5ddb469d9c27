import Verif.Model.Retry
import Mathlib.Tactic.Common

namespace BigO

theorem P.bind_eq {ε α β : Type} (m : P ε α) (f : α → P ε β) (t : List ε) :
    (m >>= f) t = match m t with
      | (.ok a, t') => f a t'
      | (.error e, t') => (.error e, t') := rfl

theorem P.pure_eq {ε α : Type} (a : α) (t : List ε) : (pure a : P ε α) t = (.ok a, t) := rfl

/-- decomposition of a sequence -/
theorem P.bind_cases {ε α β : Type} {m : P ε α} {f : α → P ε β} {t t' : List ε} {r : Rs β} (h : (m >>= f) t = (r, t')) :
    (∃ e, m t = (.error e, t') ∧ r = .error e) ∨ ∃ a t1, m t = (.ok a, t1) ∧ f a t1 = (r, t') := by
  rw [P.bind_eq] at h
  generalize m t = x at h
  obtain ⟨y, t1⟩ := x
  cases y with
  | error e => left; cases h; exact ⟨e, rfl, rfl⟩
  | ok a => right; exact ⟨a, t1, rfl, h⟩

theorem P.bind_ok {ε α β : Type} {m : P ε α} {f : α → P ε β} {t t1 : List ε} {a : α} (h : m t = (.ok a, t1)) :
    (m >>= f) t = f a t1 := by rw [P.bind_eq, h]

theorem P.bind_err {ε α β : Type} {m : P ε α} {f : α → P ε β} {t t1 : List ε} {e : Panic} (h : m t = (.error e, t1)) :
    (m >>= f) t = (.error e, t1) := by rw [P.bind_eq, h]

theorem P.log_eq {ε : Type} (e : ε) (t : List ε) : P.log e t = (.ok (), t ++ [e]) := rfl

theorem P.log_bind {ε β : Type} (e : ε) (f : Unit → P ε β) (t : List ε) : (P.log e >>= f) t = f () (t ++ [e]) := rfl

theorem P.lift_ok_bind {ε α β : Type} {x : Rs α} {a : α} (h : x = .ok a) (f : α → P ε β) (t : List ε) :
    (P.lift x >>= f) t = f a t := by rw [h]; rfl

/-- a sequence of transient failures, each followed by a sleep and fed with the input given back by the one before -/
inductive Transients {ε I : Type} (sleep : ε) (attempt : I → P ε (RetryResult I)) :
    I → List ε → List String → I → List ε → Prop
  | nil (i : I) (t : List ε) : Transients sleep attempt i t [] i t
  | cons {i i' j : I} {t t1 t2 : List ε} {e : String} {es : List String}
      (h : attempt i (t ++ [sleep]) = (.ok (.transient i' e), t1)) (rest : Transients sleep attempt i' t1 es j t2) :
      Transients sleep attempt i t (e :: es) j t2

/-- how the loop over the delays ends -/
theorem retryLoop_cases {ε I : Type} {sleep : ε} {attempt : I → P ε (RetryResult I)} {n : Nat} {i : I} {errs : List String}
    {e : String} {t t' : List ε} {r : Rs ResolvedResult} (h : retryLoop sleep attempt n i errs e t = (r, t')) :
    ∃ es j t1, Transients sleep attempt i t es j t1 ∧
      ((es.length = n ∧ t' = t1 ∧ ∃ l x, r = .ok (.givenUp l x) ∧ l ++ [x] = errs ++ [e] ++ es) ∨
       (es.length < n ∧ attempt j (t1 ++ [sleep]) = (.ok .ok, t') ∧ r = .ok (.recovered (errs ++ [e] ++ es))) ∨
       (es.length < n ∧ ∃ x, attempt j (t1 ++ [sleep]) = (.ok (.fatal x), t') ∧ r = .ok (.unrecoverable (errs ++ [e] ++ es) x)) ∨
       (es.length < n ∧ ∃ p, attempt j (t1 ++ [sleep]) = (.error p, t') ∧ r = .error p)) := by
  induction n generalizing i errs e t with
  | zero =>
    unfold retryLoop at h
    rw [P.pure_eq] at h
    cases h
    exact ⟨[], i, _, .nil i _, Or.inl ⟨rfl, rfl, errs, e, rfl, by simp⟩⟩
  | succ n ih =>
    unfold retryLoop at h
    rw [P.log_bind] at h
    rcases P.bind_cases h with ⟨p, h1, rfl⟩ | ⟨a, t1, h1, h2⟩
    · exact ⟨[], i, t, .nil i t, Or.inr (Or.inr (Or.inr ⟨by simp, p, h1, rfl⟩))⟩
    · cases a with
      | ok =>
        cases h2
        exact ⟨[], i, t, .nil i t, Or.inr (Or.inl ⟨by simp, h1, by simp⟩)⟩
      | fatal x =>
        cases h2
        exact ⟨[], i, t, .nil i t, Or.inr (Or.inr (Or.inl ⟨by simp, x, h1, by simp⟩))⟩
      | transient i' e' =>
        obtain ⟨es, j, t2, c, hc⟩ := ih h2
        refine ⟨e' :: es, j, t2, .cons h1 c, ?_⟩
        rcases hc with ⟨a1, a2, l, x, a3, a4⟩ | ⟨a1, a2, a3⟩ | ⟨a1, x, a2, a3⟩ | ⟨a1, p, a2, a3⟩
        · exact Or.inl ⟨by simp [a1], a2, l, x, a3, by rw [a4]; simp⟩
        · exact Or.inr (Or.inl ⟨by simpa using a1, a2, by rw [a3]; simp⟩)
        · exact Or.inr (Or.inr (Or.inl ⟨by simpa using a1, x, a2, by rw [a3]; simp⟩))
        · exact Or.inr (Or.inr (Or.inr ⟨by simpa using a1, p, a2, a3⟩))

/-- a transient chain determines what the loop does next -/
theorem retryLoop_transients {ε I : Type} {sleep : ε} {attempt : I → P ε (RetryResult I)} {n : Nat} {i j : I} {errs : List String}
    {e : String} {es : List String} {t t1 : List ε} (c : Transients sleep attempt i t es j t1) (hn : es.length ≤ n) :
    ∃ errs' e', errs' ++ [e'] = errs ++ [e] ++ es ∧
      retryLoop sleep attempt n i errs e t = retryLoop sleep attempt (n - es.length) j errs' e' t1 := by
  induction c generalizing n errs e with
  | nil i t => exact ⟨errs, e, by simp, rfl⟩
  | @cons i i' j t t1 t2 e1 es h rest ih =>
    cases n with
    | zero => simp at hn
    | succ n =>
      obtain ⟨errs', e', h1, h2⟩ := ih (n := n) (errs := errs ++ [e]) (e := e1) (by simpa using hn)
      refine ⟨errs', e', by rw [h1]; simp, ?_⟩
      have : n + 1 - (e1 :: es).length = n - es.length := by simp
      rw [this, ← h2]
      conv_lhs => unfold retryLoop
      rw [P.log_bind, P.bind_ok h]

/-- how a retried computation ends -/
theorem retryWith_cases {ε I : Type} {sleep : ε} {first : P ε (RetryResult I)} {attempt : I → P ε (RetryResult I)} {n : Nat}
    {t t' : List ε} {r : Rs ResolvedResult} (h : retryWith sleep first attempt n t = (r, t')) :
    (first t = (.ok .ok, t') ∧ r = .ok .ok) ∨
    (∃ x, first t = (.ok (.fatal x), t') ∧ r = .ok (.fatal x)) ∨
    (∃ p, first t = (.error p, t') ∧ r = .error p) ∨
    ∃ i e t1, first t = (.ok (.transient i e), t1) ∧ retryLoop sleep attempt n i [] e t1 = (r, t') := by
  unfold retryWith at h
  rcases P.bind_cases h with ⟨p, h1, rfl⟩ | ⟨a, t1, h1, h2⟩
  · exact Or.inr (Or.inr (Or.inl ⟨p, h1, rfl⟩))
  · cases a with
    | ok => cases h2; exact Or.inl ⟨h1, rfl⟩
    | fatal x => cases h2; exact Or.inr (Or.inl ⟨x, h1, rfl⟩)
    | transient i e => exact Or.inr (Or.inr (Or.inr ⟨i, e, t1, h1, h2⟩))

end BigO
