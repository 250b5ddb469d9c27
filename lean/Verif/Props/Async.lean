import Verif.Proofs.AsyncGenuine
import Verif.Props.Standard
import Mathlib.Data.List.Induction

/-!
# Properties of the builder of asynchronous tests (C62-C67)
-/
namespace BigO
variable {D B : Type}

/-! ## C62: order and data flow -/

theorem Chained.run_inv {d d' : Option D} {s : AStep} {ks : List AKind} {es : List (AEv D)} (h : Chained d (.run s :: ks) es d') :
    ∃ r es', es = .call s d (some r) :: es' ∧ Chained (some r.2) ks es' d' := by
  cases h with
  | run h => exact ⟨_, _, rfl, h⟩

theorem Chained.nil_inv {d d' : Option D} {es : List (AEv D)} (h : Chained d [] es d') : es = [] ∧ d = d' := by
  cases h; exact ⟨rfl, rfl⟩

theorem Cut.run_inv {d : Option D} {s : AStep} {ks : List AKind} {es : List (AEv D)} (h : Cut d (.run s :: ks) es) :
    es = [] ∨ ∃ r es', es = .call s d r :: es' := by
  cases h with
  | stop => exact Or.inl rfl
  | failRun => exact Or.inr ⟨_, _, rfl⟩
  | run h => exact Or.inr ⟨_, _, rfl⟩

theorem ARound.Follows.kinds {b : Builder D B} {a : ARound D} (h : a.Follows b) : a.acts.map AEv.kind = (plan b).map some := by
  obtain ⟨-, h⟩ := h
  split_ifs at h with hc
  · obtain ⟨es1, es2, d, he, h1, h2⟩ := h
    rw [he, List.map_append, h1.kinds, h2.kinds]
    simp [plan, prelude, hc.1, hc.2]
  all_goals exact h.kinds

theorem CutShort.kinds {b : Builder D B} {prev : Option D} {es : List (AEv D)} (h : CutShort b prev es) : es.map AEv.kind <+: (plan b).map some := by
  unfold CutShort at h
  split_ifs at h with hc
  · have hp : plan b = [.run .reset, .run .warmup] ++ (.run .reset :: passesPlan b) := by simp [plan, prelude, hc.1, hc.2]
    rcases h with h | ⟨es1, es2, d, rfl, h1, h2⟩
    · have := (h.more (.run .reset :: passesPlan b)).kinds
      rwa [← hp] at this
    · rw [List.map_append, h1.kinds, hp, List.map_append]
      exact (List.prefix_append_right_inj _).2 h2.kinds
  all_goals exact h.kinds

/-- **C62** (order): whatever is measured and whatever panics, the closures are called in the order of the plan (reset, warm-up, reset,
first pass, its assertion, reset, second pass, its assertion, without the absent ones), in at most `max_reattempts + 1` attempts;
only the last one may be cut short, and it is not if the test succeeds. -/
theorem C62_order (env : AEnv) (b : Builder D B) (t : List (AEv D)) :
    ∃ (k : Nat) (last : List (Option AKind)) (ext : List (AEv D)), (testAsync env b t).2 = t ++ ext ∧
      (actsOf ext).map AEv.kind = (List.replicate k ((plan b).map some)).flatten ++ last ∧
      last <+: (plan b).map some ∧ k ≤ b.maxReattempts.getD 0 ∧
      ((testAsync env b t).1 = .ok () → last = (plan b).map some) := by
  obtain ⟨as, last, ext, p, h1, h2, -, h4, h5⟩ := async_history env b t
  have hr : ∀ l : List (ARound D), (∀ a ∈ l, a.Follows b ∧ ATimeOnly env b a) →
      (roundActs l).map AEv.kind = (List.replicate l.length ((plan b).map some)).flatten := by
    intro l hl
    induction l with
    | nil => rfl
    | cons a l ih =>
      have e : roundActs (a :: l) = a.acts ++ roundActs l := rfl
      rw [e, List.map_append, (hl a (by simp)).1.kinds, ih (fun x hx => hl x (by simp [hx]))]
      rfl
  have hm : (actsOf ext).map AEv.kind = (List.replicate as.length ((plan b).map some)).flatten ++ last.map AEv.kind := by
    rw [h2, List.map_append, hr as h4]
  rcases h5 with ⟨a1, -, a, -, rfl, a3, -⟩ | ⟨a1, ⟨m, a2⟩, a, -, rfl, a3, -⟩ | ⟨a1, rfl, m, a2⟩ | ⟨a1, a2, e, t0, a3, -⟩
  · exact ⟨_, _, ext, h1, hm, a3.kinds ▸ List.prefix_rfl, a1, fun _ => a3.kinds⟩
  · exact ⟨_, _, ext, h1, hm, a3.kinds ▸ List.prefix_rfl, a1, fun _ => a3.kinds⟩
  · refine ⟨b.maxReattempts.getD 0, (plan b).map some, ext, h1, ?_, List.prefix_rfl, le_refl _, (fun _ => rfl)⟩
    rw [hm, a1, List.replicate_succ']
    simp
  · exact ⟨_, _, ext, h1, hm, a2.kinds, a1, (fun h => by rw [a3] at h; cases h)⟩

/-- the steps of a complete attempt pass the data on as documented: each step receives what the step before it produced -/
def FlowsAsDocumented (b : Builder D B) (a : ARound D) : Prop :=
  Chained (if b.resetFn.isSome then a.prev else none) (plan b) a.acts (some a.data)

/-- **C62** (flow, partial): in every complete attempt, unless there are both a reset function and a warm-up, each step receives the
data that the step before it produced (missing: with both, the reset after the warm-up does not, see
`C62_reset_after_warmup`; the steps before it and those from it on do). -/
theorem C62_flow_partial (env : AEnv) (b : Builder D B) (t : List (AEv D)) :
    ∃ (rounds : List (ARound D)) (last ext : List (AEv D)), (testAsync env b t).2 = t ++ ext ∧
      actsOf ext = (rounds.map ARound.acts).flatten ++ last ∧
      ((testAsync env b t).1 = .ok () → last = [] ∧ rounds ≠ []) ∧
      (last ≠ [] → last.map AEv.kind <+: (plan b).map some) ∧
      ∀ a ∈ rounds, a.Measured ∧
        (¬ (b.resetFn.isSome ∧ b.warmupFn.isSome) → FlowsAsDocumented b a) ∧
        (b.resetFn.isSome → b.warmupFn.isSome → ∃ es1 es2 d, a.acts = es1 ++ es2 ∧
          Chained a.prev [.run .reset, .run .warmup] es1 d ∧ Chained none (.run .reset :: passesPlan b) es2 (some a.data)) := by
  obtain ⟨as, last, ext, p, h1, h2, -, h4, h5⟩ := async_history env b t
  have key : ∀ a : ARound D, a.Follows b → a.Measured ∧
        (¬ (b.resetFn.isSome ∧ b.warmupFn.isSome) → FlowsAsDocumented b a) ∧
        (b.resetFn.isSome → b.warmupFn.isSome → ∃ es1 es2 d, a.acts = es1 ++ es2 ∧
          Chained a.prev [.run .reset, .run .warmup] es1 d ∧ Chained none (.run .reset :: passesPlan b) es2 (some a.data)) := by
    rintro a ⟨hm, h⟩
    refine ⟨hm, fun hn => ?_, fun hr hw => ?_⟩
    · rw [if_neg hn] at h; exact h
    · rw [if_pos ⟨hr, hw⟩] at h; exact h
  rcases h5 with ⟨a1, -, a, -, rfl, a3, -⟩ | ⟨a1, ⟨m, a2⟩, a, -, rfl, a3, -⟩ | ⟨a1, rfl, m, a2⟩ | ⟨a1, a2, e, t0, a3, -⟩
  · refine ⟨as ++ [a], [], ext, h1, by rw [h2]; simp [roundActs], by simp, by simp, fun x hx => ?_⟩
    rcases List.mem_append.1 hx with hx | hx
    · exact key x (h4 x hx).1
    · simp only [List.mem_singleton] at hx; subst hx; exact key x a3
  · refine ⟨as ++ [a], [], ext, h1, by rw [h2]; simp [roundActs], by simp, by simp, fun x hx => ?_⟩
    rcases List.mem_append.1 hx with hx | hx
    · exact key x (h4 x hx).1
    · simp only [List.mem_singleton] at hx; subst hx; exact key x a3
  · exact ⟨as, [], ext, h1, h2, (fun h => by rw [a2] at h; cases h), by simp, fun x hx => key x (h4 x hx).1⟩
  · exact ⟨as, last, ext, h1, h2, (fun h => by rw [a3] at h; cases h), fun _ => a2.kinds, fun x hx => key x (h4 x hx).1⟩

/-- **C62** fails: with a reset function and a warm-up, in every complete attempt the reset after the warm-up is given no data,
although the warm-up produced some; so no complete attempt passes the data on as documented. -/
theorem C62_reset_after_warmup {b : Builder D B} (hr : b.resetFn.isSome) (hw : b.warmupFn.isSome) {a : ARound D} (h : a.Follows b) :
    (∃ x y z rest, a.acts = .call .reset a.prev (some x) :: .call .warmup (some x.2) (some y) :: .call .reset none (some z) :: rest) ∧
    ¬ FlowsAsDocumented b a := by
  obtain ⟨-, h⟩ := h
  rw [if_pos ⟨hr, hw⟩] at h
  obtain ⟨es1, es2, d, he, h1, h2⟩ := h
  obtain ⟨x, e1, rfl, k1⟩ := h1.run_inv
  obtain ⟨y, e2, rfl, k2⟩ := k1.run_inv
  obtain ⟨rfl, -⟩ := k2.nil_inv
  obtain ⟨z, e3, rfl, h3⟩ := h2.run_inv
  refine ⟨⟨x, y, z, e3, by rw [he]; rfl⟩, ?_⟩
  intro hf
  unfold FlowsAsDocumented at hf
  rw [he] at hf
  simp only [plan, prelude, hr, hw, if_true, and_self, List.cons_append, List.nil_append] at hf
  obtain ⟨x', e1, heq, f1⟩ := hf.run_inv
  cases heq
  obtain ⟨y', e2, heq, f2⟩ := f1.run_inv
  cases heq
  obtain ⟨z', e2, heq, -⟩ := f2.run_inv
  cases heq

/-- **C62** (honesty of the record): every recorded call is what the closure that was given to the builder for that step did, after the
history recorded before it. -/
theorem C62_genuine (env : AEnv) (b : Builder D B) (t : List (AEv D)) :
    ∃ ext, (testAsync env b t).2 = t ++ ext ∧ ∀ pre ev post, ext = pre ++ ev :: post → Genuine b (t ++ pre) ev :=
  genuine_test env b t

/-! ## C63: retries and data -/

theorem ARound.Follows.head {b : Builder D B} {a : ARound D} (h : a.Follows b) (hr : b.resetFn.isSome) :
    ∃ x, a.acts.head? = some (.call .reset a.prev x) := by
  obtain ⟨-, h⟩ := h
  split_ifs at h with hc
  · obtain ⟨es1, es2, d, he, h1, h2⟩ := h
    obtain ⟨x, e1, rfl, h1⟩ := h1.run_inv
    exact ⟨some x, by rw [he]; rfl⟩
  · simp only [plan, prelude, hr, if_true, List.cons_append, List.nil_append] at h
    obtain ⟨x, e1, he, h1⟩ := h.run_inv
    exact ⟨some x, by rw [he]; rfl⟩

theorem CutShort.head {b : Builder D B} {prev : Option D} {es : List (AEv D)} (h : CutShort b prev es) (hr : b.resetFn.isSome) :
    es = [] ∨ ∃ x, es.head? = some (.call .reset prev x) := by
  unfold CutShort at h
  split_ifs at h with hc
  · rcases h with h | ⟨es1, es2, d, rfl, h1, h2⟩
    · rcases h.run_inv with rfl | ⟨r, e, rfl⟩
      · exact Or.inl rfl
      · exact Or.inr ⟨_, rfl⟩
    · obtain ⟨x, e1, rfl, h1⟩ := h1.run_inv
      exact Or.inr ⟨_, rfl⟩
  · simp only [plan, prelude, hr, if_true, List.cons_append, List.nil_append] at h
    rcases h.run_inv with rfl | ⟨r, e, rfl⟩
    · exact Or.inl rfl
    · exact Or.inr ⟨_, rfl⟩

theorem Linked.next {p q : Option D} {as : List (ARound D)} (h : Linked p as q) :
    (∀ l a c r, as = l ++ a :: c :: r → c.prev = some a.data) ∧ (∀ l a, as = l ++ [a] → q = some a.data) ∧ (as = [] → q = p) ∧
      (∀ a r, as = a :: r → a.prev = p) := by
  induction h with
  | nil p => simp
  | @cons a as q rest ih =>
    obtain ⟨i1, i2, i3, i4⟩ := ih
    refine ⟨?_, ?_, by simp, ?_⟩
    · intro l x c r he
      cases l with
      | nil => simp only [List.nil_append, List.cons.injEq] at he; obtain ⟨rfl, rfl⟩ := he; exact i4 _ _ rfl
      | cons y l => simp only [List.cons_append, List.cons.injEq] at he; obtain ⟨rfl, rfl⟩ := he; exact i1 l x c r rfl
    · intro l x he
      cases l with
      | nil =>
        simp only [List.nil_append, List.cons.injEq] at he
        obtain ⟨rfl, rfl⟩ := he
        exact i3 rfl
      | cons y l => simp only [List.cons_append, List.cons.injEq] at he; obtain ⟨rfl, rfl⟩ := he; exact i2 l x rfl
    · intro x r he
      simp only [List.cons.injEq] at he; rw [he.1]

/-- **C63** (partial): with a reset function, the first call of each attempt is a call of it; in the first attempt it receives nothing
and in every other one the data that the second pass of the attempt before it produced (missing: builders without a
reset function, see `C63_dropped`). -/
theorem C63_threaded_partial (env : AEnv) (b : Builder D B) (hr : b.resetFn.isSome) (t : List (AEv D)) :
    ∃ (rounds : List (ARound D)) (last ext : List (AEv D)), (testAsync env b t).2 = t ++ ext ∧
      actsOf ext = (rounds.map ARound.acts).flatten ++ last ∧
      ((testAsync env b t).1 = .ok () → last = [] ∧ rounds ≠ []) ∧
      (∀ a ∈ rounds, ∃ i, .call .pass2 i (some (a.m2, a.data)) ∈ a.acts) ∧
      (∀ l a c r, rounds = l ++ a :: c :: r → ∃ x, c.acts.head? = some (.call .reset (some a.data) x)) ∧
      (∀ l a, rounds = l ++ [a] → last ≠ [] → ∃ x, last.head? = some (.call .reset (some a.data) x)) ∧
      (∀ ev, (actsOf ext).head? = some ev → ∃ x, ev = .call .reset none x) := by
  obtain ⟨as, last, ext, p, h1, h2, h3, h4, h5⟩ := async_history env b t
  have full : ∀ rounds : List (ARound D), Linked none rounds p → (∀ a ∈ rounds, a.Follows b) →
      (∀ a ∈ rounds, ∃ i, .call .pass2 i (some (a.m2, a.data)) ∈ a.acts) ∧
      (∀ l a c r, rounds = l ++ a :: c :: r → ∃ x, c.acts.head? = some (.call .reset (some a.data) x)) ∧
      (rounds ≠ [] → ∃ x, ((rounds.map ARound.acts).flatten).head? = some (.call .reset none x)) := by
    intro rounds hl hf
    refine ⟨fun a ha => (hf a ha).1.pass2, fun l a c r he => ?_, fun hne => ?_⟩
    · have := hl.next.1 l a c r he
      rw [← this]
      exact (hf c (by rw [he]; simp)).head hr
    · cases rounds with
      | nil => exact absurd rfl hne
      | cons a r =>
        obtain ⟨x, hx⟩ := (hf a (by simp)).head hr
        have hp : a.prev = none := hl.next.2.2.2 a r rfl
        refine ⟨x, ?_⟩
        rw [List.map_cons, List.flatten_cons, List.head?_append, hx, hp]; rfl
  have done : ∀ {a : ARound D}, a.prev = p → last = a.acts → a.Follows b →
      ∃ (rounds : List (ARound D)), actsOf ext = (rounds.map ARound.acts).flatten ++ [] ∧ rounds ≠ [] ∧
      (∀ a ∈ rounds, ∃ i, .call .pass2 i (some (a.m2, a.data)) ∈ a.acts) ∧
      (∀ l a c r, rounds = l ++ a :: c :: r → ∃ x, c.acts.head? = some (.call .reset (some a.data) x)) ∧
      (∃ x, (actsOf ext).head? = some (.call .reset none x)) := by
    intro a hp hlast hf
    have hl : Linked none (as ++ [a]) (some a.data) := h3.append (hp ▸ .cons (.nil _))
    have hall : ∀ x ∈ as ++ [a], x.Follows b := by
      intro x hx
      rcases List.mem_append.1 hx with hx | hx
      · exact (h4 x hx).1
      · simp only [List.mem_singleton] at hx; subst hx; exact hf
    have hacts : actsOf ext = ((as ++ [a]).map ARound.acts).flatten ++ [] := by rw [h2, hlast]; simp [roundActs]
    refine ⟨as ++ [a], hacts, by simp, fun x hx => (hall x hx).1.pass2, fun l x c r he => ?_, ?_⟩
    · have := hl.next.1 l x c r he
      rw [← this]
      exact (hall c (by rw [he]; simp)).head hr
    · rw [hacts, List.append_nil]
      cases as with
      | nil =>
        obtain ⟨x, hx⟩ := hf.head hr
        have : a.prev = none := hl.next.2.2.2 a [] rfl
        refine ⟨x, ?_⟩
        simp [hx, this]
      | cons c r =>
        obtain ⟨x, hx⟩ := (hall c (by simp)).head hr
        have : c.prev = none := hl.next.2.2.2 c (r ++ [a]) rfl
        refine ⟨x, ?_⟩
        rw [List.cons_append, List.map_cons, List.flatten_cons, List.head?_append, hx, this]; rfl
  rcases h5 with ⟨a1, -, a, ap, hl, a3, -⟩ | ⟨a1, ⟨m, a2⟩, a, ap, hl, a3, -⟩ | ⟨a1, rfl, m, a2⟩ | ⟨a1, a2, e, t0, a3, a4, a5⟩
  · obtain ⟨rounds, c1, c2, c3, c4, c5⟩ := done ap hl a3
    exact ⟨rounds, [], ext, h1, c1, fun _ => ⟨rfl, c2⟩, c3, c4, by simp, fun ev hev => by obtain ⟨x, hx⟩ := c5; rw [hx] at hev; cases hev; exact ⟨x, rfl⟩⟩
  · obtain ⟨rounds, c1, c2, c3, c4, c5⟩ := done ap hl a3
    exact ⟨rounds, [], ext, h1, c1, fun _ => ⟨rfl, c2⟩, c3, c4, by simp, fun ev hev => by obtain ⟨x, hx⟩ := c5; rw [hx] at hev; cases hev; exact ⟨x, rfl⟩⟩
  · obtain ⟨c1, c2, c3⟩ := full as h3 (fun a ha => (h4 a ha).1)
    refine ⟨as, [], ext, h1, h2, (fun h => by rw [a2] at h; cases h), c1, c2, by simp, ?_⟩
    obtain ⟨x, hx⟩ := c3 (by intro h; rw [h] at a1; simp at a1)
    intro ev hev
    rw [h2, List.append_nil, roundActs, hx] at hev
    cases hev; exact ⟨x, rfl⟩
  · obtain ⟨c1, c2, c3⟩ := full as h3 (fun a ha => (h4 a ha).1)
    refine ⟨as, last, ext, h1, h2, (fun h => by rw [a3] at h; cases h), c1, c2, ?_, ?_⟩
    · intro l a he hne
      have hp := h3.next.2.1 l a he
      rcases a2.head hr with h | h
      · exact absurd h hne
      · rwa [hp] at h
    · intro ev hev
      cases as with
      | nil =>
        have hp := h3.next.2.2.1 rfl
        subst hp
        rw [h2] at hev
        rcases a2.head hr with h | ⟨x, hx⟩
        · rw [h] at hev; simp [roundActs] at hev
        · simp only [roundActs, List.map_nil, List.flatten_nil, List.nil_append] at hev
          rw [hx] at hev; cases hev; exact ⟨x, rfl⟩
      | cons a r =>
        obtain ⟨x, hx⟩ := c3 (by simp)
        refine ⟨x, ?_⟩
        rw [h2, roundActs, List.head?_append, hx] at hev
        cases hev; rfl

/-- **C63** fails without a reset function: whatever was computed before, the first closure that is called in each attempt is given
no data. -/
theorem C63_dropped (env : AEnv) (b : Builder D B) (hr : b.resetFn = none) (t : List (AEv D)) :
    ∃ (rounds : List (ARound D)) (last ext : List (AEv D)), (testAsync env b t).2 = t ++ ext ∧
      actsOf ext = (rounds.map ARound.acts).flatten ++ last ∧
      ((testAsync env b t).1 = .ok () → last = [] ∧ rounds ≠ []) ∧
      (∀ a ∈ rounds, a.acts.map AEv.kind = (plan b).map some ∧ ∃ s x, a.acts.head? = some (.call s none x)) ∧
      (last ≠ [] → ∃ s x, last.head? = some (.call s none x)) := by
  obtain ⟨as, last, ext, p, h1, h2, -, h4, h5⟩ := async_history env b t
  have hplan : ∃ s ks, plan b = .run s :: ks := by
    unfold plan prelude passesPlan
    rw [hr]
    cases b.warmupFn with
    | none => exact ⟨.pass1, _, rfl⟩
    | some w => exact ⟨.warmup, _, rfl⟩
  obtain ⟨s, ks, hp⟩ := hplan
  have key : ∀ a : ARound D, a.Follows b → a.acts.map AEv.kind = (plan b).map some ∧ ∃ s x, a.acts.head? = some (.call s none x) := by
    intro a h
    refine ⟨h.kinds, ?_⟩
    obtain ⟨-, h⟩ := h
    simp only [hr, Option.isSome_none, Bool.false_eq_true, false_and, if_false, hp] at h
    obtain ⟨r, e, he, -⟩ := h.run_inv
    exact ⟨s, some r, by rw [he]; rfl⟩
  have keyCut : ∀ {q : Option D}, CutShort b q last → last ≠ [] → ∃ s x, last.head? = some (.call s none x) := by
    intro q h hne
    unfold CutShort at h
    simp only [hr, Option.isSome_none, Bool.false_eq_true, false_and, if_false, hp] at h
    rcases h.run_inv with h | ⟨r, e, h⟩
    · exact absurd h hne
    · exact ⟨s, r, by rw [h]; rfl⟩
  rcases h5 with ⟨a1, -, a, -, hl, a3, -⟩ | ⟨a1, ⟨m, a2⟩, a, -, hl, a3, -⟩ | ⟨a1, rfl, m, a2⟩ | ⟨a1, a2, e, t0, a3, -⟩
  · refine ⟨as ++ [a], [], ext, h1, by rw [h2, hl]; simp [roundActs], by simp, fun x hx => ?_, by simp⟩
    rcases List.mem_append.1 hx with hx | hx
    · exact key x (h4 x hx).1
    · simp only [List.mem_singleton] at hx; subst hx; exact key x a3
  · refine ⟨as ++ [a], [], ext, h1, by rw [h2, hl]; simp [roundActs], by simp, fun x hx => ?_, by simp⟩
    rcases List.mem_append.1 hx with hx | hx
    · exact key x (h4 x hx).1
    · simp only [List.mem_singleton] at hx; subst hx; exact key x a3
  · exact ⟨as, [], ext, h1, h2, (fun h => by rw [a2] at h; cases h), fun x hx => key x (h4 x hx).1, by simp⟩
  · exact ⟨as, last, ext, h1, h2, (fun h => by rw [a3] at h; cases h), fun x hx => key x (h4 x hx).1, keyCut a2⟩

/-! ## C64: acceptance -/

/-- **C64** (soundness): whatever is measured, the test returns normally only after a complete attempt within the limits that are set,
and all attempts before it exceeded the limit on time only. -/
theorem C64_accepted_sound (env : AEnv) (b : Builder D B) (t : List (AEv D)) (h : (testAsync env b t).1 = .ok ()) :
    ∃ (rounds : List (ARound D)) (a : ARound D) (ext : List (AEv D)), (testAsync env b t).2 = t ++ ext ∧
      actsOf ext = (rounds.map ARound.acts).flatten ++ a.acts ∧ rounds.length ≤ b.maxReattempts.getD 0 ∧
      (∀ x ∈ rounds, x.Follows b ∧ ATimeOnly env b x) ∧ a.Follows b ∧ AWithin env b a := by
  obtain ⟨as, last, ext, p, h1, h2, -, h4, h5⟩ := async_history env b t
  rcases h5 with ⟨a1, -, a, -, rfl, a3, a4⟩ | ⟨a1, ⟨m, a2⟩, -⟩ | ⟨a1, rfl, m, a2⟩ | ⟨a1, a2, e, t0, a3, -⟩
  · exact ⟨as, a, ext, h1, h2, a1, h4, a3, a4⟩
  · rw [h] at a2; cases a2
  · rw [h] at a2; cases a2
  · rw [h] at a3; cases a3

/-- **C64.** If the closures do not panic, the assertions hold and readings are plausible, then the test makes between 1 and
`max_reattempts + 1` complete attempts (1 if it is not set); it returns normally iff the last one is within the limits that are
set and all others exceeded the limit on time only; otherwise it panics with a message, and then the last attempt exceeded
the limit on space, or all `max_reattempts + 1` attempts exceeded the limit on time only. -/
theorem C64_accepts_iff (env : AEnv) (L : FloatLaws env.f64) (b : Builder D B) (hb : ABenign b) (t : List (AEv D)) :
    ∃ (rounds : List (ARound D)) (ext : List (AEv D)), (testAsync env b t).2 = t ++ ext ∧
      actsOf ext = (rounds.map ARound.acts).flatten ∧ (∀ a ∈ rounds, a.Follows b) ∧
      1 ≤ rounds.length ∧ rounds.length ≤ b.maxReattempts.getD 0 + 1 ∧
      ((testAsync env b t).1 = .ok () ↔
        ∃ l a, rounds = l ++ [a] ∧ (∀ x ∈ l, ATimeOnly env b x) ∧ AWithin env b a) ∧
      ((testAsync env b t).1 ≠ .ok () → (∃ m, (testAsync env b t).1 = .error (.msg m)) ∧
        ((∃ l a, rounds = l ++ [a] ∧ (∀ x ∈ l, ATimeOnly env b x) ∧ ASpaceBad env b a) ∨
         (rounds.length = b.maxReattempts.getD 0 + 1 ∧ ∀ x ∈ rounds, ATimeOnly env b x))) := by
  obtain ⟨as, last, ext, p, h1, h2, -, h4, h5⟩ := async_history env b t
  have hall : ∀ {a : ARound D}, a.Follows b → ∀ x ∈ as ++ [a], x.Follows b := by
    intro a ha x hx
    rcases List.mem_append.1 hx with hx | hx
    · exact (h4 x hx).1
    · simp only [List.mem_singleton] at hx; subst hx; exact ha
  rcases h5 with ⟨a1, hr, a, -, hl, a3, a4⟩ | ⟨a1, ⟨m, hr⟩, a, -, hl, a3, a4⟩ | ⟨a1, rfl, m, hr⟩ | ⟨a1, a2, e, t0, a3, -, a5⟩
  · refine ⟨as ++ [a], ext, h1, by rw [h2, hl]; simp [roundActs], hall a3, by simp, by simpa using a1, ?_, fun h => absurd hr h⟩
    exact ⟨fun _ => ⟨as, a, rfl, fun x hx => (h4 x hx).2, a4⟩, fun _ => hr⟩
  · refine ⟨as ++ [a], ext, h1, by rw [h2, hl]; simp [roundActs], hall a3, by simp, by simpa using a1, ?_,
      fun _ => ⟨⟨m, hr⟩, Or.inl ⟨as, a, rfl, fun x hx => (h4 x hx).2, a4⟩⟩⟩
    constructor
    · intro h; rw [hr] at h; cases h
    · rintro ⟨l, c, hl, -, hw, -⟩
      have hca : c = a := by
        have := congrArg List.getLast? hl
        simpa using this.symm
      subst hca
      obtain ⟨s, l', c1, c2, c3⟩ := a4
      obtain ⟨s', c1', c2'⟩ := hw
      rw [c1] at c1'; cases c1'
      have := c2' l' c2
      omega
  · refine ⟨as, ext, h1, by rw [h2]; simp [roundActs], fun x hx => (h4 x hx).1, by omega, by omega, ?_,
      fun _ => ⟨⟨m, hr⟩, Or.inr ⟨a1, fun x hx => (h4 x hx).2⟩⟩⟩
    constructor
    · intro h; rw [hr] at h; cases h
    · rintro ⟨l, c, rfl, -, -, hw⟩
      exact absurd hw (h4 c (by simp)).2.2
  · obtain ⟨x, t', hx⟩ := raw_benign L hb p t0
    rw [hx] at a5; cases a5

/-- **C64** (unset limits): without limits, the test succeeds unless its first attempt panics. -/
theorem C64_unset_never_rejects (env : AEnv) (b : Builder D B) (ht : b.tmax = none) (hs : b.smax = none) (t : List (AEv D)) :
    (testAsync env b t).1 = .ok () ∨ ∃ e t0, (testAsync env b t).1 = .error e ∧ rawAnalyse env b none t0 = (.error e, (testAsync env b t).2) := by
  obtain ⟨as, last, ext, p, h1, h2, h3, h4, h5⟩ := async_history env b t
  have hno : as = [] := by
    cases as with
    | nil => rfl
    | cons a r =>
      exfalso
      refine (h4 a (by simp)).2.2 ?_
      intro l hl; rw [ht] at hl; cases hl
  subst hno
  have hp := h3.next.2.2.1 rfl
  subst hp
  rcases h5 with ⟨-, hr, -⟩ | ⟨-, -, a, -, -, -, c, l, -, hl, -⟩ | ⟨a1, -⟩ | ⟨-, -, e, t0, a3, -, a5⟩
  · exact Or.inl hr
  · rw [hs] at hl; cases hl
  · simp at a1
  · exact Or.inr ⟨e, t0, a3, a5⟩

/-! ## C65: which limits are enforced -/

/-- **C65** fails: neither the limit on auxiliary space nor any custom measurement has any influence on a test: the verdict, the
calls of closures and the texts are the same whatever they are. -/
theorem C65_not_enforced (env : AEnv) (b : Builder D B) (aux : Option Complexity) (ms : List (Measurer D B)) :
    testAsync env { b with auxSpace := aux, measurers := ms } = testAsync env b := rfl

/-- **C65** (partial): the limits on time and on space are enforced: a test that succeeds ends with an attempt within both (missing:
auxiliary space and custom measurements, see `C65_not_enforced`). -/
theorem C65_enforced_partial (env : AEnv) (b : Builder D B) (t : List (AEv D)) (h : (testAsync env b t).1 = .ok ()) :
    ∃ (before : List (AEv D)) (a : ARound D) (ext : List (AEv D)), (testAsync env b t).2 = t ++ ext ∧ actsOf ext = before ++ a.acts ∧ a.Measured ∧
      (∀ l, b.tmax = some l → (a.time env b).asU32 ≤ l.asU32) ∧
      (∀ l, b.smax = some l → ∃ c, a.space env b = .ok c ∧ c.asU32 ≤ l.asU32) := by
  obtain ⟨rounds, a, ext, h1, h2, -, -, h3, ⟨c, hc, hc'⟩, h4⟩ := C64_accepted_sound env b t h
  exact ⟨_, a, ext, h1, h2, h3.1, h4, fun l hl => ⟨c, hc, hc' l hl⟩⟩

/-! ## C66: builder methods -/

theorem build_snoc (name : String) (l : List (Setter D B)) (s : Setter D B) :
    Builder.build name (l ++ [s]) = s.apply (Builder.build name l) := by
  unfold Builder.build; rw [List.foldl_append]; rfl

/-- **C66** (last value): each option of the analyzer is the last value that was set for it, whatever else was set and in whatever
order; options that were not set are absent; custom measurements are kept in the order in which they were added. -/
theorem C66_last_setting (name : String) (l : List (Setter D B)) :
    let b := Builder.build name l
    b.name = name ∧
    b.maxReattempts = (l.filterMap Setter.maxReattempts?).getLast? ∧
    b.resetFn = (l.filterMap Setter.resetFn?).getLast? ∧
    b.warmupFn = (l.filterMap Setter.warmup?).getLast? ∧
    b.n1 = ((l.filterMap Setter.firstPass?).getLast?.map Prod.fst).getD 0 ∧
    b.fn1 = (l.filterMap Setter.firstPass?).getLast?.map Prod.snd ∧
    b.check1 = (l.filterMap Setter.firstCheck?).getLast? ∧
    b.n2 = ((l.filterMap Setter.secondPass?).getLast?.map Prod.fst).getD 0 ∧
    b.fn2 = (l.filterMap Setter.secondPass?).getLast?.map Prod.snd ∧
    b.check2 = (l.filterMap Setter.secondCheck?).getLast? ∧
    b.tmax = (l.filterMap Setter.time?).getLast? ∧
    b.smax = (l.filterMap Setter.space?).getLast? ∧
    b.auxSpace = (l.filterMap Setter.auxSpace?).getLast? ∧
    b.measurers = l.filterMap Setter.measurement? := by
  induction l using List.reverseRecOn with
  | nil => simp [Builder.build, Builder.new]
  | append_singleton l s ih =>
    obtain ⟨h0, h1, h2, h3, h4, h5, h6, h7, h8, h9, h10, h11, h12, h13⟩ := ih
    simp only [build_snoc, List.filterMap_append]
    cases s <;>
      simp [Setter.apply, Setter.maxReattempts?, Setter.resetFn?, Setter.warmup?, Setter.firstPass?, Setter.firstCheck?, Setter.secondPass?,
        Setter.secondCheck?, Setter.time?, Setter.space?, Setter.auxSpace?, Setter.measurement?, h0, h1, h2, h3, h4, h5, h6, h7, h8, h9, h10, h11, h12, h13]

theorem filterMap_last {α : Type} (k : SKind) (sel : Setter D B → Option α) (h : ∀ s, (sel s).isSome ↔ s.kind = k) (l : List (Setter D B)) :
    (l.filterMap sel).getLast? = (settings k l).getLast?.bind sel := by
  induction l using List.reverseRecOn with
  | nil => rfl
  | append_singleton l s ih =>
    unfold settings at ih ⊢
    rw [List.filterMap_append, List.filter_append]
    by_cases hk : s.kind = k
    · obtain ⟨x, hx⟩ := Option.isSome_iff_exists.1 ((h s).2 hk)
      simp [hk, hx]
    · have hx : sel s = none := by
        cases hs : sel s with
        | none => rfl
        | some x => exact absurd ((h s).1 (by rw [hs]; rfl)) hk
      simp [hk, hx, ih]

/-- **C66** (order): two chains of builder methods give the same analyzer if for each option the last call that sets it is the same in
both and custom measurements are added in the same order; how calls for different options are interleaved, and earlier
settings of the same option, do not matter. -/
theorem C66_order_independent (name : String) (l l' : List (Setter D B))
    (h : ∀ k, k ≠ .measurement → (settings k l).getLast? = (settings k l').getLast?)
    (hm : settings .measurement l = settings .measurement l') : Builder.build name l = Builder.build name l' := by
  have m0 : ∀ r : List (Setter D B), r.filterMap Setter.measurement? = (settings .measurement r).filterMap Setter.measurement? := by
    intro r
    unfold settings
    rw [List.filterMap_filter]
    congr 1
    funext s
    cases s <;> simp [Setter.kind, Setter.measurement?]
  have hL := C66_last_setting name l
  have hR := C66_last_setting name l'
  simp only at hL hR
  obtain ⟨a0, a1, a2, a3, a4, a5, a6, a7, a8, a9, a10, a11, a12, a13⟩ := hL
  obtain ⟨b0, b1, b2, b3, b4, b5, b6, b7, b8, b9, b10, b11, b12, b13⟩ := hR
  have f : ∀ {α : Type} (k : SKind) (sel : Setter D B → Option α), k ≠ .measurement → (∀ s, (sel s).isSome ↔ s.kind = k) →
      (l.filterMap sel).getLast? = (l'.filterMap sel).getLast? := by
    intro α k sel hk hs
    rw [filterMap_last k sel hs, filterMap_last k sel hs, h k hk]
  have g1 := f .maxReattempts Setter.maxReattempts? (by decide) (fun s => by cases s <;> simp [Setter.kind, Setter.maxReattempts?])
  have g2 := f .resetFn Setter.resetFn? (by decide) (fun s => by cases s <;> simp [Setter.kind, Setter.resetFn?])
  have g3 := f .warmup Setter.warmup? (by decide) (fun s => by cases s <;> simp [Setter.kind, Setter.warmup?])
  have g4 := f .firstPass Setter.firstPass? (by decide) (fun s => by cases s <;> simp [Setter.kind, Setter.firstPass?])
  have g5 := f .firstCheck Setter.firstCheck? (by decide) (fun s => by cases s <;> simp [Setter.kind, Setter.firstCheck?])
  have g6 := f .secondPass Setter.secondPass? (by decide) (fun s => by cases s <;> simp [Setter.kind, Setter.secondPass?])
  have g7 := f .secondCheck Setter.secondCheck? (by decide) (fun s => by cases s <;> simp [Setter.kind, Setter.secondCheck?])
  have g8 := f .time Setter.time? (by decide) (fun s => by cases s <;> simp [Setter.kind, Setter.time?])
  have g9 := f .space Setter.space? (by decide) (fun s => by cases s <;> simp [Setter.kind, Setter.space?])
  have g10 := f .auxSpace Setter.auxSpace? (by decide) (fun s => by cases s <;> simp [Setter.kind, Setter.auxSpace?])
  generalize hB : Builder.build name l = X at *
  generalize hB' : Builder.build name l' = Y at *
  cases X; cases Y
  simp only at *
  simp only [a0, a1, a2, a3, a4, a5, a6, a7, a8, a9, a10, a11, a12, a13, b0, b1, b2, b3, b4, b5, b6, b7, b8, b9, b10, b11, b12, b13,
    g1, g2, g3, g4, g5, g6, g7, g8, g9, g10, m0 l, m0 l', hm]

-- different options commute; the last value of an option counts
example (name : String) (l r : List (Setter D B)) (f : AFn D) :
    Builder.build name (l ++ [.time .oN, .firstPass 10 f] ++ r) = Builder.build name (l ++ [.time .o1, .firstPass 10 f, .time .oN] ++ r) := by
  refine C66_order_independent name _ _ (fun k hk => ?_) ?_
  · cases k <;> simp [settings, Setter.kind, List.filter_append, List.getLast?_append]
  · simp [settings, Setter.kind, List.filter_append]

/-! ## C67: missing passes -/

/-- the steps before the passes are never followed by anything if a pass is missing -/
theorem raw_missing (env : AEnv) (b : Builder D B) (hm : b.fn1 = none ∨ b.fn2 = none) (prev : Option D) (t : List (AEv D)) :
    ∃ e t' es, rawAnalyse env b prev t = (.error e, t') ∧ Did t t' es ∧ es.map AEv.kind <+: (prelude b).map some := by
  generalize h : rawAnalyse env b prev t = x
  obtain ⟨r, t'⟩ := x
  rcases raw_split h with ⟨e, es, rfl, hd, hc⟩ | ⟨d1, t1, es, hd, hpre, hp⟩
  · refine ⟨e, t', es, rfl, hd, ?_⟩
    unfold PreCut at hc
    split_ifs at hc with hcc
    · have hpl : prelude b = [.run .reset, .run .warmup] ++ [.run .reset] := by simp [prelude, hcc.1, hcc.2]
      rcases hc with hc | ⟨es1, es2, d, rfl, h1, h2⟩
      · have := (hc.more [.run .reset]).kinds
        rwa [← hpl] at this
      · rw [List.map_append, h1.kinds, hpl, List.map_append]
        exact (List.prefix_append_right_inj _).2 h2.kinds
    all_goals exact hc.kinds
  · have hk : es.map AEv.kind <+: (prelude b).map some := by
      unfold Pre at hpre
      split_ifs at hpre with hcc
      · have hpl : prelude b = [.run .reset, .run .warmup] ++ [.run .reset] := by simp [prelude, hcc.1, hcc.2]
        obtain ⟨es1, es2, d, rfl, h1, h2⟩ := hpre
        rw [List.map_append, h1.kinds, h2.kinds, hpl, List.map_append]
      all_goals rw [hpre.kinds]
    unfold passesPart at hp
    cases h1 : b.fn1 with
    | none =>
      rw [h1] at hp
      have : r = .error (.msg "BUG! First pass function not present") ∧ t' = t1 := by cases hp; exact ⟨rfl, rfl⟩
      obtain ⟨rfl, rfl⟩ := this
      exact ⟨_, _, es, rfl, hd, hk⟩
    | some f =>
      rcases hm with hm | hm
      · rw [h1] at hm; cases hm
      · rw [h1, hm] at hp
        have : r = .error (.msg "BUG! Second pass function not present") ∧ t' = t1 := by cases hp; exact ⟨rfl, rfl⟩
        obtain ⟨rfl, rfl⟩ := this
        exact ⟨_, _, es, rfl, hd, hk⟩

/-- **C67.** If a pass is missing, the test panics, whatever is measured; it calls no closures other than (in order) those for resetting
and warming up, and there is no second attempt. -/
theorem C67_missing_pass (env : AEnv) (b : Builder D B) (hm : b.fn1 = none ∨ b.fn2 = none) (t : List (AEv D)) :
    ∃ e ext, testAsync env b t = (.error e, t ++ ext) ∧ (actsOf ext).map AEv.kind <+: (prelude b).map some ∧ .sleep ∉ ext := by
  obtain ⟨e, t', es, h, ⟨ext, rfl, rfl⟩, hk⟩ := raw_missing env b hm none t
  refine ⟨e, ext, ?_, hk, ?_⟩
  · have h1 : retryWith .sleep (rawAnalyse env b none) (againAsync env b) (b.maxReattempts.getD 0) t = (.error e, t ++ ext) := by
      unfold retryWith
      exact P.bind_err h
    have h2 : (retryWith .sleep (rawAnalyse env b none) (againAsync env b) (b.maxReattempts.getD 0) >>=
      resolveOrPanic env.errors (b.maxReattempts.getD 0)) t = (.error e, t ++ ext) := P.bind_err h1
    exact h2
  · -- attempts do not sleep
    have hq : Keeps (fun _ ev => ev ≠ AEv.sleep) (rawAnalyse env b none) := raw_no_sleep b none
    obtain ⟨ext', h1, h2⟩ := hq t
    rw [h] at h1
    simp only [List.append_cancel_left_eq] at h1
    subst h1
    intro hs
    obtain ⟨pre, post, he⟩ := List.append_of_mem hs
    exact h2 pre .sleep post he rfl

theorem prelude_benign {env : AEnv} (b : Builder D B) (hf : ∀ f, (b.resetFn = some f ∨ b.warmupFn = some f) →
      ∀ h i, ∃ m d, f h i = .ok (m, d) ∧ PlausibleReading m.space ∧ PlausibleTime m.time) (prev : Option D) (t : List (AEv D)) :
    ∃ d t1 es, (firstReset env b prev >>= warmUp env b) t = (.ok d, t1) ∧ Did t t1 es ∧ es.map AEv.kind = (prelude b).map some := by
  generalize h : (firstReset env b prev >>= warmUp env b) t = x
  obtain ⟨r, t1⟩ := x
  have hok : ∃ d, r = .ok d := by
    have s1 : ∃ d t', firstReset env b prev t = (.ok d, t') := by
      unfold firstReset
      cases hr : b.resetFn with
      | none => exact ⟨_, _, rfl⟩
      | some f =>
        obtain ⟨m, d, t', h, -⟩ := averb_benign (env := env) (hf f (Or.inl hr)) "  Resetting: " ";" .reset prev t
        simp only
        rw [P.bind_ok h]
        exact ⟨_, _, rfl⟩
    obtain ⟨d0, t0, h1⟩ := s1
    rw [P.bind_ok h1] at h
    unfold warmUp at h
    cases hw : b.warmupFn with
    | none => rw [hw] at h; cases h; exact ⟨_, rfl⟩
    | some f =>
      rw [hw] at h
      obtain ⟨m, d, t', h2, -⟩ := averb_benign (env := env) (hf f (Or.inr hw)) "  Warming up: " ";" .warmup d0 t0
      simp only at h
      rw [P.bind_ok h2] at h
      unfold resetAgain at h
      cases hr : b.resetFn with
      | none => rw [hr] at h; cases h; exact ⟨_, rfl⟩
      | some f =>
        rw [hr] at h
        obtain ⟨m, d, t', h3, -⟩ := averb_benign (env := env) (hf f (Or.inl hr)) "  Resetting again: " ";" .reset none t'
        simp only at h
        rw [P.bind_ok h3] at h
        cases h
        exact ⟨_, rfl⟩
  obtain ⟨d, rfl⟩ := hok
  obtain ⟨es, hd, hc⟩ := prelude_cases b h
  rcases hc with ⟨e, he, -⟩ | ⟨d1, he, hp⟩
  · cases he
  · refine ⟨d, t1, es, rfl, hd, ?_⟩
    unfold Pre at hp
    split_ifs at hp with hcc
    · have hpl : prelude b = [.run .reset, .run .warmup] ++ [.run .reset] := by simp [prelude, hcc.1, hcc.2]
      obtain ⟨es1, es2, d, rfl, h1, h2⟩ := hp
      rw [List.map_append, h1.kinds, h2.kinds, hpl, List.map_append]
    all_goals rw [hp.kinds]

/-- **C67** (message): if the other closures do not panic and readings are plausible, the panic says which pass is missing. -/
theorem C67_message (env : AEnv) (b : Builder D B) (hm : b.fn1 = none ∨ b.fn2 = none)
    (hf : ∀ f, (b.resetFn = some f ∨ b.warmupFn = some f) →
      ∀ h i, ∃ m d, f h i = .ok (m, d) ∧ PlausibleReading m.space ∧ PlausibleTime m.time) (t : List (AEv D)) :
    (testAsync env b t).1 = .error (.msg (if b.fn1 = none then "BUG! First pass function not present" else "BUG! Second pass function not present")) ∧
    ∃ ext, (testAsync env b t).2 = t ++ ext ∧ (actsOf ext).map AEv.kind = (prelude b).map some := by
  obtain ⟨d, t1, es, h1, hd, hk⟩ := prelude_benign (env := env) b hf none (t ++ [.out ("Running '" ++ b.name ++ "' async algorithm:\n")])
  have hraw : rawAnalyse env b none t =
      (.error (.msg (if b.fn1 = none then "BUG! First pass function not present" else "BUG! Second pass function not present")), t1) := by
    have h2 : rawAnalyse env b none t = passesPart env b d t1 := by
      have : rawAnalyse env b none t = ((firstReset env b none >>= warmUp env b) >>= passesPart env b)
          (t ++ [.out ("Running '" ++ b.name ++ "' async algorithm:\n")]) := by
        unfold rawAnalyse
        rw [P.log_bind]
        simp only [P.bind_eq]
        cases firstReset env b none (t ++ [.out ("Running '" ++ b.name ++ "' async algorithm:\n")]) with
        | mk y t2 => cases y <;> rfl
      rw [this, P.bind_ok h1]
    rw [h2]
    unfold passesPart
    cases e1 : b.fn1 with
    | none => simp only [if_true]; rfl
    | some f =>
      have e2 : b.fn2 = none := by
        rcases hm with hm | hm
        · rw [e1] at hm; cases hm
        · exact hm
      rw [e2]; simp only [reduceCtorEq, if_false]; rfl
  generalize (if b.fn1 = none then "BUG! First pass function not present" else "BUG! Second pass function not present") = msg at hraw ⊢
  have h2 : retryWith .sleep (rawAnalyse env b none) (againAsync env b) (b.maxReattempts.getD 0) t = (.error (.msg msg), t1) := by
    unfold retryWith
    exact P.bind_err hraw
  have h3 : testAsync env b t = (.error (.msg msg), t1) := P.bind_err h2
  rw [h3]
  obtain ⟨ext, he, he'⟩ := (Did.out t ("Running '" ++ b.name ++ "' async algorithm:\n")).trans hd
  exact ⟨rfl, ext, he, by rw [he', List.nil_append, hk]⟩

/-! ## concrete cases -/

/-- a closure that takes 1 s, needs 100 bytes, and counts -/
def steadyFn : AFn Nat := fun _ i => .ok (⟨10 ^ 9, ⟨50, 50, 150, 50⟩⟩, i.getD 0 + 1)

/-- an assertion that holds -/
def happyCheck : ACheck Nat := fun _ _ => .ok ()

/-- a steady algorithm -/
def steadyBuilder (reset warmup : Bool) (tmax smax : Complexity) (reattempts : Nat) : Builder Nat Unit :=
  Builder.build "steady" ([.firstPass 10 steadyFn, .secondPass 20 steadyFn, .time tmax, .space smax, .maxReattempts reattempts,
    .firstCheck happyCheck, .secondCheck happyCheck, .auxSpace .o1] ++
    (if reset then [.resetFn steadyFn] else []) ++ (if warmup then [.warmup steadyFn] else []))

theorem steadyBuilder_fields (reset warmup : Bool) (tmax smax : Complexity) (k : Nat) :
    steadyBuilder reset warmup tmax smax k =
      { name := "steady", resetFn := if reset then some steadyFn else none, maxReattempts := some k,
        warmupFn := if warmup then some steadyFn else none, n1 := 10, fn1 := some steadyFn, check1 := some happyCheck, n2 := 20,
        fn2 := some steadyFn, check2 := some happyCheck, tmax := some tmax, smax := some smax, auxSpace := some .o1, measurers := [] } := by
  cases reset <;> cases warmup <;> rfl

theorem steadyBuilder_benign (reset warmup : Bool) (tmax smax : Complexity) (k : Nat) : ABenign (steadyBuilder reset warmup tmax smax k) := by
  rw [steadyBuilder_fields]
  refine ⟨?_, ?_, rfl, rfl, by simp, by simp⟩
  · intro f hf h i
    have hf' : f = steadyFn := by
      cases reset <;> cases warmup <;> simp at hf <;> simp [hf]
    subst hf'
    refine ⟨_, _, rfl, ⟨by norm_num, by norm_num, by norm_num, by norm_num⟩, ?_⟩
    show 10 ^ 9 / 10 ^ 9 < 2 ^ 53
    norm_num
  · intro c hc h d
    simp only [Option.some.injEq, or_self] at hc
    subst hc
    rfl

/-- the environment of the examples -/
noncomputable def asyncEnv (E : FloatEnv) (T : TextEnv) : AEnv := ⟨.checked, E, T, fun _ => ""⟩

/-- all its rounds give `O(1)` -/
theorem steady_round {E : FloatEnv} (L : FloatLaws E) {T : TextEnv} {b : Builder Nat Unit} (hf : ∀ s f, b.fn s = some f → f = steadyFn)
    {t : List (AEv Nat)} {ext : List (AEv Nat)} {a : ARound Nat} (he : (testAsync (asyncEnv E T) b t).2 = t ++ ext)
    (hm : a.Measured) (hsub : ∀ ev ∈ a.acts, ev ∈ actsOf ext) :
    a.time (asyncEnv E T) b = .o1 ∧ a.space (asyncEnv E T) b = .ok .o1 := by
  obtain ⟨ext', h1, h2⟩ := C62_genuine (asyncEnv E T) b t
  rw [he] at h1
  simp only [List.append_cancel_left_eq] at h1
  subst h1
  have key : ∀ s i x, .call s i (some x) ∈ a.acts → x.1 = ⟨10 ^ 9, ⟨50, 50, 150, 50⟩⟩ := by
    intro s i x hx
    have := (List.mem_filter.1 (hsub _ hx)).1
    obtain ⟨pre, post, hp⟩ := List.append_of_mem this
    obtain ⟨f, hf', hx'⟩ := h2 pre _ post hp
    rw [hf s f hf'] at hx'
    cases hx'; rfl
  obtain ⟨⟨i, d, p1⟩, ⟨j, p2⟩⟩ := hm
  exact steady_o1 E L T ⟨"", 0, b.n1, b.n2, .o1, .o1⟩ ⟨a.m1, a.m1, a.m2⟩ (key _ _ _ p1) (key _ _ _ p2)

/-- verdict and number of attempts for the steady algorithm -/
theorem steady_verdict {E : FloatEnv} (L : FloatLaws E) (T : TextEnv) (reset warmup : Bool) (tmax smax : Complexity) (k : Nat) :
    ((testAsync (asyncEnv E T) (steadyBuilder reset warmup tmax smax k) []).1 = .ok () ↔
      Complexity.o1.asU32 ≤ tmax.asU32 ∧ Complexity.o1.asU32 ≤ smax.asU32) ∧
    (¬ Complexity.o1.asU32 ≤ tmax.asU32 → Complexity.o1.asU32 ≤ smax.asU32 →
      ∃ rounds : List (ARound Nat), rounds.length = k + 1 ∧ (∀ a ∈ rounds, a.Follows (steadyBuilder reset warmup tmax smax k)) ∧
        actsOf (testAsync (asyncEnv E T) (steadyBuilder reset warmup tmax smax k) []).2 = (rounds.map ARound.acts).flatten) := by
  generalize hb : steadyBuilder reset warmup tmax smax k = b
  have hben : ABenign b := hb ▸ steadyBuilder_benign ..
  have hfields := steadyBuilder_fields reset warmup tmax smax k
  rw [hb] at hfields
  have hf : ∀ s f, b.fn s = some f → f = steadyFn := by
    intro s f h
    rw [hfields] at h
    cases s <;> cases reset <;> cases warmup <;> simp [Builder.fn] at h <;> exact h.symm
  have htm : b.tmax = some tmax := by rw [hfields]
  have hsm : b.smax = some smax := by rw [hfields]
  have hk : b.maxReattempts.getD 0 = k := by rw [hfields]; rfl
  obtain ⟨rounds, ext, h1, h2, h3, h4, h5, h6, h7⟩ := C64_accepts_iff (asyncEnv E T) L b hben []
  have hr : ∀ a ∈ rounds, a.time (asyncEnv E T) b = .o1 ∧ a.space (asyncEnv E T) b = .ok .o1 := by
    intro a ha
    refine steady_round L hf h1 (h3 a ha).1 (fun ev hev => ?_)
    rw [h2, List.mem_flatten]
    exact ⟨a.acts, List.mem_map_of_mem ha, hev⟩
  have hw : ∀ a ∈ rounds, (ATimeOk (asyncEnv E T) b a ↔ Complexity.o1.asU32 ≤ tmax.asU32) ∧
      (ASpaceOk (asyncEnv E T) b a ↔ Complexity.o1.asU32 ≤ smax.asU32) := by
    intro a ha
    obtain ⟨e1, e2⟩ := hr a ha
    unfold ATimeOk ASpaceOk
    rw [e1, e2, htm, hsm]
    constructor
    · exact ⟨fun h => h tmax rfl, fun h l hl => by cases hl; exact h⟩
    · constructor
      · rintro ⟨c, hc, h⟩; cases hc; exact h smax rfl
      · intro h; exact ⟨_, rfl, fun l hl => by cases hl; exact h⟩
  refine ⟨⟨fun h => ?_, fun h => ?_⟩, fun ht hs => ?_⟩
  · obtain ⟨l, a, rfl, -, w1, w2⟩ := h6.1 h
    exact ⟨(hw a (by simp)).1.1 w2, (hw a (by simp)).2.1 w1⟩
  · by_contra hn
    obtain ⟨-, h8⟩ := h7 hn
    rcases h8 with ⟨l, a, rfl, -, c, l', c1, c2, c3⟩ | ⟨-, h8⟩
    · have := (hr a (by simp)).2
      rw [c1] at this; cases this
      rw [hsm] at c2; cases c2
      omega
    · cases rounds with
      | nil => simp at h4
      | cons a r => exact (h8 a (by simp)).2 ((hw a (by simp)).1.2 h.1)
  · have hno : (testAsync (asyncEnv E T) b []).1 ≠ .ok () := by
      intro h
      obtain ⟨l, a, rfl, -, w1, w2⟩ := h6.1 h
      exact ht ((hw a (by simp)).1.1 w2)
    obtain ⟨-, h8⟩ := h7 hno
    rcases h8 with ⟨l, a, rfl, -, c, l', c1, c2, c3⟩ | ⟨h8, -⟩
    · exfalso
      have := (hr a (by simp)).2
      rw [c1] at this; cases this
      rw [hsm] at c2; cases c2
      omega
    · refine ⟨rounds, by rw [h8, hk], h3, ?_⟩
      rw [h1]; exact h2

/-- the shipped arithmetic with the shipped tolerance -/
noncomputable abbrev shipped64 : FloatEnv := binary64Env id (fun x _ => x) (fun x _ => x) (binary64.round (1 / 10))

-- C64: accepted with limits of `O(1)`, rejected with a tighter limit on time or on space
example (T : TextEnv) (reset warmup : Bool) :
    (testAsync (asyncEnv shipped64 T) (steadyBuilder reset warmup .o1 .o1 2) []).1 = .ok () ∧
    (testAsync (asyncEnv shipped64 T) (steadyBuilder reset warmup .betterThanO1 .o1 2) []).1 ≠ .ok () ∧
    (testAsync (asyncEnv shipped64 T) (steadyBuilder reset warmup .o1 .betterThanO1 2) []).1 ≠ .ok () := by
  have L : FloatLaws shipped64 := C17_laws_10 _ _ _
  refine ⟨(steady_verdict L T reset warmup .o1 .o1 2).1.2 ⟨by decide, by decide⟩, fun h => ?_, fun h => ?_⟩
  · exact absurd ((steady_verdict L T reset warmup _ _ 2).1.1 h).1 (by decide)
  · exact absurd ((steady_verdict L T reset warmup _ _ 2).1.1 h).2 (by decide)

-- C62, C63: three complete attempts
example (T : TextEnv) (reset warmup : Bool) :
    ∃ a b c : ARound Nat, (∀ x ∈ [a, b, c], x.Follows (steadyBuilder reset warmup .betterThanO1 .o1 2)) ∧
      actsOf (testAsync (asyncEnv shipped64 T) (steadyBuilder reset warmup .betterThanO1 .o1 2) []).2 = a.acts ++ b.acts ++ c.acts := by
  have L : FloatLaws shipped64 := C17_laws_10 _ _ _
  obtain ⟨rounds, h1, h2, h3⟩ := (steady_verdict L T reset warmup .betterThanO1 .o1 2).2 (by decide) (by decide)
  obtain ⟨a, b, c, rfl⟩ : ∃ a b c, rounds = [a, b, c] := by
    match rounds, h1 with
    | [a, b, c], _ => exact ⟨a, b, c, rfl⟩
  exact ⟨a, b, c, h2, by rw [h3]; simp⟩

-- C62: the plan with all options, and with none
example : plan (steadyBuilder true true .o1 .o1 2) =
    [.run .reset, .run .warmup, .run .reset, .run .pass1, .assert false, .run .reset, .run .pass2, .assert true] ∧
    plan (steadyBuilder false false .o1 .o1 2) = [.run .pass1, .assert false, .run .pass2, .assert true] := by
  rw [steadyBuilder_fields, steadyBuilder_fields]; exact ⟨rfl, rfl⟩

-- C67: the second pass is missing; the others run first
example (T : TextEnv) : ∃ ext, testAsync (asyncEnv shipped64 T) (Builder.build "x" [.firstPass 10 steadyFn, .resetFn steadyFn] : Builder Nat Unit) [] =
    (.error (.msg "BUG! Second pass function not present"), ext) ∧ (actsOf ext).map AEv.kind = [some (.run .reset)] := by
  have h := C67_message (asyncEnv shipped64 T) (Builder.build "x" [.firstPass 10 steadyFn, .resetFn steadyFn] : Builder Nat Unit)
    (Or.inr rfl) (by
      intro f hf h i
      have hf' : f = steadyFn := by
        rcases hf with hf | hf
        · cases hf; rfl
        · cases hf
      subst hf'
      refine ⟨_, _, rfl, ⟨by norm_num, by norm_num, by norm_num, by norm_num⟩, ?_⟩
      show 10 ^ 9 / 10 ^ 9 < 2 ^ 53
      norm_num) []
  obtain ⟨h1, ext, h2, h3⟩ := h
  refine ⟨ext, ?_, h3⟩
  have e : ∀ {x : Rs Unit × List (AEv Nat)} {r t}, x.1 = r → x.2 = t → x = (r, t) := by rintro ⟨a, b⟩ r t rfl rfl; rfl
  exact e h1 h2

/-! ## C57 for asynchronous algorithms -/

/-- `new` is not stricter than `old`: `none` is no limit -/
def NotStricter (old new : Option Complexity) : Prop := ∀ l', new = some l' → ∃ l, old = some l ∧ l.asU32 ≤ l'.asU32

theorem bind_same_start {ε α β : Type} {m : P ε α} {f g : α → P ε β} {v : β}
    (h : ∀ a t t', f a t = (.ok v, t') → g a t = (.ok v, t')) (t t') (h0 : (m >>= f) t = (.ok v, t')) : (m >>= g) t = (.ok v, t') := by
  rcases P.bind_cases h0 with ⟨p, h1, h2⟩ | ⟨a, t1, h1, h2⟩
  · cases h2
  · rw [P.bind_ok h1]; exact h a t1 t' h2

/-- **C57** (asynchronous algorithms, one attempt): an attempt that is accepted is also accepted, with the same history, under
looser limits or without them. -/
theorem C57_looser_async {D B : Type} (env : AEnv) (b : Builder D B) (tmax smax : Option Complexity)
    (ht : NotStricter b.tmax tmax) (hs : NotStricter b.smax smax) (prev : Option D) (t t' : List (AEv D))
    (h : rawAnalyse env b prev t = (.ok .ok, t')) : rawAnalyse env { b with tmax := tmax, smax := smax } prev t = (.ok .ok, t') := by
  have hjt : ∀ (data : D) time t t', judgeTime b data time t = (.ok .ok, t') →
      judgeTime { b with tmax := tmax, smax := smax } data time t = (.ok .ok, t') := by
    intro data time t t' h
    unfold judgeTime at h ⊢
    cases ht' : tmax with
    | none =>
      cases hb : b.tmax with
      | none => rw [hb] at h; exact h
      | some l =>
        rw [hb] at h
        simp only at h ⊢
        split at h
        · rw [P.log_bind, P.pure_eq] at h; cases h
        · exact h
    | some l' =>
      obtain ⟨l, hb, hle⟩ := ht l' ht'
      rw [hb] at h
      simp only at h ⊢
      split at h
      · rw [P.log_bind, P.pure_eq] at h; cases h
      · rw [if_neg (by omega)]; exact h
  have hjs : ∀ (data : D) time space t t', judgeSpace b data time space t = (.ok .ok, t') →
      judgeSpace { b with tmax := tmax, smax := smax } data time space t = (.ok .ok, t') := by
    intro data time space t t' h
    unfold judgeSpace at h ⊢
    cases hs' : smax with
    | none =>
      cases hb : b.smax with
      | none => rw [hb] at h; subst hs'; exact hjt data time t t' h
      | some l =>
        rw [hb] at h
        simp only at h ⊢
        split at h
        · rw [P.log_bind, P.pure_eq] at h; cases h
        · subst hs'; exact hjt data time t t' h
    | some l' =>
      obtain ⟨l, hb, hle⟩ := hs l' hs'
      rw [hb] at h
      simp only at h ⊢
      split at h
      · rw [P.log_bind, P.pure_eq] at h; cases h
      · rw [if_neg (by omega)]; subst hs'; exact hjt data time t t' h
  have ha : ∀ m1 m2 (data : D) t t', analyseAsync env b m1 m2 data t = (.ok .ok, t') →
      analyseAsync env { b with tmax := tmax, smax := smax } m1 m2 data t = (.ok .ok, t') := by
    intro m1 m2 data t t'
    unfold analyseAsync
    exact bind_same_start (fun space => bind_same_start fun _ => bind_same_start fun report => bind_same_start fun _ => hjs _ _ _) t t'
  unfold rawAnalyse at h ⊢
  exact bind_same_start (fun _ => bind_same_start fun _ => bind_same_start fun _ => bind_same_start fun _ => bind_same_start fun _ =>
    bind_same_start fun _ => bind_same_start fun _ => bind_same_start fun _ => bind_same_start fun _ => bind_same_start fun _ => ha _ _ _) t t' h

-- accepted with `O(1)`; then also with `O(n)` on time and no limit on space
example : NotStricter (some .o1) (some .oN) ∧ NotStricter (some .o1) none ∧ ¬ NotStricter none (some .o1) := by
  refine ⟨fun l' h => ⟨.o1, rfl, ?_⟩, fun l' h => (by cases h), fun h => ?_⟩
  · cases h; decide
  · obtain ⟨l, h, -⟩ := h .o1 rfl
    cases h

end BigO
