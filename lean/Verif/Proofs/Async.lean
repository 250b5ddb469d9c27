import Verif.Proofs.Retry
import Verif.Spec.AsyncSpec
import Verif.Props.Display

namespace BigO
variable {D B : Type}

/-! ### traces -/

/-- what the closures did between two points of a trace -/
def Did (t t' : List (AEv D)) (es : List (AEv D)) : Prop := ∃ ext, t' = t ++ ext ∧ actsOf ext = es

theorem actsOf_append (a b : List (AEv D)) : actsOf (a ++ b) = actsOf a ++ actsOf b := List.filter_append ..

theorem Did.refl (t : List (AEv D)) : Did t t [] := ⟨[], by simp, rfl⟩

theorem Did.trans {t1 t2 t3 : List (AEv D)} {a b : List (AEv D)} (h : Did t1 t2 a) (h' : Did t2 t3 b) : Did t1 t3 (a ++ b) := by
  obtain ⟨e1, rfl, rfl⟩ := h
  obtain ⟨e2, rfl, rfl⟩ := h'
  exact ⟨e1 ++ e2, by simp, actsOf_append ..⟩

theorem Did.out (t : List (AEv D)) (s : String) : Did t (t ++ [.out s]) [] := ⟨_, rfl, rfl⟩
theorem Did.sleep (t : List (AEv D)) : Did t (t ++ [.sleep]) [] := ⟨_, rfl, rfl⟩
theorem Did.call (t : List (AEv D)) (s : AStep) (i : Option D) (r) : Did t (t ++ [.call s i r]) [.call s i r] := ⟨_, rfl, rfl⟩
theorem Did.check (t : List (AEv D)) (s : Bool) (i : D) (r) : Did t (t ++ [.check s i r]) [.check s i r] := ⟨_, rfl, rfl⟩

/-! ### steps that end and steps that do not -/

theorem Chained.append {d d' d'' : Option D} {ks ks' : List AKind} {es es' : List (AEv D)} (h : Chained d ks es d')
    (h' : Chained d' ks' es' d'') : Chained d (ks ++ ks') (es ++ es') d'' := by
  induction h with
  | nil d => exact h'
  | run _ ih => exact .run (ih h')
  | assert _ ih => exact .assert (ih h')

/-- the beginning of steps: the last recorded one may have panicked -/
inductive Cut : Option D → List AKind → List (AEv D) → Prop
  | stop (d : Option D) (ks : List AKind) : Cut d ks []
  | failRun (d : Option D) (s : AStep) (ks : List AKind) : Cut d (.run s :: ks) [.call s d none]
  | failCheck (x : D) (second : Bool) (ks : List AKind) : Cut (some x) (.assert second :: ks) [.check second x false]
  | run {d : Option D} {s : AStep} {r : PassResult × D} {ks : List AKind} {es : List (AEv D)}
      (rest : Cut (some r.2) ks es) : Cut d (.run s :: ks) (.call s d (some r) :: es)
  | assert {x : D} {second : Bool} {ks : List AKind} {es : List (AEv D)}
      (rest : Cut (some x) ks es) : Cut (some x) (.assert second :: ks) (.check second x true :: es)

theorem Chained.cut {d d' : Option D} {ks ks' : List AKind} {es es' : List (AEv D)} (h : Chained d ks es d')
    (h' : Cut d' ks' es') : Cut d (ks ++ ks') (es ++ es') := by
  induction h with
  | nil d => exact h'
  | run _ ih => exact .run (ih h')
  | assert _ ih => exact .assert (ih h')

theorem Cut.more {d : Option D} {ks : List AKind} {es : List (AEv D)} (h : Cut d ks es) (ks' : List AKind) : Cut d (ks ++ ks') es := by
  induction h with
  | stop d ks => exact .stop _ _
  | failRun d s ks => exact .failRun _ _ _
  | failCheck x s ks => exact .failCheck _ _ _
  | run _ ih => exact .run ih
  | assert _ ih => exact .assert ih

theorem Chained.kinds {d d' : Option D} {ks : List AKind} {es : List (AEv D)} (h : Chained d ks es d') : es.map AEv.kind = ks.map some := by
  induction h with
  | nil d => rfl
  | run _ ih => simp [ih, AEv.kind]
  | assert _ ih => simp [ih, AEv.kind]

theorem Cut.kinds {d : Option D} {ks : List AKind} {es : List (AEv D)} (h : Cut d ks es) : es.map AEv.kind <+: ks.map some := by
  induction h with
  | stop d ks => simp
  | failRun d s ks => simp [AEv.kind]
  | failCheck x s ks => simp [AEv.kind]
  | run _ ih => simpa [AEv.kind] using ih
  | assert _ ih => simpa [AEv.kind] using ih

/-- the prelude ended, with the data `d1` -/
def Pre (b : Builder D B) (prev : Option D) (es : List (AEv D)) (d1 : Option D) : Prop :=
  if b.resetFn.isSome ∧ b.warmupFn.isSome then
    ∃ es1 es2 d, es = es1 ++ es2 ∧ Chained prev [.run .reset, .run .warmup] es1 d ∧ Chained none [.run .reset] es2 d1
  else Chained (if b.resetFn.isSome then prev else none) (prelude b) es d1

/-- the prelude panicked -/
def PreCut (b : Builder D B) (prev : Option D) (es : List (AEv D)) : Prop :=
  if b.resetFn.isSome ∧ b.warmupFn.isSome then
    Cut prev [.run .reset, .run .warmup] es ∨
    ∃ es1 es2 d, es = es1 ++ es2 ∧ Chained prev [.run .reset, .run .warmup] es1 d ∧ Cut none [.run .reset] es2
  else Cut (if b.resetFn.isSome then prev else none) (prelude b) es

/-- an attempt panicked: up to there the steps of the plan were made in order, with the data flow of the code -/
def CutShort (b : Builder D B) (prev : Option D) (es : List (AEv D)) : Prop :=
  if b.resetFn.isSome ∧ b.warmupFn.isSome then
    Cut prev [.run .reset, .run .warmup] es ∨
    ∃ es1 es2 d, es = es1 ++ es2 ∧ Chained prev [.run .reset, .run .warmup] es1 d ∧ Cut none (.run .reset :: passesPlan b) es2
  else Cut (if b.resetFn.isSome then prev else none) (plan b) es

theorem PreCut.cutShort {b : Builder D B} {prev : Option D} {es : List (AEv D)} (h : PreCut b prev es) : CutShort b prev es := by
  unfold PreCut at h
  unfold CutShort
  split_ifs at h ⊢ with hc
  · rcases h with h | ⟨es1, es2, d, rfl, h1, h2⟩
    · exact Or.inl h
    · exact Or.inr ⟨es1, es2, d, rfl, h1, h2.more (passesPlan b)⟩
  all_goals exact h.more _

theorem Pre.cutShort {b : Builder D B} {prev d1 : Option D} {es es' : List (AEv D)} (h : Pre b prev es d1) (h' : Cut d1 (passesPlan b) es') :
    CutShort b prev (es ++ es') := by
  unfold Pre at h
  unfold CutShort
  split_ifs at h ⊢ with hc
  · obtain ⟨es1, es2, d, rfl, h1, h2⟩ := h
    exact Or.inr ⟨es1, es2 ++ es', d, by simp, h1, h2.cut h'⟩
  all_goals exact h.cut h'

theorem Pre.follows {b : Builder D B} {prev d1 : Option D} {es es' : List (AEv D)} (h : Pre b prev es d1) {m1 m2 : PassResult} {data : D}
    (h' : Chained d1 (passesPlan b) es' (some data)) (hm : (⟨prev, es ++ es', m1, m2, data⟩ : ARound D).Measured) :
    (⟨prev, es ++ es', m1, m2, data⟩ : ARound D).Follows b := by
  unfold Pre at h
  refine ⟨hm, ?_⟩
  split_ifs at h ⊢ with hc
  · obtain ⟨es1, es2, d, rfl, h1, h2⟩ := h
    exact ⟨es1, es2 ++ es', d, by simp, h1, h2.append h'⟩
  all_goals exact h.append h'

/-! ### the parts of an attempt -/

variable {env : AEnv}

theorem lift_cases {ε α : Type} {x y : Rs α} {t t' : List ε} (h : (P.lift x : P ε α) t = (y, t')) : x = y ∧ t = t' :=
  ⟨congrArg Prod.fst h, congrArg Prod.snd h⟩

/-- one closure -/
theorem averb_cases {pref suff : String} {s : AStep} {f : AFn D} {i : Option D} {t t' : List (AEv D)} {r : Rs (PassResult × D)}
    (h : runAsyncVerbosely env pref suff s f i t = (r, t')) :
    (∃ e, r = .error e ∧ (Did t t' [.call s i none] ∨ ∃ x, Did t t' [.call s i (some x)])) ∨
    (∃ x, r = .ok x ∧ Did t t' [.call s i (some x)]) := by
  unfold runAsyncVerbosely at h
  rcases P.bind_cases h with ⟨p, h1, rfl⟩ | ⟨a, t1, h1, h2⟩
  · unfold runAsync at h1
    split at h1
    · cases h1; exact Or.inl ⟨p, rfl, Or.inl (Did.call ..)⟩
    · cases h1
  · unfold runAsync at h1
    split at h1
    · cases h1
    · cases h1
      rcases P.bind_cases h2 with ⟨p, h3, rfl⟩ | ⟨sp, t2, h3, h4⟩
      · obtain ⟨-, rfl⟩ := lift_cases h3
        exact Or.inl ⟨p, rfl, Or.inr ⟨a, Did.call ..⟩⟩
      · obtain ⟨-, rfl⟩ := lift_cases h3
        rw [P.log_bind] at h4
        cases h4
        exact Or.inr ⟨a, rfl, by simpa using (Did.call t s i (some a)).trans (Did.out ..)⟩

theorem averb_cut {pref suff : String} {s : AStep} {f : AFn D} {i : Option D} {t t' : List (AEv D)} {e : Panic} (ks : List AKind)
    (h : runAsyncVerbosely env pref suff s f i t = (.error e, t')) : ∃ es, Did t t' es ∧ Cut i (.run s :: ks) es := by
  rcases averb_cases h with ⟨e, -, h | ⟨x, h⟩⟩ | ⟨x, h, -⟩
  · exact ⟨_, h, .failRun _ _ _⟩
  · exact ⟨_, h, .run (.stop _ _)⟩
  · cases h

theorem averb_ok {pref suff : String} {s : AStep} {f : AFn D} {i : Option D} {t t' : List (AEv D)} {x : PassResult × D}
    (h : runAsyncVerbosely env pref suff s f i t = (.ok x, t')) : Did t t' [.call s i (some x)] := by
  rcases averb_cases h with ⟨e, h, -⟩ | ⟨y, h, hd⟩
  · cases h
  · cases h; exact hd

/-- the prelude -/
theorem prelude_cases (b : Builder D B) {prev : Option D} {t t' : List (AEv D)} {r : Rs (Option D)}
    (h : (firstReset env b prev >>= warmUp env b) t = (r, t')) :
    ∃ es, Did t t' es ∧ ((∃ e, r = .error e ∧ PreCut b prev es) ∨ (∃ d1, r = .ok d1 ∧ Pre b prev es d1)) := by
  unfold PreCut Pre prelude
  cases hr : b.resetFn with
  | none =>
    have h0 : firstReset env b prev t = (.ok none, t) := by unfold firstReset; rw [hr]; rfl
    rw [P.bind_ok h0] at h
    unfold warmUp at h
    cases hw : b.warmupFn with
    | none =>
      rw [hw] at h
      cases h
      exact ⟨[], Did.refl _, Or.inr ⟨none, rfl, by simpa using Chained.nil none⟩⟩
    | some w =>
      rw [hw] at h
      rcases P.bind_cases h with ⟨e, h1, rfl⟩ | ⟨x, t1, h1, h2⟩
      · obtain ⟨es, hd, hc⟩ := averb_cut [] h1
        exact ⟨es, hd, Or.inl ⟨e, rfl, by simpa using hc⟩⟩
      · unfold resetAgain at h2
        rw [hr] at h2
        cases h2
        exact ⟨_, averb_ok h1, Or.inr ⟨_, rfl, by simpa using Chained.run (Chained.nil _)⟩⟩
  | some f =>
    rcases P.bind_cases h with ⟨e, h1, rfl⟩ | ⟨d0, t1, h1, h2⟩
    · unfold firstReset at h1
      rw [hr] at h1
      rcases P.bind_cases h1 with ⟨e', h3, h4⟩ | ⟨x, t2, h3, h4⟩
      · cases h4
        cases hw : b.warmupFn with
        | none =>
          obtain ⟨es, hd, hc⟩ := averb_cut [] h3
          exact ⟨es, hd, Or.inl ⟨e, rfl, by simpa using hc⟩⟩
        | some w =>
          obtain ⟨es, hd, hc⟩ := averb_cut [.run .warmup] h3
          exact ⟨es, hd, Or.inl ⟨e, rfl, by simpa using Or.inl hc⟩⟩
      · cases h4
    · unfold firstReset at h1
      rw [hr] at h1
      rcases P.bind_cases h1 with ⟨e', h3, h4⟩ | ⟨x, t2, h3, h4⟩
      · cases h4
      · cases h4
        have hd0 := averb_ok h3
        unfold warmUp at h2
        cases hw : b.warmupFn with
        | none =>
          rw [hw] at h2
          cases h2
          exact ⟨_, hd0, Or.inr ⟨_, rfl, by simpa using Chained.run (Chained.nil _)⟩⟩
        | some w =>
          rw [hw] at h2
          rcases P.bind_cases h2 with ⟨e, h5, rfl⟩ | ⟨y, t3, h5, h6⟩
          · obtain ⟨es, hd, hc⟩ := averb_cut [] h5
            exact ⟨_, hd0.trans hd, Or.inl ⟨e, rfl, by simpa using Or.inl (Cut.run hc)⟩⟩
          · have hd1 := averb_ok h5
            have hch : Chained prev [.run .reset, .run .warmup] [.call .reset prev (some x), .call .warmup (some x.2) (some y)] (some y.2) :=
              .run (.run (.nil _))
            unfold resetAgain at h6
            rw [hr] at h6
            rcases P.bind_cases h6 with ⟨e, h7, rfl⟩ | ⟨z, t4, h7, h8⟩
            · obtain ⟨es, hd, hc⟩ := averb_cut [] h7
              refine ⟨_, (hd0.trans hd1).trans hd, Or.inl ⟨e, rfl, ?_⟩⟩
              simp only [Option.isSome_some, and_self, if_true]
              exact Or.inr ⟨_, es, _, rfl, hch, hc⟩
            · cases h8
              refine ⟨_, (hd0.trans hd1).trans (averb_ok h7), Or.inr ⟨_, rfl, ?_⟩⟩
              simp only [Option.isSome_some, and_self, if_true]
              exact ⟨_, _, _, rfl, hch, .run (.nil _)⟩

theorem runCheck_cases {second : Bool} {c : Option (ACheck D)} {x : D} {t t' : List (AEv D)} {r : Rs Unit}
    (h : runCheck second c x t = (r, t')) :
    ∃ es, Did t t' es ∧ ((∃ e, r = .error e ∧ ∀ ks, Cut (some x) ((if c.isSome then [.assert second] else []) ++ ks) es) ∨
      (r = .ok () ∧ Chained (some x) (if c.isSome then [.assert second] else []) es (some x))) := by
  cases c with
  | none => cases h; exact ⟨[], Did.refl _, Or.inr ⟨rfl, by simpa using Chained.nil _⟩⟩
  | some c =>
    unfold runCheck at h
    simp only at h
    split at h
    · cases h; exact ⟨_, Did.check .., Or.inl ⟨_, rfl, fun ks => by simpa using Cut.failCheck x second ks⟩⟩
    · cases h; exact ⟨_, Did.check .., Or.inr ⟨rfl, by simpa using Chained.assert (Chained.nil _)⟩⟩

theorem resetBetween_cases {b : Builder D B} {x : D} {t t' : List (AEv D)} {r : Rs (Option D)} (h : resetBetween env b x t = (r, t')) :
    ∃ es, Did t t' es ∧ ((∃ e, r = .error e ∧ ∀ ks, Cut (some x) ((if b.resetFn.isSome then [.run .reset] else []) ++ ks) es) ∨
      (∃ d, r = .ok (some d) ∧ Chained (some x) (if b.resetFn.isSome then [.run .reset] else []) es (some d))) := by
  unfold resetBetween at h
  cases hr : b.resetFn with
  | none => rw [hr] at h; cases h; exact ⟨[], Did.refl _, Or.inr ⟨x, rfl, by simpa using Chained.nil _⟩⟩
  | some f =>
    rw [hr] at h
    rcases P.bind_cases h with ⟨e, h1, rfl⟩ | ⟨y, t1, h1, h2⟩
    · rcases averb_cases h1 with ⟨e, -, h | ⟨y, h⟩⟩ | ⟨y, h, -⟩
      · exact ⟨_, h, Or.inl ⟨_, rfl, fun ks => by simpa using Cut.failRun _ _ ks⟩⟩
      · exact ⟨_, h, Or.inl ⟨_, rfl, fun ks => by simpa using Cut.run (Cut.stop _ ks)⟩⟩
      · cases h
    · cases h2
      exact ⟨_, averb_ok h1, Or.inr ⟨_, rfl, by simpa using Chained.run (Chained.nil _)⟩⟩

/-- the analysis of a complete attempt; `a` has the same measurements -/
theorem analyseAsync_cases {b : Builder D B} {a : ARound D} {t t' : List (AEv D)} {r : Rs (RetryResult D)}
    (h : analyseAsync env b a.m1 a.m2 a.data t = (r, t')) :
    Did t t' [] ∧ ((∃ e, r = .error e) ∨ (r = .ok .ok ∧ AWithin env b a) ∨ (∃ e, r = .ok (.fatal e) ∧ ASpaceBad env b a) ∨
      (∃ e, r = .ok (.transient a.data e) ∧ ATimeOnly env b a)) := by
  unfold analyseAsync at h
  rcases P.bind_cases h with ⟨e, h1, rfl⟩ | ⟨space, t1, h1, h2⟩
  · obtain ⟨-, rfl⟩ := lift_cases h1
    exact ⟨Did.refl _, Or.inl ⟨e, rfl⟩⟩
  obtain ⟨hs, rfl⟩ := lift_cases h1
  have hs' : a.space env b = .ok space := hs
  rw [P.log_bind] at h2
  rcases P.bind_cases h2 with ⟨e, h3, rfl⟩ | ⟨report, t2, h3, h4⟩
  · obtain ⟨-, rfl⟩ := lift_cases h3
    exact ⟨Did.out .., Or.inl ⟨e, rfl⟩⟩
  obtain ⟨-, rfl⟩ := lift_cases h3
  rw [P.log_bind] at h4
  have htime : analyseTime env.f64 (asyncMeasurements b a.m1 a.m2).info (asyncMeasurements b a.m1 a.m2).time = a.time env b := rfl
  rw [htime] at h4
  have hd : Did t (t ++ [.out "\n\n"] ++ [.out (report ++ "\n")]) [] := (Did.out ..).trans (Did.out ..)
  have judge : ∀ {t0 : List (AEv D)}, Did t t0 [] → (∀ l, b.smax = some l → space.asU32 ≤ l.asU32) → judgeTime b a.data (a.time env b) t0 = (r, t') →
      Did t t' [] ∧ ((∃ e, r = .error e) ∨ (r = .ok .ok ∧ AWithin env b a) ∨ (∃ e, r = .ok (.fatal e) ∧ ASpaceBad env b a) ∨
        (∃ e, r = .ok (.transient a.data e) ∧ ATimeOnly env b a)) := by
    intro t0 hd hso h
    unfold judgeTime at h
    cases htm : b.tmax with
    | none =>
      rw [htm] at h; cases h
      exact ⟨hd, Or.inr (Or.inl ⟨rfl, ⟨space, hs', hso⟩, by intro l hl; rw [htm] at hl; cases hl⟩)⟩
    | some l =>
      rw [htm] at h
      simp only at h
      split at h
      · rename_i hgt
        rw [P.log_bind] at h; cases h
        refine ⟨hd.trans (Did.out ..), Or.inr (Or.inr (Or.inr ⟨_, rfl, ⟨space, hs', hso⟩, ?_⟩))⟩
        intro hc; exact absurd (hc l htm) (not_le.2 hgt)
      · rename_i hle
        cases h
        refine ⟨hd, Or.inr (Or.inl ⟨rfl, ⟨space, hs', hso⟩, ?_⟩)⟩
        intro l' hl'; rw [htm] at hl'; cases hl'; exact not_lt.1 hle
  unfold judgeSpace at h4
  cases hsm : b.smax with
  | none =>
    rw [hsm] at h4
    exact judge hd (by intro l hl; rw [hsm] at hl; cases hl) h4
  | some l =>
    rw [hsm] at h4
    simp only at h4
    split at h4
    · rename_i hgt
      rw [P.log_bind] at h4; cases h4
      exact ⟨hd.trans (Did.out ..), Or.inr (Or.inr (Or.inl ⟨_, rfl, space, l, hs', hsm, hgt⟩))⟩
    · rename_i hle
      exact judge hd (by intro l' hl'; rw [hsm] at hl'; cases hl'; exact not_lt.1 hle) h4

/-- the passes and the analysis -/
noncomputable def passesPart (env : AEnv) (b : Builder D B) (d1 : Option D) : P (AEv D) (RetryResult D) := do
  let f1 ← expectFn b.fn1 "BUG! First pass function not present"
  let f2 ← expectFn b.fn2 "BUG! Second pass function not present"
  let x1 ← runAsyncVerbosely env "  Pass 1: " ";" .pass1 f1 d1
  runCheck false b.check1 x1.2
  let d2 ← resetBetween env b x1.2
  let x2 ← runAsyncVerbosely env "  Pass 2: " "" .pass2 f2 d2
  runCheck true b.check2 x2.2
  analyseAsync env b x1.1 x2.1 x2.2

/-- an attempt is its prelude and its passes -/
theorem raw_split {b : Builder D B} {prev : Option D} {t t' : List (AEv D)} {r : Rs (RetryResult D)}
    (h : rawAnalyse env b prev t = (r, t')) :
    (∃ e es, r = .error e ∧ Did t t' es ∧ PreCut b prev es) ∨
    (∃ d1 t1 es, Did t t1 es ∧ Pre b prev es d1 ∧ passesPart env b d1 t1 = (r, t')) := by
  have h' : ((firstReset env b prev >>= warmUp env b) >>= passesPart env b)
      (t ++ [.out ("Running '" ++ b.name ++ "' async algorithm:\n")]) = (r, t') := by
    rw [← h]
    unfold rawAnalyse
    rw [P.log_bind]
    simp only [P.bind_eq]
    cases firstReset env b prev (t ++ [.out ("Running '" ++ b.name ++ "' async algorithm:\n")]) with
    | mk y t2 => cases y <;> rfl
  rcases P.bind_cases h' with ⟨e, h1, rfl⟩ | ⟨d1, t1, h1, h2⟩
  · obtain ⟨es, hd, hc⟩ := prelude_cases b h1
    rcases hc with ⟨e', -, hc⟩ | ⟨d, he, -⟩
    · exact Or.inl ⟨e, es, rfl, by simpa using (Did.out ..).trans hd, hc⟩
    · cases he
  · obtain ⟨es, hd, hc⟩ := prelude_cases b h1
    rcases hc with ⟨e', he, -⟩ | ⟨d, he, hc⟩
    · cases he
    · cases he
      exact Or.inr ⟨d1, t1, es, by simpa using (Did.out ..).trans hd, hc, h2⟩

/-- how an attempt ends -/
theorem raw_cases {b : Builder D B} {prev : Option D} {t t' : List (AEv D)} {r : Rs (RetryResult D)}
    (h : rawAnalyse env b prev t = (r, t')) :
    ∃ es, Did t t' es ∧
      ((∃ e, r = .error e ∧ CutShort b prev es) ∨
       ∃ a : ARound D, a.prev = prev ∧ a.acts = es ∧ a.Follows b ∧
         ((r = .ok .ok ∧ AWithin env b a) ∨ (∃ e, r = .ok (.fatal e) ∧ ASpaceBad env b a) ∨
          (∃ e, r = .ok (.transient a.data e) ∧ ATimeOnly env b a))) := by
  rcases raw_split h with ⟨e, es, rfl, hd, hc⟩ | ⟨d1, t0, es0, hd0, hpre, k0⟩
  · exact ⟨es, hd, Or.inl ⟨e, rfl, hc.cutShort⟩⟩
  have fail : ∀ {e : Panic} {es : List (AEv D)}, r = .error e → Did t0 t' es → Cut d1 (passesPlan b) es →
      ∃ es, Did t t' es ∧
      ((∃ e, r = .error e ∧ CutShort b prev es) ∨
       ∃ a : ARound D, a.prev = prev ∧ a.acts = es ∧ a.Follows b ∧
         ((r = .ok .ok ∧ AWithin env b a) ∨ (∃ e, r = .ok (.fatal e) ∧ ASpaceBad env b a) ∨
          (∃ e, r = .ok (.transient a.data e) ∧ ATimeOnly env b a))) := by
    intro e es he hd hc
    exact ⟨_, hd0.trans hd, Or.inl ⟨e, he, hpre.cutShort hc⟩⟩
  unfold passesPart at k0
  rcases P.bind_cases k0 with ⟨e, h1, hr⟩ | ⟨f1, t1, h1, k1⟩
  · unfold expectFn at h1
    cases hf : b.fn1 with
    | none => rw [hf] at h1; cases h1; exact fail hr (Did.refl _) (.stop _ _)
    | some f => rw [hf] at h1; cases h1
  have e1 : t1 = t0 := by
    unfold expectFn at h1
    cases hf : b.fn1 with
    | none => rw [hf] at h1; cases h1
    | some f => rw [hf] at h1; cases h1; rfl
  subst e1
  rcases P.bind_cases k1 with ⟨e, h2, hr⟩ | ⟨f2, t2, h2, k2⟩
  · unfold expectFn at h2
    cases hf : b.fn2 with
    | none => rw [hf] at h2; cases h2; exact fail hr (Did.refl _) (.stop _ _)
    | some f => rw [hf] at h2; cases h2
  have e2 : t2 = t1 := by
    unfold expectFn at h2
    cases hf : b.fn2 with
    | none => rw [hf] at h2; cases h2
    | some f => rw [hf] at h2; cases h2; rfl
  subst e2
  have hplan : passesPlan b = [.run .pass1] ++ ((if b.check1.isSome then [.assert false] else []) ++
      ((if b.resetFn.isSome then [.run .reset] else []) ++ ([.run .pass2] ++ (if b.check2.isSome then [.assert true] else [])))) := by
    simp [passesPlan]
  rcases P.bind_cases k2 with ⟨e, h3, hr⟩ | ⟨x1, t3, h3, k3⟩
  · obtain ⟨es, hd, hc⟩ := averb_cut ((if b.check1.isSome then [.assert false] else []) ++
      ((if b.resetFn.isSome then [.run .reset] else []) ++ ([.run .pass2] ++ (if b.check2.isSome then [.assert true] else [])))) h3
    exact fail hr hd (by rw [hplan]; exact hc)
  have hd1 := averb_ok h3
  have c1 : Chained d1 [.run .pass1] [.call .pass1 d1 (some x1)] (some x1.2) := .run (.nil _)
  rcases P.bind_cases k3 with ⟨e, h4, hr⟩ | ⟨u, t4, h4, k4⟩
  · obtain ⟨es, hd, hc⟩ := runCheck_cases h4
    rcases hc with ⟨e', -, hc⟩ | ⟨he, -⟩
    · exact fail hr (hd1.trans hd) (by rw [hplan]; exact c1.cut (hc _))
    · cases he
  obtain ⟨es2, hd2, c2⟩ := runCheck_cases h4
  replace c2 : Chained (some x1.2) (if b.check1.isSome then [.assert false] else []) es2 (some x1.2) := by
    rcases c2 with ⟨e', he, -⟩ | ⟨-, c2⟩
    · cases he
    · exact c2
  rcases P.bind_cases k4 with ⟨e, h5, hr⟩ | ⟨d2, t5, h5, k5⟩
  · obtain ⟨es, hd, hc⟩ := resetBetween_cases h5
    rcases hc with ⟨e', -, hc⟩ | ⟨d, he, -⟩
    · exact fail hr ((hd1.trans hd2).trans hd) (by rw [hplan, List.append_assoc]; exact c1.cut (c2.cut (hc _)))
    · cases he
  obtain ⟨es3, hd3, c3⟩ := resetBetween_cases h5
  replace c3 : Chained (some x1.2) (if b.resetFn.isSome then [.run .reset] else []) es3 d2 := by
    rcases c3 with ⟨e', he, -⟩ | ⟨d, he, c3⟩
    · cases he
    · cases he; exact c3
  rcases P.bind_cases k5 with ⟨e, h6, hr⟩ | ⟨x2, t6, h6, k6⟩
  · obtain ⟨es, hd, hc⟩ := averb_cut (if b.check2.isSome then [.assert true] else []) h6
    exact fail hr (((hd1.trans hd2).trans hd3).trans hd) (by
      rw [hplan, List.append_assoc, List.append_assoc]; exact c1.cut (c2.cut (c3.cut hc)))
  have hd4 := averb_ok h6
  have c4 : Chained d2 [.run .pass2] [.call .pass2 d2 (some x2)] (some x2.2) := .run (.nil _)
  rcases P.bind_cases k6 with ⟨e, h7, hr⟩ | ⟨u, t7, h7, k7⟩
  · obtain ⟨es, hd, hc⟩ := runCheck_cases h7
    rcases hc with ⟨e', -, hc⟩ | ⟨he, -⟩
    · refine fail hr ((((hd1.trans hd2).trans hd3).trans hd4).trans hd) ?_
      rw [hplan, List.append_assoc, List.append_assoc, List.append_assoc]
      exact c1.cut (c2.cut (c3.cut (c4.cut (by simpa using hc []))))
    · cases he
  obtain ⟨es5, hd5, c5⟩ := runCheck_cases h7
  replace c5 : Chained (some x2.2) (if b.check2.isSome then [.assert true] else []) es5 (some x2.2) := by
    rcases c5 with ⟨e', he, -⟩ | ⟨-, c5⟩
    · cases he
    · exact c5
  have hdid := ((((hd1.trans hd2).trans hd3).trans hd4).trans hd5)
  have hchain : Chained d1 (passesPlan b) ([AEv.call .pass1 d1 (some x1)] ++ es2 ++ es3 ++ [.call .pass2 d2 (some x2)] ++ es5) (some x2.2) := by
    rw [hplan, List.append_assoc, List.append_assoc, List.append_assoc]
    exact c1.append (c2.append (c3.append (c4.append c5)))
  obtain ⟨hd6, hres⟩ := analyseAsync_cases (a := ⟨prev, es0 ++ ([AEv.call .pass1 d1 (some x1)] ++ es2 ++ es3 ++ [.call .pass2 d2 (some x2)] ++ es5),
    x1.1, x2.1, x2.2⟩) k7
  have hdid' := hdid.trans hd6
  rw [List.append_nil] at hdid'
  rcases hres with ⟨e, he⟩ | hres
  · refine fail he hdid' ?_
    have := hchain.cut (Cut.stop (some x2.2) [])
    simpa using this
  · refine ⟨_, hd0.trans hdid', Or.inr ⟨_, rfl, rfl, hpre.follows hchain ?_, hres⟩⟩
    exact ⟨⟨d1, x1.2, by simp⟩, ⟨d2, by simp⟩⟩

end BigO
