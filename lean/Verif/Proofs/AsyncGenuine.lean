import Verif.Proofs.Keeps
import Verif.Proofs.AsyncHistory

namespace BigO
variable {D B : Type} {env : AEnv}

/-- genuine, and not a sleep -/
def GenuineAwake (b : Builder D B) (h : List (AEv D)) (ev : AEv D) : Prop := Genuine b h ev ∧ ev ≠ .sleep

theorem genuine_out (b : Builder D B) (s : String) : ∀ t, GenuineAwake b t (.out s) := fun _ => ⟨trivial, by simp⟩

theorem genuine_averb {b : Builder D B} {s : AStep} {f : AFn D} (hf : b.fn s = some f) (pref suff : String) (i : Option D) :
    Keeps (GenuineAwake b) (runAsyncVerbosely env pref suff s f i) := by
  unfold runAsyncVerbosely
  refine Keeps.bind ?_ fun x => (Keeps.lift _).bind fun sp => (Keeps.log (genuine_out b _)).bind fun _ => .pure _
  refine .single fun t => ?_
  unfold runAsync
  cases h : f t i with
  | error e => exact ⟨_, rfl, ⟨f, e, hf, h⟩, by simp⟩
  | ok x => exact ⟨_, rfl, ⟨f, hf, h⟩, by simp⟩

theorem genuine_check (b : Builder D B) (second : Bool) (d : D) :
    Keeps (GenuineAwake b) (runCheck second (if second then b.check2 else b.check1) d) := by
  unfold runCheck
  cases hc : (if second then b.check2 else b.check1) with
  | none => exact .pure _
  | some c =>
    simp only
    refine .single fun t => ?_
    cases h : c t d with
    | error e => exact ⟨_, rfl, ⟨c, e, hc, h⟩, by simp⟩
    | ok x => exact ⟨_, rfl, ⟨c, hc, h⟩, by simp⟩

theorem genuine_expect (b : Builder D B) (f : Option (AFn D)) (m : String) : Keeps (GenuineAwake b) (expectFn f m) := by
  cases f with
  | none => exact .lift _
  | some f => exact .pure _

theorem genuine_raw (b : Builder D B) (prev : Option D) : Keeps (GenuineAwake b) (rawAnalyse env b prev) := by
  unfold rawAnalyse
  refine (Keeps.log (genuine_out b _)).bind fun _ => ?_
  refine Keeps.bind ?_ fun d0 => ?_
  · unfold firstReset
    cases hr : b.resetFn with
    | none => exact .pure _
    | some f => exact (genuine_averb (s := .reset) hr _ _ _).bind fun _ => .pure _
  refine Keeps.bind ?_ fun d1 => ?_
  · unfold warmUp
    cases hw : b.warmupFn with
    | none => exact .pure _
    | some f =>
      refine (genuine_averb (s := .warmup) hw _ _ _).bind fun x => ?_
      unfold resetAgain
      cases hr : b.resetFn with
      | none => exact .pure _
      | some f => exact (genuine_averb (s := .reset) hr _ _ _).bind fun _ => .pure _
  -- the closures that are expected are those of the builder
  have exp : ∀ {β : Type} (o : Option (AFn D)) (m : String) (k : AFn D → P (AEv D) β), (∀ f, o = some f → Keeps (GenuineAwake b) (k f)) →
      Keeps (GenuineAwake b) (expectFn o m >>= k) := by
    intro β o m k hk
    cases o with
    | none => intro t; exact ⟨[], by simp [expectFn, P.bind_eq, P.lift], by simp⟩
    | some f =>
      intro t
      have : (expectFn (some f) m >>= k) t = k f t := rfl
      rw [this]; exact hk f rfl t
  refine exp _ _ _ fun f1 e1 => exp _ _ _ fun f2 e2 => ?_
  refine (genuine_averb (s := .pass1) e1 _ _ _).bind fun x1 => ?_
  refine (genuine_check b false x1.2).bind fun _ => ?_
  refine Keeps.bind ?_ fun d2 => ?_
  · unfold resetBetween
    cases hr : b.resetFn with
    | none => exact .pure _
    | some f => exact (genuine_averb (s := .reset) hr _ _ _).bind fun _ => .pure _
  refine (genuine_averb (s := .pass2) e2 _ _ _).bind fun x2 => ?_
  refine (genuine_check b true x2.2).bind fun _ => ?_
  unfold analyseAsync
  simp only
  refine (Keeps.lift _).bind fun sp => (Keeps.log (genuine_out b _)).bind fun _ => (Keeps.lift _).bind fun rep =>
    (Keeps.log (genuine_out b _)).bind fun _ => ?_
  have jt : ∀ time : Complexity, Keeps (GenuineAwake b) (judgeTime b x2.2 time) := by
    intro time
    unfold judgeTime
    cases b.tmax with
    | none => exact .pure _
    | some l => exact .ite ((Keeps.log (genuine_out b _)).bind fun _ => .pure _) (.pure _)
  unfold judgeSpace
  cases b.smax with
  | none => exact jt _
  | some l => exact .ite ((Keeps.log (genuine_out b _)).bind fun _ => .pure _) (jt _)

theorem raw_no_sleep (b : Builder D B) (prev : Option D) : Keeps (fun _ ev => ev ≠ AEv.sleep) (rawAnalyse env b prev) :=
  (genuine_raw b prev).mono fun _ _ h => h.2

theorem genuine_test (env : AEnv) (b : Builder D B) : Keeps (Genuine b) (testAsync env b) := by
  unfold testAsync
  refine Keeps.bind (.retryWith (fun _ => trivial) ((genuine_raw b none).mono fun _ _ h => h.1) (fun i => ?_) _) fun r => .resolve _ _ r
  exact (Keeps.log fun t => (genuine_out b _ t).1).bind fun _ => (genuine_raw b _).mono fun _ _ h => h.1

end BigO
