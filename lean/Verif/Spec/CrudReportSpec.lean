import Verif.Spec.CrudSpec

/-!
# What the report of a CRUD analysis looks like

Example of a report, for an analysis of all four operations with a warm-up:

```
Vec CRUD Algorithm Complexity Analysis:
  warming up [CRUD] 1.2ms, First Pass (create: 1ms/5.00MiB, read: 2ms/0.00b, update: 3ms/0.00b); Second Pass (create: ...):

(the reports of create, read and update, each followed by an empty line)

Delete Passes (2nd: 1ms/0.00b; 1st: 2ms/0.00b) r=42:
(the report of delete, followed by an empty line)
```
-/
namespace BigO

/-- the operation takes part in the analysis -/
abbrev Requested (cfg : CrudCfg) (op : Op) : Prop := 0 < (cfg.op op).iters

/-- how an operation is called in the progress of the passes -/
def Op.label : Op → String
  | .create => "create"
  | .read => "read"
  | .update => "update"
  | .delete => "delete"

/-- how an operation is called in the warm-up -/
def Op.letter : Op → String
  | .create => "C"
  | .read => "R"
  | .update => "U"
  | .delete => "D"

/-- the text shows what the pass measured: its time and its memory -/
def Figures (env : CrudEnv) (p : PassResult) (txt : String) : Prop :=
  ∃ sp, displaySpacePass env.text env.profile p.space = .ok sp ∧ txt = env.text.dur p.time ++ "/" ++ sp

/-- of these operations, those requested -/
def requestedOf (cfg : CrudCfg) (ops : List Op) : List Op := ops.filter fun op => decide (Requested cfg op)

/-- the figures of one pass of the requested operations, separated by commas -/
def passText (cfg : CrudCfg) (fig : Op → String) : String :=
  ", ".intercalate ((requestedOf cfg [.create, .read, .update]).map fun op => op.label ++ ": " ++ fig op)

/-- name and warm-up -/
def reportHead (cfg : CrudCfg) (warm : String) : String :=
  cfg.name ++ " CRUD Algorithm Complexity Analysis:\n  " ++
    (if cfg.warmup = 0 then "" else
      "warming up [" ++ String.join ((requestedOf cfg [.create, .read, .update, .delete]).map Op.letter) ++ "] " ++ warm ++ ", ")

/-- the reports of these operations, each followed by an empty line -/
def reportsText (cfg : CrudCfg) (rep : Op → String) (ops : List Op) : String :=
  String.join ((requestedOf cfg ops).map fun op => rep op ++ "\n\n")

/-- the whole report of a finished analysis -/
def wholeReport (cfg : CrudCfg) (warm : String) (fig : Op → Nat → String) (rep : Op → String) (r : Nat) : String :=
  reportHead cfg warm ++ "First Pass (" ++ passText cfg (fig · 0) ++ "); Second Pass (" ++ passText cfg (fig · 1) ++ "):\n\n" ++
    reportsText cfg rep [.create, .read, .update] ++
    (if Requested cfg .delete then
      "Delete Passes (2nd: " ++ fig .delete 1 ++ "; 1st: " ++ fig .delete 0 ++ ") r=" ++ toString r ++ ":\n" ++ rep .delete ++ "\n\n"
    else "")

/-- the figures of the second pass up to and including operation `bad`; a comma follows if more operations were to come -/
def passTextUpTo (cfg : CrudCfg) (fig : Op → String) (bad : Op) : String :=
  passText { cfg with op := fun o => if o.rank ≤ bad.rank then cfg.op o else { cfg.op o with iters := 0 } } fig ++
    (if requestedOf cfg ([.create, .read, .update].filter fun o => decide (bad.rank < o.rank)) = [] then "" else ", ")

/-- the report of an analysis aborted because of operation `bad`: all that was known, then the reason -/
def abortedReport (cfg : CrudCfg) (warm : String) (fig : Op → Nat → String) (rep : Op → String) (bad : Op) (why : String) : String :=
  reportHead cfg warm ++ "First Pass (" ++ passText cfg (fig · 0) ++ "); Second Pass (" ++
    (if bad = .delete then
      passText cfg (fig · 1) ++ "):\n\n" ++ reportsText cfg rep [.create, .read, .update] ++
        "Delete Passes (2nd: " ++ fig .delete 1 ++ "; 1st: " ++ fig .delete 0
    else passTextUpTo cfg (fig · 1) bad) ++ why

/-- why an analysis was aborted -/
def abortReason (kind : String) (op : Op) (limit measured : Complexity) : String :=
  " ** Aborted due to " ++ kind ++ " complexity mismatch on '" ++ op.title ++ "' operation: maximum: " ++ limit.debug ++
    ", measured: " ++ measured.debug ++ "\n\n"

/-- the reason given for the rejection in `e` of the operation -/
def AbortedFor (cfg : CrudCfg) (op : Op) (e : CrudError) (why : String) : Prop :=
  (e.failedAnalysis = "Time" ∧ why = abortReason "TIME" op (cfg.op op).tmax e.failedComplexity) ∨
  (e.failedAnalysis = "Space" ∧ why = abortReason "SPACE" op (cfg.op op).smax e.failedComplexity)

/-- the number a run of a closure yielded -/
def resultOf (env : CrudEnv) (before : List Ev) : Ev → Nat
  | .pass ph op a b th => match env.measure before ph op a b th with
    | .ok x => x.2
    | .error _ => 0
  | _ => 0

/-- exclusive or of the numbers all the runs of closures in `l` yielded, `l` happening after `before` -/
def xorOfResults (env : CrudEnv) : (before l : List Ev) → Nat
  | _, [] => 0
  | before, e :: l => resultOf env before e ^^^ xorOfResults env (before ++ [e]) l

/-- pass number `k` of the operation, over its documented range and with its threads, measured `p` -/
def PassMeasured (env : CrudEnv) (cfg : CrudCfg) (t t' : List Ev) (op : Op) (k : Nat) (p : PassResult) : Prop :=
  MeasuredIn env t t' (if k = 0 then .pass1 else .pass2) op (opRange cfg op k).1 (opRange cfg op k).2 (cfg.op op).threads p

/-- the warm-up, if any, took as long as the text says, measured right after its reset -/
def WarmTime (env : CrudEnv) (cfg : CrudCfg) (t t' : List Ev) (warm : String) : Prop :=
  0 < cfg.warmup → ∃ before after, t' = t ++ before ++ .reset ((cfg.op .create).iters * cfg.warmup / 100) :: after ∧
    warm = env.text.dur (env.warmupTime (t ++ before ++ [.reset ((cfg.op .create).iters * cfg.warmup / 100)]))

/-- the text is the report of the analysis of create or delete, which is of these two passes -/
def ReportsSR (env : CrudEnv) (cfg : CrudCfg) (op : Op) (a : Option (AnalysisOf SetResizingMeasurements)) (p1 p2 : PassResult)
    (txt : String) : Prop :=
  ∃ an, a = some an ∧ an.m = ⟨op.title, ⟨(cfg.op op).iters⟩, ⟨p1.time, p2.time⟩, ⟨p1.space, p2.space⟩⟩ ∧
    an.time = opTime env cfg op p1 p2 ∧ opSpace env cfg op p1 p2 = .ok an.space ∧
    reportSetResizing env.f64 env.text env.profile an = .ok txt

/-- the text is the report of the analysis of read or update, which is of these two passes -/
def ReportsCS (env : CrudEnv) (cfg : CrudCfg) (op : Op) (a : Option (AnalysisOf ConstantSetMeasurements)) (p1 p2 : PassResult)
    (txt : String) : Prop :=
  ∃ an, a = some an ∧ an.m = ⟨op.title, ⟨(cfg.op .create).iters, 2 * (cfg.op .create).iters, (cfg.op op).iters⟩, ⟨p1.time, p2.time⟩,
      ⟨p1.space, p2.space⟩⟩ ∧
    an.time = opTime env cfg op p1 p2 ∧ opSpace env cfg op p1 p2 = .ok an.space ∧
    reportConstantSet env.f64 env.text env.profile an = .ok txt

/-- the text is the report of the analysis of `op`, which is of these two passes -/
def ReportOf (env : CrudEnv) (cfg : CrudCfg) (a : CrudAnalyses) (op : Op) (p1 p2 : PassResult) (txt : String) : Prop :=
  match op with
  | .create => ReportsSR env cfg op a.create p1 p2 txt
  | .read => ReportsCS env cfg op a.read p1 p2 txt
  | .update => ReportsCS env cfg op a.update p1 p2 txt
  | .delete => ReportsSR env cfg op a.delete p1 p2 txt

end BigO
