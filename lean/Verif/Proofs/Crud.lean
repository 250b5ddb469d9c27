import Verif.Spec.CrudSpec

/-!
# Proofs about the CRUD runner
-/
namespace BigO

/-! ### the monad -/

theorem M.bind_ok {α β : Type} {m : M α} {f : α → M β} {s s' : CrudSt} {a : α} (h : m s = (.ok a, s')) :
    (m >>= f) s = f a s' := by
  show M.andThen m f s = _
  unfold M.andThen; rw [h]

theorem M.bind_fail {α β : Type} {m : M α} {f : α → M β} {s s' : CrudSt} {e : CrudError} (h : m s = (.fail e, s')) :
    (m >>= f) s = (.fail e, s') := by
  show M.andThen m f s = _
  unfold M.andThen; rw [h]

theorem M.bind_panic {α β : Type} {m : M α} {f : α → M β} {s s' : CrudSt} {e : Panic} (h : m s = (.panic e, s')) :
    (m >>= f) s = (.panic e, s') := by
  show M.andThen m f s = _
  unfold M.andThen; rw [h]

theorem M.lift_ok_bind {α β : Type} {x : Rs α} {a : α} {f : α → M β} (h : x = .ok a) : (M.lift x >>= f) = f a := by
  funext s
  exact M.bind_ok (s' := s) (by unfold M.lift; rw [h])

/-! ### the sequence of actions -/

theorem actions_append (a b : List Ev) : actions (a ++ b) = actions a ++ actions b := List.filter_append ..

/-- `m` performs the actions `l`, or a prefix of them if it does not end normally -/
def Emits {α : Type} (m : M α) (l : List Ev) : Prop :=
  ∀ s, ∃ ext, (m s).2.trace = s.trace ++ ext ∧ actions ext <+: l ∧ ((∃ a, (m s).1 = .ok a) → actions ext = l)

theorem Emits.bind {α β : Type} {m : M α} {f : α → M β} {l1 l2 : List Ev} (h1 : Emits m l1) (h2 : ∀ a, Emits (f a) l2) :
    Emits (m >>= f) (l1 ++ l2) := by
  intro s
  obtain ⟨e1, t1, p1, k1⟩ := h1 s
  generalize hm : m s = x at *
  obtain ⟨r, s1⟩ := x
  cases r with
  | ok a =>
    obtain ⟨e2, t2, p2, k2⟩ := h2 a s1
    rw [M.bind_ok hm]
    refine ⟨e1 ++ e2, by rw [t2]; simp only at t1; rw [t1, List.append_assoc], ?_, ?_⟩
    · rw [actions_append, k1 ⟨a, rfl⟩]
      exact (List.prefix_append_right_inj _).2 p2
    · intro hok; rw [actions_append, k1 ⟨a, rfl⟩, k2 hok]
  | fail e =>
    rw [M.bind_fail hm]
    exact ⟨e1, t1, p1.trans (List.prefix_append _ _), by rintro ⟨a, h⟩; cases h⟩
  | panic e =>
    rw [M.bind_panic hm]
    exact ⟨e1, t1, p1.trans (List.prefix_append _ _), by rintro ⟨a, h⟩; cases h⟩

theorem Emits.pure {α : Type} (a : α) : Emits (Pure.pure a : M α) [] := by
  intro s; exact ⟨[], by show s.trace = _; simp, List.prefix_refl _, fun _ => rfl⟩

theorem Emits.lift {α : Type} (x : Rs α) : Emits (M.lift x) [] := by
  intro s
  refine ⟨[], ?_, List.prefix_refl _, fun _ => rfl⟩
  unfold M.lift; cases x <;> simp

theorem Emits.output (msg : String) : Emits (output msg) [] := by
  intro s; exact ⟨[.out msg], rfl, List.prefix_refl _, fun _ => rfl⟩

theorem Emits.get {α : Type} (f : CrudSt → α) : Emits (M.get f) [] := by
  intro s; exact ⟨[], by simp [M.get], List.prefix_refl _, fun _ => rfl⟩

theorem Emits.xorR (x : Nat) : Emits (xorR x) [] := by
  intro s; exact ⟨[], by simp [BigO.xorR], List.prefix_refl _, fun _ => rfl⟩

theorem Emits.setRes (op : Op) (k : Nat) (pr : PassResult) : Emits (setRes op k pr) [] := by
  intro s; exact ⟨[], by simp [BigO.setRes], List.prefix_refl _, fun _ => rfl⟩

theorem Emits.reset (env : CrudEnv) (n : Nat) : Emits (callReset env n) [.reset n] := by
  intro s
  refine ⟨[.reset n], ?_, List.prefix_refl _, fun _ => rfl⟩
  unfold callReset
  cases env.resetFn s.trace n <;> rfl

theorem Emits.failWith {α : Type} (mk : String → CrudError) (l : List Ev) : Emits (failWith mk : M α) l := by
  intro s
  exact ⟨[], by simp [BigO.failWith], List.nil_prefix, by rintro ⟨a, h⟩; cases h⟩

theorem Emits.run (env : CrudEnv) (ph : Phase) (op : Op) (a b t : Nat) :
    Emits (runIteratorPass env ph op a b t) [.pass ph op a b t] := by
  intro s
  unfold runIteratorPass
  split
  · exact ⟨[], by simp, List.nil_prefix, by rintro ⟨a, h⟩; cases h⟩
  · split
    · exact ⟨[.pass ph op a b t], rfl, List.prefix_refl _, fun _ => rfl⟩
    · exact ⟨[.pass ph op a b t], rfl, List.prefix_refl _, fun _ => rfl⟩

theorem Emits.congr {α : Type} {m : M α} {l l' : List Ev} (h : Emits m l) (e : l = l') : Emits m l' := e ▸ h

/-- first a step without actions -/
theorem Emits.skip {α β : Type} {m : M α} {f : α → M β} {l : List Ev} (h1 : Emits m []) (h2 : ∀ a, Emits (f a) l) :
    Emits (m >>= f) l := (h1.bind h2).congr (by simp)

theorem Emits.verbosely (env : CrudEnv) (pref suff : String) (ph : Phase) (op : Op) (range : Nat × Nat) (t : Nat) :
    Emits (runVerbosely env pref suff ph op range t) [.pass ph op range.1 range.2 t] := by
  unfold runVerbosely
  refine ((Emits.run env ph op range.1 range.2 t).bind (fun x => (?_ : Emits _ []))).congr (by simp)
  exact Emits.skip (Emits.lift _) fun _ => Emits.skip (Emits.output _) fun _ => Emits.pure _

theorem Emits.yield {α : Type} (op : Op) (c : OpCfg) (m : α) (t sp : Complexity) : Emits (yieldAnalysis op c m t sp) [] := by
  unfold yieldAnalysis
  split
  · exact Emits.skip (Emits.output _) fun _ => Emits.failWith _ _
  · split
    · exact Emits.skip (Emits.output _) fun _ => Emits.failWith _ _
    · exact Emits.pure _

theorem Emits.constantSet (env : CrudEnv) (cfg : CrudCfg) (op : Op) (suff pref : String) (k : Nat) {a b : Nat}
    (hr : cruRange env (cfg.op op).iters k = .ok (a, b)) :
    Emits (constantSetPass env cfg op suff pref k) (opRun cfg (phaseOf k) op a b) := by
  unfold constantSetPass opRun
  by_cases h : (cfg.op op).iters > 0
  · rw [if_pos h, if_neg (show ¬ (cfg.op op).iters = 0 by omega), M.lift_ok_bind hr]
    refine ((Emits.verbosely env pref suff (phaseOf k) op (a, b) _).bind (fun x => (?_ : Emits _ []))).congr (by simp)
    refine Emits.skip (Emits.setRes _ _ _) fun _ => Emits.skip (Emits.xorR _) fun _ => ?_
    split
    · exact Emits.skip (Emits.lift _) fun _ => Emits.skip (Emits.get _) fun _ => Emits.skip (Emits.get _) fun _ =>
        Emits.skip (Emits.lift _) fun _ => Emits.yield _ _ _ _ _
    · exact Emits.pure _
  · rw [if_neg h, if_pos (by omega)]; exact Emits.pure _

theorem Emits.setResizing (env : CrudEnv) (cfg : CrudCfg) (op : Op) (suff pref : String)
    (rangeFn : Nat → Nat → Rs (Nat × Nat)) (last k : Nat) {a b : Nat} (hr : rangeFn (cfg.op op).iters k = .ok (a, b)) :
    Emits (setResizingPass env cfg op suff pref rangeFn last k) (opRun cfg (phaseOf k) op a b) := by
  unfold setResizingPass opRun
  by_cases h : (cfg.op op).iters > 0
  · rw [if_pos h, if_neg (show ¬ (cfg.op op).iters = 0 by omega), M.lift_ok_bind hr]
    refine ((Emits.verbosely env pref suff (phaseOf k) op (a, b) _).bind (fun x => (?_ : Emits _ []))).congr (by simp)
    refine Emits.skip (Emits.setRes _ _ _) fun _ => Emits.skip (Emits.xorR _) fun _ => ?_
    split
    · exact Emits.skip (Emits.get _) fun _ => Emits.skip (Emits.get _) fun _ =>
        Emits.skip (Emits.lift _) fun _ => Emits.yield _ _ _ _ _
    · exact Emits.pure _
  · rw [if_neg h, if_pos (by omega)]; exact Emits.pure _

theorem u32Mul_ok (p : Profile) {a b : Nat} (h : a * b < 2 ^ 32) : u32Mul p a b = .ok (a * b) := by
  unfold u32Mul; rw [if_pos h]
theorem u32Add_ok (p : Profile) {a b : Nat} (h : a + b < 2 ^ 32) : u32Add p a b = .ok (a + b) := by
  unfold u32Add; rw [if_pos h]

theorem cruRange_ok (env : CrudEnv) {n : Nat} (h : 2 * n < 2 ^ 32) :
    cruRange env n 0 = .ok (0, n) ∧ cruRange env n 1 = .ok (n, 2 * n) := by
  unfold cruRange
  rw [u32Mul_ok _ (show n * 0 < 2 ^ 32 by omega), u32Add_ok _ (show 0 + 1 < 2 ^ 32 by omega),
    u32Mul_ok _ (show n * 1 < 2 ^ 32 by omega), u32Add_ok _ (show 1 + 1 < 2 ^ 32 by omega)]
  simp only [bind, Except.bind, pure, Except.pure, Nat.zero_add, Nat.mul_one, Nat.mul_zero, Nat.reduceAdd]
  rw [u32Mul_ok _ (show n * 1 < 2 ^ 32 by omega), u32Mul_ok _ (show n * 2 < 2 ^ 32 by omega)]
  simp [Nat.mul_comm]

theorem dRange_ok (env : CrudEnv) {n : Nat} (h : 2 * n < 2 ^ 32) :
    dRange env n 0 = .ok (n, 0) ∧ dRange env n 1 = .ok (2 * n, n) := by
  unfold dRange
  rw [u32Mul_ok _ (show n * 0 < 2 ^ 32 by omega), u32Add_ok _ (show 0 + 1 < 2 ^ 32 by omega),
    u32Mul_ok _ (show n * 1 < 2 ^ 32 by omega), u32Add_ok _ (show 1 + 1 < 2 ^ 32 by omega)]
  simp only [bind, Except.bind, pure, Except.pure, Nat.zero_add, Nat.mul_one, Nat.mul_zero, Nat.reduceAdd]
  rw [u32Mul_ok _ (show n * 1 < 2 ^ 32 by omega), u32Mul_ok _ (show n * 2 < 2 ^ 32 by omega)]
  simp [Nat.mul_comm]

theorem Emits.warmupOp (env : CrudEnv) (cfg : CrudCfg) (hn : NoOverflow cfg) (op : Op) (letter : String) :
    Emits (warmupOp env cfg op letter) (if op = .delete then opRun cfg .warmup op ((cfg.op op).iters * cfg.warmup / 100) 0
      else opRun cfg .warmup op 0 ((cfg.op op).iters * cfg.warmup / 100)) := by
  unfold BigO.warmupOp opRun
  by_cases h : (cfg.op op).iters > 0
  · rw [if_pos h]
    simp only [if_neg (show ¬ (cfg.op op).iters = 0 by omega)]
    refine Emits.skip (Emits.output _) fun _ => ?_
    rw [M.lift_ok_bind (u32Mul_ok _ (hn op).2)]
    split
    · exact ((Emits.run _ _ _ _ _ _).bind (fun _ => Emits.xorR _)).congr (List.append_nil _)
    · exact ((Emits.run _ _ _ _ _ _).bind (fun _ => Emits.xorR _)).congr (List.append_nil _)
  · rw [if_neg h]
    simp only [if_pos (show (cfg.op op).iters = 0 by omega), ite_self]
    exact Emits.pure _

theorem Emits.report {α : Type} (c : OpCfg) (a : Option α) (d : α → Rs String) : Emits (outputReport c a d) [] := by
  unfold outputReport
  split
  · exact Emits.skip (Emits.lift _) fun _ => Emits.skip (Emits.lift _) fun _ => Emits.output _
  · exact Emits.pure _

theorem Emits.warmup (env : CrudEnv) (cfg : CrudCfg) (hn : NoOverflow cfg) :
    Emits (warmup env cfg) (warmupSequence cfg) := by
  unfold warmupSequence
  simp only [List.append_assoc]
  unfold BigO.warmup
  by_cases h : cfg.warmup > 0
  · rw [if_pos h, if_neg (by omega)]
    refine Emits.skip (Emits.output _) fun _ => ?_
    refine Emits.bind ((Emits.warmupOp env cfg hn .create "C").congr (by simp)) fun _ => ?_
    refine Emits.bind ((Emits.warmupOp env cfg hn .read "R").congr (by simp)) fun _ => ?_
    refine Emits.bind ((Emits.warmupOp env cfg hn .update "U").congr (by simp)) fun _ => ?_
    refine Emits.bind ((Emits.warmupOp env cfg hn .delete "D").congr (by simp)) fun _ => ?_
    refine Emits.skip (Emits.output _) fun _ => ?_
    rw [M.lift_ok_bind (u32Mul_ok _ (hn .create).2)]
    refine ((Emits.reset env _).bind (fun _ => (?_ : Emits _ []))).congr (by simp)
    exact Emits.skip (Emits.get _) fun _ => Emits.output _
  · rw [if_neg h, if_pos (by omega)]; exact Emits.pure _

theorem Emits.deletePasses (env : CrudEnv) (cfg : CrudCfg) (hn : NoOverflow cfg) :
    Emits (deletePasses env cfg) (opRun cfg .pass2 .delete (2 * (cfg.op .delete).iters) (cfg.op .delete).iters ++
      opRun cfg .pass1 .delete (cfg.op .delete).iters 0) := by
  unfold BigO.deletePasses
  by_cases h : (cfg.op .delete).iters > 0
  · rw [if_pos h]
    refine Emits.skip (Emits.output _) fun _ => ?_
    refine Emits.bind ((Emits.setResizing env cfg .delete _ _ _ _ 1 (dRange_ok env (hn .delete).1).2).congr rfl) fun _ => ?_
    refine ((Emits.setResizing env cfg .delete _ _ _ _ 0 (dRange_ok env (hn .delete).1).1).bind
      (fun _ => (?_ : Emits _ []))).congr (by simp [phaseOf])
    exact Emits.skip (Emits.get _) fun _ => Emits.skip (Emits.output _) fun _ => Emits.skip (Emits.report _ _ _) fun _ => Emits.pure _
  · rw [if_neg h]; simp only [opRun, if_pos (show (cfg.op .delete).iters = 0 by omega), List.append_nil]; exact Emits.pure _

theorem Emits.body (env : CrudEnv) (cfg : CrudCfg) (hn : NoOverflow cfg) : Emits (analyseBody env cfg) (crudSequence cfg) := by
  have hc := cruRange_ok env (hn .create).1
  have hr := cruRange_ok env (hn .read).1
  have hu := cruRange_ok env (hn .update).1
  refine Emits.congr (l := warmupSequence cfg ++ (opRun cfg .pass1 .create 0 (cfg.op .create).iters ++
    (opRun cfg .pass1 .read 0 (cfg.op .read).iters ++ (opRun cfg .pass1 .update 0 (cfg.op .update).iters ++
    (opRun cfg .pass2 .create (cfg.op .create).iters (2 * (cfg.op .create).iters) ++
    (opRun cfg .pass2 .read (cfg.op .read).iters (2 * (cfg.op .read).iters) ++
    (opRun cfg .pass2 .update (cfg.op .update).iters (2 * (cfg.op .update).iters) ++
    (opRun cfg .pass2 .delete (2 * (cfg.op .delete).iters) (cfg.op .delete).iters ++
      opRun cfg .pass1 .delete (cfg.op .delete).iters 0)))))))) ?_ ?_
  · unfold analyseBody
    refine Emits.skip (Emits.output _) fun _ => ?_
    refine Emits.bind (Emits.warmup env cfg hn) fun _ => ?_
    refine Emits.skip (Emits.output _) fun _ => ?_
    refine Emits.bind (Emits.setResizing env cfg .create _ _ _ _ 0 hc.1) fun _ => ?_
    refine Emits.bind (Emits.constantSet env cfg .read _ _ 0 hr.1) fun _ => ?_
    refine Emits.bind (Emits.constantSet env cfg .update _ _ 0 hu.1) fun _ => ?_
    refine Emits.skip (Emits.output _) fun _ => ?_
    refine Emits.bind (Emits.setResizing env cfg .create _ _ _ _ 1 hc.2) fun _ => ?_
    refine Emits.bind (Emits.constantSet env cfg .read _ _ 1 hr.2) fun _ => ?_
    refine Emits.bind (Emits.constantSet env cfg .update _ _ 1 hu.2) fun _ => ?_
    refine Emits.skip (Emits.output _) fun _ => ?_
    refine Emits.skip (Emits.report _ _ _) fun _ => Emits.skip (Emits.report _ _ _) fun _ => Emits.skip (Emits.report _ _ _) fun _ => ?_
    exact ((Emits.deletePasses env cfg hn).bind (fun _ => Emits.pure _)).congr (List.append_nil _)
  · unfold crudSequence
    simp only [List.append_assoc]

end BigO
