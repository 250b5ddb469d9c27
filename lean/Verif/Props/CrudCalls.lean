import Verif.Spec.CallsSpec
import Verif.Props.Pass
import Verif.Props.Crud

/-!
# C87: what the closures of a CRUD analysis are called with
-/
namespace BigO

theorem seen_append {p : Profile} : ∀ {a b : List Ev} {l : List UCall},
    SeenAs p (a ++ b) l ↔ ∃ l1 l2, l = l1 ++ l2 ∧ SeenAs p a l1 ∧ SeenAs p b l2
  | [], b, l => by
    constructor
    · intro h; exact ⟨[], l, rfl, rfl, h⟩
    · rintro ⟨l1, l2, rfl, h1, h2⟩
      have : l1 = [] := h1
      subst this; exact h2
  | .out _ :: a, b, l => seen_append (a := a)
  | .reset n :: a, b, l => by
    constructor
    · rintro ⟨rest, h, rfl⟩
      obtain ⟨l1, l2, rfl, h1, h2⟩ := (seen_append (a := a)).1 h
      exact ⟨.reset n :: l1, l2, rfl, ⟨l1, h1, rfl⟩, h2⟩
    · rintro ⟨l1, l2, rfl, ⟨rest, h1, rfl⟩, h2⟩
      exact ⟨rest ++ l2, (seen_append (a := a)).2 ⟨rest, l2, rfl, h1, h2⟩, rfl⟩
  | .pass ph op x y th :: a, b, l => by
    constructor
    · rintro ⟨f, s, rest, hs, h, rfl⟩
      obtain ⟨l1, l2, rfl, h1, h2⟩ := (seen_append (a := a)).1 h
      exact ⟨(allCalls s).map (UCall.call ph op) ++ l1, l2, by simp, ⟨f, s, l1, hs, h1, rfl⟩, h2⟩
    · rintro ⟨l1, l2, rfl, ⟨f, s, rest, hs, h1, rfl⟩, h2⟩
      exact ⟨f, s, rest ++ l2, hs, (seen_append (a := a)).2 ⟨rest, l2, rfl, h1, h2⟩, by simp⟩

theorem seen_actions {p : Profile} : ∀ {a : List Ev} {l : List UCall}, SeenAs p a l → SeenAs p (actions a) l
  | [], _, h => h
  | .out _ :: a, _, h => seen_actions (a := a) h
  | .reset _ :: a, _, ⟨rest, h, e⟩ => ⟨rest, seen_actions (a := a) h, e⟩
  | .pass _ _ _ _ _ :: a, _, ⟨f, s, rest, hs, h, e⟩ => ⟨f, s, rest, hs, seen_actions (a := a) h, e⟩

theorem argsIn_append (ph op) : ∀ a b : List UCall, argsIn ph op (a ++ b) = argsIn ph op a ++ argsIn ph op b
  | [], _ => rfl
  | .reset _ :: a, b => argsIn_append ph op a b
  | .call ph' op' e :: a, b => by
    simp only [List.cons_append, argsIn, argsIn_append ph op a b]
    split <;> rfl

theorem argsIn_map (ph op ph' op') : ∀ l : List Nat,
    argsIn ph op (l.map (UCall.call ph' op')) = if ph' = ph ∧ op' = op then l else []
  | [] => by simp [argsIn]
  | e :: l => by
    simp only [List.map_cons, argsIn, argsIn_map ph op ph' op' l]
    split <;> rfl

theorem measured_append (op) : ∀ a b : List UCall, measuredArgs op (a ++ b) = measuredArgs op a ++ measuredArgs op b
  | [], _ => rfl
  | .reset _ :: a, b => measured_append op a b
  | .call ph' op' e :: a, b => by
    simp only [List.cons_append, measuredArgs, measured_append op a b]
    split <;> rfl

theorem measured_map (op ph' op') : ∀ l : List Nat,
    measuredArgs op (l.map (UCall.call ph' op')) = if ph' ≠ .warmup ∧ op' = op then l else []
  | [] => by simp [measuredArgs]
  | e :: l => by
    simp only [List.map_cons, measuredArgs, measured_map op ph' op' l]
    split <;> rfl

/-- a run over a range, as seen by the user -/
theorem seen_opRun {p : Profile} {cfg : CrudCfg} {ph : Phase} {op : Op} {a b : Nat} {l : List UCall}
    (h : SeenAs p (opRun cfg ph op a b) l) :
    ((cfg.op op).iters = 0 ∧ l = []) ∨
      (0 < (cfg.op op).iters ∧ ∃ f s, Passed p a b (cfg.op op).threads f s ∧ l = (allCalls s).map (UCall.call ph op)) := by
  unfold opRun at h
  split at h
  · rename_i h0
    exact Or.inl ⟨h0, h⟩
  · rename_i h0
    obtain ⟨f, s, rest, hs, hr, rfl⟩ := h
    have : rest = [] := hr
    subst this
    exact Or.inr ⟨by omega, f, s, hs, by simp⟩

/-- the pieces of a finished analysis -/
structure Pieces (p : Profile) (cfg : CrudCfg) (calls : List UCall) (w c1 r1 u1 c2 r2 u2 d2 d1 : List UCall) : Prop where
  eq : calls = w ++ c1 ++ r1 ++ u1 ++ c2 ++ r2 ++ u2 ++ d2 ++ d1
  hw : SeenAs p (warmupSequence cfg) w
  hc1 : SeenAs p (opRun cfg .pass1 .create 0 (cfg.op .create).iters) c1
  hr1 : SeenAs p (opRun cfg .pass1 .read 0 (cfg.op .read).iters) r1
  hu1 : SeenAs p (opRun cfg .pass1 .update 0 (cfg.op .update).iters) u1
  hc2 : SeenAs p (opRun cfg .pass2 .create (cfg.op .create).iters (2 * (cfg.op .create).iters)) c2
  hr2 : SeenAs p (opRun cfg .pass2 .read (cfg.op .read).iters (2 * (cfg.op .read).iters)) r2
  hu2 : SeenAs p (opRun cfg .pass2 .update (cfg.op .update).iters (2 * (cfg.op .update).iters)) u2
  hd2 : SeenAs p (opRun cfg .pass2 .delete (2 * (cfg.op .delete).iters) (cfg.op .delete).iters) d2
  hd1 : SeenAs p (opRun cfg .pass1 .delete (cfg.op .delete).iters 0) d1

theorem pieces {p : Profile} {cfg : CrudCfg} {calls : List UCall} (h : SeenAs p (crudSequence cfg) calls) :
    ∃ w c1 r1 u1 c2 r2 u2 d2 d1, Pieces p cfg calls w c1 r1 u1 c2 r2 u2 d2 d1 := by
  unfold crudSequence at h
  obtain ⟨x, d1, rfl, h, hd1⟩ := seen_append.1 h
  obtain ⟨x, d2, rfl, h, hd2⟩ := seen_append.1 h
  obtain ⟨x, u2, rfl, h, hu2⟩ := seen_append.1 h
  obtain ⟨x, r2, rfl, h, hr2⟩ := seen_append.1 h
  obtain ⟨x, c2, rfl, h, hc2⟩ := seen_append.1 h
  obtain ⟨x, u1, rfl, h, hu1⟩ := seen_append.1 h
  obtain ⟨x, r1, rfl, h, hr1⟩ := seen_append.1 h
  obtain ⟨w, c1, rfl, h, hc1⟩ := seen_append.1 h
  exact ⟨w, c1, r1, u1, c2, r2, u2, d2, d1, rfl, h, hc1, hr1, hu1, hc2, hr2, hu2, hd2, hd1⟩

/-- calls of one operation in one phase only -/
def OnlyIn (ph : Phase) (op : Op) (l : List UCall) : Prop := ∃ es : List Nat, l = es.map (UCall.call ph op)

theorem onlyIn_opRun {p : Profile} {cfg : CrudCfg} {ph : Phase} {op : Op} {a b : Nat} {l : List UCall}
    (h : SeenAs p (opRun cfg ph op a b) l) : OnlyIn ph op l := by
  rcases seen_opRun h with ⟨-, rfl⟩ | ⟨-, f, s, -, rfl⟩
  · exact ⟨[], rfl⟩
  · exact ⟨_, rfl⟩

theorem OnlyIn.args {ph op l} (h : OnlyIn ph op l) (ph' op') (hne : ¬ (ph = ph' ∧ op = op')) : argsIn ph' op' l = [] := by
  obtain ⟨es, rfl⟩ := h
  rw [argsIn_map, if_neg hne]

theorem OnlyIn.measured {ph op l} (h : OnlyIn ph op l) (hph : ph ≠ .warmup) (op') :
    measuredArgs op' l = if op = op' then argsIn ph op l else [] := by
  obtain ⟨es, rfl⟩ := h
  simp [measured_map, argsIn_map, hph]

theorem warmup_only {p : Profile} {cfg : CrudCfg} {w : List UCall} (h : SeenAs p (warmupSequence cfg) w) :
    (∀ ph op, ph ≠ .warmup → argsIn ph op w = []) ∧ ∀ op, measuredArgs op w = [] := by
  unfold warmupSequence at h
  split at h
  · have : w = [] := h
    subst this
    exact ⟨fun _ _ _ => rfl, fun _ => rfl⟩
  · obtain ⟨x, z, rfl, h, hz⟩ := seen_append.1 h
    obtain ⟨x, d, rfl, h, hd⟩ := seen_append.1 h
    obtain ⟨x, u, rfl, h, hu⟩ := seen_append.1 h
    obtain ⟨c, r, rfl, hc, hr⟩ := seen_append.1 h
    obtain ⟨rest, hrest, rfl⟩ := hz
    have : rest = [] := hrest
    subst this
    have oc := onlyIn_opRun hc
    have or := onlyIn_opRun hr
    have ou := onlyIn_opRun hu
    have od := onlyIn_opRun hd
    constructor
    · intro ph op hph
      simp only [argsIn_append, oc.args ph op (fun h => hph h.1.symm), or.args ph op (fun h => hph h.1.symm),
        ou.args ph op (fun h => hph h.1.symm), od.args ph op (fun h => hph h.1.symm), argsIn, List.append_nil]
    · intro op
      obtain ⟨e1, rfl⟩ := oc
      obtain ⟨e2, rfl⟩ := or
      obtain ⟨e3, rfl⟩ := ou
      obtain ⟨e4, rfl⟩ := od
      simp [measured_append, measured_map, measuredArgs]

section
variable {p : Profile} {cfg : CrudCfg} {calls w c1 r1 u1 c2 r2 u2 d2 d1 : List UCall}
  (P : Pieces p cfg calls w c1 r1 u1 c2 r2 u2 d2 d1)
include P

/-- the piece of a measured pass -/
def pieceOf (c1 r1 u1 c2 r2 u2 d2 d1 : List UCall) (op : Op) (second : Bool) : List UCall :=
  match op, second with
  | .create, false => c1
  | .read, false => r1
  | .update, false => u1
  | .delete, false => d1
  | .create, true => c2
  | .read, true => r2
  | .update, true => u2
  | .delete, true => d2

theorem pieces_args (op : Op) (second : Bool) :
    argsIn (if second then .pass2 else .pass1) op calls =
      argsIn (if second then .pass2 else .pass1) op (pieceOf c1 r1 u1 c2 r2 u2 d2 d1 op second) := by
  have hw := (warmup_only P.hw).1
  have oc1 := onlyIn_opRun P.hc1
  have or1 := onlyIn_opRun P.hr1
  have ou1 := onlyIn_opRun P.hu1
  have oc2 := onlyIn_opRun P.hc2
  have or2 := onlyIn_opRun P.hr2
  have ou2 := onlyIn_opRun P.hu2
  have od2 := onlyIn_opRun P.hd2
  have od1 := onlyIn_opRun P.hd1
  rw [P.eq]
  simp only [argsIn_append]
  cases op <;> cases second <;>
    simp [pieceOf, hw, OnlyIn.args oc1, OnlyIn.args or1, OnlyIn.args ou1, OnlyIn.args oc2, OnlyIn.args or2, OnlyIn.args ou2,
      OnlyIn.args od2, OnlyIn.args od1]

theorem pieces_range (op : Op) (second : Bool) :
    SeenAs p (opRun cfg (if second then .pass2 else .pass1) op (opRange cfg op (if second then 1 else 0)).1
      (opRange cfg op (if second then 1 else 0)).2) (pieceOf c1 r1 u1 c2 r2 u2 d2 d1 op second) := by
  cases op <;> cases second <;> simp [pieceOf, opRange]
  · exact P.hc1
  · exact P.hc2
  · exact P.hr1
  · exact P.hr2
  · exact P.hu1
  · exact P.hu2
  · exact P.hd1
  · exact P.hd2

end

/-- how many, and if the threads divide the iterations which, numbers a measured pass gives to the closure -/
theorem pass_args {p : Profile} {cfg : CrudCfg} (hf : Fits cfg) (op : Op) (k : Nat) (hk : k ≤ 1) {ph : Phase} {l : List UCall}
    (h : SeenAs p (opRun cfg ph op (opRange cfg op k).1 (opRange cfg op k).2) l) :
    (argsIn ph op l).length = (cfg.op op).iters - (cfg.op op).iters % (cfg.op op).threads ∧
    ((cfg.op op).threads ∣ (cfg.op op).iters ∨ (cfg.op op).iters = 0 →
      (argsIn ph op l).Perm (List.range' (k * (cfg.op op).iters) (cfg.op op).iters)) := by
  rcases seen_opRun h with ⟨h0, rfl⟩ | ⟨hpos, f, s, hs, rfl⟩
  · simp [h0, argsIn]
  · obtain ⟨h2, ht1, ht2⟩ := hf.2 op hpos
    rw [argsIn_map, if_pos ⟨rfl, rfl⟩]
    have hk' : k = 0 ∨ k = 1 := by omega
    have ha : PassArgs (opRange cfg op k).1 (opRange cfg op k).2 (cfg.op op).threads := by
      refine ⟨?_, ?_, ht1, ht2⟩ <;> rcases hk' with rfl | rfl <;> simp [opRange] <;> split <;> omega
    have hlen : passLen (opRange cfg op k).1 (opRange cfg op k).2 = (cfg.op op).iters := by
      unfold passLen
      rcases hk' with rfl | rfl <;> simp [opRange] <;> split <;> simp <;> omega
    have hcount := C42_count p _ _ _ ha f s hs
    rw [hlen] at hcount
    refine ⟨by omega, ?_⟩
    intro hd
    have hd' : (cfg.op op).threads ∣ (cfg.op op).iters := by
      rcases hd with hd | hd
      · exact hd
      · omega
    have := C40_each_once p _ _ _ ha (by rw [hlen]; exact hd') f s hs
    refine this.trans (List.Perm.of_eq ?_)
    unfold passRange
    rcases hk' with rfl | rfl <;> simp [opRange] <;> split <;> simp <;> omega

/-- **C87** (each number once): in a finished analysis whose threads divide the iterations evenly, each closure is called exactly once
with each number from 0 to its iterations in its first pass, and from there to twice its iterations in its second pass; also
deletions. -/
theorem C87_each_once (env : CrudEnv) (cfg : CrudCfg) (hf : Fits cfg) (he : Even4 cfg) (t ext : List Ev) (a : CrudAnalyses × String)
    (h : internalAnalyse env cfg t = (.ok a, t ++ ext)) (calls : List UCall) (hs : SeenAs env.profile ext calls) (op : Op) :
    (argsIn .pass1 op calls).Perm (List.range' 0 (cfg.op op).iters) ∧
    (argsIn .pass2 op calls).Perm (List.range' (cfg.op op).iters (cfg.op op).iters) := by
  obtain ⟨ext', h1, -, h3⟩ := C50_phase_order env cfg hf.1 t
  have hx : ext' = ext := by
    rw [h] at h1
    exact (List.append_cancel_left h1).symm
  subst hx
  have hseq := h3 ⟨a, by rw [h]⟩
  have hs' := seen_actions hs
  rw [hseq] at hs'
  obtain ⟨w, c1, r1, u1, c2, r2, u2, d2, d1, P⟩ := pieces hs'
  have hd : (cfg.op op).threads ∣ (cfg.op op).iters ∨ (cfg.op op).iters = 0 := by
    rcases Nat.eq_zero_or_pos (cfg.op op).iters with h0 | h0
    · exact Or.inr h0
    · exact Or.inl (he op h0)
  constructor
  · have e := pieces_args P op false
    have := (pass_args hf op 0 (by omega) (pieces_range P op false)).2 hd
    simp only [Bool.false_eq_true, if_false, Nat.zero_mul] at e this
    rw [e]; exact this
  · have e := pieces_args P op true
    have := (pass_args hf op 1 (by omega) (pieces_range P op true)).2 hd
    simp only [if_true, Nat.one_mul] at e this
    rw [e]; exact this

/-- **C87** (numbers of calls): in any finished analysis each measured pass of an operation calls its closure as many times as the
operation has iterations, less the remainder of their division by its threads. -/
theorem C87_counts (env : CrudEnv) (cfg : CrudCfg) (hf : Fits cfg) (t ext : List Ev) (a : CrudAnalyses × String)
    (h : internalAnalyse env cfg t = (.ok a, t ++ ext)) (calls : List UCall) (hs : SeenAs env.profile ext calls) (op : Op) :
    (argsIn .pass1 op calls).length = (cfg.op op).iters - (cfg.op op).iters % (cfg.op op).threads ∧
    (argsIn .pass2 op calls).length = (cfg.op op).iters - (cfg.op op).iters % (cfg.op op).threads := by
  obtain ⟨ext', h1, -, h3⟩ := C50_phase_order env cfg hf.1 t
  have hx : ext' = ext := by
    rw [h] at h1
    exact (List.append_cancel_left h1).symm
  subst hx
  have hseq := h3 ⟨a, by rw [h]⟩
  have hs' := seen_actions hs
  rw [hseq] at hs'
  obtain ⟨w, c1, r1, u1, c2, r2, u2, d2, d1, P⟩ := pieces hs'
  constructor
  · have e := pieces_args P op false
    have := (pass_args hf op 0 (by omega) (pieces_range P op false)).1
    simp only [Bool.false_eq_true, if_false] at e this
    rw [e]; exact this
  · have e := pieces_args P op true
    have := (pass_args hf op 1 (by omega) (pieces_range P op true)).1
    simp only [if_true] at e this
    rw [e]; exact this

/-- **C87** (create, then delete): in a finished analysis whose threads divide the iterations evenly, and which creates as many
elements as it deletes, all measured creations come before all measured deletions; each number below twice the iterations is created
once and deleted once. -/
theorem C87_delete_after_create (env : CrudEnv) (cfg : CrudCfg) (hf : Fits cfg) (he : Even4 cfg)
    (hcd : (cfg.op .create).iters = (cfg.op .delete).iters) (t ext : List Ev) (a : CrudAnalyses × String)
    (h : internalAnalyse env cfg t = (.ok a, t ++ ext)) (calls : List UCall) (hs : SeenAs env.profile ext calls) :
    (∃ l1 l2, calls = l1 ++ l2 ∧ measuredArgs .delete l1 = [] ∧ measuredArgs .create l2 = []) ∧
    (measuredArgs .create calls).Perm (List.range (2 * (cfg.op .create).iters)) ∧
    (measuredArgs .delete calls).Perm (List.range (2 * (cfg.op .create).iters)) := by
  obtain ⟨ext', h1, -, h3⟩ := C50_phase_order env cfg hf.1 t
  have hx : ext' = ext := by
    rw [h] at h1
    exact (List.append_cancel_left h1).symm
  subst hx
  have hseq := h3 ⟨a, by rw [h]⟩
  have hs' := seen_actions hs
  rw [hseq] at hs'
  obtain ⟨w, c1, r1, u1, c2, r2, u2, d2, d1, P⟩ := pieces hs'
  have hw := (warmup_only P.hw).2
  have oc1 := onlyIn_opRun P.hc1
  have or1 := onlyIn_opRun P.hr1
  have ou1 := onlyIn_opRun P.hu1
  have oc2 := onlyIn_opRun P.hc2
  have or2 := onlyIn_opRun P.hr2
  have ou2 := onlyIn_opRun P.hu2
  have od2 := onlyIn_opRun P.hd2
  have od1 := onlyIn_opRun P.hd1
  have m := fun op => (⟨OnlyIn.measured oc1 (by decide) op, OnlyIn.measured or1 (by decide) op, OnlyIn.measured ou1 (by decide) op,
    OnlyIn.measured oc2 (by decide) op, OnlyIn.measured or2 (by decide) op, OnlyIn.measured ou2 (by decide) op,
    OnlyIn.measured od2 (by decide) op, OnlyIn.measured od1 (by decide) op⟩ : _ ∧ _ ∧ _ ∧ _ ∧ _ ∧ _ ∧ _ ∧ _)
  have hd : ∀ op, (cfg.op op).threads ∣ (cfg.op op).iters ∨ (cfg.op op).iters = 0 := by
    intro op
    rcases Nat.eq_zero_or_pos (cfg.op op).iters with h0 | h0
    · exact Or.inr h0
    · exact Or.inl (he op h0)
  have pc1 := (pass_args hf .create 0 (by omega) (pieces_range P .create false)).2 (hd _)
  have pc2 := (pass_args hf .create 1 (by omega) (pieces_range P .create true)).2 (hd _)
  have pd1 := (pass_args hf .delete 0 (by omega) (pieces_range P .delete false)).2 (hd _)
  have pd2 := (pass_args hf .delete 1 (by omega) (pieces_range P .delete true)).2 (hd _)
  simp only [Bool.false_eq_true, if_false, if_true, Nat.zero_mul, Nat.one_mul, pieceOf] at pc1 pc2 pd1 pd2
  have ec : measuredArgs .create calls = argsIn .pass1 .create c1 ++ argsIn .pass2 .create c2 := by
    obtain ⟨m1, m2, m3, m4, m5, m6, m7, m8⟩ := m .create
    rw [P.eq]
    simp only [measured_append, hw, m1, m2, m3, m4, m5, m6, m7, m8]
    simp
  have ed : measuredArgs .delete calls = argsIn .pass2 .delete d2 ++ argsIn .pass1 .delete d1 := by
    obtain ⟨m1, m2, m3, m4, m5, m6, m7, m8⟩ := m .delete
    rw [P.eq]
    simp only [measured_append, hw, m1, m2, m3, m4, m5, m6, m7, m8]
    simp
  have happ : ∀ n : Nat, List.range' 0 n ++ List.range' n n = List.range' 0 (n + n) := by
    intro n
    have := @List.range'_append_1 0 n n
    rwa [Nat.zero_add] at this
  have perm1 : (measuredArgs .create calls).Perm (List.range' 0 ((cfg.op .create).iters + (cfg.op .create).iters)) := by
    rw [ec, ← happ]; exact pc1.append pc2
  have perm2 : (measuredArgs .delete calls).Perm (List.range' 0 ((cfg.op .delete).iters + (cfg.op .delete).iters)) := by
    rw [ed, ← happ]
    exact (pd2.append pd1).trans List.perm_append_comm
  refine ⟨⟨w ++ c1 ++ r1 ++ u1 ++ c2 ++ r2 ++ u2, d2 ++ d1, by rw [P.eq]; simp, ?_, ?_⟩, ?_, ?_⟩
  · obtain ⟨m1, m2, m3, m4, m5, m6, m7, m8⟩ := m .delete
    simp only [measured_append, hw, m1, m2, m3, m4, m5, m6]
    simp
  · obtain ⟨m1, m2, m3, m4, m5, m6, m7, m8⟩ := m .create
    simp only [measured_append, m7, m8]
    simp
  · rw [List.range_eq_range', Nat.two_mul]; exact perm1
  · rw [List.range_eq_range', Nat.two_mul, hcd]; exact perm2

/-- every trace whose passes have ranges that fit in 32 bits is seen in some way, whatever the closures return -/
theorem seen_exists (p : Profile) (f : List (Nat × Nat) → Nat → Nat) : ∀ tr : List Ev,
    (∀ ph op a b th, Ev.pass ph op a b th ∈ tr → PassArgs a b th) → ∃ calls, SeenAs p tr calls
  | [], _ => ⟨[], rfl⟩
  | .out _ :: tr, h => seen_exists p f tr fun ph op a b th hm => h ph op a b th (List.mem_cons_of_mem _ hm)
  | .reset n :: tr, h => by
    obtain ⟨rest, hr⟩ := seen_exists p f tr fun ph op a b th hm => h ph op a b th (List.mem_cons_of_mem _ hm)
    exact ⟨.reset n :: rest, rest, hr, rfl⟩
  | .pass ph op a b th :: tr, h => by
    obtain ⟨rest, hr⟩ := seen_exists p f tr fun ph op a b th hm => h ph op a b th (List.mem_cons_of_mem _ hm)
    obtain ⟨chunks, sched, -, hs⟩ := C40_can_finish p a b th (h ph op a b th (by simp)) f []
    exact ⟨_, f, _, rest, hs, hr, rfl⟩

theorem actions_passes {tr : List Ev} {ph op a b th} (h : Ev.pass ph op a b th ∈ tr) : Ev.pass ph op a b th ∈ actions tr := by
  induction tr with
  | nil => cases h
  | cons e tr ih =>
    cases e with
    | out s =>
      rcases List.mem_cons.1 h with h | h
      · cases h
      · exact ih h
    | reset n =>
      rcases List.mem_cons.1 h with h | h
      · cases h
      · exact List.mem_cons_of_mem _ (ih h)
    | pass =>
      rcases List.mem_cons.1 h with h | h
      · exact h ▸ List.mem_cons_self
      · exact List.mem_cons_of_mem _ (ih h)

-- a finished analysis with 100 creations, reads and deletions on two threads, and calls that the user's code may see of it: 200
-- different numbers are created and deleted
example (T : TextEnv) : ∃ a ext calls, internalAnalyse (steadyCrudEnv shipped T) (steadyCfg 100 .o1) [] = (.ok a, ext) ∧
    SeenAs (steadyCrudEnv shipped T).profile ext calls ∧ Even4 (steadyCfg 100 .o1) ∧
    (measuredArgs .create calls).length = 200 ∧ (measuredArgs .delete calls).Perm (measuredArgs .create calls) := by
  obtain ⟨a, t', h⟩ := steady_accepted T 100 (by norm_num) []
  have hf := steadyCfg_fits 100 (by norm_num) .o1
  obtain ⟨ext, h1, -, h2⟩ := C50_phase_order (steadyCrudEnv shipped T) (steadyCfg 100 .o1) hf.1 []
  rw [h] at h1 h2
  have e : t' = ext := h1
  subst e
  have hseq := h2 ⟨a, rfl⟩
  have he : Even4 (steadyCfg 100 .o1) := by
    intro o ho
    cases o <;> first | exact ⟨50, rfl⟩ | exact absurd ho (lt_irrefl 0)
  obtain ⟨calls, hs⟩ := seen_exists (steadyCrudEnv shipped T).profile (fun _ _ => 0) t' (by
    intro ph op x y th hm
    have hm := actions_passes hm
    rw [hseq] at hm
    have hcrud : crudSequence (steadyCfg 100 .o1) = [.pass .warmup .create 0 10 2, .pass .warmup .read 0 10 2,
      .pass .warmup .delete 10 0 2, .reset 10,
      .pass .pass1 .create 0 100 2, .pass .pass1 .read 0 100 2, .pass .pass2 .create 100 200 2, .pass .pass2 .read 100 200 2,
      .pass .pass2 .delete 200 100 2, .pass .pass1 .delete 100 0 2] := rfl
    rw [hcrud] at hm
    simp only [List.mem_cons, Ev.pass.injEq, List.not_mem_nil, or_false, reduceCtorEq, false_or] at hm
    rcases hm with h | h | h | h | h | h | h | h | h <;> obtain ⟨-, -, rfl, rfl, rfl⟩ := h <;> constructor <;> norm_num)
  have hp := C87_delete_after_create _ _ hf he rfl [] t' a h calls hs
  refine ⟨a, t', calls, h, hs, he, ?_, hp.2.2.trans hp.2.1.symm⟩
  rw [hp.2.1.length_eq, List.length_range]
  rfl

end BigO
