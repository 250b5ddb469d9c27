import Verif.Model.AllocRing
import Verif.Proofs.AllocRebase
import Verif.Proofs.AllocMid
import Verif.Proofs.AllocSub
import Verif.Proofs.Ring

/-!
# The allocator with the ring buffer's own steps refines the one with atomic ring operations
-/
namespace BigO

/-! ## the statistics part of a state, the slots and program counters replaced -/

/-- the state `s`, the slots being `L` and thread `u` being at `P u` -/
def AConc.over (L : List Slot) (P : Nat → APc) (s : AConc) : AConc := { s with slots := L, th := fun u => ⟨P u, (s.th u).view⟩ }

/-- `P`, thread `t` being at `x` -/
def atPc (P : Nat → APc) (t : Nat) (x : APc) : Nat → APc := fun u => if u = t then x else P u

theorem over_goto (L P) (s : AConc) (t pc) : (s.over L P).goto t pc = (s.goto t pc).over L (atPc P t pc) := by
  refine aconc_eq rfl rfl rfl ?_ rfl rfl rfl rfl
  funext u
  simp only [AConc.over, AConc.goto, atPc]
  split
  · subst_vars; rfl
  · rfl

theorem over_see (L P) (s : AConc) (t c i) : (s.over L P).see t c i = (s.see t c i).over L P := by
  refine aconc_eq rfl rfl rfl ?_ rfl rfl rfl rfl
  funext u
  simp only [AConc.over, AConc.see]
  split
  · subst_vars; rfl
  · rfl

theorem over_write (L P) (s : AConc) (t c v) : (s.over L P).write t c v = (s.write t c v).over L P := by
  unfold AConc.write
  rw [← over_see]
  rfl

theorem over_learn (L P) (s : AConc) (t v) : (s.over L P).learn t v = (s.learn t v).over L P := by
  refine aconc_eq rfl rfl rfl ?_ rfl rfl rfl rfl
  funext u
  simp only [AConc.over, AConc.learn]
  split
  · subst_vars; rfl
  · rfl

theorem over_result (L P) (s : AConc) (t k r) : (s.over L P).result t k r = (s.result t k r).over L (atPc P t .idle) :=
  over_goto L P { s with results := s.results ++ [(k, r)] } t .idle

theorem over_load {L P} {s s' : AConc} {t c i k} (h : s.load t c i k = some s') :
    (s.over L P).load t c i k = some (s'.over L (atPc P t (k ((s.loc c).val i)))) := by
  obtain ⟨rfl, h1, h2⟩ := load_some h
  have hr : (s.over L P).readable t c i = true := by
    show (decide _ && decide _) = true
    simp only [Bool.and_eq_true, decide_eq_true_eq]
    exact ⟨h1, h2⟩
  unfold AConc.load
  rw [if_pos hr, over_see, over_goto]
  rfl

/-- the head a thread taking a save point carries is at most `n` -/
def PcHead (n : Nat) : APc → Prop
  | .spCur1 hd => hd ≤ n
  | .spStoreMin hd _ => hd ≤ n
  | .spCur2 hd => hd ≤ n
  | .spStoreMax hd _ => hd ≤ n
  | .spLoad hd _ _ => hd ≤ n
  | _ => True

/-- in `save_point` -/
def inSave : APc → Bool
  | .spMin => true
  | .spMax _ => true
  | .spEnqueue _ _ => true
  | .spConsumer => true
  | .spCur1 _ => true
  | .spStoreMin _ _ => true
  | .spCur2 _ => true
  | .spStoreMax _ _ => true
  | .spLoad _ _ _ => true
  | _ => false

/-- in `delta_statistics` -/
def inDelta : APc → Bool
  | .dPeek _ => true
  | .dMin _ _ _ => true
  | .dMax _ _ _ => true
  | .dLoad _ _ _ _ _ => true
  | .dCur _ _ _ _ => true
  | _ => false

/-- about to make a ring operation -/
def atRing : APc → Bool
  | .spEnqueue _ _ => true
  | .spConsumer => true
  | .dPeek _ => true
  | _ => false

/-- what a step outside the ring operations does -/
structure CoreStep (s s' : AConc) (t i : Nat) (ok : Bool) : Prop where
  others : ∀ u, u ≠ t → s'.th u = s.th u
  size : s'.size = s.size
  profile : s'.profile = s.profile
  slots : s'.slots = s.slots
  saved : s'.saved = s.saved ∨ ∃ hd got, (s.th t).pc = .spLoad hd [] got ∧ ∃ v, s'.saved = s.saved ++ [⟨got, hd, v⟩]
  heads : ∀ n, PcHead n (s.th t).pc → PcHead n (s'.th t).pc
  save : inSave (s'.th t).pc = true → inSave (s.th t).pc = true
  delta : inDelta (s'.th t).pc = true → inDelta (s.th t).pc = true
  noPeek : ∀ k, (s'.th t).pc ≠ .dPeek k
  over : ∀ L P, P t = (s.th t).pc → (s.over L P).step t i ok = some (s'.over L (atPc P t (s'.th t).pc))

theorem toMin_facts (a b : Nat) : (∀ n, PcHead n (toMin a b)) ∧ inSave (toMin a b) = false ∧ inDelta (toMin a b) = false := by
  unfold toMin; split <;> exact ⟨fun _ => trivial, rfl, rfl⟩
theorem toMax_facts (a b : Nat) : (∀ n, PcHead n (toMax a b)) ∧ inSave (toMax a b) = false ∧ inDelta (toMax a b) = false := by
  unfold toMax; split <;> exact ⟨fun _ => trivial, rfl, rfl⟩
theorem toRmw_facts (l : List Rmw) : (∀ n, PcHead n (toRmw l)) ∧ inSave (toRmw l) = false ∧ inDelta (toRmw l) = false := by
  cases l <;> exact ⟨fun _ => trivial, rfl, rfl⟩

theorem CoreStep.of {s s1 : AConc} {t i ok pc} (others : ∀ u, u ≠ t → s1.th u = s.th u) (hsize : s1.size = s.size)
    (hprofile : s1.profile = s.profile) (hslots : s1.slots = s.slots)
    (hsaved : s1.saved = s.saved ∨ ∃ hd got, (s.th t).pc = .spLoad hd [] got ∧ ∃ v, s1.saved = s.saved ++ [⟨got, hd, v⟩])
    (heads : ∀ n, PcHead n (s.th t).pc → PcHead n pc) (hsave : inSave pc = true → inSave (s.th t).pc = true)
    (hdelta : inDelta pc = true → inDelta (s.th t).pc = true) (hpk : ∀ k, pc ≠ .dPeek k)
    (hov : ∀ L P, P t = (s.th t).pc → (s.over L P).step t i ok = some ((s1.goto t pc).over L (atPc P t pc))) :
    CoreStep s (s1.goto t pc) t i ok := by
  have e : ((s1.goto t pc).th t).pc = pc := by rw [goto_pc, if_pos rfl]
  refine ⟨fun u hu => (goto_other hu).trans (others u hu), hsize, hprofile, hslots, hsaved, ?_, ?_, ?_, ?_, ?_⟩ <;> rw [e]
  · exact heads
  · exact hsave
  · exact hdelta
  · exact hpk
  · exact hov

theorem th_write' {s : AConc} {t u c v} (h : u ≠ t) : (s.write t c v).th u = s.th u := by
  simp [AConc.write, AConc.see, h]

theorem core_step {s s' : AConc} {t i ok} (hr : atRing (s.th t).pc = false) (h : s.step t i ok = some s') : CoreStep s s' t i ok := by
  have hL : ∀ {c i' ok'} {k : Nat → APc} {pc0 : APc}, (s.th t).pc = pc0 → s.load t c i' k = some s' →
      (∀ n v, PcHead n pc0 → PcHead n (k v)) → (∀ v, inSave (k v) = true → inSave pc0 = true) →
      (∀ v, inDelta (k v) = true → inDelta pc0 = true) → (∀ v k', k v ≠ .dPeek k') →
      (∀ L P, P t = pc0 → (s.over L P).step t i ok' = (s.over L P).load t c i' k) → CoreStep s s' t i ok' := by
    intro c i' ok' k pc0 hpc hl h1 h2 h3 h4 h5
    have hl0 := hl
    obtain ⟨rfl, _⟩ := load_some hl
    refine CoreStep.of (fun u hu => see_other hu) rfl rfl rfl (Or.inl rfl) (by rw [hpc]; exact fun n => h1 n _) (by rw [hpc]; exact h2 _)
      (by rw [hpc]; exact h3 _) (h4 _) ?_
    intro L P hP
    rw [h5 L P (hP.trans hpc)]
    exact over_load hl0
  have hW : ∀ {c v ok' pc} {pc0 : APc}, (s.th t).pc = pc0 →
      (∀ n, PcHead n pc0 → PcHead n pc) → (inSave pc = true → inSave pc0 = true) → (inDelta pc = true → inDelta pc0 = true) →
      (∀ k', pc ≠ .dPeek k') →
      (∀ L P, P t = pc0 → (s.over L P).step t i ok' = some (((s.over L P).write t c v).goto t pc)) →
      CoreStep s ((s.write t c v).goto t pc) t i ok' := by
    intro c v ok' pc pc0 hpc h1 h2 h3 h4 h5
    refine CoreStep.of (fun u hu => th_write' hu) rfl rfl rfl (Or.inl rfl) (by rw [hpc]; exact h1) (by rw [hpc]; exact h2)
      (by rw [hpc]; exact h3) h4 ?_
    intro L P hP
    rw [h5 L P (hP.trans hpc), over_write, over_goto]
  have hth : ∀ (L : List Slot) (P : Nat → APc), ((s.over L P).th t).pc = P t := fun _ _ => rfl
  unfold AConc.step at h
  split at h <;> rename_i hpc
  · simp at h
  · simp at h; subst h
    refine CoreStep.of (fun _ _ => rfl) rfl rfl rfl (Or.inl rfl) (fun _ _ => trivial) (by simp [inSave]) (by simp [inDelta]) (by simp) ?_
    intro L P hP
    unfold AConc.step
    rw [hth, hP, hpc]
    simp only [over_goto]
  · simp at h; subst h
    rename_i op ops
    obtain ⟨f1, f2, f3⟩ := toRmw_facts ops
    refine hW hpc (fun n _ => f1 n) (by rw [f2]; simp) (by rw [f3]; simp) (by cases ops <;> simp [toRmw]) ?_
    intro L P hP
    unfold AConc.step
    rw [hth, hP]
    rfl
  · refine hL hpc h (fun _ _ _ => trivial) (by simp [inSave]) (by simp [inDelta]) (by simp) ?_
    intro L P hP; unfold AConc.step; rw [hth, hP]
  · rename_i cur
    refine hL hpc h (fun n v _ => (toMin_facts cur v).1 n) (fun v => by rw [(toMin_facts cur v).2.1]; simp)
      (fun v => by rw [(toMin_facts cur v).2.2]; simp) (fun v k => by unfold toMin; split <;> simp) ?_
    intro L P hP; unfold AConc.step; rw [hth, hP]
  · rename_i cur mn
    split at h
    · rename_i hok
      split at h
      · rename_i hl
        simp at h; subst h
        refine hW hpc (fun _ _ => trivial) (by simp [inSave]) (by simp [inDelta]) (by simp) ?_
        intro L P hP
        unfold AConc.step
        rw [hth, hP]
        simp only
        rw [if_pos hok]
        exact if_pos hl
      · simp at h
    · rename_i hok
      refine hL hpc h (fun n v _ => (toMin_facts cur v).1 n) (fun v => by rw [(toMin_facts cur v).2.1]; simp)
        (fun v => by rw [(toMin_facts cur v).2.2]; simp) (fun v k => by unfold toMin; split <;> simp) ?_
      intro L P hP; unfold AConc.step; rw [hth, hP]; simp only; rw [if_neg hok]
  · rename_i cur
    refine hL hpc h (fun n v _ => (toMax_facts cur v).1 n) (fun v => by rw [(toMax_facts cur v).2.1]; simp)
      (fun v => by rw [(toMax_facts cur v).2.2]; simp) (fun v k => by unfold toMax; split <;> simp) ?_
    intro L P hP; unfold AConc.step; rw [hth, hP]
  · rename_i cur mx
    split at h
    · rename_i hok
      split at h
      · rename_i hl
        simp at h; subst h
        refine hW hpc (fun _ _ => trivial) (by simp [inSave]) (by simp [inDelta]) (by simp) ?_
        intro L P hP
        unfold AConc.step
        rw [hth, hP]
        simp only
        rw [if_pos hok]
        exact if_pos hl
      · simp at h
    · rename_i hok
      refine hL hpc h (fun n v _ => (toMax_facts cur v).1 n) (fun v => by rw [(toMax_facts cur v).2.1]; simp)
        (fun v => by rw [(toMax_facts cur v).2.2]; simp) (fun v k => by unfold toMax; split <;> simp) ?_
      intro L P hP; unfold AConc.step; rw [hth, hP]; simp only; rw [if_neg hok]
  · refine hL hpc h (fun _ _ _ => trivial) (by simp [inSave]) (by simp [inDelta]) (by simp) ?_
    intro L P hP; unfold AConc.step; rw [hth, hP]
  · refine hL hpc h (fun _ _ _ => trivial) (by simp [inSave]) (by simp [inDelta]) (by simp) ?_
    intro L P hP; unfold AConc.step; rw [hth, hP]
  · rw [hpc] at hr; simp [atRing] at hr
  · rw [hpc] at hr; simp [atRing] at hr
  · refine hL hpc h (fun _ _ h => h) (by simp [inSave]) (by simp [inDelta]) (by simp) ?_
    intro L P hP; unfold AConc.step; rw [hth, hP]
  · simp at h; subst h
    refine hW hpc (fun _ h => h) (by simp [inSave]) (by simp [inDelta]) (by simp) ?_
    intro L P hP
    unfold AConc.step
    rw [hth, hP]
  · refine hL hpc h (fun _ _ h => h) (by simp [inSave]) (by simp [inDelta]) (by simp) ?_
    intro L P hP; unfold AConc.step; rw [hth, hP]
  · simp at h; subst h
    refine hW hpc (fun _ h => h) (by simp [inSave]) (by simp [inDelta]) (by simp) ?_
    intro L P hP
    unfold AConc.step
    rw [hth, hP]
  · rename_i hd got
    simp at h; subst h
    refine CoreStep.of (fun _ _ => rfl) rfl rfl rfl (Or.inr ⟨hd, got, hpc, _, rfl⟩) (fun _ _ => trivial) (by simp [inSave]) (by simp [inDelta])
      (by simp) ?_
    intro L P hP
    unfold AConc.step
    rw [hth, hP, hpc]
    exact congrArg some (over_goto L P { s with saved := s.saved ++ [⟨got, hd, (s.th t).view⟩] } t .idle)
  · refine hL hpc h (fun _ _ h => h) (by simp [inSave]) (by simp [inDelta]) (by simp) ?_
    intro L P hP; unfold AConc.step; rw [hth, hP]
  · rw [hpc] at hr; simp [atRing] at hr
  · refine hL hpc h (fun _ _ _ => trivial) (by simp [inSave]) (by simp [inDelta]) (by simp) ?_
    intro L P hP; unfold AConc.step; rw [hth, hP]
  · rename_i k mn mx
    split at h
    · simp at h
    · rename_i sp hsp
      refine hL hpc h (fun _ _ _ => trivial) (by simp [inSave]) (by simp [inDelta]) (by simp) ?_
      intro L P hP; unfold AConc.step; rw [hth, hP]; simp only
      rw [show (s.over L P).saved = s.saved from rfl, hsp]
  · simp at h; subst h
    refine CoreStep.of (fun _ _ => rfl) rfl rfl rfl (Or.inl rfl) (fun _ _ => trivial) (by simp [inSave]) (by rw [hpc]; simp [inDelta])
      (by simp) ?_
    intro L P hP
    unfold AConc.step
    rw [hth, hP, hpc]
    simp only [over_goto]
  · rename_i k mn mx c before rest got
    split at h
    · rename_i hrd
      have hrd' : ∀ L P, (s.over L P).readable t c i = true := fun _ _ => hrd
      split at h
      · rename_i e hs
        simp at h; subst h
        refine CoreStep.of (s1 := { s.see t c i with results := s.results ++ [(k, .panicked)] }) (fun u hu => see_other hu) rfl rfl rfl
          (Or.inl rfl) (fun _ _ => trivial) (by simp [inSave]) (by simp [inDelta]) (by simp) ?_
        intro L P hP
        unfold AConc.step
        rw [hth, hP, hpc]
        simp only
        rw [if_pos (hrd' L P)]
        show (match usizeSub s.profile ((s.loc c).val i) before with | .error _ => _ | .ok d => _) = _
        rw [hs]
        simp only
        rw [over_see]
        exact congrArg some (over_result L P (s.see t c i) t k .panicked)
      · rename_i d hs
        simp at h; subst h
        refine CoreStep.of (fun u hu => see_other hu) rfl rfl rfl (Or.inl rfl) (fun _ _ => trivial) (by simp [inSave])
          (by rw [hpc]; simp [inDelta]) (by simp) ?_
        intro L P hP
        unfold AConc.step
        rw [hth, hP, hpc]
        simp only
        rw [if_pos (hrd' L P)]
        show (match usizeSub s.profile ((s.loc c).val i) before with | .error _ => _ | .ok d => _) = _
        rw [hs]
        simp only
        rw [over_see, over_goto]
    · simp at h
  · rename_i k mn mx got
    split at h
    · rename_i hrd
      simp at h; subst h
      refine CoreStep.of (s1 := { s.see t .currentUsedMemory i with results := _ }) (fun u hu => see_other hu) rfl rfl rfl
          (Or.inl rfl) (fun _ _ => trivial) (by simp [inSave]) (by simp [inDelta]) (by simp) ?_
      intro L P hP
      unfold AConc.step
      rw [hth, hP, hpc]
      simp only
      rw [if_pos (show (s.over L P).readable t .currentUsedMemory i = true from hrd), over_see]
      exact congrArg some (over_result L P (s.see t .currentUsedMemory i) t k _)
    · simp at h

/-- what entering a call, or synchronising, does -/
structure EnterStep (s s' : AConc) (a : AAct) : Prop where
  idle : (s.th a.tid).pc = .idle
  others : ∀ u, u ≠ a.tid → s'.th u = s.th u
  size : s'.size = s.size
  profile : s'.profile = s.profile
  slots : s'.slots = s.slots
  saved : s'.saved = s.saved
  heads : ∀ n, PcHead n (s'.th a.tid).pc
  save : inSave (s'.th a.tid).pc = true → ∃ t, a = .save t
  delta : inDelta (s'.th a.tid).pc = true → ∃ t k, a = .delta t k
  peek : ∀ k, (s'.th a.tid).pc = .dPeek k → ∃ sp, s.saved[k]? = some sp
  over : ∀ L P, P a.tid = .idle → (s.over L P).act a = some (s'.over L (atPc P a.tid (s'.th a.tid).pc))

theorem atPc_self {P : Nat → APc} {t x} (h : P t = x) : atPc P t x = P := by
  funext u; unfold atPc; split
  · subst_vars; rfl
  · rfl

theorem enter_step {s s' : AConc} {a : AAct} (ha : ∀ t i ok, a ≠ .step t i ok) (h : s.act a = some s') : EnterStep s s' a := by
  have hth : ∀ (L : List Slot) (P : Nat → APc) t, ((s.over L P).th t).pc = P t := fun _ _ _ => rfl
  cases a with
  | step t i ok => exact absurd rfl (ha t i ok)
  | call t c =>
    simp only [AConc.act] at h
    split at h
    · rename_i hc
      simp at h; subst h
      obtain ⟨f1, f2, f3⟩ := toRmw_facts (rmws c)
      have e : ∀ s1 : AConc, ((s1.goto t (toRmw (rmws c))).th t).pc = toRmw (rmws c) := fun s1 => by rw [goto_pc, if_pos rfl]
      refine ⟨hc.1, fun u hu => goto_other hu, rfl, rfl, rfl, rfl, ?_, ?_, ?_, ?_, ?_⟩ <;> simp only [AAct.tid, e]
      · exact f1
      · rw [f2]; simp
      · rw [f3]; simp
      · cases rmws c <;> simp [toRmw]
      · intro L P hP
        simp only [AConc.act]
        rw [if_pos ⟨(hth L P t).trans hP, hc.2⟩]
        exact congrArg some (over_goto L P { s with started := s.started ++ [c] } t _)
    · simp at h
  | save t =>
    simp only [AConc.act] at h
    split at h
    · rename_i hc
      simp at h; subst h
      have e : ∀ s1 : AConc, ((s1.goto t .spMin).th t).pc = .spMin := fun s1 => by rw [goto_pc, if_pos rfl]
      refine ⟨hc, fun u hu => goto_other hu, rfl, rfl, rfl, rfl, ?_, ?_, ?_, ?_, ?_⟩ <;> simp only [AAct.tid, e]
      · exact fun _ => trivial
      · exact fun _ => ⟨t, rfl⟩
      · simp [inDelta]
      · simp
      · intro L P hP
        simp only [AConc.act]
        rw [if_pos ((hth L P t).trans hP), over_goto]
    · simp at h
  | delta t k =>
    simp only [AConc.act] at h
    split at h
    · rename_i hc
      split at h
      · simp at h
      · rename_i sp hsp
        simp at h; subst h
        have e : ∀ s1 : AConc, ((s1.goto t (.dPeek k)).th t).pc = .dPeek k := fun s1 => by rw [goto_pc, if_pos rfl]
        refine ⟨hc, fun u hu => (goto_other hu).trans (learn_other hu), rfl, rfl, rfl, rfl, ?_, ?_, ?_, ?_, ?_⟩ <;> simp only [AAct.tid, e]
        · exact fun _ => trivial
        · simp [inSave]
        · exact fun _ => ⟨t, k, rfl⟩
        · intro k' hk; cases hk; exact ⟨sp, hsp⟩
        · intro L P hP
          simp only [AConc.act]
          rw [if_pos ((hth L P t).trans hP), show (s.over L P).saved = s.saved from rfl, hsp]
          simp only
          rw [over_learn, over_goto]
    · simp at h
  | sync t u =>
    simp only [AConc.act] at h
    split at h
    · rename_i hc
      simp at h; subst h
      have e : ((s.learn t (s.th u).view).th t).pc = .idle := by rw [learn_pc]; exact hc
      refine ⟨hc, fun u hu => learn_other hu, rfl, rfl, rfl, rfl, ?_, ?_, ?_, ?_, ?_⟩ <;> simp only [AAct.tid, e]
      · exact fun _ => trivial
      · simp [inSave]
      · simp [inDelta]
      · simp
      · intro L P hP
        simp only [AConc.act]
        rw [if_pos ((hth L P t).trans hP), atPc_self hP]
        exact congrArg some (over_learn L P s t _)
    · simp at h

/-! ## the slots handed out by `peek_all` -/

theorem peekIndices_eq {p : Profile} {N h pub : Nat} (hN : 0 < N) (hN32 : N < 2 ^ 32) (hle : h ≤ pub) (hpub : pub < 2 ^ 32) :
    peekIndices p N h pub = if pub > h + N then .ok (.error (overflowError N pub h))
      else .ok (.ok ((List.range' h (pub - h)).map (· % N))) := by
  unfold peekIndices
  rw [if_neg (by omega)]
  simp only
  by_cases e : h = pub
  · subst e
    rw [if_pos rfl, if_neg (by omega), Nat.sub_self]
    rfl
  · rw [if_neg e]
    have hs : u32Sub p pub h = .ok (pub - h) := by unfold u32Sub; rw [if_pos hle]
    rw [hs]
    simp only
    rw [Nat.mod_eq_of_lt hN32]
    by_cases ho : pub > h + N
    · rw [if_pos (by omega), if_pos ho]
    · rw [if_neg (by omega), if_neg ho, range_mod hN (by omega) (by omega), show h + (pub - h) = pub by omega]
      split <;> rfl

/-- `peek_all` hands out the contents of these slots: the model of the whole call (`Verif.Model.Ring`) and the model of its steps agree -/
theorem peekAll_indices (p : Profile) (N : Nat) (r : Ring Slot) (h : Nat) :
    r.peekAll p N h = match peekIndices p N h r.published with
      | .panic e => .panic e
      | .diverges => .diverges
      | .ok (.error e) => .ok (.error e)
      | .ok (.ok js) =>
        if h = r.published then .ok (.ok ([], []))
        else if h % N < r.published % N then .ok (.ok (js.map r.slot, []))
        else .ok (.ok ((js.take (N - h % N)).map r.slot, (js.drop (N - h % N)).map r.slot)) := by
  unfold Ring.peekAll peekIndices
  split
  · rfl
  · simp only
    split
    · rfl
    · rename_i hne
      cases u32Sub p r.published h with
      | error e => rfl
      | ok d =>
        simp only
        by_cases hd : d > N % 2 ^ 32
        · simp only [if_pos hd]
        · simp only [if_neg hd]
          split
          · simp only [Ring.slice]
          · simp only [Ring.slice, Nat.sub_zero]
            rw [List.take_left' (by simp), List.drop_left' (by simp)]

/-! ## the invariant -/

/-- the thread has reserved position `r` for `e` and not published it -/
def Pending (x : FPc) (e : Slot) (r : Nat) : Prop := x = .reserved e r ∨ x = .written e r

/-- holds in every execution with fewer than 2^32 save points -/
structure FInv (f : AFine) : Prop where
  size : 0 < f.core.size
  size32 : f.core.size < 2 ^ 32
  small : f.begun < 2 ^ 32
  res : f.ring.reserved = f.begun
  le : f.ring.published ≤ f.begun
  pend : ∀ t x r, Pending (f.rpc t) x r → f.ring.published ≤ r ∧ r < f.begun ∧ (f.core.th t).pc = .spEnqueue x.min x.max
  distinct : ∀ t u x y r, Pending (f.rpc t) x r → Pending (f.rpc u) y r → t = u
  cover : ∀ r, f.ring.published ≤ r → r < f.begun → ∃ t x, Pending (f.rpc t) x r
  initd : ∀ p, p < f.ring.published → f.ring.slot (p % f.core.size) ≠ none
  initW : ∀ t x r, f.rpc t = .written x r → f.ring.slot (r % f.core.size) ≠ none
  peek : ∀ t k h, f.rpc t = .peekHead k h → (f.core.th t).pc = .dPeek k ∧ ∃ sp, f.core.saved[k]? = some sp ∧ sp.head = h
  reading : ∀ t k mn mx rest, f.rpc t = .reading k mn mx rest →
    (f.core.th t).pc = .dPeek k ∧ ∀ q ∈ rest, f.ring.slot q.1 ≠ none
  calm : ∀ t e, f.rpc t ≠ .panicked e
  heads : ∀ (k : Nat) (sp : CSave), f.core.saved[k]? = some sp → sp.head ≤ f.ring.published
  hd : ∀ t, PcHead f.ring.published (f.core.th t).pc

theorem finv_init {p : Profile} {N : Nat} (hN : 0 < N) (hN32 : N < 2 ^ 32) (s : Stats) : FInv (AFine.init p N s) := by
  have np : ∀ x r, ¬ Pending .out x r := by rintro x r (h | h) <;> cases h
  refine ⟨hN, hN32, by show 0 < 2 ^ 32; omega, rfl, Nat.le_refl 0, fun t x r h => absurd h (np x r), fun t u x y r h => absurd h (np x r), ?_, ?_,
    ?_, ?_, ?_, ?_, ?_, fun t => trivial⟩
  · intro r _ h; exact absurd h (Nat.not_lt_zero _)
  · intro r h; exact absurd h (Nat.not_lt_zero _)
  · intro t x r h; cases h
  · intro t k h e; cases e
  · intro t k mn mx rest e; cases e
  · intro t e h; cases h
  · intro k sp h; simp [AFine.init, AConc.init] at h

/-- thread `t`, outside the ring operations, changes the statistics -/
theorem FInv.coreChange {f : AFine} (h : FInv f) {t : Nat} {c : AConc} (ht : f.rpc t = .out)
    (ho : ∀ u, u ≠ t → (c.th u).pc = (f.core.th u).pc) (hsz : c.size = f.core.size)
    (hsv : ∀ (k : Nat) (sp : CSave), f.core.saved[k]? = some sp → c.saved[k]? = some sp)
    (hhd : ∀ (k : Nat) (sp : CSave), c.saved[k]? = some sp → sp.head ≤ f.ring.published) (hpc : PcHead f.ring.published (c.th t).pc) :
    FInv { f with core := c } := by
  have ne : ∀ u, f.rpc u ≠ .out → u ≠ t := fun u hu e => hu (by rw [e]; exact ht)
  have hs : ({ f with core := c } : AFine).core.size = f.core.size := hsz
  refine ⟨hs ▸ h.size, hs ▸ h.size32, h.small, h.res, h.le, ?_, h.distinct, h.cover, ?_, ?_, ?_, ?_, h.calm, hhd, ?_⟩
  · intro u x r hp
    obtain ⟨a, b, d⟩ := h.pend u x r hp
    refine ⟨a, b, ?_⟩
    show (c.th u).pc = _
    rw [ho u (ne u (by rcases hp with e | e <;> (change f.rpc u = _ at e; rw [e]; simp)))]
    exact d
  · rw [hs]; exact h.initd
  · rw [hs]; exact h.initW
  · intro u k hh e
    obtain ⟨a, sp, b, d⟩ := h.peek u k hh e
    refine ⟨?_, sp, hsv k sp b, d⟩
    show (c.th u).pc = _
    rw [ho u (ne u (by change f.rpc u = _ at e; rw [e]; simp))]; exact a
  · intro u k mn mx rest e
    obtain ⟨a, b⟩ := h.reading u k mn mx rest e
    refine ⟨?_, b⟩
    show (c.th u).pc = _
    rw [ho u (ne u (by change f.rpc u = _ at e; rw [e]; simp))]; exact a
  · intro u
    by_cases hu : u = t
    · rw [hu]; exact hpc
    · show PcHead _ (c.th u).pc
      rw [ho u hu]; exact h.hd u


theorem setRpc_same (f : AFine) (t x) : (f.setRpc t x).rpc t = x := by simp [AFine.setRpc]
theorem setRpc_other {f : AFine} {t u x} (h : u ≠ t) : (f.setRpc t x).rpc u = f.rpc u := by simp [AFine.setRpc, h]

theorem not_pending_out (e r) : ¬ Pending .out e r := by rintro (h | h) <;> cases h
theorem not_pending_peek (k h e r) : ¬ Pending (.peekHead k h) e r := by rintro (h | h) <;> cases h
theorem not_pending_reading (k mn mx rest e r) : ¬ Pending (.reading k mn mx rest) e r := by rintro (h | h) <;> cases h

/-- thread `t` moves in a ring operation other than `enqueue`, or leaves it -/
theorem FInv.rpcChange {f : AFine} (h : FInv f) {t : Nat} {x : FPc} (hold : ∀ e r, ¬ Pending (f.rpc t) e r) (hnew : ∀ e r, ¬ Pending x e r)
    (hpk : ∀ k hh, x = .peekHead k hh → (f.core.th t).pc = .dPeek k ∧ ∃ sp, f.core.saved[k]? = some sp ∧ sp.head = hh)
    (hrd : ∀ k mn mx rest, x = .reading k mn mx rest → (f.core.th t).pc = .dPeek k ∧ ∀ q ∈ rest, f.ring.slot q.1 ≠ none)
    (hpn : ∀ e, x ≠ .panicked e) : FInv (f.setRpc t x) := by
  have key : ∀ u e r, Pending ((f.setRpc t x).rpc u) e r → Pending (f.rpc u) e r := by
    intro u e r hp
    by_cases hu : u = t
    · subst hu; rw [setRpc_same] at hp; exact absurd hp (hnew e r)
    · rw [setRpc_other hu] at hp; exact hp
  refine ⟨h.size, h.size32, h.small, h.res, h.le, fun u e r hp => h.pend u e r (key u e r hp),
    fun u v x y r hp hq => h.distinct u v x y r (key _ _ _ hp) (key _ _ _ hq), ?_, h.initd, ?_, ?_, ?_, ?_, h.heads, h.hd⟩
  · intro r h1 h2
    obtain ⟨u, e, hp⟩ := h.cover r h1 h2
    refine ⟨u, e, ?_⟩
    rw [setRpc_other (fun hu : u = t => hold e r (hu ▸ hp))]
    exact hp
  · intro u e r hp
    by_cases hu : u = t
    · subst hu; rw [setRpc_same] at hp; exact absurd (Or.inr hp) (hnew e r)
    · rw [setRpc_other hu] at hp; exact h.initW u e r hp
  · intro u k hh e
    by_cases hu : u = t
    · subst hu; rw [setRpc_same] at e; exact hpk k hh e
    · rw [setRpc_other hu] at e; exact h.peek u k hh e
  · intro u k mn mx rest e
    by_cases hu : u = t
    · subst hu; rw [setRpc_same] at e; exact hrd k mn mx rest e
    · rw [setRpc_other hu] at e; exact h.reading u k mn mx rest e
  · intro u e hp
    by_cases hu : u = t
    · subst hu; rw [setRpc_same] at hp; exact hpn e hp
    · rw [setRpc_other hu] at hp; exact h.calm u e hp

/-- thread `t` reserves a position -/
theorem FInv.reserve {f : AFine} (h : FInv f) {t : Nat} {mn mx : Nat} (ht : f.rpc t = .out) (hpc : (f.core.th t).pc = .spEnqueue mn mx)
    (hs : f.begun + 1 < 2 ^ 32) :
    FInv ({ f with ring := { f.ring with reserved := (f.ring.reserved + 1) % 2 ^ 32 }, begun := f.begun + 1 }.setRpc t
      (.reserved ⟨mn, mx⟩ f.ring.reserved)) := by
  generalize hf : ({ f with ring := { f.ring with reserved := (f.ring.reserved + 1) % 2 ^ 32 }, begun := f.begun + 1 } : AFine) = g
  have gc : g.core = f.core := by rw [← hf]
  have gb : g.begun = f.begun + 1 := by rw [← hf]
  have gp : g.ring.published = f.ring.published := by rw [← hf]
  have gs : g.ring.slot = f.ring.slot := by rw [← hf]
  have gr : g.rpc = f.rpc := by rw [← hf]
  have gres : g.ring.reserved = f.begun + 1 := by
    rw [← hf]; show (f.ring.reserved + 1) % 2 ^ 32 = _
    rw [h.res]; exact Nat.mod_eq_of_lt hs
  have old : ∀ u, u ≠ t → (g.setRpc t (.reserved ⟨mn, mx⟩ f.ring.reserved)).rpc u = f.rpc u := fun u hu => by rw [setRpc_other hu, gr]
  have new := setRpc_same g t (.reserved ⟨mn, mx⟩ f.ring.reserved)
  refine ⟨?_, ?_, ?_, ?_, ?_, ?_, ?_, ?_, ?_, ?_, ?_, ?_, ?_, ?_, ?_⟩ <;>
    try simp only [show ∀ x, (g.setRpc t x).core = f.core from fun _ => gc, show ∀ x, (g.setRpc t x).begun = f.begun + 1 from fun _ => gb,
      show ∀ x, (g.setRpc t x).ring.published = f.ring.published from fun _ => gp, show ∀ x, (g.setRpc t x).ring.slot = f.ring.slot from fun _ => gs,
      show ∀ x, (g.setRpc t x).ring.reserved = f.begun + 1 from fun _ => gres]
  · exact h.size
  · exact h.size32
  · exact hs
  · exact Nat.le_succ_of_le h.le
  · intro u x r hp
    by_cases hu : u = t
    · subst hu
      rw [new] at hp
      rcases hp with e | e
      · injection e with e1 e2
        subst e1; subst e2
        rw [h.res]
        exact ⟨h.le, Nat.lt_succ_self _, hpc⟩
      · cases e
    · rw [old u hu] at hp
      obtain ⟨a, b, c⟩ := h.pend u x r hp
      exact ⟨a, Nat.lt_succ_of_lt b, c⟩
  · intro u v x y r hp hq
    by_cases hu : u = t <;> by_cases hv : v = t
    · rw [hu, hv]
    · exfalso
      subst hu
      rw [new] at hp
      rw [old v hv] at hq
      have := (h.pend v y r hq).2.1
      rcases hp with e | e
      · injection e with e1 e2
        rw [← e2, h.res] at this
        exact Nat.lt_irrefl _ this
      · cases e
    · exfalso
      subst hv
      rw [new] at hq
      rw [old u hu] at hp
      have := (h.pend u x r hp).2.1
      rcases hq with e | e
      · injection e with e1 e2
        rw [← e2, h.res] at this
        exact Nat.lt_irrefl _ this
      · cases e
    · rw [old u hu] at hp
      rw [old v hv] at hq
      exact h.distinct u v x y r hp hq
  · intro r h1 h2
    by_cases hr : r = f.begun
    · exact ⟨t, ⟨mn, mx⟩, by rw [new, hr, h.res]; exact Or.inl rfl⟩
    · obtain ⟨u, e, hp⟩ := h.cover r h1 (by omega)
      refine ⟨u, e, ?_⟩
      rw [old u (fun hu => not_pending_out e r (by rw [← ht, ← hu]; exact hp))]
      exact hp
  · exact h.initd
  · intro u x r hp
    by_cases hu : u = t
    · subst hu; rw [new] at hp; cases hp
    · rw [old u hu] at hp; exact h.initW u x r hp
  · intro u k hh e
    by_cases hu : u = t
    · subst hu; rw [new] at e; cases e
    · rw [old u hu] at e; exact h.peek u k hh e
  · intro u k a b rest e
    by_cases hu : u = t
    · subst hu; rw [new] at e; cases e
    · rw [old u hu] at e; exact h.reading u k a b rest e
  · intro u e hp
    by_cases hu : u = t
    · subst hu; rw [new] at hp; cases hp
    · rw [old u hu] at hp; exact h.calm u e hp
  · exact h.heads
  · exact h.hd

theorem write_slot_ne {r : Ring Slot} {j i : Nat} {x : Slot} (h : r.slot j ≠ none) : (r.write i x).slot j ≠ none := by
  unfold Ring.write
  simp only
  split
  · simp
  · exact h

/-- thread `t` stores its element -/
theorem FInv.store {f : AFine} (h : FInv f) {t : Nat} {x : Slot} {r : Nat} (ht : f.rpc t = .reserved x r) :
    FInv ({ f with ring := f.ring.write (r % f.core.size) x }.setRpc t (.written x r)) := by
  have key : ∀ u e q, Pending ((f.setRpc t (.written x r)).rpc u) e q → Pending (f.rpc u) e q := by
    intro u e q hp
    by_cases hu : u = t
    · subst hu
      rw [setRpc_same] at hp
      rcases hp with e' | e'
      · cases e'
      · injection e' with e1 e2
        subst e1; subst e2
        exact Or.inl ht
    · rw [setRpc_other hu] at hp; exact hp
  refine ⟨h.size, h.size32, h.small, h.res, h.le, fun u e q hp => h.pend u e q (key u e q hp),
    fun u v x y q hp hq => h.distinct u v x y q (key _ _ _ hp) (key _ _ _ hq), ?_, fun p hp => write_slot_ne (h.initd p hp), ?_, ?_, ?_, ?_,
    h.heads, h.hd⟩
  · intro q h1 h2
    obtain ⟨u, e, hp⟩ := h.cover q h1 h2
    refine ⟨u, e, ?_⟩
    show Pending ((f.setRpc t (.written x r)).rpc u) e q
    by_cases hu : u = t
    · subst hu
      rw [ht] at hp
      rcases hp with e' | e'
      · injection e' with e1 e2
        subst e1; subst e2
        rw [setRpc_same]; exact Or.inr rfl
      · cases e'
    · rw [setRpc_other hu]; exact hp
  · intro u e q hp
    by_cases hu : u = t
    · subst hu
      have hp' : (f.setRpc u (.written x r)).rpc u = .written e q := hp
      rw [setRpc_same] at hp'
      injection hp' with e1 e2
      subst e1; subst e2
      show (f.ring.write (r % f.core.size) x).slot (r % f.core.size) ≠ none
      simp [Ring.write]
    · exact write_slot_ne (h.initW u e q (by rw [← setRpc_other (f := f) (x := .written x r) hu]; exact hp))
  · intro u k hh e
    have e' : (f.setRpc t (.written x r)).rpc u = .peekHead k hh := e
    by_cases hu : u = t
    · subst hu; rw [setRpc_same] at e'; cases e'
    · rw [setRpc_other hu] at e'; exact h.peek u k hh e'
  · intro u k mn mx rest e
    have e' : (f.setRpc t (.written x r)).rpc u = .reading k mn mx rest := e
    by_cases hu : u = t
    · subst hu; rw [setRpc_same] at e'; cases e'
    · rw [setRpc_other hu] at e'
      obtain ⟨a, b⟩ := h.reading u k mn mx rest e'
      exact ⟨a, fun q hq => write_slot_ne (b q hq)⟩
  · intro u e hp
    have e' : (f.setRpc t (.written x r)).rpc u = .panicked e := hp
    by_cases hu : u = t
    · subst hu; rw [setRpc_same] at e'; cases e'
    · rw [setRpc_other hu] at e'; exact h.calm u e e'

theorem PcHead.mono {n m : Nat} (h : n ≤ m) {pc : APc} (hp : PcHead n pc) : PcHead m pc := by
  cases pc <;> first | trivial | exact Nat.le_trans hp h

/-- thread `t` publishes its element -/
theorem FInv.publish {f : AFine} (h : FInv f) {t : Nat} {x : Slot} {r : Nat} (ht : f.rpc t = .written x r) (hr : f.ring.published = r) :
    FInv ({ f with ring := { f.ring with published := r + 1 }, core := f.core.goto t .spConsumer }.setRpc t .out) := by
  have hp0 : Pending (f.rpc t) x r := Or.inr ht
  obtain ⟨p1, p2, p3⟩ := h.pend t x r hp0
  generalize hf : ({ f with ring := { f.ring with published := r + 1 }, core := f.core.goto t .spConsumer } : AFine) = g
  have gc : g.core = f.core.goto t .spConsumer := by rw [← hf]
  have gb : g.begun = f.begun := by rw [← hf]
  have gp : g.ring.published = r + 1 := by rw [← hf]
  have gs : g.ring.slot = f.ring.slot := by rw [← hf]
  have gr : g.rpc = f.rpc := by rw [← hf]
  have gres : g.ring.reserved = f.begun := by rw [← hf]; exact h.res
  have old : ∀ u, u ≠ t → (g.setRpc t .out).rpc u = f.rpc u := fun u hu => by rw [setRpc_other hu, gr]
  have new := setRpc_same g t .out
  have other : ∀ u, u ≠ t → ((f.core.goto t .spConsumer).th u).pc = (f.core.th u).pc := fun u hu => by rw [goto_other hu]
  have key : ∀ u e q, Pending ((g.setRpc t .out).rpc u) e q → u ≠ t ∧ Pending (f.rpc u) e q := by
    intro u e q hp
    by_cases hu : u = t
    · subst hu; rw [new] at hp; exact absurd hp (not_pending_out e q)
    · rw [old u hu] at hp; exact ⟨hu, hp⟩
  refine ⟨?_, ?_, ?_, ?_, ?_, ?_, ?_, ?_, ?_, ?_, ?_, ?_, ?_, ?_, ?_⟩ <;>
    try simp only [show ∀ x, (g.setRpc t x).core = f.core.goto t .spConsumer from fun _ => gc, show ∀ x, (g.setRpc t x).begun = f.begun from fun _ => gb,
      show ∀ x, (g.setRpc t x).ring.published = r + 1 from fun _ => gp, show ∀ x, (g.setRpc t x).ring.slot = f.ring.slot from fun _ => gs,
      show ∀ x, (g.setRpc t x).ring.reserved = f.begun from fun _ => gres, show (f.core.goto t .spConsumer).size = f.core.size from rfl,
      show (f.core.goto t .spConsumer).saved = f.core.saved from rfl]
  · exact h.size
  · exact h.size32
  · exact h.small
  · exact p2
  · intro u e q hp
    obtain ⟨hu, hp⟩ := key u e q hp
    obtain ⟨a, b, c⟩ := h.pend u e q hp
    have hne : q ≠ r := fun eq => hu (h.distinct u t e x r (eq ▸ hp) hp0)
    rw [hr] at a
    exact ⟨by omega, b, by rw [other u hu]; exact c⟩
  · intro u v a b q hp hq
    exact h.distinct u v a b q (key _ _ _ hp).2 (key _ _ _ hq).2
  · intro q h1 h2
    obtain ⟨u, e, hp⟩ := h.cover q (by omega) h2
    have hu : u ≠ t := by
      intro hu
      rw [hu, ht] at hp
      rcases hp with e' | e'
      · cases e'
      · injection e' with e1 e2; omega
    exact ⟨u, e, by rw [old u hu]; exact hp⟩
  · intro q hq
    by_cases hqr : q = r
    · rw [hqr]; exact h.initW t x r ht
    · exact h.initd q (by omega)
  · intro u e q hp
    exact h.initW u e q (by rw [← old u (key u e q (Or.inr hp)).1]; exact hp)
  · intro u k hh e
    by_cases hu : u = t
    · subst hu; rw [new] at e; cases e
    · rw [old u hu] at e; rw [other u hu]; exact h.peek u k hh e
  · intro u k a b rest e
    by_cases hu : u = t
    · subst hu; rw [new] at e; cases e
    · rw [old u hu] at e; rw [other u hu]; exact h.reading u k a b rest e
  · intro u e hp
    by_cases hu : u = t
    · subst hu; rw [new] at hp; cases hp
    · rw [old u hu] at hp; exact h.calm u e hp
  · intro k sp hk
    have := h.heads k sp hk
    omega
  · intro u
    by_cases hu : u = t
    · subst hu; rw [goto_pc, if_pos rfl]; trivial
    · rw [other u hu]; exact (h.hd u).mono (by omega)


/-! ## the kinds of step -/

/-- the steps of thread `t` -/
inductive FStep (f : AFine) (t i : Nat) (ok : Bool) : AFine → Prop
  | reserve (mn mx : Nat) (hr : f.rpc t = .out) (hpc : (f.core.th t).pc = .spEnqueue mn mx) :
    FStep f t i ok ({ f with ring := { f.ring with reserved := (f.ring.reserved + 1) % 2 ^ 32 }, begun := f.begun + 1 }.setRpc t
      (.reserved ⟨mn, mx⟩ f.ring.reserved))
  | consumer (hr : f.rpc t = .out) (hpc : (f.core.th t).pc = .spConsumer) :
    FStep f t i ok { f with core := f.core.goto t (.spCur1 f.ring.published) }
  | enterPeek (k : Nat) (sp : CSave) (hr : f.rpc t = .out) (hpc : (f.core.th t).pc = .dPeek k) (hsp : f.core.saved[k]? = some sp) :
    FStep f t i ok (f.setRpc t (.peekHead k sp.head))
  | core (c : AConc) (hr : f.rpc t = .out) (hpc : atRing (f.core.th t).pc = false) (hc : f.core.step t i ok = some c) :
    FStep f t i ok { f with core := c }
  | store (x : Slot) (r : Nat) (hr : f.rpc t = .reserved x r) (hN : f.core.size ≠ 0) :
    FStep f t i ok ({ f with ring := f.ring.write (r % f.core.size) x }.setRpc t (.written x r))
  | storePanic (x : Slot) (r : Nat) (hr : f.rpc t = .reserved x r) (hN : f.core.size = 0) : FStep f t i ok (f.setRpc t (.panicked .remByZero))
  | publish (x : Slot) (r next : Nat) (hr : f.rpc t = .written x r) (hn : u32Add f.core.profile r 1 = .ok next) (hok : ok = true)
    (hp : f.ring.published = r) :
    FStep f t i ok ({ f with ring := { f.ring with published := next }, core := f.core.goto t .spConsumer }.setRpc t .out)
  | retry (x : Slot) (r : Nat) (hr : f.rpc t = .written x r) (hok : ok = false) (hp : f.ring.published ≤ r) :
    FStep f t i ok (f.setRpc t (.written x r))
  | publishPanic (x : Slot) (r : Nat) (e : Panic) (hr : f.rpc t = .written x r) (hp : (∃ q, u32Add f.core.profile r 1 = .error q) ∨ f.ring.published > r) :
    FStep f t i ok (f.setRpc t (.panicked e))
  | peekPanic (k h : Nat) (e : Panic) (hr : f.rpc t = .peekHead k h) (hp : peekIndices f.core.profile f.core.size h f.ring.published = .panic e) :
    FStep f t i ok (f.setRpc t (.panicked e))
  | peekErr (k h : Nat) (e : OverflowError) (hr : f.rpc t = .peekHead k h)
    (hp : peekIndices f.core.profile f.core.size h f.ring.published = .ok (.error e)) :
    FStep f t i ok ({ f with core := f.core.result t k .overflow }.setRpc t .out)
  | peekOk (k h : Nat) (js : List Nat) (hr : f.rpc t = .peekHead k h)
    (hp : peekIndices f.core.profile f.core.size h f.ring.published = .ok (.ok js)) :
    FStep f t i ok (f.setRpc t (.reading k usizeMax 0 (fieldLoads js)))
  | readDone (k mn mx : Nat) (hr : f.rpc t = .reading k mn mx []) :
    FStep f t i ok ({ f with core := f.core.goto t (.dMin k mn mx) }.setRpc t .out)
  | readPanic (k mn mx j : Nat) (fd : SlotField) (rest : List (Nat × SlotField)) (e : Panic) (hr : f.rpc t = .reading k mn mx ((j, fd) :: rest))
    (hp : f.ring.slot j = none) : FStep f t i ok (f.setRpc t (.panicked e))
  | read (k mn mx j : Nat) (fd : SlotField) (rest : List (Nat × SlotField)) (x : Slot) (hr : f.rpc t = .reading k mn mx ((j, fd) :: rest))
    (hp : f.ring.slot j = some x) :
    FStep f t i ok (f.setRpc t (.reading k (loadField x fd (mn, mx)).1 (loadField x fd (mn, mx)).2 rest))

theorem fstep_of {f f' : AFine} {t i ok} (h : f.step t i ok = some f') : FStep f t i ok f' := by
  unfold AFine.step at h
  split at h
  · rename_i hr
    have hcore : atRing (f.core.th t).pc = false → (f.core.step t i ok).map (fun c => ({ f with core := c } : AFine)) = some f' →
        FStep f t i ok f' := by
      intro hp hm
      obtain ⟨c, hc, rfl⟩ := Option.map_eq_some_iff.1 hm
      exact .core c hr hp hc
    cases hpc : (f.core.th t).pc <;> rw [hpc] at h <;> simp only [AFine.outStep] at h
    case spEnqueue mn mx => injection h with h; subst h; exact .reserve mn mx hr hpc
    case spConsumer => injection h with h; subst h; exact .consumer hr hpc
    case dPeek k =>
      obtain ⟨sp, hsp, rfl⟩ := Option.map_eq_some_iff.1 h
      exact .enterPeek k sp hr hpc hsp
    all_goals exact hcore (by rw [hpc]; rfl) h
  · rename_i hx
    cases hr : f.rpc t with
    | out => exact absurd hr hx
    | panicked e => rw [hr] at h; simp [AFine.ringStep] at h
    | reserved x r =>
      rw [hr] at h
      simp only [AFine.ringStep] at h
      split at h
      · rename_i hN; injection h with h; subst h; exact .storePanic x r hr hN
      · rename_i hN; injection h with h; subst h; exact .store x r hr hN
    | written x r =>
      rw [hr] at h
      simp only [AFine.ringStep] at h
      split at h
      · rename_i e he; injection h with h; subst h; exact .publishPanic x r e hr (Or.inl ⟨e, he⟩)
      · rename_i next hn
        split at h
        · rename_i hok
          split at h
          · rename_i hp; injection h with h; subst h; exact .publish x r next hr hn hok hp
          · cases h
        · rename_i hok
          split at h
          · rename_i hp; injection h with h; subst h; exact .publishPanic x r _ hr (Or.inr hp)
          · rename_i hp; injection h with h; subst h; exact .retry x r hr (by simpa using hok) (Nat.le_of_not_lt hp)
    | peekHead k hh =>
      rw [hr] at h
      simp only [AFine.ringStep] at h
      split at h
      · rename_i e he; injection h with h; subst h; exact .peekPanic k hh e hr he
      · cases h
      · rename_i e he; injection h with h; subst h; exact .peekErr k hh e hr he
      · rename_i js he; injection h with h; subst h; exact .peekOk k hh js hr he
    | reading k mn mx rest =>
      rw [hr] at h
      cases rest with
      | nil =>
        simp only [AFine.ringStep] at h
        injection h with h; subst h; exact .readDone k mn mx hr
      | cons q rest =>
        obtain ⟨j, fd⟩ := q
        simp only [AFine.ringStep] at h
        split at h
        · rename_i hs; injection h with h; subst h; exact .readPanic k mn mx j fd rest _ hr hs
        · rename_i x hs; injection h with h; subst h; exact .read k mn mx j fd rest x hr hs

theorem mem_fieldLoads {js : List Nat} {q : Nat × SlotField} (h : q ∈ fieldLoads js) : q.1 ∈ js := by
  unfold fieldLoads at h
  obtain ⟨j, hj, hq⟩ := List.mem_flatMap.1 h
  simp only [List.mem_cons, List.not_mem_nil, or_false] at hq
  rcases hq with rfl | rfl <;> exact hj

theorem getElem?_append_some {l : List CSave} {k : Nat} {sp : CSave} (x : List CSave) (h : l[k]? = some sp) : (l ++ x)[k]? = some sp := by
  obtain ⟨hk, _⟩ := List.getElem?_eq_some_iff.1 h
  rw [List.getElem?_append_left hk]; exact h

theorem CoreStep.savedHeads {s s' : AConc} {t i ok n} (h : CoreStep s s' t i ok) (hh : ∀ (k : Nat) (sp : CSave), s.saved[k]? = some sp → sp.head ≤ n)
    (hp : PcHead n (s.th t).pc) : ∀ (k : Nat) (sp : CSave), s'.saved[k]? = some sp → sp.head ≤ n := by
  intro k sp hk
  rcases h.saved with e | ⟨hd, got, e, v, e'⟩
  · rw [e] at hk; exact hh k sp hk
  · rw [e'] at hk
    rw [e] at hp
    by_cases hlt : k < s.saved.length
    · rw [List.getElem?_append_left hlt] at hk; exact hh k sp hk
    · rw [List.getElem?_append_right (by omega)] at hk
      cases hi : k - s.saved.length with
      | zero => rw [hi] at hk; simp at hk; rw [← hk]; exact hp
      | succ j => rw [hi] at hk; simp at hk

theorem CoreStep.savedKept {s s' : AConc} {t i ok} (h : CoreStep s s' t i ok) :
    ∀ (k : Nat) (sp : CSave), s.saved[k]? = some sp → s'.saved[k]? = some sp := by
  intro k sp hk
  rcases h.saved with e | ⟨hd, got, e, v, e'⟩
  · rw [e]; exact hk
  · rw [e']; exact getElem?_append_some _ hk

theorem FInv.stepped {f f' : AFine} {t i ok} (h : FInv f) (hs : FStep f t i ok f') (hb : f'.begun < 2 ^ 32) : FInv f' := by
  have addOk : ∀ r, r < f.begun → u32Add f.core.profile r 1 = .ok (r + 1) := by
    intro r hr
    have := h.small
    unfold u32Add; rw [if_pos (by omega)]
  cases hs with
  | reserve mn mx hr hpc => exact h.reserve hr hpc hb
  | consumer hr hpc =>
    refine h.coreChange hr (fun u hu => by rw [goto_other hu]) rfl (fun k sp hk => hk) h.heads ?_
    rw [goto_pc, if_pos rfl]; exact Nat.le_refl _
  | enterPeek k sp hr hpc hsp =>
    refine h.rpcChange (by rw [hr]; exact not_pending_out) (not_pending_peek _ _) ?_ (by intro _ _ _ _ e; cases e) (by simp)
    intro k' hh e
    injection e with e1 e2
    subst e1; subst e2
    exact ⟨hpc, sp, hsp, rfl⟩
  | core c hr hpc hc =>
    have hk := core_step hpc hc
    exact h.coreChange hr (fun u hu => by rw [hk.others u hu]) hk.size hk.savedKept (hk.savedHeads h.heads (h.hd t)) (hk.heads _ (h.hd t))
  | store x r hr hN => exact h.store hr
  | storePanic x r hr hN => exact absurd hN (Nat.pos_iff_ne_zero.1 h.size)
  | publish x r next hr hn hok hp =>
    have := addOk r (h.pend t x r (Or.inr hr)).2.1
    rw [hn] at this
    injection this with this
    subst this
    exact h.publish hr hp
  | retry x r hr hok hp =>
    have : f.setRpc t (.written x r) = f := by
      unfold AFine.setRpc
      have : (fun u => if u = t then FPc.written x r else f.rpc u) = f.rpc := by
        funext u; split
        · subst_vars; exact hr.symm
        · rfl
      rw [this]
    rw [this]; exact h
  | publishPanic x r e hr hp =>
    exfalso
    obtain ⟨a, b, _⟩ := h.pend t x r (Or.inr hr)
    rcases hp with ⟨q, hq⟩ | hp
    · rw [addOk r b] at hq; cases hq
    · omega
  | peekPanic k hh e hr hp =>
    exfalso
    obtain ⟨_, sp, hsp, rfl⟩ := h.peek t k hh hr
    rw [peekIndices_eq h.size h.size32 (h.heads k sp hsp) (Nat.lt_of_le_of_lt h.le h.small)] at hp
    split at hp <;> cases hp
  | peekErr k hh e hr hp =>
    have h1 : FInv (f.setRpc t .out) := h.rpcChange (by rw [hr]; exact not_pending_peek _ _) not_pending_out (by simp) (by simp) (by simp)
    refine h1.coreChange (c := f.core.result t k .overflow) (setRpc_same f t .out) (fun u hu => by exact congrArg ATh.pc (goto_other hu)) rfl
      (fun k sp hk => hk) h.heads ?_
    exact (show ((f.core.result t k .overflow).th t).pc = .idle by unfold AConc.result; rw [goto_pc, if_pos rfl]) ▸ trivial
  | peekOk k hh js hr hp =>
    obtain ⟨a, sp, hsp, rfl⟩ := h.peek t k hh hr
    refine h.rpcChange (by rw [hr]; exact not_pending_peek _ _) (not_pending_reading _ _ _ _) (by simp) ?_ (by simp)
    intro k' mn mx rest e
    injection e with e1 e2 e3 e4
    subst e1; subst e4
    refine ⟨a, ?_⟩
    intro q hq
    have hq' := mem_fieldLoads hq
    rw [peekIndices_eq h.size h.size32 (h.heads k sp hsp) (Nat.lt_of_le_of_lt h.le h.small)] at hp
    split at hp
    · cases hp
    · injection hp with hp
      injection hp with hp
      subst hp
      obtain ⟨p, hp1, hp2⟩ := List.mem_map.1 hq'
      rw [List.mem_range'_1] at hp1
      rw [← hp2]
      exact h.initd p (by omega)
  | readDone k mn mx hr =>
    have h1 : FInv (f.setRpc t .out) := h.rpcChange (by rw [hr]; exact not_pending_reading _ _ _ _) not_pending_out (by simp) (by simp) (by simp)
    refine h1.coreChange (c := f.core.goto t (.dMin k mn mx)) (setRpc_same f t .out) (fun u hu => by exact congrArg ATh.pc (goto_other hu)) rfl
      (fun k sp hk => hk) h.heads ?_
    rw [goto_pc, if_pos rfl]; trivial
  | readPanic k mn mx j fd rest e hr hp => exact absurd hp ((h.reading t k mn mx _ hr).2 (j, fd) (by simp))
  | read k mn mx j fd rest x hr hp =>
    refine h.rpcChange (by rw [hr]; exact not_pending_reading _ _ _ _) (not_pending_reading _ _ _ _) (by simp) ?_ (by simp)
    intro k' a b rest' e
    injection e with e1 e2 e3 e4
    subst e1; subst e4
    obtain ⟨p1, p2⟩ := h.reading t k mn mx _ hr
    exact ⟨p1, fun q hq => p2 q (by simp [hq])⟩

theorem act_cases {f f' : AFine} {a : AAct} (h : f.act a = some f') :
    (∃ t i ok, a = .step t i ok ∧ FStep f t i ok f') ∨
    ((∀ t i ok, a ≠ .step t i ok) ∧ ∃ c, EnterStep f.core c a ∧ f.core.act a = some c ∧ f' = { f with core := c }) := by
  cases a with
  | step t i ok => exact Or.inl ⟨t, i, ok, rfl, fstep_of h⟩
  | _ =>
    obtain ⟨c, hc, rfl⟩ := Option.map_eq_some_iff.1 h
    exact Or.inr ⟨by simp, c, enter_step (by simp) hc, hc, rfl⟩

/-- a thread outside the allocator is in no ring operation -/
theorem FInv.out_of_idle {f : AFine} (h : FInv f) {t} (hi : (f.core.th t).pc = .idle) : f.rpc t = .out := by
  cases hr : f.rpc t with
  | out => rfl
  | reserved x r => have := (h.pend t x r (Or.inl hr)).2.2; rw [hi] at this; cases this
  | written x r => have := (h.pend t x r (Or.inr hr)).2.2; rw [hi] at this; cases this
  | peekHead k hh => have := (h.peek t k hh hr).1; rw [hi] at this; cases this
  | reading k mn mx rest => have := (h.reading t k mn mx rest hr).1; rw [hi] at this; cases this
  | panicked e => exact absurd hr (h.calm t e)

theorem FInv.act {f f' : AFine} {a} (h : FInv f) (ha : f.act a = some f') (hb : f'.begun < 2 ^ 32) : FInv f' := by
  rcases act_cases ha with ⟨t, i, ok, rfl, hs⟩ | ⟨_, c, hc, _, rfl⟩
  · exact h.stepped hs hb
  · exact h.coreChange (h.out_of_idle hc.idle) (fun u hu => by rw [hc.others u hu]) hc.size (fun k sp hk => by rw [hc.saved]; exact hk)
      (fun k sp hk => by rw [hc.saved] at hk; exact h.heads k sp hk) (hc.heads _)

theorem begun_act {f f' : AFine} {a} (ha : f.act a = some f') : f.begun ≤ f'.begun := by
  rcases act_cases ha with ⟨t, i, ok, rfl, hs⟩ | ⟨_, c, hc, _, rfl⟩
  · cases hs <;> first | exact Nat.le_refl _ | exact Nat.le_succ _
  · exact Nat.le_refl _

theorem begun_sched : ∀ (as : List AAct) (f f' : AFine), f.sched as = some f' → f.begun ≤ f'.begun := by
  intro as
  induction as with
  | nil => intro f f' h; simp [AFine.sched] at h; subst h; exact Nat.le_refl _
  | cons a as ih =>
    intro f f' h
    simp only [AFine.sched] at h
    split at h
    · rename_i f1 h1; exact Nat.le_trans (begun_act h1) (ih f1 f' h)
    · cases h

theorem finv_sched : ∀ (as : List AAct) (f f' : AFine), FInv f → f.sched as = some f' → f'.begun < 2 ^ 32 → FInv f' := by
  intro as
  induction as with
  | nil => intro f f' hi h _; simp [AFine.sched] at h; subst h; exact hi
  | cons a as ih =>
    intro f f' hi h hb
    simp only [AFine.sched] at h
    split at h
    · rename_i f1 h1
      exact ih f1 f' (hi.act h1 (Nat.lt_of_le_of_lt (begun_sched as f1 f' h) hb)) h hb
    · cases h


end BigO
