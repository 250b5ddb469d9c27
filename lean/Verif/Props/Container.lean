import Verif.Spec.ContainerSpec
import Verif.Props.CrudCalls
import Verif.Props.WholeTest

/-!
# C100: a container never misses an element during a CRUD analysis
-/
namespace BigO

/-- recursive form of `NeverMisses`, for any starting contents -/
def OkFrom (which : UCall → Prop) : Finset ℕ → List UCall → Prop
  | _, [] => True
  | S, c :: l => (which c → Served S c) ∧ OkFrom which (keep S c) l

theorem heldAfter_append (S : Finset ℕ) (a b : List UCall) : heldAfter S (a ++ b) = heldAfter (heldAfter S a) b := List.foldl_append ..

theorem okFrom_append {which : UCall → Prop} : ∀ {S : Finset ℕ} {a b : List UCall},
    OkFrom which S (a ++ b) ↔ OkFrom which S a ∧ OkFrom which (heldAfter S a) b
  | S, [], b => by simp [OkFrom, heldAfter]
  | S, c :: a, b => by
    have := okFrom_append (which := which) (S := keep S c) (a := a) (b := b)
    show (_ ∧ OkFrom which (keep S c) (a ++ b)) ↔ (_ ∧ OkFrom which (keep S c) a) ∧ OkFrom which (heldAfter (keep S c) a) b
    rw [this, and_assoc]

theorem okFrom_iff {which : UCall → Prop} {calls : List UCall} {S : Finset ℕ} :
    OkFrom which S calls ↔ ∀ before c after, calls = before ++ c :: after → which c → Served (heldAfter S before) c := by
  induction calls generalizing S with
  | nil =>
    refine ⟨fun _ b c a h => ?_, fun _ => trivial⟩
    cases b <;> cases h
  | cons x l ih =>
    constructor
    · rintro ⟨h1, h2⟩ b c a h hc
      cases b with
      | nil => cases h; exact h1 hc
      | cons y b =>
        cases h
        exact ih.1 h2 b c a rfl hc
    · intro h
      exact ⟨h [] x l rfl, ih.2 fun b c a e hc => h (x :: b) c a (by rw [e]; rfl) hc⟩

theorem neverMisses_iff {which : UCall → Prop} {calls : List UCall} : NeverMisses which calls ↔ OkFrom which ∅ calls := okFrom_iff.symm

/-! ### one pass -/

theorem create_pass (which : UCall → Prop) (ph : Phase) : ∀ (l : List ℕ) (S : Finset ℕ), l.Nodup → (∀ e ∈ l, e ∉ S) →
    OkFrom which S (l.map (UCall.call ph .create)) ∧ heldAfter S (l.map (UCall.call ph .create)) = S ∪ l.toFinset
  | [], S, _, _ => by simp [OkFrom, heldAfter]
  | e :: l, S, hn, h => by
    obtain ⟨h1, h2⟩ := List.nodup_cons.1 hn
    obtain ⟨i1, i2⟩ := create_pass which ph l (insert e S) h2 (by
      intro x hx hm
      rcases Finset.mem_insert.1 hm with rfl | hm
      · exact h1 hx
      · exact h x (by simp [hx]) hm)
    refine ⟨⟨fun _ => h e (by simp), i1⟩, ?_⟩
    show heldAfter (insert e S) _ = _
    rw [i2]
    ext x
    simp

theorem delete_pass (which : UCall → Prop) (ph : Phase) : ∀ (l : List ℕ) (S : Finset ℕ), l.Nodup → (∀ e ∈ l, e ∈ S) →
    OkFrom which S (l.map (UCall.call ph .delete)) ∧ heldAfter S (l.map (UCall.call ph .delete)) = S \ l.toFinset
  | [], S, _, _ => by simp [OkFrom, heldAfter]
  | e :: l, S, hn, h => by
    obtain ⟨h1, h2⟩ := List.nodup_cons.1 hn
    obtain ⟨i1, i2⟩ := delete_pass which ph l (S.erase e) h2 (by
      intro x hx
      refine Finset.mem_erase.2 ⟨?_, h x (by simp [hx])⟩
      rintro rfl
      exact h1 hx)
    refine ⟨⟨fun _ => h e (by simp), i1⟩, ?_⟩
    show heldAfter (S.erase e) _ = _
    rw [i2]
    ext x
    simp
    tauto

theorem look_pass (which : UCall → Prop) (ph : Phase) (op : Op) (hop : op = .read ∨ op = .update) : ∀ (l : List ℕ) (S : Finset ℕ),
    (∀ e ∈ l, e ∈ S) →
    OkFrom which S (l.map (UCall.call ph op)) ∧ heldAfter S (l.map (UCall.call ph op)) = S
  | [], S, _ => by simp [OkFrom, heldAfter]
  | e :: l, S, h => by
    obtain ⟨i1, i2⟩ := look_pass which ph op hop l S (fun x hx => h x (by simp [hx]))
    have hk : keep S (.call ph op e) = S := by rcases hop with rfl | rfl <;> rfl
    refine ⟨⟨fun _ => ?_, by rw [hk]; exact i1⟩, ?_⟩
    · have := h e (by simp)
      rcases hop with rfl | rfl <;> exact this
    · show heldAfter (keep S (.call ph op e)) _ = _
      rw [hk]; exact i2

/-! ### sequences of passes -/

/-- from contents `S`, the passes `l` serve all calls of the kind meant and end with `S'` -/
def Serves (p : Profile) (which : UCall → Prop) (S : Finset ℕ) (l : List Ev) (S' : Finset ℕ) : Prop :=
  ∀ calls, SeenAs p l calls → OkFrom which S calls ∧ heldAfter S calls = S'

/-- ... and so do all their beginnings -/
def ServesPrefixes (p : Profile) (which : UCall → Prop) (S : Finset ℕ) (l : List Ev) : Prop :=
  ∀ pre, pre <+: l → ∀ calls, SeenAs p pre calls → OkFrom which S calls

def ServesAll (p : Profile) (which : UCall → Prop) (S : Finset ℕ) (l : List Ev) (S' : Finset ℕ) : Prop :=
  Serves p which S l S' ∧ ServesPrefixes p which S l

variable {p : Profile} {which : UCall → Prop} {cfg : CrudCfg}

theorem ServesAll.append {S S' S'' : Finset ℕ} {a b : List Ev} (h1 : ServesAll p which S a S') (h2 : ServesAll p which S' b S'') :
    ServesAll p which S (a ++ b) S'' := by
  constructor
  · intro calls hs
    obtain ⟨l1, l2, rfl, s1, s2⟩ := seen_append.1 hs
    obtain ⟨o1, e1⟩ := h1.1 l1 s1
    obtain ⟨o2, e2⟩ := h2.1 l2 s2
    rw [okFrom_append, heldAfter_append, e1]
    exact ⟨⟨o1, o2⟩, e2⟩
  · intro pre hp calls hs
    rcases List.prefix_or_prefix_of_prefix hp (List.prefix_append a b) with hp | ⟨c, rfl⟩
    · exact h1.2 pre hp calls hs
    · obtain ⟨l1, l2, rfl, s1, s2⟩ := seen_append.1 hs
      obtain ⟨o1, e1⟩ := h1.1 l1 s1
      rw [okFrom_append, e1]
      exact ⟨o1, h2.2 c ((List.prefix_append_right_inj a).1 hp) l2 s2⟩

theorem ServesAll.of_short {S S' : Finset ℕ} {l : List Ev} (hl : l.length ≤ 1) (h : Serves p which S l S') : ServesAll p which S l S' := by
  refine ⟨h, fun pre hp calls hs => ?_⟩
  rcases l with _ | ⟨e, _ | ⟨e', l⟩⟩
  · rw [List.prefix_nil.1 hp] at hs
    exact (h calls hs).1
  · rcases List.prefix_cons_iff.1 hp with rfl | ⟨t, rfl, ht⟩
    · cases hs; trivial
    · rw [List.prefix_nil.1 ht] at hs
      exact (h calls hs).1
  · simp at hl

theorem opRun_short (ph op a b) : (opRun cfg ph op a b).length ≤ 1 := by unfold opRun; split <;> simp

/-- the numbers of a pass whose threads divide its length -/
theorem pass_perm {ph op a b} (hf : Fits cfg) (ha : a < 2 ^ 31) (hb : b < 2 ^ 31)
    (hd : 0 < (cfg.op op).iters → (cfg.op op).threads ∣ passLen a b) (h0 : (cfg.op op).iters = 0 → a = b) {l : List UCall}
    (h : SeenAs p (opRun cfg ph op a b) l) : ∃ es : List ℕ, l = es.map (UCall.call ph op) ∧ es.Nodup ∧
      ∀ e, e ∈ es ↔ min a b ≤ e ∧ e < max a b := by
  rcases seen_opRun h with ⟨hz, rfl⟩ | ⟨hpos, f, s, hs, rfl⟩
  · refine ⟨[], rfl, List.nodup_nil, fun e => ?_⟩
    have := h0 hz
    simp; omega
  · have hperm := C40_each_once p a b _ ⟨ha, hb, (hf.2 op hpos).2.1, (hf.2 op hpos).2.2⟩ (hd hpos) f s hs
    refine ⟨_, rfl, hperm.nodup_iff.2 ?_, fun e => ?_⟩
    · unfold passRange; exact List.nodup_range'
    · rw [hperm.mem_iff]
      unfold passRange
      rw [List.mem_range'_1]; omega

theorem both_create {ph a b} (hf : Fits cfg) (hab : a ≤ b) (ha : a < 2 ^ 31) (hb : b < 2 ^ 31)
    (hd : 0 < (cfg.op .create).iters → (cfg.op .create).threads ∣ passLen a b) (h0 : (cfg.op .create).iters = 0 → a = b)
    {n : ℕ} (hn : n = a) :
    ServesAll p which (Finset.Ico 0 n) (opRun cfg ph .create a b) (Finset.Ico 0 b) := by
  subst hn
  refine ServesAll.of_short (opRun_short ..) fun calls hs => ?_
  obtain ⟨es, rfl, hnd, hm⟩ := pass_perm hf ha hb hd h0 hs
  obtain ⟨o, e⟩ := create_pass which ph es (Finset.Ico 0 n) hnd (by
    intro e he
    have := (hm e).1 he
    simp; omega)
  refine ⟨o, e.trans ?_⟩
  ext x
  simp only [Finset.mem_union, Finset.mem_Ico, List.mem_toFinset, hm]
  omega

theorem both_look {ph op a b n} (hop : op = .read ∨ op = .update) (hf : Fits cfg) (hab : a ≤ b) (ha : a < 2 ^ 31) (hb : b < 2 ^ 31)
    (hd : 0 < (cfg.op op).iters → (cfg.op op).threads ∣ passLen a b) (h0 : (cfg.op op).iters = 0 → a = b) (hn : b ≤ n) :
    ServesAll p which (Finset.Ico 0 n) (opRun cfg ph op a b) (Finset.Ico 0 n) := by
  refine ServesAll.of_short (opRun_short ..) fun calls hs => ?_
  obtain ⟨es, rfl, hnd, hm⟩ := pass_perm hf ha hb hd h0 hs
  exact look_pass which ph op hop es _ (by
    intro e he
    have := (hm e).1 he
    simp; omega)

theorem both_delete {ph a b m n} (hf : Fits cfg) (hab : b ≤ a) (ha : a < 2 ^ 31) (hb : b < 2 ^ 31)
    (hd : 0 < (cfg.op .delete).iters → (cfg.op .delete).threads ∣ passLen a b) (h0 : (cfg.op .delete).iters = 0 → a = b)
    (hn : a ≤ n) (hm : a ≤ m ) :
    ServesAll p which (Finset.Ico 0 a ∪ Finset.Ico m n) (opRun cfg ph .delete a b) (Finset.Ico 0 b ∪ Finset.Ico m n) := by
  refine ServesAll.of_short (opRun_short ..) fun calls hs => ?_
  obtain ⟨es, rfl, hnd, hm⟩ := pass_perm hf ha hb hd h0 hs
  obtain ⟨o, e⟩ := delete_pass which ph es (Finset.Ico 0 a ∪ Finset.Ico m n) hnd (by
    intro e he
    have := (hm e).1 he
    simp; omega)
  refine ⟨o, e.trans ?_⟩
  ext x
  simp only [Finset.mem_union, Finset.mem_sdiff, Finset.mem_Ico, List.mem_toFinset, hm]
  omega

theorem fits_lt {o : Op} (hf : Fits cfg) : 2 * (cfg.op o).iters < 2 ^ 31 := by
  rcases Nat.eq_zero_or_pos (cfg.op o).iters with h | h
  · rw [h]; norm_num
  · exact (hf.2 o h).1

theorem warm_lt {o : Op} (hf : Fits cfg) : (cfg.op o).iters * cfg.warmup / 100 < 2 ^ 31 := by
  have := (hf.1 o).2
  omega

theorem warm_zero {o : Op} (h : (cfg.op o).iters = 0) : (cfg.op o).iters * cfg.warmup / 100 = 0 := by rw [h]; simp

/-- the measured passes, from an empty container -/
theorem serves_upto_update (hf : Fits cfg) (he : Even4 cfg) (hc : CreatesEnough cfg) :
    ServesAll p which ∅ (opRun cfg .pass1 .create 0 (cfg.op .create).iters ++ opRun cfg .pass1 .read 0 (cfg.op .read).iters ++
      opRun cfg .pass1 .update 0 (cfg.op .update).iters ++
      opRun cfg .pass2 .create (cfg.op .create).iters (2 * (cfg.op .create).iters) ++
      opRun cfg .pass2 .read (cfg.op .read).iters (2 * (cfg.op .read).iters) ++
      opRun cfg .pass2 .update (cfg.op .update).iters (2 * (cfg.op .update).iters)) (Finset.Ico 0 (2 * (cfg.op .create).iters)) := by
  have b := fun o => fits_lt (cfg := cfg) (o := o) hf
  have bc := b .create
  have br := b .read
  have bu := b .update
  have cr := hc .read
  have cu := hc .update
  have l0 : ∀ o, 0 < (cfg.op o).iters → (cfg.op o).threads ∣ passLen 0 (cfg.op o).iters := by
    intro o ho
    rw [show passLen 0 (cfg.op o).iters = (cfg.op o).iters by unfold passLen; simp]
    exact he o ho
  have l1 : ∀ o, 0 < (cfg.op o).iters → (cfg.op o).threads ∣ passLen (cfg.op o).iters (2 * (cfg.op o).iters) := by
    intro o ho
    rw [show passLen (cfg.op o).iters (2 * (cfg.op o).iters) = (cfg.op o).iters by unfold passLen; omega]
    exact he o ho
  have e0 : (∅ : Finset ℕ) = Finset.Ico 0 0 := by simp
  rw [e0]
  refine ((((ServesAll.append (both_create hf (by omega) (by omega) (by omega) (l0 _) (by omega) rfl)
    (both_look (Or.inl rfl) hf (by omega) (by omega) (by omega) (l0 _) (by omega) (by omega))).append
    (both_look (Or.inr rfl) hf (by omega) (by omega) (by omega) (l0 _) (by omega) (by omega))).append
    (both_create hf (by omega) (by omega) (by omega) (l1 _) (by omega) rfl)).append
    (both_look (Or.inl rfl) hf (by omega) (by omega) (by omega) (l1 _) (by omega) (by omega))).append
    (both_look (Or.inr rfl) hf (by omega) (by omega) (by omega) (l1 _) (by omega) (by omega))

theorem serves_delete (hf : Fits cfg) (he : Even4 cfg) (hc : CreatesEnough cfg) :
    ServesAll p which (Finset.Ico 0 (2 * (cfg.op .create).iters))
      (opRun cfg .pass2 .delete (2 * (cfg.op .delete).iters) (cfg.op .delete).iters ++ opRun cfg .pass1 .delete (cfg.op .delete).iters 0)
      (Finset.Ico (2 * (cfg.op .delete).iters) (2 * (cfg.op .create).iters)) := by
  have bd := fits_lt (cfg := cfg) (o := .delete) hf
  have cd := hc .delete
  have l0 : 0 < (cfg.op .delete).iters → (cfg.op .delete).threads ∣ passLen (cfg.op .delete).iters 0 := by
    intro ho
    rw [show passLen (cfg.op .delete).iters 0 = (cfg.op .delete).iters by unfold passLen; simp]
    exact he _ ho
  have l1 : 0 < (cfg.op .delete).iters → (cfg.op .delete).threads ∣ passLen (2 * (cfg.op .delete).iters) (cfg.op .delete).iters := by
    intro ho
    rw [show passLen (2 * (cfg.op .delete).iters) (cfg.op .delete).iters = (cfg.op .delete).iters by unfold passLen; omega]
    exact he _ ho
  have e1 : Finset.Ico 0 (2 * (cfg.op .create).iters) = Finset.Ico 0 (2 * (cfg.op .delete).iters) ∪
      Finset.Ico (2 * (cfg.op .delete).iters) (2 * (cfg.op .create).iters) := by
    ext x; simp only [Finset.mem_union, Finset.mem_Ico]; omega
  have e2 : Finset.Ico (2 * (cfg.op .delete).iters) (2 * (cfg.op .create).iters) = Finset.Ico 0 0 ∪
      Finset.Ico (2 * (cfg.op .delete).iters) (2 * (cfg.op .create).iters) := by simp
  rw [e1]
  conv => enter [5]; rw [e2]
  exact ServesAll.append (both_delete hf (by omega) (by omega) (by omega) l1 (by omega) (by omega) (by omega))
    (both_delete hf (by omega) (by omega) (by omega) l0 (by omega) (by omega) (by omega))

theorem okFrom_exempt {S : Finset ℕ} : ∀ {calls : List UCall}, (∀ c ∈ calls, ¬ which c) → OkFrom which S calls := by
  intro calls
  induction calls generalizing S with
  | nil => intro _; trivial
  | cons c l ih => intro h; exact ⟨fun hc => absurd hc (h c (by simp)), ih fun c hc => h c (by simp [hc])⟩

theorem warm_exempt : ∀ {pre : List Ev}, (∀ e ∈ pre, ∀ ph op a b th, e = Ev.pass ph op a b th → ph = .warmup) → ∀ {calls : List UCall},
    SeenAs p pre calls → ∀ c ∈ calls, ¬ c.Measured
  | [], _, _, h => by cases h; simp
  | .out _ :: pre, hp, _, h => warm_exempt (pre := pre) (fun e he => hp e (by simp [he])) h
  | .reset n :: pre, hp, _, ⟨rest, h, e⟩ => by
    subst e
    intro c hc
    rcases List.mem_cons.1 hc with rfl | hc
    · exact id
    · exact warm_exempt (pre := pre) (fun e he => hp e (by simp [he])) h c hc
  | .pass ph op a b th :: pre, hp, _, ⟨f, s, rest, hs, h, e⟩ => by
    subst e
    intro c hc
    rcases List.mem_append.1 hc with hc | hc
    · obtain ⟨x, -, rfl⟩ := List.mem_map.1 hc
      have := hp _ (by simp) ph op a b th rfl
      subst this
      exact fun h => h rfl
    · exact warm_exempt (pre := pre) (fun e he => hp e (by simp [he])) h c hc

theorem warm_events : ∀ e ∈ warmupSequence cfg, ∀ ph op a b th, e = Ev.pass ph op a b th → ph = .warmup := by
  intro e he ph op a b th h
  subst h
  unfold warmupSequence at he
  split at he
  · cases he
  · simp only [List.mem_append, List.mem_singleton, reduceCtorEq, or_false, opRun] at he
    rcases he with ((he | he) | he) | he <;> split at he <;> simp at he <;> exact he.1

/-- the warm-up: its calls are exempt, and the reset empties the container -/
theorem serves_warmup : ServesAll p UCall.Measured ∅ (warmupSequence cfg) ∅ := by
  have hpre : ServesPrefixes p UCall.Measured ∅ (warmupSequence cfg) := fun pre hp calls hs =>
    okFrom_exempt (warm_exempt (fun e he => warm_events e (hp.subset he)) hs)
  refine ⟨fun calls hs => ⟨hpre _ (List.prefix_rfl) calls hs, ?_⟩, hpre⟩
  unfold warmupSequence at hs
  split at hs
  · cases hs; rfl
  · obtain ⟨l1, l2, rfl, -, rest, h2, rfl⟩ := seen_append.1 hs
    cases h2
    rw [heldAfter_append]; rfl

/-- the warm-up, when its threads divide its counts -/
theorem serves_warmup_even (hf : Fits cfg) (he : EvenWarmup cfg) (hc : CreatesEnough cfg) :
    ServesAll p which ∅ (warmupSequence cfg) ∅ := by
  unfold warmupSequence
  split
  · refine ServesAll.of_short (by simp) fun calls hs => ?_
    cases hs
    exact ⟨trivial, rfl⟩
  · have b := fun o => warm_lt (cfg := cfg) (o := o) hf
    have z := fun o => warm_zero (cfg := cfg) (o := o)
    have le : ∀ o, (cfg.op o).iters * cfg.warmup / 100 ≤ (cfg.op .create).iters * cfg.warmup / 100 := fun o =>
      Nat.div_le_div_right (Nat.mul_le_mul_right _ (hc o))
    have ev : ∀ o, 0 < (cfg.op o).iters → (cfg.op o).threads ∣ (cfg.op o).iters * cfg.warmup / 100 := he
    generalize hw : (fun o => (cfg.op o).iters * cfg.warmup / 100) = w
    have hw' : ∀ o, (cfg.op o).iters * cfg.warmup / 100 = w o := fun o => congrFun hw o
    simp only [hw'] at b z le ev ⊢
    have l0 : ∀ o, 0 < (cfg.op o).iters → (cfg.op o).threads ∣ passLen 0 (w o) := by
      intro o ho
      rw [show passLen 0 (w o) = w o by unfold passLen; simp]
      exact ev o ho
    have l1 : 0 < (cfg.op .delete).iters → (cfg.op .delete).threads ∣ passLen (w .delete) 0 := by
      intro ho
      rw [show passLen (w .delete) 0 = w .delete by unfold passLen; simp]
      exact ev _ ho
    have e0 : (∅ : Finset ℕ) = Finset.Ico 0 0 := by simp
    have e1 : Finset.Ico 0 (w .create) = Finset.Ico 0 (w .delete) ∪ Finset.Ico (w .delete) (w .create) := by
      have := le .delete
      ext x; simp only [Finset.mem_union, Finset.mem_Ico]; omega
    have s1 := both_create (p := p) (which := which) (ph := .warmup) hf (Nat.zero_le _) (by norm_num) (b .create) (l0 _) (fun h => (z _ h).symm) (n := 0) rfl
    have s2 := both_look (p := p) (which := which) (ph := .warmup) (n := w .create) (Or.inl rfl) hf (Nat.zero_le _) (by norm_num) (b .read) (l0 _) (fun h => (z _ h).symm) (le _)
    have s3 := both_look (p := p) (which := which) (ph := .warmup) (n := w .create) (Or.inr rfl) hf (Nat.zero_le _) (by norm_num) (b .update) (l0 _) (fun h => (z _ h).symm) (le _)
    have s4 := both_delete (p := p) (which := which) (ph := .warmup) (m := w .delete) (n := w .create) hf (Nat.zero_le _) (b .delete) (by norm_num) l1 (fun h => z _ h) (le _) le_rfl
    rw [← e1] at s4
    have s5 : ∀ S, ServesAll p which S [Ev.reset (w .create)] ∅ := by
      intro S
      refine ServesAll.of_short (by simp) ?_
      rintro calls ⟨rest, hr, rfl⟩
      cases hr
      exact ⟨⟨fun _ => trivial, trivial⟩, rfl⟩
    exact (((((e0 ▸ s1).append s2).append s3).append s4).append (s5 _))

theorem serves_sequence (hf : Fits cfg) (he : Even4 cfg) (hc : CreatesEnough cfg) (hw : ServesAll p which ∅ (warmupSequence cfg) ∅) :
    ServesAll p which ∅ (crudSequence cfg) (Finset.Ico (2 * (cfg.op .delete).iters) (2 * (cfg.op .create).iters)) := by
  have := (hw.append (serves_upto_update hf he hc)).append (serves_delete hf he hc)
  simpa only [crudSequence, List.append_assoc] using this

/-- the passes of an analysis, finished or not, as seen by the user -/
theorem seen_prefix {env : CrudEnv} {t ext : List Ev} {res : Res (CrudAnalyses × String)} (hf : Fits cfg)
    (h : internalAnalyse env cfg t = (res, t ++ ext)) {calls : List UCall} (hs : SeenAs env.profile ext calls) :
    ∃ pre, pre <+: crudSequence cfg ∧ SeenAs env.profile pre calls ∧ (∀ a, res = .ok a → pre = crudSequence cfg) := by
  obtain ⟨ext', h1, h2, h3⟩ := C50_phase_order env cfg hf.1 t
  have hx : ext' = ext := by
    rw [h] at h1
    exact (List.append_cancel_left h1).symm
  subst hx
  exact ⟨_, h2, seen_actions hs, fun a ha => h3 ⟨a, by rw [h]; exact ha⟩⟩

/-- **C100.** During a CRUD analysis, finished or aborted, whose threads divide the iterations evenly and which reads, updates and
deletes no more elements per pass than it creates, no measured call ever misses: in whatever way the threads interleave, every read,
update and deletion finds its element, and no creation finds its own. If also the threads divide the warm-up evenly, no call of the
warm-up misses either. -/
theorem C100_never_misses (env : CrudEnv) (cfg : CrudCfg) (hf : Fits cfg) (he : Even4 cfg) (hc : CreatesEnough cfg) (t ext : List Ev)
    (res : Res (CrudAnalyses × String)) (h : internalAnalyse env cfg t = (res, t ++ ext)) (calls : List UCall)
    (hs : SeenAs env.profile ext calls) :
    NeverMisses UCall.Measured calls ∧ (EvenWarmup cfg → NeverMisses (fun _ => True) calls) := by
  obtain ⟨pre, h1, h2, -⟩ := seen_prefix hf h hs
  exact ⟨neverMisses_iff.2 ((serves_sequence hf he hc serves_warmup).2 pre h1 calls h2),
    fun hw => neverMisses_iff.2 ((serves_sequence hf he hc (serves_warmup_even hf hw hc)).2 pre h1 calls h2)⟩

/-- **C100** (contents): when such an analysis is finished, all numbers below twice the creations per pass were in the container
before the first measured deletion, and those below twice the deletions are gone at the end: the container is empty again if as many
elements are deleted as created. -/
theorem C100_contents (env : CrudEnv) (cfg : CrudCfg) (hf : Fits cfg) (he : Even4 cfg) (hc : CreatesEnough cfg) (t ext : List Ev)
    (a : CrudAnalyses × String) (h : internalAnalyse env cfg t = (.ok a, t ++ ext)) (calls : List UCall)
    (hs : SeenAs env.profile ext calls) :
    (∃ l1 l2, calls = l1 ++ l2 ∧ measuredArgs .delete l1 = [] ∧ measuredArgs .create l2 = [] ∧
      heldAfter ∅ l1 = Finset.range (2 * (cfg.op .create).iters)) ∧
    heldAfter ∅ calls = Finset.Ico (2 * (cfg.op .delete).iters) (2 * (cfg.op .create).iters) := by
  obtain ⟨pre, -, h2, h3⟩ := seen_prefix hf h hs
  rw [h3 a rfl] at h2
  refine ⟨?_, ((serves_sequence hf he hc serves_warmup).1 calls h2).2⟩
  have hseq : crudSequence cfg = (warmupSequence cfg ++ (opRun cfg .pass1 .create 0 (cfg.op .create).iters ++ opRun cfg .pass1 .read 0 (cfg.op .read).iters ++
      opRun cfg .pass1 .update 0 (cfg.op .update).iters ++
      opRun cfg .pass2 .create (cfg.op .create).iters (2 * (cfg.op .create).iters) ++
      opRun cfg .pass2 .read (cfg.op .read).iters (2 * (cfg.op .read).iters) ++
      opRun cfg .pass2 .update (cfg.op .update).iters (2 * (cfg.op .update).iters))) ++
      (opRun cfg .pass2 .delete (2 * (cfg.op .delete).iters) (cfg.op .delete).iters ++ opRun cfg .pass1 .delete (cfg.op .delete).iters 0) := by
    simp only [crudSequence, List.append_assoc]
  rw [hseq] at h2
  obtain ⟨l1, l2, rfl, s1, s2⟩ := seen_append.1 h2
  have hg := ((serves_warmup (cfg := cfg) (p := env.profile)).append (serves_upto_update hf he hc)).1 l1 s1
  refine ⟨l1, l2, rfl, ?_, ?_, hg.2.trans (by ext x; simp)⟩
  · obtain ⟨w, x, rfl, sw, sx⟩ := seen_append.1 s1
    obtain ⟨x, u2, rfl, sx, su2⟩ := seen_append.1 sx
    obtain ⟨x, r2, rfl, sx, sr2⟩ := seen_append.1 sx
    obtain ⟨x, c2, rfl, sx, sc2⟩ := seen_append.1 sx
    obtain ⟨x, u1, rfl, sx, su1⟩ := seen_append.1 sx
    obtain ⟨c1, r1, rfl, sc1, sr1⟩ := seen_append.1 sx
    simp only [measured_append, (warmup_only sw).2, (onlyIn_opRun su2).measured (by decide), (onlyIn_opRun sr2).measured (by decide),
      (onlyIn_opRun sc2).measured (by decide), (onlyIn_opRun su1).measured (by decide), (onlyIn_opRun sr1).measured (by decide),
      (onlyIn_opRun sc1).measured (by decide)]
    simp
  · obtain ⟨d2, d1, rfl, sd2, sd1⟩ := seen_append.1 s2
    simp only [measured_append, (onlyIn_opRun sd2).measured (by decide), (onlyIn_opRun sd1).measured (by decide)]
    simp

/-! ### reading, updating or deleting more than was created -/

theorem okFrom_mem {ph : Phase} {op : Op} (hop : op = .read ∨ op = .update ∨ op = .delete) (hw : ∀ e, which (.call ph op e)) :
    ∀ {es : List ℕ} {S : Finset ℕ}, OkFrom which S (es.map (UCall.call ph op)) → ∀ e ∈ es, e ∈ S := by
  intro es
  induction es with
  | nil => intro S _ e he; cases he
  | cons x es ih =>
    rintro S ⟨h1, h2⟩ e he
    have hx := h1 (hw x)
    rcases List.mem_cons.1 he with rfl | he
    · rcases hop with rfl | rfl | rfl <;> exact hx
    · have := ih h2 e he
      rcases hop with rfl | rfl | rfl
      · exact this
      · exact this
      · exact Finset.mem_of_mem_erase this

theorem look_held {p : Profile} {cfg : CrudCfg} {ph op a b l} (S : Finset ℕ) (hop : op = .read ∨ op = .update)
    (hl : SeenAs p (opRun cfg ph op a b) l) : heldAfter S l = S := by
  obtain ⟨es, rfl⟩ := onlyIn_opRun hl
  clear hl
  induction es with
  | nil => rfl
  | cons e es ih => rcases hop with rfl | rfl <;> exact ih

/-- **C100** (necessity): if such an analysis is finished without a miss, it created enough: reading, updating or deleting more
elements per pass than are created does miss. -/
theorem C100_enough_needed (env : CrudEnv) (cfg : CrudCfg) (hf : Fits cfg) (he : Even4 cfg) (t ext : List Ev)
    (a : CrudAnalyses × String) (h : internalAnalyse env cfg t = (.ok a, t ++ ext)) (calls : List UCall)
    (hs : SeenAs env.profile ext calls) (hm : NeverMisses UCall.Measured calls) : CreatesEnough cfg := by
  obtain ⟨pre, -, h2, h3⟩ := seen_prefix hf h hs
  rw [h3 a rfl] at h2
  obtain ⟨w, c1, r1, u1, c2, r2, u2, d2, d1, P⟩ := pieces h2
  rw [neverMisses_iff, P.eq] at hm
  simp only [okFrom_append, heldAfter_append, and_assoc] at hm
  obtain ⟨-, -, mr1, mu1, -, -, -, md2, -⟩ := hm
  have bc := fits_lt (cfg := cfg) (o := .create) hf
  have l0 : ∀ o, 0 < (cfg.op o).iters → (cfg.op o).threads ∣ passLen 0 (cfg.op o).iters := by
    intro o ho
    rw [show passLen 0 (cfg.op o).iters = (cfg.op o).iters by unfold passLen; simp]
    exact he o ho
  have l1 : ∀ o, 0 < (cfg.op o).iters → (cfg.op o).threads ∣ passLen (cfg.op o).iters (2 * (cfg.op o).iters) := by
    intro o ho
    rw [show passLen (cfg.op o).iters (2 * (cfg.op o).iters) = (cfg.op o).iters by unfold passLen; omega]
    exact he o ho
  have l2 : ∀ o, 0 < (cfg.op o).iters → (cfg.op o).threads ∣ passLen (2 * (cfg.op o).iters) (cfg.op o).iters := by
    intro o ho
    rw [show passLen (2 * (cfg.op o).iters) (cfg.op o).iters = (cfg.op o).iters by unfold passLen; omega]
    exact he o ho
  have hw0 := (serves_warmup.1 w P.hw).2
  have hc1 : heldAfter ∅ c1 = Finset.Ico 0 (cfg.op .create).iters := by
    have := (both_create (p := env.profile) (which := UCall.Measured) (ph := .pass1) hf (Nat.zero_le _) (by norm_num) (by omega)
      (l0 .create) (by omega) (n := 0) rfl).1 c1 P.hc1
    simpa using this.2
  have hr1 : ∀ S, heldAfter S r1 = S := fun S => look_held S (Or.inl rfl) P.hr1
  have hu1 : ∀ S, heldAfter S u1 = S := fun S => look_held S (Or.inr rfl) P.hu1
  have hr2 : ∀ S, heldAfter S r2 = S := fun S => look_held S (Or.inl rfl) P.hr2
  have hu2 : ∀ S, heldAfter S u2 = S := fun S => look_held S (Or.inr rfl) P.hu2
  have hc2 : heldAfter (Finset.Ico 0 (cfg.op .create).iters) c2 = Finset.Ico 0 (2 * (cfg.op .create).iters) :=
    ((both_create (p := env.profile) (which := UCall.Measured) (ph := .pass2) hf (by omega) (by omega) (by omega)
      (l1 .create) (by omega) rfl).1 c2 P.hc2).2
  rw [hw0, hc1] at mr1
  rw [hw0, hc1, hr1] at mu1
  rw [hw0, hc1, hr1, hu1, hc2, hr2, hu2] at md2
  intro o
  by_contra hlt
  have bo := fits_lt (cfg := cfg) (o := o) hf
  cases o with
  | create => exact hlt le_rfl
  | read =>
    obtain ⟨es, rfl, -, hes⟩ := pass_perm hf (by norm_num) (by omega) (l0 .read) (by omega) P.hr1
    have := okFrom_mem (Or.inl rfl) (fun _ => (by simp [UCall.Measured])) mr1 ((cfg.op .read).iters - 1) ((hes _).2 (by omega))
    simp at this; omega
  | update =>
    obtain ⟨es, rfl, -, hes⟩ := pass_perm hf (by norm_num) (by omega) (l0 .update) (by omega) P.hu1
    have := okFrom_mem (Or.inr (Or.inl rfl)) (fun _ => (by simp [UCall.Measured])) mu1 ((cfg.op .update).iters - 1) ((hes _).2 (by omega))
    simp at this; omega
  | delete =>
    obtain ⟨es, rfl, -, hes⟩ := pass_perm hf (by omega) (by omega) (l2 .delete) (by omega) P.hd2
    have := okFrom_mem (Or.inr (Or.inr rfl)) (fun _ => (by simp [UCall.Measured])) md2 (2 * (cfg.op .delete).iters - 1) ((hes _).2 (by omega))
    simp at this; omega

/-- creations hold at most what they are about -/
theorem held_creates {ph : Phase} {x : ℕ} : ∀ {es : List ℕ} {S : Finset ℕ},
    x ∈ heldAfter S (es.map (UCall.call ph .create)) → x ∈ S ∨ x ∈ es
  | [], S, h => Or.inl h
  | e :: es, S, h => by
    rcases held_creates (es := es) (S := insert e S) h with h | h
    · rcases Finset.mem_insert.1 h with rfl | h
      · exact Or.inr (by simp)
      · exact Or.inl h
    · exact Or.inr (List.mem_cons_of_mem _ h)

/-- **C100** (the warm-up): whatever the interleaving, if as many elements are created as deleted, on the same number of threads, and
that number does not divide the size of the warm-up (though not exceeding it), the warm-up deletes an element that was never
created: "no call misses" needs the hypothesis about the warm-up, even if the threads divide the iterations evenly. -/
theorem C100_warmup_misses (env : CrudEnv) (cfg : CrudCfg) (hf : Fits cfg) (t ext : List Ev)
    (a : CrudAnalyses × String) (h : internalAnalyse env cfg t = (.ok a, t ++ ext)) (calls : List UCall)
    (hs : SeenAs env.profile ext calls) (hn : (cfg.op .delete).iters = (cfg.op .create).iters)
    (ht : (cfg.op .delete).threads = (cfg.op .create).threads) (h1 : (cfg.op .create).threads ≤ (cfg.op .create).iters * cfg.warmup / 100)
    (h2 : ¬ (cfg.op .create).threads ∣ (cfg.op .create).iters * cfg.warmup / 100) : ¬ NeverMisses (fun _ => True) calls := by
  obtain ⟨pre, -, hp, h3⟩ := seen_prefix hf h hs
  rw [h3 a rfl] at hp
  obtain ⟨w, c1, r1, u1, c2, r2, u2, d2, d1, P⟩ := pieces hp
  intro hm
  rw [neverMisses_iff, P.eq] at hm
  simp only [okFrom_append, heldAfter_append, and_assoc] at hm
  obtain ⟨hm, -⟩ := hm
  have hw := P.hw
  have bw := warm_lt (cfg := cfg) (o := .create) hf
  have hw0 : (cfg.op .create).iters * cfg.warmup / 100 ≠ 0 := fun e => h2 (by rw [e]; exact dvd_zero _)
  have hi : (cfg.op .create).iters ≠ 0 := fun e => hw0 (warm_zero e)
  unfold warmupSequence at hw
  have hwne : cfg.warmup ≠ 0 := fun e => hw0 (by rw [e]; simp)
  rw [if_neg hwne] at hw
  simp only [hn] at hw
  generalize (cfg.op .create).iters * cfg.warmup / 100 = W at *
  obtain ⟨x, z, rfl, hw, -⟩ := seen_append.1 hw
  obtain ⟨x, d, rfl, hw, hd⟩ := seen_append.1 hw
  obtain ⟨x, u, rfl, hw, hu⟩ := seen_append.1 hw
  obtain ⟨c, r, rfl, hc, hr⟩ := seen_append.1 hw
  simp only [okFrom_append, heldAfter_append, and_assoc] at hm
  obtain ⟨-, -, -, md, -⟩ := hm
  rw [look_held _ (Or.inl rfl) hr, look_held _ (Or.inr rfl) hu] at md
  obtain ⟨-, tp, tl⟩ := hf.2 .create (by omega)
  rcases seen_opRun hc with ⟨hz, -⟩ | ⟨-, f, s, hs1, rfl⟩
  · exact hi hz
  rcases seen_opRun hd with ⟨hz, -⟩ | ⟨-, g, s', hs2, rfl⟩
  · omega
  rw [ht] at hs2
  have e1 := C42_remainder_ascending _ 0 W _ ⟨by omega, by omega, tp, tl⟩ (by omega) f s hs1
  have e2 := C42_remainder_descending _ W 0 _ ⟨by omega, by omega, tp, tl⟩ (by omega) g s' hs2
  rw [Nat.sub_zero] at e1 e2
  have hmod : W % (cfg.op .create).threads ≠ 0 := fun e => h2 (Nat.dvd_of_mod_eq_zero e)
  have hlt := Nat.mod_lt W tp
  have m0 := okFrom_mem (Or.inr (Or.inr rfl)) (fun _ => trivial) md 0 (by rw [e2.mem_iff, List.mem_range'_1]; omega)
  rcases held_creates m0 with m0 | m0
  · simp at m0
  · rw [e1.mem_iff, List.mem_range'_1] at m0
    omega

/-! ### a whole test, with its retries -/

theorem attempt_serves (env : CrudEnv) (cfg : CrudCfg) (k : ℕ) (tr : List Ev)
    (hok : ∀ cfg', adaptCfg env.profile k cfg = .ok cfg' → Fits cfg' ∧ Even4 cfg' ∧ CreatesEnough cfg')
    (hw : ∀ cfg', adaptCfg env.profile k cfg = .ok cfg' → ServesAll env.profile which ∅ (warmupSequence cfg') ∅) :
    ∃ e, (attempt env cfg k tr).2 = tr ++ e ∧ ∀ calls, SeenAs env.profile e calls → OkFrom which ∅ calls := by
  unfold attempt
  cases hc : adaptCfg env.profile k cfg with
  | error e => exact ⟨[], by simp, fun calls h => by cases h; trivial⟩
  | ok cfg' =>
    obtain ⟨h1, h2, h3⟩ := hok cfg' hc
    obtain ⟨ext, e1, -, -⟩ := C50_phase_order env cfg' h1.1 tr
    refine ⟨ext, e1, fun calls hs => ?_⟩
    have he : internalAnalyse env cfg' tr = ((internalAnalyse env cfg' tr).1, tr ++ ext) := by rw [← e1]
    obtain ⟨pre, p1, p2, -⟩ := seen_prefix h1 he hs
    exact (serves_sequence h1 h2 h3 (hw cfg' hc)).2 pre p1 calls p2

theorem before_serves (env : CrudEnv) (cfg : CrudCfg) (t : List Ev) (max : ℕ)
    (hok : ∀ k, k < max → ∀ cfg', adaptCfg env.profile k cfg = .ok cfg' → Fits cfg' ∧ Even4 cfg' ∧ CreatesEnough cfg')
    (hw : ∀ k, k < max → ∀ cfg', adaptCfg env.profile k cfg = .ok cfg' → ServesAll env.profile which ∅ (warmupSequence cfg') ∅) :
    ∀ k, k ≤ max → ∃ e, beforeAttempt env cfg t k = t ++ e ∧
      ∀ calls, SeenAs env.profile e calls → OkFrom which ∅ calls ∧ heldAfter ∅ calls = ∅
  | 0, _ => ⟨[], by simp [beforeAttempt], fun calls h => by cases h; exact ⟨trivial, rfl⟩⟩
  | k + 1, hk => by
    obtain ⟨e, h1, h2⟩ := before_serves env cfg t max hok hw k (by omega)
    obtain ⟨e', h3, h4⟩ := attempt_serves (which := which) env cfg k (beforeAttempt env cfg t k) (hok k (by omega)) (hw k (by omega))
    refine ⟨e ++ (e' ++ betweenAttempts k), ?_, fun calls hs => ?_⟩
    · show (attempt env cfg k (beforeAttempt env cfg t k)).2 ++ _ = _
      rw [h3, h1]; simp only [List.append_assoc]
    · obtain ⟨l1, l2, rfl, s1, s2⟩ := seen_append.1 hs
      obtain ⟨l2, l3, rfl, s3, rest, s4, rfl⟩ := seen_append.1 s2
      cases s4
      obtain ⟨o1, o2⟩ := h2 l1 s1
      rw [okFrom_append, okFrom_append, heldAfter_append, heldAfter_append, o2]
      exact ⟨⟨o1, h4 l2 s3, fun _ => trivial, trivial⟩, rfl⟩

theorem test_serves (env : CrudEnv) (cfg : CrudCfg) (t ext : List Ev) (max : ℕ)
    (hok : ∀ k, k < max → ∀ cfg', adaptCfg env.profile k cfg = .ok cfg' → Fits cfg' ∧ Even4 cfg' ∧ CreatesEnough cfg')
    (hw : ∀ k, k < max → ∀ cfg', adaptCfg env.profile k cfg = .ok cfg' → ServesAll env.profile which ∅ (warmupSequence cfg') ∅)
    (h : (testCrud env cfg max t).2 = t ++ ext) (calls : List UCall) (hs : SeenAs env.profile ext calls) :
    NeverMisses which calls := by
  rw [neverMisses_iff]
  rcases Nat.eq_zero_or_pos max with rfl | hmax
  · have e : ext = [] := by
      have : t = t ++ ext := h
      simpa using this
    subst e; cases hs; trivial
  · obtain ⟨k, hk, -, h3⟩ := C53_attempts env cfg max hmax t
    obtain ⟨e1, b1, b2⟩ := before_serves (which := which) env cfg t max hok hw k (by omega)
    obtain ⟨e2, a1, a2⟩ := attempt_serves (which := which) env cfg k (beforeAttempt env cfg t k) (hok k hk) (hw k hk)
    rw [a1, b1, h] at h3
    rcases h3 with ⟨-, h3⟩ | ⟨-, -, -, h3⟩
    · rw [List.append_assoc] at h3
      rw [List.append_cancel_left h3] at hs
      obtain ⟨l1, l2, rfl, s1, s2⟩ := seen_append.1 hs
      obtain ⟨o1, o2⟩ := b2 l1 s1
      rw [okFrom_append, o2]
      exact ⟨o1, a2 l2 s2⟩
    · rw [List.append_assoc, List.append_assoc] at h3
      rw [List.append_cancel_left h3] at hs
      obtain ⟨l1, l2, rfl, s1, s2⟩ := seen_append.1 hs
      obtain ⟨l2, l3, rfl, s3, rest, s4, rfl⟩ := seen_append.1 s2
      cases s4
      obtain ⟨o1, o2⟩ := b2 l1 s1
      rw [okFrom_append, okFrom_append, o2]
      exact ⟨o1, a2 l2 s3, fun _ => trivial, trivial⟩

/-- **C100** (tests with retries): the same holds for a whole test, across its attempts -- the reset between two attempts empties the
container -- if the iteration counts of every attempt (retries vary them) can be divided evenly among the threads. -/
theorem C100_test (env : CrudEnv) (cfg : CrudCfg) (max : ℕ) (t ext : List Ev)
    (hok : ∀ k, k < max → ∀ cfg', adaptCfg env.profile k cfg = .ok cfg' → Fits cfg' ∧ Even4 cfg' ∧ CreatesEnough cfg')
    (h : (testCrud env cfg max t).2 = t ++ ext) (calls : List UCall) (hs : SeenAs env.profile ext calls) :
    NeverMisses UCall.Measured calls :=
  test_serves env cfg t ext max hok (fun _ _ _ _ => serves_warmup) h calls hs

theorem adapt_mono {p : Profile} {k m n m' n' : ℕ} (hmn : m ≤ n) (hn : n + n / 2 < 2 ^ 32) (h1 : adapt p k m = .ok m')
    (h2 : adapt p k n = .ok n') : m' ≤ n' := by
  obtain ⟨f1, f2⟩ := adapt_factor k
  unfold adapt at h1 h2
  generalize 10 - (k % 15 / 3) * 2 = f at *
  have d0 : m / f ≤ n / f := Nat.div_le_div_right hmn
  have d1 : n / f ≤ n / 2 := Nat.div_le_div_left f1 (by norm_num)
  have d3 : m / f ≤ m := Nat.div_le_self _ _
  have d4 : n / f ≤ n := Nat.div_le_self _ _
  simp only [] at h1 h2
  split at h1
  · rename_i hk
    rw [if_pos hk] at h2
    cases h1; cases h2; exact hmn
  · rename_i hk
    rw [if_neg hk] at h2
    split at h1
    · rename_i hk
      rw [hk] at h2
      cases h1; cases h2; exact d0
    · rename_i hk
      rw [hk] at h2
      simp only [] at h2
      unfold u32Sub at h1 h2
      rw [if_pos d3] at h1
      rw [if_pos d4] at h2
      cases h1; cases h2
      have e : n - n / f = n - n / f := rfl
      have : ∀ x y : ℕ, x ≤ y → x - x / f ≤ y - y / f := by
        intro x y hxy
        obtain ⟨c, rfl⟩ := Nat.exists_eq_add_of_le hxy
        have : (x + c) / f ≤ x / f + c := by
          calc (x + c) / f ≤ (x + c * f) / f := Nat.div_le_div_right (by nlinarith)
            _ = x / f + c := Nat.add_mul_div_right x c (by omega)
        have := Nat.div_le_self x f
        omega
      exact this m n hmn
    · rename_i hk0 hk1
      split at h2
      · exact absurd ‹_› hk0
      · exact absurd ‹_› hk1
      · unfold u32Add at h1 h2
        rw [if_pos (by omega)] at h1
        rw [if_pos (by omega)] at h2
        cases h1; cases h2; omega

/-- **C100** (single-threaded tests): a test whose requested operations all run on a single thread never misses an element, in the
warm-ups neither, however often it retries -- if it creates enough elements and the counts are not astronomical. -/
theorem C100_test_single_threaded (env : CrudEnv) (cfg : CrudCfg) (max : ℕ) (t ext : List Ev)
    (h1 : ∀ o, 0 < (cfg.op o).iters → (cfg.op o).threads = 1) (hr : RoomForRetries cfg) (h3 : ∀ o, 3 * (cfg.op o).iters < 2 ^ 31)
    (hc : CreatesEnough cfg) (h : (testCrud env cfg max t).2 = t ++ ext) (calls : List UCall) (hs : SeenAs env.profile ext calls) :
    NeverMisses (fun _ => True) calls := by
  have key : ∀ k cfg', adaptCfg env.profile k cfg = .ok cfg' → (∀ o, 0 < (cfg'.op o).iters → (cfg'.op o).threads = 1) ∧
      Fits cfg' ∧ CreatesEnough cfg' := by
    intro k cfg' hk
    obtain ⟨⟨r1, r2, r3, r4, r5, r6⟩, no⟩ := attempt_cfg env hr hk
    have ht : ∀ o, 0 < (cfg'.op o).iters → (cfg'.op o).threads = 1 := by
      intro o ho
      rw [r2 o]
      refine h1 o ?_
      have := r6 o
      omega
    refine ⟨ht, ⟨no, fun o ho => ?_⟩, fun o => ?_⟩
    · have a := r6 o
      have b := h3 o
      rw [ht o ho]
      omega
    · have b := h3 .create
      exact adapt_mono (hc o) (by omega) (adaptCfg_ok hk o).1 (adaptCfg_ok hk .create).1
  refine test_serves env cfg t ext max (fun k _ cfg' hk => ?_) (fun k _ cfg' hk => ?_) h calls hs
  · obtain ⟨a, b, c⟩ := key k cfg' hk
    exact ⟨b, fun o ho => by rw [a o ho]; exact one_dvd _, c⟩
  · obtain ⟨a, b, c⟩ := key k cfg' hk
    exact serves_warmup_even b (fun o ho => by rw [a o ho]; exact one_dvd _) c

/-! ### concrete cases -/

/-- a finished analysis on two threads and calls that the user's code may see of it -/
theorem steady_seen (T : TextEnv) (n : ℕ) (hn : n ≤ 1000) : ∃ a ext calls,
    internalAnalyse (steadyCrudEnv shipped T) (steadyCfg n .o1) [] = (.ok a, ext) ∧
    SeenAs (steadyCrudEnv shipped T).profile ext calls := by
  obtain ⟨a, t', h⟩ := steady_accepted T n hn []
  have hf := steadyCfg_fits n hn .o1
  obtain ⟨ext, h1, -, h2⟩ := C50_phase_order (steadyCrudEnv shipped T) (steadyCfg n .o1) hf.1 []
  rw [h] at h1 h2
  have e : t' = ext := h1
  subst e
  have hseq := h2 ⟨a, rfl⟩
  obtain ⟨calls, hs⟩ := seen_exists (steadyCrudEnv shipped T).profile (fun _ _ => 0) t' (by
    intro ph op x y th hm
    have hm := actions_passes hm
    rw [hseq] at hm
    have hle : ∀ o, ((steadyCfg n .o1).op o).iters ≤ 1000 := by
      intro o
      show (if o = .update then 0 else n) ≤ 1000
      split <;> omega
    have hle' : ∀ o, ((steadyCfg n .o1).op o).iters * (steadyCfg n .o1).warmup / 100 ≤ 1000 := by
      intro o
      have := hle o
      show _ * 10 / 100 ≤ 1000
      omega
    have key : ∀ ph' op' x' y', x' ≤ 2000 → y' ≤ 2000 → Ev.pass ph op x y th ∈ opRun (steadyCfg n .o1) ph' op' x' y' → PassArgs x y th := by
      intro ph' op' x' y' hx hy hm
      unfold opRun at hm
      split at hm
      · cases hm
      · simp only [List.mem_singleton, Ev.pass.injEq] at hm
        obtain ⟨-, -, rfl, rfl, rfl⟩ := hm
        exact ⟨by omega, by omega, by show 1 ≤ 2; omega, by show 2 < 2 ^ 31; norm_num⟩
    have L := hle
    have lc := hle .create
    have lr := hle .read
    have lu := hle .update
    have ld := hle .delete
    unfold crudSequence warmupSequence at hm
    rw [if_neg (by show ¬ (10 = 0); omega)] at hm
    simp only [List.mem_append, List.mem_singleton, reduceCtorEq, or_false] at hm
    have wc := hle' .create
    have wr := hle' .read
    have wu := hle' .update
    have wd := hle' .delete
    rcases hm with (((((((((((hm | hm) | hm) | hm) | hm) | hm) | hm) | hm) | hm) | hm) | hm) | hm) <;>
      exact key _ _ _ _ (by omega) (by omega) hm)
  exact ⟨a, t', calls, h, hs⟩

theorem steady_even (n : ℕ) (h : 2 ∣ n) : Even4 (steadyCfg n .o1) := by
  intro o ho
  show 2 ∣ (if o = .update then 0 else n)
  split
  · exact dvd_zero _
  · exact h

theorem steady_enough (n : ℕ) : CreatesEnough (steadyCfg n .o1) := by
  intro o
  show (if o = .update then 0 else n) ≤ n
  split <;> omega

-- 100 creations, reads and deletions on two threads: no call ever misses, and the container is empty at the end
example (T : TextEnv) : ∃ a ext calls, internalAnalyse (steadyCrudEnv shipped T) (steadyCfg 100 .o1) [] = (.ok a, ext) ∧
    SeenAs (steadyCrudEnv shipped T).profile ext calls ∧ (measuredArgs .delete calls).length = 200 ∧
    NeverMisses (fun _ => True) calls ∧ heldAfter ∅ calls = ∅ := by
  obtain ⟨a, ext, calls, h, hs⟩ := steady_seen T 100 (by norm_num)
  have hf := steadyCfg_fits 100 (by norm_num) .o1
  have hE := steady_even 100 (by norm_num)
  refine ⟨a, ext, calls, h, hs, ?_, (C100_never_misses _ _ hf hE (steady_enough 100) [] ext _ h calls hs).2 ?_, ?_⟩
  · rw [(C87_delete_after_create _ _ hf hE rfl [] ext a h calls hs).2.2.length_eq, List.length_range]; rfl
  · intro o ho
    cases o <;> first | exact ⟨5, rfl⟩ | exact absurd ho (lt_irrefl 0)
  · rw [(C100_contents _ _ hf hE (steady_enough 100) [] ext a h calls hs).2]
    exact Finset.Ico_self _

-- 110 creations, reads and deletions on two threads: they are divided evenly, but the 11 of the warm-up are not, and it deletes
-- an element it did not create
example (T : TextEnv) : ∃ a ext calls, internalAnalyse (steadyCrudEnv shipped T) (steadyCfg 110 .o1) [] = (.ok a, ext) ∧
    SeenAs (steadyCrudEnv shipped T).profile ext calls ∧ Even4 (steadyCfg 110 .o1) ∧
    NeverMisses UCall.Measured calls ∧ ¬ NeverMisses (fun _ => True) calls := by
  obtain ⟨a, ext, calls, h, hs⟩ := steady_seen T 110 (by norm_num)
  have hf := steadyCfg_fits 110 (by norm_num) .o1
  have hE := steady_even 110 (by norm_num)
  exact ⟨a, ext, calls, h, hs, hE, (C100_never_misses _ _ hf hE (steady_enough 110) [] ext _ h calls hs).1,
    C100_warmup_misses _ _ hf [] ext a h calls hs rfl rfl (by show 2 ≤ 110 * 10 / 100; norm_num) (by show ¬ 2 ∣ 110 * 10 / 100; decide)⟩

-- a single-threaded test of 100 creations and deletions meets the hypotheses, with any number of attempts
example : let cfg : CrudCfg := ⟨"single", 10, fun o => ⟨if o = .update then 0 else 100, 1, .o1, .o1⟩⟩
    (∀ o, 0 < (cfg.op o).iters → (cfg.op o).threads = 1) ∧ RoomForRetries cfg ∧ (∀ o, 3 * (cfg.op o).iters < 2 ^ 31) ∧
    CreatesEnough cfg := by
  refine ⟨fun o _ => rfl, fun o => ?_, fun o => ?_, fun o => ?_⟩ <;> cases o <;> decide

end BigO
