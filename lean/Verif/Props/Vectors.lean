import Verif.Spec.VectorSpec
import Verif.Props.Container
import Mathlib.Data.List.Sort

/-!
# C119: vectors that are pushed, indexed and popped during a CRUD analysis
-/
namespace BigO

/-- recursive form of `EveryCall` -/
def VOk (wanted : List ℕ → UCall → Prop) (which : UCall → Prop) : List ℕ → List UCall → Prop
  | _, [] => True
  | v, c :: l => (which c → wanted v c) ∧ VOk wanted which (vecKeep v c) l

theorem vecAfter_append (v : List ℕ) (a b : List UCall) : vecAfter v (a ++ b) = vecAfter (vecAfter v a) b := List.foldl_append ..

variable {wanted : List ℕ → UCall → Prop} {which : UCall → Prop}

theorem vOk_append : ∀ {v : List ℕ} {a b : List UCall},
    VOk wanted which v (a ++ b) ↔ VOk wanted which v a ∧ VOk wanted which (vecAfter v a) b
  | v, [], b => by simp [VOk, vecAfter]
  | v, c :: a, b => by
    have := vOk_append (v := vecKeep v c) (a := a) (b := b)
    show (_ ∧ VOk wanted which (vecKeep v c) (a ++ b)) ↔ (_ ∧ VOk wanted which (vecKeep v c) a) ∧ VOk wanted which (vecAfter (vecKeep v c) a) b
    rw [this, and_assoc]

theorem vOk_iff {calls : List UCall} {v : List ℕ} : VOk wanted which v calls ↔ EveryCall wanted which v calls := by
  induction calls generalizing v with
  | nil =>
    refine ⟨fun _ b c a h => ?_, fun _ => trivial⟩
    cases b <;> cases h
  | cons x l ih =>
    constructor
    · rintro ⟨h1, h2⟩ b c a h hc
      cases b with
      | nil => cases h; exact h1 hc
      | cons y b =>
        cases h
        exact ih.1 h2 b c a rfl hc
    · intro h
      exact ⟨h [] x l rfl, ih.2 fun b c a e hc => h (x :: b) c a (by rw [e]; rfl) hc⟩

theorem vOk_exempt : ∀ {calls : List UCall} {v : List ℕ}, (∀ c ∈ calls, ¬ which c) → VOk wanted which v calls
  | [], _, _ => trivial
  | c :: l, _, h => ⟨fun hc => absurd hc (h c (by simp)), vOk_exempt (calls := l) fun c hc => h c (by simp [hc])⟩

/-! ### sequences of passes -/

variable {p : Profile} {cfg : CrudCfg}

/-- from vectors with `Pre`, the passes `l` -- and their beginnings -- make the calls as wanted, and end with `Post` -/
def VTriple (p : Profile) (wanted : List ℕ → UCall → Prop) (which : UCall → Prop) (Pre : List ℕ → Prop) (l : List Ev) (Post : List ℕ → Prop) : Prop :=
  ∀ v, Pre v → (∀ calls, SeenAs p l calls → VOk wanted which v calls ∧ Post (vecAfter v calls)) ∧
    (∀ pre, pre <+: l → ∀ calls, SeenAs p pre calls → VOk wanted which v calls)

theorem VTriple.append {A B C : List ℕ → Prop} {a b : List Ev} (h1 : VTriple p wanted which A a B) (h2 : VTriple p wanted which B b C) :
    VTriple p wanted which A (a ++ b) C := by
  intro v hv
  constructor
  · intro calls hs
    obtain ⟨l1, l2, rfl, s1, s2⟩ := seen_append.1 hs
    obtain ⟨o1, e1⟩ := (h1 v hv).1 l1 s1
    obtain ⟨o2, e2⟩ := (h2 _ e1).1 l2 s2
    rw [vOk_append, vecAfter_append]
    exact ⟨⟨o1, o2⟩, e2⟩
  · intro pre hp calls hs
    rcases List.prefix_or_prefix_of_prefix hp (List.prefix_append a b) with hp | ⟨c, rfl⟩
    · exact (h1 v hv).2 pre hp calls hs
    · obtain ⟨l1, l2, rfl, s1, s2⟩ := seen_append.1 hs
      obtain ⟨o1, e1⟩ := (h1 v hv).1 l1 s1
      rw [vOk_append]
      exact ⟨o1, (h2 _ e1).2 c ((List.prefix_append_right_inj a).1 hp) l2 s2⟩

theorem VTriple.of_short {A B : List ℕ → Prop} {l : List Ev} (hl : l.length ≤ 1)
    (h : ∀ v, A v → ∀ calls, SeenAs p l calls → VOk wanted which v calls ∧ B (vecAfter v calls)) : VTriple p wanted which A l B := by
  refine fun v hv => ⟨h v hv, fun pre hp calls hs => ?_⟩
  rcases l with _ | ⟨e, _ | ⟨e', l⟩⟩
  · rw [List.prefix_nil.1 hp] at hs
    exact (h v hv calls hs).1
  · rcases List.prefix_cons_iff.1 hp with rfl | ⟨t, rfl, ht⟩
    · cases hs; trivial
    · rw [List.prefix_nil.1 ht] at hs
      exact (h v hv calls hs).1
  · simp at hl

theorem VTriple.weaken {A B A' B' : List ℕ → Prop} {l : List Ev} (h : VTriple p wanted which A l B) (ha : ∀ v, A' v → A v)
    (hb : ∀ v, B v → B' v) : VTriple p wanted which A' l B' := fun v hv =>
  ⟨fun calls hs => ⟨((h v (ha v hv)).1 calls hs).1, hb _ ((h v (ha v hv)).1 calls hs).2⟩, (h v (ha v hv)).2⟩

theorem vreset (n : ℕ) {A : List ℕ → Prop} (hw : ∀ v, wanted v (.reset n)) : VTriple p wanted which A [Ev.reset n] (fun v => v = []) := by
  refine VTriple.of_short (by simp) ?_
  rintro v - calls ⟨rest, hr, rfl⟩
  cases hr
  exact ⟨⟨fun _ => hw _, trivial⟩, rfl⟩

/-! ### passes -/

theorem v_creates (ph : Phase) (hw : ∀ v e, wanted v (.call ph .create e)) : ∀ (l : List ℕ) (v : List ℕ),
    VOk wanted which v (l.map (UCall.call ph .create)) ∧ vecAfter v (l.map (UCall.call ph .create)) = v ++ l
  | [], v => ⟨trivial, by simp [vecAfter]⟩
  | e :: l, v => by
    obtain ⟨i1, i2⟩ := v_creates ph hw l (v ++ [e])
    refine ⟨⟨fun _ => hw _ _, i1⟩, ?_⟩
    show vecAfter (v ++ [e]) _ = _
    rw [i2]; simp

theorem v_looks (ph : Phase) (op : Op) (hop : op = .read ∨ op = .update) : ∀ (l : List ℕ) (v : List ℕ), (∀ e ∈ l, wanted v (.call ph op e)) →
    VOk wanted which v (l.map (UCall.call ph op)) ∧ vecAfter v (l.map (UCall.call ph op)) = v
  | [], v, _ => ⟨trivial, rfl⟩
  | e :: l, v, h => by
    obtain ⟨i1, i2⟩ := v_looks ph op hop l v (fun x hx => h x (by simp [hx]))
    have hk : vecKeep v (.call ph op e) = v := by rcases hop with rfl | rfl <;> rfl
    refine ⟨⟨fun _ => h e (by simp), by rw [hk]; exact i1⟩, ?_⟩
    show vecAfter (vecKeep v (.call ph op e)) _ = _
    rw [hk]; exact i2

theorem v_pops (ph : Phase) : ∀ (l : List ℕ) (v : List ℕ), l.length ≤ v.length →
    VOk NoPanicOn which v (l.map (UCall.call ph .delete)) ∧ (vecAfter v (l.map (UCall.call ph .delete))).length = v.length - l.length
  | [], v, _ => ⟨trivial, by simp [vecAfter]⟩
  | e :: l, v, h => by
    simp only [List.length_cons] at h
    have hl : v.dropLast.length = v.length - 1 := List.length_dropLast
    obtain ⟨i1, i2⟩ := v_pops ph l v.dropLast (by omega)
    refine ⟨⟨fun _ => ?_, i1⟩, ?_⟩
    · show v ≠ []
      rintro rfl
      simp at h
    · show (vecAfter v.dropLast _).length = _
      rw [i2, hl, List.length_cons]; omega

theorem v_pops_own (ph : Phase) : ∀ (l : List ℕ) (v : List ℕ),
    VOk PopsItsNumber which (v ++ l.reverse) (l.map (UCall.call ph .delete)) ∧ vecAfter (v ++ l.reverse) (l.map (UCall.call ph .delete)) = v
  | [], v => ⟨trivial, by simp [vecAfter]⟩
  | e :: l, v => by
    obtain ⟨i1, i2⟩ := v_pops_own ph l v
    have hk : (v ++ (e :: l).reverse).dropLast = v ++ l.reverse := by
      rw [List.reverse_cons, ← List.append_assoc, List.dropLast_concat]
    refine ⟨⟨fun _ => ?_, ?_⟩, ?_⟩
    · show (v ++ (e :: l).reverse).getLast? = some e
      rw [List.reverse_cons, ← List.append_assoc, List.getLast?_concat]
    · show VOk _ _ (v ++ (e :: l).reverse).dropLast _
      rw [hk]; exact i1
    · show vecAfter (v ++ (e :: l).reverse).dropLast _ = _
      rw [hk]; exact i2

/-! ### bounds -/

/-- at least `h` elements -/
def AtLeast (h : ℕ) (v : List ℕ) : Prop := h ≤ v.length

theorem b_create {ph a b h} (hf : Fits cfg) (hab : a ≤ b) (ha : a < 2 ^ 31) (hb : b < 2 ^ 31)
    (hd : (cfg.op .create).threads ∣ b - a) (h0 : (cfg.op .create).iters = 0 → a = b) (hh : h = a) :
    VTriple p NoPanicOn which (AtLeast h) (opRun cfg ph .create a b) (AtLeast b) := by
  subst hh
  refine VTriple.of_short (opRun_short ..) fun v hv calls hs => ?_
  rcases seen_opRun hs with ⟨hz, rfl⟩ | ⟨hpos, f, s, hs', rfl⟩
  · exact ⟨trivial, by have := h0 hz; subst this; exact hv⟩
  · obtain ⟨o, e⟩ := v_creates (which := which) (wanted := NoPanicOn) ph (fun _ _ => trivial) (allCalls s) v
    refine ⟨o, ?_⟩
    have hl := (C42_remainder_ascending p h b _ ⟨ha, hb, (hf.2 _ hpos).2.1, (hf.2 _ hpos).2.2⟩ hab f s hs').length_eq
    rw [Nat.mod_eq_zero_of_dvd hd] at hl
    unfold AtLeast at *
    rw [e]
    simp at hl ⊢
    omega

theorem b_look {ph op a b h} (hop : op = .read ∨ op = .update) (hf : Fits cfg) (hab : a ≤ b) (ha : a < 2 ^ 31) (hb : b < 2 ^ 31)
    (hh : b ≤ h) : VTriple p NoPanicOn which (AtLeast h) (opRun cfg ph op a b) (AtLeast h) := by
  refine VTriple.of_short (opRun_short ..) fun v hv calls hs => ?_
  rcases seen_opRun hs with ⟨hz, rfl⟩ | ⟨hpos, f, s, hs', rfl⟩
  · exact ⟨trivial, hv⟩
  · have hm := C42_remainder_ascending p a b _ ⟨ha, hb, (hf.2 _ hpos).2.1, (hf.2 _ hpos).2.2⟩ hab f s hs'
    obtain ⟨o, e⟩ := v_looks (which := which) (wanted := NoPanicOn) ph op hop (allCalls s) v (by
      intro e he
      rw [hm.mem_iff, List.mem_range'_1] at he
      have hv' : h ≤ v.length := hv
      have hmod := Nat.mod_le (b - a) (cfg.op op).threads
      rcases hop with rfl | rfl
      · show e < v.length; omega
      · show e < v.length; omega)
    exact ⟨o, by rw [e]; exact hv⟩

theorem b_delete {ph a b h} (hf : Fits cfg) (hab : b ≤ a) (ha : a < 2 ^ 31) (hb : b < 2 ^ 31) (hh : a - b ≤ h) :
    VTriple p NoPanicOn which (AtLeast h) (opRun cfg ph .delete a b) (AtLeast (h - (a - b))) := by
  refine VTriple.of_short (opRun_short ..) fun v hv calls hs => ?_
  have hv' : h ≤ v.length := hv
  rcases seen_opRun hs with ⟨hz, rfl⟩ | ⟨hpos, f, s, hs', rfl⟩
  · exact ⟨trivial, by show _ ≤ v.length; omega⟩
  · have hl := (C42_remainder_descending p a b _ ⟨ha, hb, (hf.2 _ hpos).2.1, (hf.2 _ hpos).2.2⟩ hab f s hs').length_eq
    rw [List.length_range'] at hl
    obtain ⟨o, e⟩ := v_pops (which := which) ph (allCalls s) v (by omega)
    exact ⟨o, by show _ ≤ (vecAfter _ _).length; omega⟩

/-- the threads of the creations divide them -/
def CreatesEvenly (cfg : CrudCfg) : Prop := (cfg.op .create).threads ∣ (cfg.op .create).iters

theorem b_measured (hf : Fits cfg) (he : CreatesEvenly cfg) (hc : CreatesEnough cfg) :
    VTriple p NoPanicOn which (AtLeast 0) (opRun cfg .pass1 .create 0 (cfg.op .create).iters ++ opRun cfg .pass1 .read 0 (cfg.op .read).iters ++
      opRun cfg .pass1 .update 0 (cfg.op .update).iters ++
      opRun cfg .pass2 .create (cfg.op .create).iters (2 * (cfg.op .create).iters) ++
      opRun cfg .pass2 .read (cfg.op .read).iters (2 * (cfg.op .read).iters) ++
      opRun cfg .pass2 .update (cfg.op .update).iters (2 * (cfg.op .update).iters) ++
      opRun cfg .pass2 .delete (2 * (cfg.op .delete).iters) (cfg.op .delete).iters ++ opRun cfg .pass1 .delete (cfg.op .delete).iters 0)
      (AtLeast 0) := by
  have b := fun o => fits_lt (cfg := cfg) (o := o) hf
  have bc := b .create
  have br := b .read
  have bu := b .update
  have bd := b .delete
  have cr := hc .read
  have cu := hc .update
  have cd := hc .delete
  have d0 : (cfg.op .create).threads ∣ (cfg.op .create).iters - 0 := he
  have d1 : (cfg.op .create).threads ∣ 2 * (cfg.op .create).iters - (cfg.op .create).iters := by
    rw [show 2 * (cfg.op .create).iters - (cfg.op .create).iters = (cfg.op .create).iters by omega]; exact he
  exact ((((((((b_create hf (by omega) (by omega) (by omega) d0 (by omega) rfl).append
    (b_look (Or.inl rfl) hf (by omega) (by omega) (by omega) (by omega))).append
    (b_look (Or.inr rfl) hf (by omega) (by omega) (by omega) (by omega))).append
    (b_create hf (by omega) (by omega) (by omega) d1 (by omega) rfl)).append
    (b_look (Or.inl rfl) hf (by omega) (by omega) (by omega) (by omega))).append
    (b_look (Or.inr rfl) hf (by omega) (by omega) (by omega) (by omega))).append
    (b_delete hf (by omega) (by omega) (by omega) (by omega))).append
    (b_delete hf (by omega) (by omega) (by omega) (by omega))).weaken (fun _ h => h) (fun _ _ => Nat.zero_le _)

theorem b_warmup : VTriple p NoPanicOn UCall.Measured (AtLeast 0) (warmupSequence cfg) (AtLeast 0) := by
  intro v _
  refine ⟨fun calls hs => ⟨vOk_exempt (warm_exempt warm_events hs), Nat.zero_le _⟩, fun pre hp calls hs =>
    vOk_exempt (warm_exempt (fun e he => warm_events e (hp.subset he)) hs)⟩

theorem b_warmup_even (hf : Fits cfg) (he : (cfg.op .create).threads ∣ (cfg.op .create).iters * cfg.warmup / 100) (hc : CreatesEnough cfg) :
    VTriple p NoPanicOn which (AtLeast 0) (warmupSequence cfg) (AtLeast 0) := by
  unfold warmupSequence
  split
  · refine VTriple.of_short (by simp) fun v hv calls hs => ?_
    cases hs
    exact ⟨trivial, hv⟩
  · have b := fun o => warm_lt (cfg := cfg) (o := o) hf
    have z := fun o => warm_zero (cfg := cfg) (o := o)
    have le : ∀ o, (cfg.op o).iters * cfg.warmup / 100 ≤ (cfg.op .create).iters * cfg.warmup / 100 := fun o =>
      Nat.div_le_div_right (Nat.mul_le_mul_right _ (hc o))
    generalize hw : (fun o => (cfg.op o).iters * cfg.warmup / 100) = w
    have hw' : ∀ o, (cfg.op o).iters * cfg.warmup / 100 = w o := fun o => congrFun hw o
    simp only [hw'] at b z le he ⊢
    have l1 := le .delete
    exact (((((b_create hf (Nat.zero_le _) (by norm_num) (b .create) he (fun h => (z _ h).symm) rfl).append
      (b_look (Or.inl rfl) hf (Nat.zero_le _) (by norm_num) (b .read) (le _))).append
      (b_look (Or.inr rfl) hf (Nat.zero_le _) (by norm_num) (b .update) (le _))).append
      (b_delete hf (Nat.zero_le _) (b .delete) (by norm_num) (by omega))).append
      (vreset _ (fun _ => trivial))).weaken (fun _ h => h) (fun _ _ => Nat.zero_le _)

theorem crudSequence_assoc : crudSequence cfg = warmupSequence cfg ++ (opRun cfg .pass1 .create 0 (cfg.op .create).iters ++
      opRun cfg .pass1 .read 0 (cfg.op .read).iters ++
      opRun cfg .pass1 .update 0 (cfg.op .update).iters ++
      opRun cfg .pass2 .create (cfg.op .create).iters (2 * (cfg.op .create).iters) ++
      opRun cfg .pass2 .read (cfg.op .read).iters (2 * (cfg.op .read).iters) ++
      opRun cfg .pass2 .update (cfg.op .update).iters (2 * (cfg.op .update).iters) ++
      opRun cfg .pass2 .delete (2 * (cfg.op .delete).iters) (cfg.op .delete).iters ++ opRun cfg .pass1 .delete (cfg.op .delete).iters 0) := by
  simp only [crudSequence, List.append_assoc]

/-- **C119** (bounds): during a CRUD analysis, finished or aborted, of a vector that is pushed and popped, if the threads of the creations
divide them evenly and no more elements are read, updated or deleted per pass than created, then in every interleaving no measured call
panics: no index is out of bounds, nothing is popped off an empty vector -- whatever the vector held before. The same goes for the
calls of the warm-up if the threads of the creations divide its size. How the other operations are divided does not matter. -/
theorem C119_in_bounds (env : CrudEnv) (cfg : CrudCfg) (hf : Fits cfg) (he : CreatesEvenly cfg) (hc : CreatesEnough cfg) (t ext : List Ev)
    (res : Res (CrudAnalyses × String)) (h : internalAnalyse env cfg t = (res, t ++ ext)) (calls : List UCall)
    (hs : SeenAs env.profile ext calls) (v : List ℕ) :
    EveryCall NoPanicOn UCall.Measured v calls ∧
    ((cfg.op .create).threads ∣ (cfg.op .create).iters * cfg.warmup / 100 → EveryCall NoPanicOn (fun _ => True) v calls) := by
  obtain ⟨pre, h1, h2, -⟩ := seen_prefix hf h hs
  rw [crudSequence_assoc] at h1
  exact ⟨vOk_iff.1 ((b_warmup.append (b_measured hf he hc) v (Nat.zero_le _)).2 pre h1 calls h2),
    fun hw => vOk_iff.1 (((b_warmup_even hf hw hc).append (b_measured hf he hc) v (Nat.zero_le _)).2 pre h1 calls h2)⟩

/-- **C119** (necessity): if as many elements are read as created, the threads of the creations do not divide them, and there are no more
reading threads than elements, then some measured read is out of bounds, in every interleaving: with an empty vector to begin with, the
remainder is not pushed, but the last element is read. -/
theorem C119_out_of_bounds (env : CrudEnv) (cfg : CrudCfg) (hf : Fits cfg) (hn : (cfg.op .read).iters = (cfg.op .create).iters)
    (hd : ¬ CreatesEvenly cfg) (hr : (cfg.op .read).threads ≤ (cfg.op .read).iters) (t ext : List Ev)
    (a : CrudAnalyses × String) (h : internalAnalyse env cfg t = (.ok a, t ++ ext)) (calls : List UCall)
    (hs : SeenAs env.profile ext calls) : ¬ EveryCall NoPanicOn UCall.Measured [] calls := by
  obtain ⟨pre, -, hp, h3⟩ := seen_prefix hf h hs
  rw [h3 a rfl] at hp
  obtain ⟨w, c1, r1, u1, c2, r2, u2, d2, d1, P⟩ := pieces hp
  intro hm
  rw [← vOk_iff, P.eq] at hm
  simp only [vOk_append, vecAfter_append, and_assoc] at hm
  obtain ⟨-, -, mr1, -⟩ := hm
  have bc := fits_lt (cfg := cfg) (o := .create) hf
  have hi : (cfg.op .create).iters ≠ 0 := fun e => hd (by unfold CreatesEvenly; rw [e]; exact dvd_zero _)
  obtain ⟨-, tc1, tc2⟩ := hf.2 .create (by omega)
  obtain ⟨-, tr1, tr2⟩ := hf.2 .read (by omega)
  have hw : vecAfter [] w = [] := by
    have hw := P.hw
    unfold warmupSequence at hw
    split at hw
    · cases hw; rfl
    · obtain ⟨l1, l2, rfl, -, rest, h2, rfl⟩ := seen_append.1 hw
      cases h2
      rw [vecAfter_append]; rfl
  rcases seen_opRun P.hc1 with ⟨hz, -⟩ | ⟨-, f, s, hs1, rfl⟩
  · exact hi hz
  rcases seen_opRun P.hr1 with ⟨hz, -⟩ | ⟨-, g, s', hs2, rfl⟩
  · omega
  have e1 := (C42_remainder_ascending _ 0 (cfg.op .create).iters _ ⟨by omega, by omega, tc1, tc2⟩ (by omega) f s hs1).length_eq
  have e2 := C42_remainder_ascending _ 0 (cfg.op .read).iters _ ⟨by omega, by omega, tr1, tr2⟩ (by omega) g s' hs2
  rw [hw, (v_creates (which := UCall.Measured) (wanted := NoPanicOn) .pass1 (fun _ _ => trivial) (allCalls s) []).2] at mr1
  rw [List.nil_append] at mr1
  rw [List.length_range', Nat.sub_zero] at e1
  rw [Nat.sub_zero] at e2
  have hmod : (cfg.op .create).iters % (cfg.op .create).threads ≠ 0 := fun e => hd (Nat.dvd_of_mod_eq_zero e)
  have hle := Nat.mod_le (cfg.op .create).iters (cfg.op .create).threads
  have hlt := Nat.mod_lt (cfg.op .read).iters tr1
  have hmem : (cfg.op .read).iters - 1 ∈ allCalls s' := by rw [e2.mem_iff, List.mem_range'_1]; omega
  have key : ∀ (es : List ℕ) (v : List ℕ), VOk NoPanicOn UCall.Measured v (es.map (UCall.call .pass1 .read)) → ∀ e ∈ es, e < v.length := by
    intro es
    induction es with
    | nil => intro v _ e he; cases he
    | cons x es ih =>
      rintro v ⟨h1, h2⟩ e he
      rcases List.mem_cons.1 he with rfl | he
      · exact h1 (by simp [UCall.Measured])
      · exact ih v h2 e he
  have := key _ _ mr1 _ hmem
  omega

/-! ### one thread: pops and pushes match -/

/-- the calls of a pass on one thread: descending if the range ascends, and the other way round -/
theorem one_thread {a b : ℕ} {f : List (ℕ × ℕ) → ℕ → ℕ} {s : PassRun} (ha : a < 2 ^ 31) (hb : b < 2 ^ 31) (hs : Passed p a b 1 f s) :
    (a ≤ b → allCalls s = (List.range' a (b - a)).reverse) ∧ (b ≤ a → allCalls s = List.range' b (a - b)) := by
  have hA : PassArgs a b 1 := ⟨ha, hb, le_rfl, by norm_num⟩
  have hperm := C40_each_once p a b 1 hA (one_dvd _) f s hs
  obtain ⟨low, -, -, -, hno⟩ := C41_private_intervals p a b 1 hA f s hs
  have hall : callsBy s 0 = allCalls s := by
    unfold callsBy allCalls
    congr 1
    refine List.filter_eq_self.2 fun c hc => ?_
    by_contra hne
    have h0 : 1 ≤ c.1 := by
      have : c.1 ≠ 0 := by simpa using hne
      omega
    have := hno c.1 h0
    unfold callsBy at this
    have hin : c.2 ∈ (s.calls.filter (fun d => d.1 = c.1)).map Prod.snd := List.mem_map.2 ⟨c, List.mem_filter.2 ⟨hc, by simp⟩, rfl⟩
    rw [this] at hin
    cases hin
  obtain ⟨o1, o2⟩ := C44_order p a b 1 hA f s hs 0 (by norm_num)
  rw [hall] at o1 o2
  constructor
  · intro hab
    have hp2 : (allCalls s).Perm (List.range' a (b - a)).reverse := by
      refine hperm.trans ?_
      unfold passRange
      rw [Nat.min_eq_left hab, Nat.max_eq_right hab]
      exact (List.reverse_perm _).symm
    refine hp2.eq_of_pairwise (le := (· > ·)) (fun x y _ _ h1 h2 => ?_) (o1 hab) ?_
    · exact absurd h1 (by have : x < y := h2; have : y < x := h1; omega)
    · rw [List.pairwise_reverse]
      exact List.pairwise_lt_range'
  · intro hab
    have hp2 : (allCalls s).Perm (List.range' b (a - b)) := by
      refine hperm.trans ?_
      unfold passRange
      rw [Nat.min_eq_right hab, Nat.max_eq_left hab]
    refine hp2.eq_of_pairwise (le := (· < ·)) (fun x y _ _ h1 h2 => ?_) (o2 hab) List.pairwise_lt_range'
    exact absurd h1 (by have : y < x := h2; have : x < y := h1; omega)

/-- creations and deletions run on one thread each, and are as many -/
def MirroredOnOneThread (cfg : CrudCfg) : Prop :=
  (cfg.op .create).iters = (cfg.op .delete).iters ∧
    (0 < (cfg.op .create).iters → (cfg.op .create).threads = 1 ∧ (cfg.op .delete).threads = 1)

theorem p_create {ph a b} {u : List ℕ} (h1 : 0 < (cfg.op .create).iters → (cfg.op .create).threads = 1) (hab : a ≤ b) (ha : a < 2 ^ 31) (hb : b < 2 ^ 31)
    (h0 : (cfg.op .create).iters = 0 → a = b) :
    VTriple p PopsItsNumber which (fun v => v = u) (opRun cfg ph .create a b) (fun v => v = u ++ (List.range' a (b - a)).reverse) := by
  refine VTriple.of_short (opRun_short ..) ?_
  rintro v rfl calls hs
  rcases seen_opRun hs with ⟨hz, rfl⟩ | ⟨hpos, f, s, hs', rfl⟩
  · refine ⟨trivial, ?_⟩
    rw [h0 hz]
    simp [vecAfter]
  · rw [h1 hpos] at hs'
    rw [(one_thread ha hb hs').1 hab]
    exact v_creates ph (fun _ _ => trivial) _ v

theorem p_look {ph op a b} {u : List ℕ} (hop : op = .read ∨ op = .update) :
    VTriple p PopsItsNumber which (fun v => v = u) (opRun cfg ph op a b) (fun v => v = u) := by
  refine VTriple.of_short (opRun_short ..) ?_
  rintro v rfl calls hs
  rcases seen_opRun hs with ⟨hz, rfl⟩ | ⟨hpos, f, s, hs', rfl⟩
  · exact ⟨trivial, rfl⟩
  · exact v_looks ph op hop _ v (fun e _ => by rcases hop with rfl | rfl <;> trivial)

theorem p_delete {ph a b} {u : List ℕ} (h1 : 0 < (cfg.op .delete).iters → (cfg.op .delete).threads = 1) (hab : b ≤ a) (ha : a < 2 ^ 31) (hb : b < 2 ^ 31)
    (h0 : (cfg.op .delete).iters = 0 → a = b) :
    VTriple p PopsItsNumber which (fun v => v = u ++ (List.range' b (a - b)).reverse) (opRun cfg ph .delete a b) (fun v => v = u) := by
  refine VTriple.of_short (opRun_short ..) ?_
  rintro v rfl calls hs
  rcases seen_opRun hs with ⟨hz, rfl⟩ | ⟨hpos, f, s, hs', rfl⟩
  · refine ⟨trivial, ?_⟩
    rw [h0 hz]
    simp [vecAfter]
  · rw [h1 hpos] at hs'
    rw [(one_thread ha hb hs').2 hab]
    exact v_pops_own ph _ u

theorem p_measured {u : List ℕ} (hf : Fits cfg) (hm : MirroredOnOneThread cfg) :
    VTriple p PopsItsNumber which (fun v => v = u) (opRun cfg .pass1 .create 0 (cfg.op .create).iters ++ opRun cfg .pass1 .read 0 (cfg.op .read).iters ++
      opRun cfg .pass1 .update 0 (cfg.op .update).iters ++
      opRun cfg .pass2 .create (cfg.op .create).iters (2 * (cfg.op .create).iters) ++
      opRun cfg .pass2 .read (cfg.op .read).iters (2 * (cfg.op .read).iters) ++
      opRun cfg .pass2 .update (cfg.op .update).iters (2 * (cfg.op .update).iters) ++
      opRun cfg .pass2 .delete (2 * (cfg.op .delete).iters) (cfg.op .delete).iters ++ opRun cfg .pass1 .delete (cfg.op .delete).iters 0)
      (fun v => v = u) := by
  have bc := fits_lt (cfg := cfg) (o := .create) hf
  have bd := fits_lt (cfg := cfg) (o := .delete) hf
  obtain ⟨e, h1⟩ := hm
  have t1 := fun h => (h1 h).1
  have t2 : 0 < (cfg.op .delete).iters → (cfg.op .delete).threads = 1 := fun h => (h1 (by omega)).2
  have s1 := p_create (p := p) (which := which) (ph := .pass1) (u := u) (a := 0) (b := (cfg.op .create).iters) t1 (Nat.zero_le _) (by norm_num) (by omega) (by omega)
  have s2 := p_create (p := p) (which := which) (ph := .pass2) (b := 2 * (cfg.op .create).iters)
    (u := u ++ (List.range' 0 ((cfg.op .create).iters - 0)).reverse) t1 (a := (cfg.op .create).iters) (by omega) (by omega) (by omega) (by omega)
  have s3 := p_delete (p := p) (which := which) (ph := .pass2) (a := 2 * (cfg.op .delete).iters) (b := (cfg.op .delete).iters)
    (u := u ++ (List.range' 0 ((cfg.op .create).iters - 0)).reverse) t2 (by omega) (by omega) (by omega) (by omega)
  have s4 := p_delete (p := p) (which := which) (ph := .pass1) (a := (cfg.op .delete).iters) (b := 0) (u := u) t2 (by omega) (by omega) (by omega) (by omega)
  rw [← e] at s3 s4
  rw [← e]
  exact (((((((s1.append (p_look (Or.inl rfl))).append (p_look (Or.inr rfl))).append s2).append (p_look (Or.inl rfl))).append
    (p_look (Or.inr rfl))).append s3).append s4)

theorem p_warmup {u : List ℕ} (hf : Fits cfg) (hm : MirroredOnOneThread cfg) :
    VTriple p PopsItsNumber which (fun v => v = u) (warmupSequence cfg) (fun v => v = if cfg.warmup = 0 then u else []) := by
  unfold warmupSequence
  split
  · refine VTriple.of_short (by simp) fun v hv calls hs => ?_
    cases hs
    exact ⟨trivial, hv⟩
  · have b := fun o => warm_lt (cfg := cfg) (o := o) hf
    have z := fun o => warm_zero (cfg := cfg) (o := o)
    obtain ⟨e, h1⟩ := hm
    have t1 := fun h => (h1 h).1
    have t2 : 0 < (cfg.op .delete).iters → (cfg.op .delete).threads = 1 := fun h => (h1 (by omega)).2
    have s1 := p_create (p := p) (which := which) (ph := .warmup) (u := u) t1 (Nat.zero_le _) (by norm_num) (b .create) (fun h => (z _ h).symm)
    have s4 := p_delete (p := p) (which := which) (ph := .warmup) (u := u) t2 (Nat.zero_le _) (b .delete) (by norm_num) (fun h => z _ h)
    rw [← e] at s4
    simp only [← e]
    exact ((((s1.append (p_look (Or.inl rfl))).append (p_look (Or.inr rfl))).append s4).append
      (vreset _ (fun _ => trivial)))

/-- **C119** (one thread): if creations and deletions run on one thread each and are as many, then a vector used as a stack behaves like a
container with keys: every deletion, of the warm-up and of the measured passes, pops exactly the number it is given, in finished and
aborted analyses and whatever the vector held before. -/
theorem C119_pops_its_number (env : CrudEnv) (cfg : CrudCfg) (hf : Fits cfg) (hm : MirroredOnOneThread cfg) (t ext : List Ev)
    (res : Res (CrudAnalyses × String)) (h : internalAnalyse env cfg t = (res, t ++ ext)) (calls : List UCall)
    (hs : SeenAs env.profile ext calls) (v : List ℕ) : EveryCall PopsItsNumber (fun _ => True) v calls := by
  obtain ⟨pre, h1, h2, -⟩ := seen_prefix hf h hs
  rw [crudSequence_assoc] at h1
  exact vOk_iff.1 (((p_warmup hf hm).append (p_measured hf hm) v rfl).2 pre h1 calls h2)

/-- **C119** (afterwards): and when the analysis is finished, the vector is as it was before -- or empty, if there was a warm-up, as that
ends with a reset. -/
theorem C119_as_before (env : CrudEnv) (cfg : CrudCfg) (hf : Fits cfg) (hm : MirroredOnOneThread cfg) (t ext : List Ev)
    (a : CrudAnalyses × String) (h : internalAnalyse env cfg t = (.ok a, t ++ ext)) (calls : List UCall)
    (hs : SeenAs env.profile ext calls) (v : List ℕ) : vecAfter v calls = if cfg.warmup = 0 then v else [] := by
  obtain ⟨pre, -, h2, h3⟩ := seen_prefix hf h hs
  rw [h3 a rfl, crudSequence_assoc] at h2
  exact (((p_warmup (which := fun _ => True) hf hm).append (p_measured hf hm) v rfl).1 calls h2).2

/-! ### whole tests -/

theorem v_attempt (env : CrudEnv) (cfg : CrudCfg) (k : ℕ) (tr : List Ev)
    (hok : ∀ cfg', adaptCfg env.profile k cfg = .ok cfg' → NoOverflow cfg' ∧ ∀ t' e', (internalAnalyse env cfg' t').2 = t' ++ e' → ∀ calls,
      SeenAs env.profile e' calls → ∀ v, VOk wanted which v calls) :
    ∃ e, (attempt env cfg k tr).2 = tr ++ e ∧ ∀ calls, SeenAs env.profile e calls → ∀ v, VOk wanted which v calls := by
  unfold attempt
  cases hc : adaptCfg env.profile k cfg with
  | error e => exact ⟨[], by simp, fun calls h => by cases h; exact fun _ => trivial⟩
  | ok cfg' =>
    obtain ⟨h1, h2⟩ := hok cfg' hc
    obtain ⟨ext, e1, -, -⟩ := C50_phase_order env cfg' h1 tr
    exact ⟨ext, e1, fun calls hs v => h2 tr ext e1 calls hs v⟩

theorem v_reset_after {e : List Ev} {n : ℕ} (hw : ∀ v n, wanted v (.reset n))
    (h : ∀ calls, SeenAs p e calls → ∀ v, VOk wanted which v calls) :
    ∀ calls, SeenAs p (e ++ [Ev.reset n]) calls → ∀ v, VOk wanted which v calls := by
  intro calls hs v
  obtain ⟨l1, l2, rfl, s1, rest, s2, rfl⟩ := seen_append.1 hs
  cases s2
  rw [vOk_append]
  exact ⟨h l1 s1 v, fun _ => hw _ _, trivial⟩

theorem v_both {e e' : List Ev} (h : ∀ calls, SeenAs p e calls → ∀ v, VOk wanted which v calls)
    (h' : ∀ calls, SeenAs p e' calls → ∀ v, VOk wanted which v calls) :
    ∀ calls, SeenAs p (e ++ e') calls → ∀ v, VOk wanted which v calls := by
  intro calls hs v
  obtain ⟨l1, l2, rfl, s1, s2⟩ := seen_append.1 hs
  rw [vOk_append]
  exact ⟨h l1 s1 v, h' l2 s2 _⟩

theorem v_between (hw : ∀ v n, wanted v (.reset n)) (k : ℕ) :
    ∀ calls, SeenAs p (betweenAttempts k) calls → ∀ v, VOk wanted which v calls := by
  rintro calls ⟨rest, s, rfl⟩ v
  cases s
  exact ⟨fun _ => hw _ _, trivial⟩

theorem v_test (env : CrudEnv) (cfg : CrudCfg) (t ext : List Ev) (max : ℕ) (hw : ∀ v n, wanted v (.reset n))
    (hok : ∀ k, k < max → ∀ cfg', adaptCfg env.profile k cfg = .ok cfg' → NoOverflow cfg' ∧ ∀ t' e', (internalAnalyse env cfg' t').2 = t' ++ e' → ∀ calls,
      SeenAs env.profile e' calls → ∀ v, VOk wanted which v calls)
    (h : (testCrud env cfg max t).2 = t ++ ext) (calls : List UCall) (hs : SeenAs env.profile ext calls) (v : List ℕ) :
    VOk wanted which v calls := by
  have before : ∀ k, k ≤ max → ∃ e, beforeAttempt env cfg t k = t ++ e ∧ ∀ calls, SeenAs env.profile e calls → ∀ v, VOk wanted which v calls := by
    intro k
    induction k with
    | zero => exact fun _ => ⟨[], by simp [beforeAttempt], fun calls h => by cases h; exact fun _ => trivial⟩
    | succ k ih =>
      intro hk
      obtain ⟨e, h1, h2⟩ := ih (by omega)
      obtain ⟨e', h3, h4⟩ := v_attempt env cfg k (beforeAttempt env cfg t k) (hok k (by omega))
      refine ⟨e ++ (e' ++ betweenAttempts k), ?_, v_both h2 (v_both h4 (v_between hw k))⟩
      show (attempt env cfg k (beforeAttempt env cfg t k)).2 ++ _ = _
      rw [h3, h1]; simp only [List.append_assoc]
  rcases Nat.eq_zero_or_pos max with rfl | hmax
  · have e : ext = [] := by
      have : t = t ++ ext := h
      simpa using this
    subst e; cases hs; trivial
  · obtain ⟨k, hk, -, h3⟩ := C53_attempts env cfg max hmax t
    obtain ⟨e1, b1, b2⟩ := before k (by omega)
    obtain ⟨e2, a1, a2⟩ := v_attempt env cfg k (beforeAttempt env cfg t k) (hok k hk)
    rw [a1, b1, h] at h3
    rcases h3 with ⟨-, h3⟩ | ⟨-, -, -, h3⟩
    · rw [List.append_assoc] at h3
      rw [List.append_cancel_left h3] at hs
      exact v_both b2 a2 calls hs v
    · rw [List.append_assoc, List.append_assoc] at h3
      rw [List.append_cancel_left h3] at hs
      exact v_both b2 (v_both a2 fun calls hs v => by
        obtain ⟨rest, s, rfl⟩ := hs
        cases s
        exact ⟨fun _ => hw _ _, trivial⟩) calls hs v

/-- **C119** (whole tests): a test whose requested operations all run on one thread, which creates as many elements as it deletes and at
least as many as it reads and updates, never indexes a vector out of bounds, never pops an empty one, and pops exactly the numbers its
deletions are given, in all of its attempts and their warm-ups. -/
theorem C119_test (env : CrudEnv) (cfg : CrudCfg) (max : ℕ) (t ext : List Ev)
    (h1 : ∀ o, 0 < (cfg.op o).iters → (cfg.op o).threads = 1) (hr : RoomForRetries cfg) (h3 : ∀ o, 3 * (cfg.op o).iters < 2 ^ 31)
    (hc : CreatesEnough cfg) (hcd : (cfg.op .create).iters = (cfg.op .delete).iters)
    (h : (testCrud env cfg max t).2 = t ++ ext) (calls : List UCall) (hs : SeenAs env.profile ext calls) (v : List ℕ) :
    EveryCall NoPanicOn (fun _ => True) v calls ∧ EveryCall PopsItsNumber (fun _ => True) v calls := by
  have key : ∀ k cfg', adaptCfg env.profile k cfg = .ok cfg' → (∀ o, 0 < (cfg'.op o).iters → (cfg'.op o).threads = 1) ∧
      Fits cfg' ∧ CreatesEnough cfg' ∧ (cfg'.op .create).iters = (cfg'.op .delete).iters := by
    intro k cfg' hk
    obtain ⟨⟨r1, r2, r3, r4, r5, r6⟩, no⟩ := attempt_cfg env hr hk
    have ht : ∀ o, 0 < (cfg'.op o).iters → (cfg'.op o).threads = 1 := by
      intro o ho
      rw [r2 o]
      refine h1 o ?_
      have := r6 o
      omega
    have ad := adaptCfg_ok hk
    refine ⟨ht, ⟨no, fun o ho => ?_⟩, fun o => ?_, ?_⟩
    · have a := r6 o
      have b := h3 o
      rw [ht o ho]
      omega
    · have b := h3 .create
      exact adapt_mono (hc o) (by omega) (ad o).1 (ad .create).1
    · have b := h3 .create
      have b' := h3 .delete
      exact le_antisymm (adapt_mono hcd.le (by omega) (ad .create).1 (ad .delete).1) (adapt_mono hcd.ge (by omega) (ad .delete).1 (ad .create).1)
  have full : ∀ k cfg', adaptCfg env.profile k cfg = .ok cfg' → ∀ t' e', (internalAnalyse env cfg' t').2 = t' ++ e' →
      internalAnalyse env cfg' t' = ((internalAnalyse env cfg' t').1, t' ++ e') := fun _ _ _ t' e' he => by rw [← he]
  constructor
  · refine vOk_iff.1 (v_test env cfg t ext max (fun _ _ => trivial) (fun k _ cfg' hk => ?_) h calls hs v)
    obtain ⟨a, b, c, d⟩ := key k cfg' hk
    refine ⟨b.1, fun t' e' he calls' hs' v' => ?_⟩
    by_cases hz : (cfg'.op .create).iters = 0
    · refine vOk_iff.2 ((C119_in_bounds env cfg' b ?_ c t' e' _ (full k cfg' hk t' e' he) calls' hs' v').2 ?_)
      · unfold CreatesEvenly; rw [hz]; exact dvd_zero _
      · rw [hz]; simp
    · refine vOk_iff.2 ((C119_in_bounds env cfg' b ?_ c t' e' _ (full k cfg' hk t' e' he) calls' hs' v').2 ?_)
      · unfold CreatesEvenly; rw [a _ (by omega)]; exact one_dvd _
      · rw [a _ (by omega)]; exact one_dvd _
  · refine vOk_iff.1 (v_test env cfg t ext max (fun _ _ => trivial) (fun k _ cfg' hk => ?_) h calls hs v)
    obtain ⟨a, b, c, d⟩ := key k cfg' hk
    exact ⟨b.1, fun t' e' he calls' hs' v' => vOk_iff.2 (C119_pops_its_number env cfg' b ⟨d, fun h => ⟨a _ h, a _ (by omega)⟩⟩ t' e' _
      (full k cfg' hk t' e' he) calls' hs' v')⟩

/-! ### concrete cases -/

-- 100 creations, reads and deletions on two threads: nothing panics
example (T : TextEnv) : ∃ a ext calls, internalAnalyse (steadyCrudEnv shipped T) (steadyCfg 100 .o1) [] = (.ok a, ext) ∧
    SeenAs (steadyCrudEnv shipped T).profile ext calls ∧ (measuredArgs .delete calls).length = 200 ∧
    EveryCall NoPanicOn (fun _ => True) [] calls := by
  obtain ⟨a, ext, calls, h, hs⟩ := steady_seen T 100 (by norm_num)
  have hf := steadyCfg_fits 100 (by norm_num) .o1
  have hE := steady_even 100 (by norm_num)
  refine ⟨a, ext, calls, h, hs, ?_, (C119_in_bounds _ _ hf ⟨50, rfl⟩ (steady_enough 100) [] ext _ h calls hs []).2 ⟨5, rfl⟩⟩
  rw [(C87_delete_after_create _ _ hf hE rfl [] ext a h calls hs).2.2.length_eq, List.length_range]; rfl

-- 101 creations and reads on two threads: the last element is read, but only 100 were pushed
example (T : TextEnv) : ∃ a ext calls, internalAnalyse (steadyCrudEnv shipped T) (steadyCfg 101 .o1) [] = (.ok a, ext) ∧
    SeenAs (steadyCrudEnv shipped T).profile ext calls ∧ ¬ EveryCall NoPanicOn UCall.Measured [] calls := by
  obtain ⟨a, ext, calls, h, hs⟩ := steady_seen T 101 (by norm_num)
  have hf := steadyCfg_fits 101 (by norm_num) .o1
  exact ⟨a, ext, calls, h, hs, C119_out_of_bounds _ _ hf rfl (by show ¬ 2 ∣ 101; decide) (by show 2 ≤ 101; decide) [] ext a h calls hs⟩

-- what a single-threaded analysis of three elements does to the vector
example : vecAfter [] ([2, 1, 0, 5, 4, 3].map (UCall.call .pass1 .create)) = [2, 1, 0, 5, 4, 3] ∧
    EveryCall PopsItsNumber (fun _ => True) [2, 1, 0, 5, 4, 3] ([3, 4, 5, 0, 1, 2].map (UCall.call .pass1 .delete)) := by
  refine ⟨rfl, vOk_iff.1 ?_⟩
  simp [VOk, PopsItsNumber, vecKeep]

-- the project's own test of vectors (big_o_tests.rs 64-99, in debug builds) meets the hypotheses of C119_test
example : let cfg : CrudCfg := ⟨"Vec Push & Pop (best case) with ParkingLot", 25, fun _ => ⟨250000, 1, .o1, .o1⟩⟩
    (∀ o, 0 < (cfg.op o).iters → (cfg.op o).threads = 1) ∧ RoomForRetries cfg ∧ (∀ o, 3 * (cfg.op o).iters < 2 ^ 31) ∧
    CreatesEnough cfg ∧ (cfg.op .create).iters = (cfg.op .delete).iters := by
  refine ⟨fun o _ => rfl, fun o => ?_, fun o => ?_, fun o => le_rfl, rfl⟩ <;> cases o <;> decide

end BigO
