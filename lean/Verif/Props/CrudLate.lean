import Verif.Props.Crud

/-!
# C57 does not hold of whole CRUD tests
-/
namespace BigO

/-- closures that take no measurable time and no memory until the first retry, and are steady from then on -/
noncomputable def lateEnv (T : TextEnv) : CrudEnv :=
  { steadyCrudEnv shipped T with
    measure := fun tr _ _ _ _ _ => .ok (if .reset 100 ∈ tr then ⟨10 ^ 9, ⟨50, 50, 150, 50⟩⟩ else ⟨0, ⟨50, 50, 50, 50⟩⟩, 0) }

theorem lateEnv_benign (T : TextEnv) : BenignCrud (lateEnv T) := by
  refine ⟨fun _ _ => rfl, fun tr ph op a b th => ?_⟩
  refine ⟨_, _, rfl, ?_, ?_⟩
  · split
    · exact ⟨by norm_num, by norm_num, by norm_num, by norm_num⟩
    · exact ⟨by norm_num, by norm_num, by norm_num, by norm_num⟩
  · split
    · show 10 ^ 9 / 10 ^ 9 < 2 ^ 53
      norm_num
    · show 0 / 10 ^ 9 < 2 ^ 53
      norm_num

theorem lateEnv_zero (T : TextEnv) (cfg : CrudCfg) (p1 p2 : PassResult) (h1 : p1 = ⟨0, ⟨50, 50, 50, 50⟩⟩) (h2 : p2 = ⟨0, ⟨50, 50, 50, 50⟩⟩) :
    opTime (lateEnv T) cfg .create p1 p2 = .betweenOLogNAndON ∧ opSpace (lateEnv T) cfg .create p1 p2 = .ok .betweenOLogNAndON ∧
    opSpace (lateEnv T) cfg .read p1 p2 = .ok .worseThanExponential := by
  have e0 : FloatEnv.ofNat shipped 0 = F.fin 0 := by simp [FloatEnv.ofNat, FloatEnv.rnd0]
  have es : asSecsF64 shipped 0 = F.fin 0 := by
    have e4 : FloatEnv.div shipped (F.fin 0) (F.fin (10 ^ 9)) = F.fin 0 := by
      simp [FloatEnv.div, FloatEnv.divFin, F.val, F.zero, F.neg, Xor]
    unfold asSecsF64
    rw [show 0 / 10 ^ 9 = 0 from rfl, show 0 % 10 ^ 9 = 0 from rfl, e0, e4]
    simp [FloatEnv.addNonneg, FloatEnv.rnd0]
  have e : usizeSub .checked 50 50 = .ok 0 := rfl
  have c := fun n1 n2 => C08_zero_usage_is_worst shipped n1 n2 rfl
  subst h1 h2
  unfold opTime opSpace
  refine ⟨?_, ?_, ?_⟩
  · show analyseSetResizing shipped (asSecsF64 shipped 0) (asSecsF64 shipped 0) _ = _
    rw [es]; exact (c _ (F.fin 0)).2
  · show (do
      let s1 ← usizeSub .checked 50 50
      let s2 ← usizeSub .checked 50 50
      return analyseSetResizing shipped (shipped.ofNat s1) (shipped.ofNat s2) _ : Rs Complexity) = _
    rw [e]
    simp only [bind, Except.bind, pure, Except.pure, e0]
    exact congrArg _ (c _ (F.fin 0)).2
  · show (do
      let s1 ← usizeSub .checked 50 50
      let s2 ← usizeSub .checked 50 50
      return analyseComplexity shipped (shipped.ofNat s1) (shipped.ofNat s2) _ _ : Rs Complexity) = _
    rw [e]
    simp only [bind, Except.bind, pure, Except.pure, e0]
    exact congrArg _ (c _ _).1

/-- create and read 100 elements with one thread; only the time of create and the space of read are limited -/
def lateCfg (tmax : Complexity) : CrudCfg :=
  ⟨"late", 0, fun o => match o with
    | .create => ⟨100, 1, tmax, .worseThanExponential⟩
    | .read => ⟨100, 1, .worseThanExponential, .o1⟩
    | _ => ⟨0, 1, .o1, .o1⟩⟩

theorem lateCfg_fits (tmax : Complexity) : Fits (lateCfg tmax) := by
  refine ⟨fun o => ?_, fun o _ => ?_⟩ <;> cases o <;> simp [lateCfg]

theorem lateCfg_attempt (T : TextEnv) (tmax : Complexity) (t : List Ev) :
    attempt (lateEnv T) (lateCfg tmax) 0 t = internalAnalyse (lateEnv T) (lateCfg tmax) t := by
  unfold attempt adaptCfg adapt
  simp only [if_true, bind, Except.bind, pure, Except.pure]
  congr 1
  unfold lateCfg
  congr 1
  funext o
  cases o <;> rfl

/-- before the retry, nothing is measured -/
theorem lateEnv_early (T : TextEnv) (tmax : Complexity) (t' : List Ev) (ph op a b th pr)
    (ht : (internalAnalyse (lateEnv T) (lateCfg tmax) []).2 = t') (hm : MeasuredIn (lateEnv T) [] t' ph op a b th pr) :
    pr = ⟨0, ⟨50, 50, 50, 50⟩⟩ := by
  subst ht
  obtain ⟨be, af, x, h1, h2⟩ := hm
  have C := NoneOf.closed (lateCfg tmax) Ev.isReset (fun _ h => h) (fun hw => by
    have : (0:ℕ) > 0 := hw
    omega) (fun _ _ _ _ _ _ h => h)
  obtain ⟨ext, e1, e2⟩ := Pres.body C (lateEnv T) (crudStart [])
  rw [internalAnalyse_trace, e1] at h1
  have hno : ¬ (.reset 100 ∈ be) := by
    intro hm
    have : Ev.reset 100 ∈ ext := by
      have e3 : ext = be ++ Ev.pass ph op a b th :: af := by simpa [crudStart] using h1
      rw [e3]; simp [hm]
    exact e2 _ this trivial
  have h3 : (if Ev.reset 100 ∈ [] ++ be then (⟨10 ^ 9, ⟨50, 50, 150, 50⟩⟩ : PassResult) else ⟨0, ⟨50, 50, 50, 50⟩⟩) = pr :=
    congrArg Prod.fst (Except.ok.inj h2)
  rw [← h3, if_neg (by simpa using hno)]

/-- the classes of create and read before the retry -/
theorem lateEnv_classes (T : TextEnv) (tmax : Complexity) (t' : List Ev) (ht : (internalAnalyse (lateEnv T) (lateCfg tmax) []).2 = t')
    (op : Op) (p1 p2) (hm : BothMeasured (lateEnv T) (lateCfg tmax) [] t' op p1 p2) :
    opTime (lateEnv T) (lateCfg tmax) .create p1 p2 = .betweenOLogNAndON ∧
    opSpace (lateEnv T) (lateCfg tmax) .read p1 p2 = .ok .worseThanExponential := by
  have := lateEnv_zero T (lateCfg tmax) p1 p2 (lateEnv_early T tmax t' _ _ _ _ _ _ ht hm.1) (lateEnv_early T tmax t' _ _ _ _ _ _ ht hm.2)
  exact ⟨this.1, this.2.2⟩

theorem asU32_le_worst (c : Complexity) : c.asU32 ≤ Complexity.asU32 .worseThanExponential := by cases c <;> decide

/-- the first attempt is never accepted: the space of read is beyond its limit -/
theorem late_not_accepted (T : TextEnv) (tmax : Complexity) (a t') : internalAnalyse (lateEnv T) (lateCfg tmax) [] ≠ (.ok a, t') := by
  intro h
  obtain ⟨a, rep⟩ := a
  have hs := (C51_analyses _ _ _ _ _ _ h).2.1.2 (show 0 < 100 by norm_num)
  obtain ⟨an, han⟩ := Option.isSome_iff_exists.1 hs
  obtain ⟨p1, p2, n, m, hn, hm, m1, m2, -, -, hsp, -, hle⟩ :=
    (C58_accepted _ _ (lateCfg_fits tmax).1 _ _ _ _ h).2.2 .read (Or.inl rfl) an han
  have ht' := congrArg Prod.snd h
  have e1 := lateEnv_early T tmax t' _ _ _ _ _ _ ht' m1
  have e2 := lateEnv_early T tmax t' _ _ _ _ _ _ ht' m2
  have e3 := (lateEnv_zero T (lateCfg tmax) p1 p2 e1 e2).2.2
  subst hn hm
  have e4 : (Except.ok an.space : Rs Complexity) = .ok .worseThanExponential := hsp.symm.trans e3
  rw [Except.ok.inj e4] at hle
  exact absurd hle (by show ¬ Complexity.asU32 .worseThanExponential ≤ Complexity.asU32 .o1; decide)

/-- with the limit, the first attempt is rejected for its time -/
theorem late_tight (T : TextEnv) : TimeRejected (lateEnv T) (lateCfg .o1) [] 0 := by
  unfold TimeRejected
  rw [show beforeAttempt (lateEnv T) (lateCfg .o1) [] 0 = [] from rfl, lateCfg_attempt]
  rcases C58_accepted_or_rejected (lateEnv T) shipped_laws (lateEnv_benign T) _ (lateCfg_fits .o1) [] with ⟨a, t', h⟩ | ⟨e, t', h, hb⟩
  · exact absurd h (late_not_accepted T .o1 a t')
  · refine ⟨e, by rw [h], ?_⟩
    have ht' := congrArg Prod.snd h
    obtain ⟨op, p1, p2, b1, b2, m, b5, b6⟩ := hb
    rcases b5 with ⟨c, -⟩ | ⟨-, c0, c1, c2⟩
    · exact c
    · exfalso
      cases op with
      | create => exact absurd (asU32_le_worst e.failedComplexity) (not_le.2 c2)
      | update => exact absurd b1 (by decide)
      | delete => exact absurd b1 (by decide)
      | read =>
        obtain ⟨q1, q2, sp, hm, hle, -⟩ := b6 .create (by decide) (by decide)
        rw [(lateEnv_classes T .o1 t' ht' .create q1 q2 hm).1] at hle
        exact absurd hle (by decide)

/-- without the limit, the first attempt is rejected for its space -/
theorem late_loose (T : TextEnv) : ∃ e t', internalAnalyse (lateEnv T) (lateCfg .worseThanExponential) [] = (.fail e, t') ∧
    e.failedAnalysis = "Space" ∧ e.failedOperation = "Read" := by
  rcases C58_accepted_or_rejected (lateEnv T) shipped_laws (lateEnv_benign T) _ (lateCfg_fits .worseThanExponential) [] with ⟨a, t', h⟩ | ⟨e, t', h, hb⟩
  · exact absurd h (late_not_accepted T _ a t')
  · refine ⟨e, t', h, ?_⟩
    obtain ⟨op, p1, p2, b1, b2, m, b5, b6⟩ := hb
    cases op with
    | update => exact absurd b1 (by decide)
    | delete => exact absurd b1 (by decide)
    | create =>
      rcases b5 with ⟨-, -, c⟩ | ⟨-, -, -, c⟩
      · exact absurd (asU32_le_worst _) (not_le.2 c)
      · exact absurd (asU32_le_worst _) (not_le.2 c)
    | read =>
      rcases b5 with ⟨-, -, c⟩ | ⟨c, -, -, -⟩
      · exact absurd (asU32_le_worst _) (not_le.2 c)
      · exact ⟨c, b2⟩

theorem late_adapted (T : TextEnv) : ∃ cfg', adaptCfg (lateEnv T).profile 1 (lateCfg .o1) = .ok cfg' ∧ Fits cfg' ∧
    ∀ o, 0 < (cfg'.op o).iters → 1 ≤ (cfg'.op o).tmax.asU32 ∧ 1 ≤ (cfg'.op o).smax.asU32 := by
  have h10 : adapt (lateEnv T).profile 1 100 = .ok 10 := rfl
  have h0 : adapt (lateEnv T).profile 1 0 = .ok 0 := rfl
  unfold adaptCfg
  simp only [lateCfg, h10, h0, bind, Except.bind, pure, Except.pure]
  refine ⟨_, rfl, ⟨fun o => ?_, fun o _ => ?_⟩, fun o _ => ?_⟩
  · cases o <;> simp
  · cases o <;> simp
  · cases o <;> simp [Complexity.asU32]

/-- the second attempt is within all limits -/
theorem late_second (T : TextEnv) : Accepted (lateEnv T) (lateCfg .o1) [] 1 := by
  obtain ⟨cfg', h1, h2, h3⟩ := late_adapted T
  have hmem : Ev.reset 100 ∈ beforeAttempt (lateEnv T) (lateCfg .o1) [] 1 := by
    show Ev.reset 100 ∈ _ ++ betweenAttempts 0
    simp [betweenAttempts]
  unfold Accepted attempt
  rw [h1]
  simp only
  generalize beforeAttempt (lateEnv T) (lateCfg .o1) [] 1 = tr at hmem ⊢
  rcases C58_accepted_or_rejected (lateEnv T) shipped_laws (lateEnv_benign T) cfg' h2 tr with ⟨a, t', h⟩ | ⟨e, t', h, hb⟩
  · exact ⟨a, by rw [h]⟩
  · exfalso
    obtain ⟨op, p1, p2, b1, b2, ⟨⟨u1, v1, x1, -, m1⟩, ⟨u2, v2, x2, -, m2⟩⟩, b5, -⟩ := hb
    have late : ∀ {be ph op a b th pr x}, (lateEnv T).measure (tr ++ be) ph op a b th = .ok (pr, x) →
        pr = ⟨10 ^ 9, ⟨50, 50, 150, 50⟩⟩ := by
      intro be ph op a b th pr x hm
      have h3 : (if Ev.reset 100 ∈ tr ++ be then
        (⟨10 ^ 9, ⟨50, 50, 150, 50⟩⟩ : PassResult) else ⟨0, ⟨50, 50, 50, 50⟩⟩) = pr := congrArg Prod.fst (Except.ok.inj hm)
      rw [← h3, if_pos (List.mem_append_left _ hmem)]
    obtain ⟨o1, o2⟩ := steadyCrud_o1 shipped shipped_laws T cfg' op p1 p2 (late m1) (late m2)
    have o1' : opTime (lateEnv T) cfg' op p1 p2 = .o1 := o1
    have o2' : opSpace (lateEnv T) cfg' op p1 p2 = .ok .o1 := o2
    obtain ⟨l1, l2⟩ := h3 op b1
    rw [o1', o2'] at b5
    rcases b5 with ⟨-, -, c⟩ | ⟨-, -, c1, c2⟩
    · exact absurd l1 (not_le.2 c)
    · rw [← Except.ok.inj c1] at c2
      exact absurd l2 (not_le.2 c2)

/-- C57 does not extend from one attempt to a whole CRUD test: with the limit `O(1)` on the time of create, the test is accepted (its
first attempt is rejected for the time of create, its second one is within all limits); without that limit the same test is
rejected, because its first attempt then goes on and meets a space complexity mismatch, which is not retried. -/
theorem C57_not_for_crud_tests (T : TextEnv) :
    (testCrud (lateEnv T) (lateCfg .o1) 2 []).1 = .ok () ∧ Looser (lateCfg .o1) (lateCfg .worseThanExponential) ∧
    ∃ m, (testCrud (lateEnv T) (lateCfg .worseThanExponential) 2 []).1 = .error (.msg m) := by
  refine ⟨?_, ⟨rfl, rfl, fun o => by cases o <;> exact ⟨rfl, rfl, by decide, by decide⟩⟩, ?_⟩
  · rw [C53_accepts_iff _ _ _ (by norm_num)]
    refine ⟨1, by norm_num, late_second T, fun j hj => ?_⟩
    obtain rfl : j = 0 := by omega
    exact ⟨late_tight T, rfl⟩
  · obtain ⟨e, t', h, h1, -⟩ := late_loose T
    unfold testCrud
    rw [testLoop_step, lateCfg_attempt, h]
    have : ¬ e.failedAnalysis = "Time" := by rw [h1]; decide
    simp only [if_neg this]
    exact ⟨_, rfl⟩

end BigO
