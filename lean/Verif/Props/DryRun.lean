import Verif.Props.Measurer
import Verif.Spec.DryRunSpec
import Verif.Proofs.Keeps

/-!
# C96: the dry run of an asynchronous test
-/
namespace BigO
variable {D B : Type} {E : FloatEnv} {N : NumText}

theorem runIf_ok {s : AStep} {f : Option (List (MEv D B) → Option D → Rs D)} {i o : Option D} {t t' : List (MEv D B)}
    (h : runIf s f i t = (.ok o, t')) : (f = none ∧ o = none ∧ t' = t) ∨ (f.isSome ∧ ∃ d, o = some d ∧ t' = t ++ [.call s i (some d)]) := by
  unfold runIf at h
  cases f with
  | none => cases h; exact Or.inl ⟨rfl, rfl, rfl⟩
  | some f =>
    simp only at h
    split at h
    · cases h
    · rename_i d _; cases h; exact Or.inr ⟨rfl, d, rfl, rfl⟩

theorem runTold_ok {dbg : D → String} {s : AStep} {f : Option (List (MEv D B) → Option D → Rs D)} {i o : Option D} {did didnt : String}
    {t t' : List (MEv D B)} (h : runTold dbg s f i did didnt t = (.ok o, t')) : ∃ es, t' = t ++ es ∧ Ran dbg s f i did didnt o es := by
  unfold runTold at h
  rcases P.bind_cases h with ⟨e, -, he⟩ | ⟨r, t1, h1, h2⟩
  · cases he
  clear h
  rcases runIf_ok h1 with ⟨hf, rfl, rfl⟩ | ⟨hf, d, rfl, rfl⟩
  · cases h2
    exact ⟨_, rfl, .absent hf⟩
  · cases h2
    exact ⟨_, by simp, .called hf d⟩

theorem checkTold_ok {second : Bool} {f : Option (List (MEv D B) → D → Rs Unit)} {d : D} {did didnt : String} {t t' : List (MEv D B)} {u : Unit}
    (h : checkTold second f d did didnt t = (.ok u, t')) :
    t' = t ++ (if f.isSome then [.check second d true, .line did] else [.line didnt]) := by
  unfold checkTold at h
  rcases P.bind_cases h with ⟨e, -, he⟩ | ⟨r, t1, h1, h⟩
  · cases he
  unfold checkIf at h1
  cases f with
  | none => cases h1; cases h; simp
  | some f =>
    simp only at h1
    split at h1
    · cases h1
    · cases h1; cases h; simp

theorem dumpAll_ok {ms : List (Measurer D B)} {os : List (Taken B)} {t t' : List (MEv D B)} {u : Unit}
    (h : dumpAll E N (namedResults ms os) t = (.ok u, t')) : ∃ lines, t' = t ++ lines ∧ Printed E N ms os lines := by
  unfold namedResults at h
  unfold Printed
  generalize ms.zip os = l at *
  induction l generalizing t with
  | nil => cases h; exact ⟨[], by simp, .nil⟩
  | cons p l ih =>
    unfold dumpAll at h
    rcases P.bind_cases h with ⟨e, -, he⟩ | ⟨s, t1, h1, h2⟩
    · cases he
    rw [P.log_bind] at h2
    unfold P.lift at h1
    injection h1 with h1 h1'
    subst h1'
    obtain ⟨lines, rfl, hl⟩ := ih h2
    exact ⟨_ :: lines, by simp, .cons ⟨s, h1, rfl⟩ hl⟩

theorem before_after_ok {pre post : Option D} {ms ms' : List (Measurer D B)} {t t1 t2 t' : List (MEv D B)}
    {x : List CustomMeasurement × List (Measurer D B)}
    (h1 : measureAllBefore pre ms t = (.ok ms', t1)) (h2 : measureAllAfter post ms' t2 = (.ok x, t')) :
    ∃ os : List (Taken B), os.length = ms.length ∧ t1 = t ++ preCalls pre ms os ∧
      t' = t2 ++ (ms.zip os).map (fun p => MEv.after p.1.key post p.2.value (some p.2.measured)) ∧
      x = (namedResults ms os, ms.map Measurer.declared) := by
  unfold measureAllBefore at h1
  rcases P.bind_cases h1 with ⟨e, -, he⟩ | ⟨l, t0, h3, h4⟩
  · cases he
  cases h4
  obtain ⟨bs, e1, rfl, rfl⟩ := inOrder_before h3
  unfold measureAllAfter at h2
  rcases P.bind_cases h2 with ⟨e, -, he⟩ | ⟨r, t3, h5, h6⟩
  · cases he
  cases h6
  have hrev : ((ms.reverse.zip bs).map (fun p => ({ p.1 with pending := some p.2 } : Measurer D B))).reverse =
      (ms.zip bs.reverse).map (fun p => { p.1 with pending := some p.2 }) := by
    have := List.reverse_zipWith (f := fun (m : Measurer D B) (b : B) => (m, b)) (l := ms.reverse) (l' := bs) e1.symm
    rw [← List.map_reverse]
    congr 1
    simpa [List.zip] using this
  rw [hrev] at h5
  obtain ⟨os, e2, e3, e4, rfl⟩ := inOrder_after (by simpa using e1) h5
  have hlen : os.length = ms.length := by
    have := congrArg List.length e2
    simp at this
    simp at e1
    omega
  refine ⟨os, hlen, ?_, rfl, by rw [e3, e4]⟩
  have hbs : bs = (os.map Taken.value).reverse := by rw [e2]; simp
  have hz : (ms.reverse.zip bs).map (fun p => MEv.before (D := D) p.1.key pre (some p.2)) = preCalls pre ms os := by
    rw [hbs]
    have := List.reverse_zipWith (f := fun (m : Measurer D B) (b : B) => (m, b)) (l := ms) (l' := os.map Taken.value) (by simp [hlen])
    have h2 : ms.reverse.zip (os.map Taken.value).reverse = (ms.zip (os.map Taken.value)).reverse := by simpa [List.zip] using this.symm
    rw [h2, List.map_reverse, List.zip_map_right, List.map_map]
    rfl
  rw [hz]

/-- the texts around the first or the second pass -/
def textsOf (second : Bool) : PassTexts := if second then secondTexts else firstTexts

theorem dryPass_ok {dbg : D → String} {s : AStep} {second : Bool} {f : Option (List (MEv D B) → Option D → Rs D)}
    {check : Option (List (MEv D B) → D → Rs Unit)} {input : Option D} {ms : List (Measurer D B)} {t t' : List (MEv D B)}
    {x : D × List CustomMeasurement × List (Measurer D B)} (h : dryPass E N dbg s (textsOf second) second f check input ms t = (.ok x, t')) :
    f.isSome ∧ ∃ os es, DryPassCalls E N dbg ms s second check input x.1 os es ∧ t' = t ++ es ∧
      x.2 = (namedResults ms os, ms.map Measurer.declared) := by
  unfold dryPass at h
  rw [P.log_bind] at h
  rcases P.bind_cases h with ⟨e, -, he⟩ | ⟨ms', t1, h1, h⟩
  · cases he
  rcases P.bind_cases h with ⟨e, -, he⟩ | ⟨r, t2, h2, h⟩
  · cases he
  rcases P.bind_cases h with ⟨e, -, he⟩ | ⟨d, t3, h3, h⟩
  · cases he
  rw [P.log_bind, P.log_bind] at h
  rcases P.bind_cases h with ⟨e, -, he⟩ | ⟨y, t4, h4, h⟩
  · cases he
  rw [P.log_bind] at h
  rcases P.bind_cases h with ⟨e, -, he⟩ | ⟨u, t5, h5, h⟩
  · cases he
  rcases P.bind_cases h with ⟨e, -, he⟩ | ⟨v, t6, h6, h⟩
  · cases he
  cases h
  rcases runIf_ok h2 with ⟨-, rfl, rfl⟩ | ⟨hf, d', rfl, rfl⟩
  · cases h3
  · cases h3
    obtain ⟨os, hl, rfl, rfl, rfl⟩ := before_after_ok h1 h4
    obtain ⟨lines, rfl, hp⟩ := dumpAll_ok h5
    rw [checkTold_ok h6]
    refine ⟨hf, os, _, ⟨hl, lines, hp, rfl⟩, ?_, rfl⟩
    cases second <;> simp only [textsOf, if_true, Bool.false_eq_true, if_false, firstTexts, secondTexts, checkCalls, postCalls, List.append_assoc,
      List.cons_append, List.nil_append] <;> rfl

theorem zip_declared {γ : Type} (f : Measurer D B → Taken B → γ) (hf : ∀ m o, f m o = f m.declared o) (ms : List (Measurer D B)) (os : List (Taken B)) :
    ((ms.map Measurer.declared).zip os).map (fun p => f p.1 p.2) = (ms.zip os).map (fun p => f p.1 p.2) := by
  rw [List.zip_map_left, List.map_map]
  apply List.map_congr_left
  intro p _
  exact (hf _ _).symm

theorem measuredPass_declared {dbg : D → String} {ms : List (Measurer D B)} {s : AStep} {second : Bool} {check : Option (List (MEv D B) → D → Rs Unit)}
    {input : Option D} {d : D} {os : List (Taken B)} {es : List (MEv D B)} (h : DryPassCalls E N dbg (ms.map Measurer.declared) s second check input d os es) :
    DryPassCalls E N dbg ms s second check input d os es := by
  obtain ⟨h1, lines, h2, rfl⟩ := h
  refine ⟨by simpa using h1, lines, ?_, ?_⟩
  · unfold Printed at *
    rw [List.zip_map_left, List.forall₂_map_left_iff] at h2
    exact h2
  · unfold preCalls postCalls
    rw [zip_declared (fun m o => MEv.before m.key input (some o.value)) (fun _ _ => rfl),
      zip_declared (fun m o => MEv.after m.key (some d) o.value (some o.measured)) (fun _ _ => rfl)]

theorem dryIntro_ok (b : DryTest D B) (t : List (MEv D B)) : dryIntro b t = (.ok (), t ++ dryHeading b) := by
  have hp : ∀ {α : Type} (x : Option α), presence x = if x.isSome then "present" else "absent" := fun x => by cases x <;> rfl
  unfold dryIntro
  simp only [P.log_bind]
  unfold P.log
  simp only [dryHeading, hp, List.append_assoc, List.cons_append, List.nil_append]
  cases b.maxReattempts <;> rfl

/-- **C96** (order, data flow, nesting and announcements): a dry run that ends told and called exactly this, in this order: a heading with the
configuration; reset with no data, warm-up with what the reset gave, reset with what the warm-up gave, the measured first pass with what the reset
gave, reset with what the first pass gave, the measured second pass with what the reset gave; absent closures are skipped and give no data, and
each step is followed by a line saying whether it ran and with what result. The results are the measurements of the two passes, in the order of
declaration. -/
theorem C96_calls (E : FloatEnv) (N : NumText) (b : DryTest D B) (t t' : List (MEv D B)) (r : List CustomMeasurement × List CustomMeasurement)
    (h : testRun E N b t = (.ok r, t')) :
    ∃ r0 w r1 d1 r2 d2 os1 os2 e0 e1 e2 p1 e3 p2,
      Ran b.dbg .reset b.resetFn none "## reset_fn is present and was executed before any passes. reset_optional_result: "
        "## not executing reset_fn as it is not present" r0 e0 ∧
      Ran b.dbg .warmup b.warmupFn r0 "## warmup_fn is present and was executed. warmup_optional_result: "
        "## not executing warmup_fn as it is not present" w e1 ∧
      Ran b.dbg .reset b.resetFn w "## reset_fn is present and was executed after the warmup pass. reset_optional_result: "
        "## again, not executing reset_fn as it is not present" r1 e2 ∧
      DryPassCalls E N b.dbg b.measurers .pass1 false b.check1 r1 d1 os1 p1 ∧
      Ran b.dbg .reset b.resetFn (some d1) "## reset_fn is present and was executed after the first pass. reset_optional_result: "
        "## again, not executing reset_fn as it is not present" r2 e3 ∧
      DryPassCalls E N b.dbg b.measurers .pass2 true b.check2 r2 d2 os2 p2 ∧ t' = t ++ dryHeading b ++ e0 ++ e1 ++ e2 ++ p1 ++ e3 ++ p2 ∧
      r = (namedResults b.measurers os1, namedResults b.measurers os2) := by
  unfold testRun at h
  rw [P.bind_ok (dryIntro_ok b t)] at h
  rcases P.bind_cases h with ⟨e, -, he⟩ | ⟨r0, t0, h0, h⟩
  · cases he
  rcases P.bind_cases h with ⟨e, -, he⟩ | ⟨w, t1, h1, h⟩
  · cases he
  rcases P.bind_cases h with ⟨e, -, he⟩ | ⟨r1, t2, h2, h⟩
  · cases he
  rcases P.bind_cases h with ⟨e, -, he⟩ | ⟨x1, t3, h3, h⟩
  · cases he
  rcases P.bind_cases h with ⟨e, -, he⟩ | ⟨r2, t4, h4, h⟩
  · cases he
  rcases P.bind_cases h with ⟨e, -, he⟩ | ⟨x2, t5, h5, h⟩
  · cases he
  cases h
  obtain ⟨e0, rfl, k0⟩ := runTold_ok h0
  obtain ⟨e1, rfl, k1⟩ := runTold_ok h1
  obtain ⟨e2, rfl, k2⟩ := runTold_ok h2
  obtain ⟨-, os1, p1, k3, rfl, q1⟩ := dryPass_ok (second := false) h3
  obtain ⟨e3, rfl, k4⟩ := runTold_ok h4
  rw [q1] at h5
  obtain ⟨-, os2, p2, k5, rfl, q2⟩ := dryPass_ok (second := true) h5
  refine ⟨r0, w, r1, x1.1, r2, x2.1, os1, os2, e0, e1, e2, p1, e3, p2, k0, k1, k2, k3, k4, measuredPass_declared k5, rfl, ?_⟩
  rw [q1, q2]
  congr 1
  exact zip_declared (fun m o => (⟨m.name, m.expected, m.description, o.measured⟩ : CustomMeasurement)) (fun _ _ => rfl) _ _

/-! ## the recorded calls are those of the closures -/

open Classical in
theorem Keeps.bindR {ε α β : Type} {Q : List ε → ε → Prop} {R : α → Prop} {m : P ε α} {f : α → P ε β} (h : Keeps Q m)
    (hR : ∀ t a t', m t = (.ok a, t') → R a) (h' : ∀ a, R a → Keeps Q (f a)) : Keeps Q (m >>= f) := by
  have e : (m >>= f) = (m >>= fun a => if R a then f a else P.lift (.error .divideByZero)) := by
    funext t
    rw [P.bind_eq, P.bind_eq]
    generalize hm : m t = x
    obtain ⟨y, t1⟩ := x
    cases y with
    | error e => rfl
    | ok a => simp only [if_pos (hR t a t1 hm)]
  rw [e]
  refine h.bind fun a => ?_
  split_ifs with hr
  · exact h' a hr
  · exact .lift _

/-- measurers with the closures of the declared ones -/
def SameClosures (b : DryTest D B) (ms : List (Measurer D B)) : Prop :=
  ∀ m ∈ ms, ∃ m0 ∈ b.measurers, m0.key = m.key ∧ m0.beforeFn = m.beforeFn ∧ m0.afterFn = m.afterFn

theorem SameClosures.before {b : DryTest D B} {data : Option D} {ms ms' : List (Measurer D B)} (h : SameClosures b ms) {t t' : List (MEv D B)}
    (hm : measureAllBefore data ms t = (.ok ms', t')) : SameClosures b ms' := by
  unfold measureAllBefore at hm
  rcases P.bind_cases hm with ⟨e, -, he⟩ | ⟨l, t0, h3, h4⟩
  · cases he
  cases h4
  obtain ⟨bs, -, rfl, -⟩ := inOrder_before h3
  intro m hm
  simp only [List.mem_reverse, List.mem_map] at hm
  obtain ⟨⟨m1, v⟩, hmem, rfl⟩ := hm
  exact h m1 (by simpa using (List.of_mem_zip hmem).1)

theorem keeps_inOrder {ε α β : Type} {Q : List ε → ε → Prop} {f : α → P ε β} {l : List α} (h : ∀ a ∈ l, Keeps Q (f a)) : Keeps Q (inOrder f l) := by
  induction l with
  | nil => exact .pure _
  | cons a l ih =>
    unfold inOrder
    exact (h a (by simp)).bind fun _ => (ih fun x hx => h x (by simp [hx])).bind fun _ => .pure _

theorem keeps_before {b : DryTest D B} {ms : List (Measurer D B)} (h : SameClosures b ms) (data : Option D) :
    Keeps (DryGenuine b) (measureAllBefore data ms) := by
  unfold measureAllBefore
  refine (keeps_inOrder fun m hm => ?_).bind fun _ => .pure _
  obtain ⟨m0, h0, k1, k2, -⟩ := h m (by simpa using hm)
  refine .single fun t => ?_
  unfold Measurer.before
  cases hb : m.beforeFn t data with
  | error e => exact ⟨_, rfl, m0, h0, e, k1, by rw [k2]; exact hb⟩
  | ok v => exact ⟨_, rfl, m0, h0, k1, by rw [k2]; exact hb⟩

theorem keeps_after {b : DryTest D B} {ms : List (Measurer D B)} (h : SameClosures b ms) (data : Option D) :
    Keeps (DryGenuine b) (measureAllAfter data ms) := by
  unfold measureAllAfter
  refine (keeps_inOrder fun m hm => ?_).bind fun _ => .pure _
  obtain ⟨m0, h0, k1, -, k3⟩ := h m hm
  unfold Measurer.afterCustom
  refine Keeps.bind ?_ fun _ => .pure _
  cases hp : m.pending with
  | none =>
    intro t
    exact ⟨[], by unfold Measurer.after; rw [hp]; simp, by simp⟩
  | some v =>
    refine .single fun t => ?_
    unfold Measurer.after
    rw [hp]
    simp only
    cases hb : m.afterFn t data v with
    | error e => exact ⟨_, rfl, m0, h0, e, k1, by rw [k3]; exact hb⟩
    | ok x => exact ⟨_, rfl, m0, h0, k1, by rw [k3]; exact hb⟩

theorem keeps_runIf {b : DryTest D B} {s : AStep} {f : Option (List (MEv D B) → Option D → Rs D)}
    (hf : b.fn s = f) (i : Option D) :
    Keeps (DryGenuine b) (runIf s f i) := by
  unfold runIf
  cases f with
  | none => exact .pure _
  | some f =>
    refine .single fun t => ?_
    simp only
    cases h : f t i with
    | error e => exact ⟨_, rfl, f, e, hf, h⟩
    | ok d => exact ⟨_, rfl, f, hf, h⟩

theorem keeps_line (b : DryTest D B) (x : String) : Keeps (DryGenuine b) (P.log (.line x)) := .log fun _ => trivial

theorem keeps_runTold {b : DryTest D B} {dbg : D → String} {s : AStep} {f : Option (List (MEv D B) → Option D → Rs D)}
    (hf : b.fn s = f) (i : Option D) (did didnt : String) : Keeps (DryGenuine b) (runTold dbg s f i did didnt) := by
  unfold runTold
  refine (keeps_runIf hf i).bind fun r => ?_
  cases r with
  | none => exact (keeps_line b _).bind fun _ => .pure _
  | some d => exact (keeps_line b _).bind fun _ => .pure _

theorem keeps_dryIntro (b : DryTest D B) : Keeps (DryGenuine b) (dryIntro b) := by
  unfold dryIntro
  iterate 6 refine (keeps_line b _).bind fun _ => ?_
  exact keeps_line b _

theorem keeps_checkIf {b : DryTest D B} {second : Bool} {f : Option (List (MEv D B) → D → Rs Unit)}
    (hf : (if second then b.check2 else b.check1) = f) (d : D) : Keeps (DryGenuine b) (checkIf second f d) := by
  unfold checkIf
  cases f with
  | none => exact .pure _
  | some f =>
    refine .single fun t => ?_
    simp only
    cases h : f t d with
    | error e => exact ⟨_, rfl, f, e, hf, h⟩
    | ok d => exact ⟨_, rfl, f, hf, h⟩

theorem keeps_dumpAll (b : DryTest D B) (l : List CustomMeasurement) : Keeps (DryGenuine b) (dumpAll E N l) := by
  induction l with
  | nil => exact .pure _
  | cons c l ih =>
    unfold dumpAll
    exact (Keeps.lift _).bind fun s => (Keeps.log fun _ => trivial).bind fun _ => ih

theorem keeps_checkTold {b : DryTest D B} {second : Bool} {f : Option (List (MEv D B) → D → Rs Unit)}
    (hf : (if second then b.check2 else b.check1) = f) (d : D) (did didnt : String) :
    Keeps (DryGenuine b) (checkTold second f d did didnt) := by
  unfold checkTold
  exact (keeps_checkIf hf d).bind fun _ => keeps_line b _

theorem keeps_dryPass {b : DryTest D B} {dbg : D → String} {s : AStep} {x : PassTexts} {second : Bool} {f : Option (List (MEv D B) → Option D → Rs D)}
    {check : Option (List (MEv D B) → D → Rs Unit)} (input : Option D) {ms : List (Measurer D B)}
    (hf : b.fn s = f)
    (hc : (if second then b.check2 else b.check1) = check) (h : SameClosures b ms) :
    Keeps (DryGenuine b) (dryPass E N dbg s x second f check input ms) := by
  unfold dryPass
  refine (keeps_line b _).bind fun _ => ?_
  refine (keeps_before h input).bindR (fun _ _ _ hm => h.before hm) fun ms' h' => ?_
  refine (keeps_runIf hf input).bind fun r => Keeps.bind ?_ fun d => ?_
  · cases r with
    | none => exact .lift _
    | some d => exact .pure _
  refine (keeps_line b _).bind fun _ => (keeps_line b _).bind fun _ => ?_
  exact (keeps_after h' _).bind fun x => (keeps_line b _).bind fun _ => (keeps_dumpAll b _).bind fun _ => (keeps_checkTold hc d _ _).bind fun _ => .pure _

/-- **C96** (nothing is invented): in every dry run, also one that panics, every recorded call is a call of the closure that was configured,
with the result that this closure gave at that moment. -/
theorem C96_genuine (E : FloatEnv) (N : NumText) (b : DryTest D B) (t : List (MEv D B)) :
    ∃ ext, (testRun E N b t).2 = t ++ ext ∧ ∀ pre ev post, ext = pre ++ ev :: post → DryGenuine b (t ++ pre) ev := by
  have h0 : SameClosures b b.measurers := fun m hm => ⟨m, hm, rfl, rfl, rfl⟩
  have key : Keeps (DryGenuine b) (testRun E N b) := by
    unfold testRun
    refine (keeps_dryIntro b).bind fun _ => ?_
    refine (keeps_runTold (s := .reset) rfl _ _ _).bind fun r0 => (keeps_runTold (s := .warmup) rfl _ _ _).bind fun w =>
      (keeps_runTold (s := .reset) rfl _ _ _).bind fun r1 => ?_
    refine (keeps_dryPass (s := .pass1) r1 rfl rfl h0).bindR (R := fun x => SameClosures b x.2.2) ?_ fun x1 h1 => ?_
    · intro t a t' h
      obtain ⟨-, os, es, -, -, q⟩ := dryPass_ok (second := false) h
      rw [q]
      intro m hm
      simp only [List.mem_map] at hm
      obtain ⟨m0, hm0, rfl⟩ := hm
      exact ⟨m0, hm0, rfl, rfl, rfl⟩
    exact (keeps_runTold (s := .reset) rfl _ _ _).bind fun r2 => (keeps_dryPass (s := .pass2) r2 rfl rfl h1).bind fun _ => .pure _
  exact key t

/-! ## totality -/

theorem calm_inOrder {ε α β : Type} {f : α → P ε β} {l : List α} (h : ∀ a ∈ l, ∀ t, ∃ r t', f a t = (.ok r, t')) (t : List ε) :
    ∃ r t', inOrder f l t = (.ok r, t') := by
  induction l generalizing t with
  | nil => exact ⟨[], t, rfl⟩
  | cons a l ih =>
    obtain ⟨b, t1, h1⟩ := h a (by simp) t
    obtain ⟨bs, t2, h2⟩ := ih (fun x hx => h x (by simp [hx])) t1
    exact ⟨b :: bs, t2, by unfold inOrder; rw [P.bind_ok h1, P.bind_ok h2]; rfl⟩

theorem calm_runIf {s : AStep} {f : Option (List (MEv D B) → Option D → Rs D)} (h : ∀ g, f = some g → ∀ t i, ∃ d, g t i = .ok d) (i : Option D)
    (t : List (MEv D B)) : ∃ o t', runIf s f i t = (.ok o, t') ∧ (f.isSome → o.isSome) := by
  cases f with
  | none => exact ⟨none, t, rfl, by simp⟩
  | some g =>
    obtain ⟨d, hd⟩ := h g rfl t i
    exact ⟨some d, t ++ [.call s i (some d)], by unfold runIf; simp only [hd], by simp⟩

theorem calm_runTold {dbg : D → String} {s : AStep} {f : Option (List (MEv D B) → Option D → Rs D)} {did didnt : String}
    (h : ∀ g, f = some g → ∀ t i, ∃ d, g t i = .ok d) (i : Option D) (t : List (MEv D B)) : ∃ o t', runTold dbg s f i did didnt t = (.ok o, t') := by
  obtain ⟨o, t1, h1, -⟩ := calm_runIf (s := s) h i t
  unfold runTold
  rw [P.bind_ok h1]
  cases o with
  | none => exact ⟨none, t1 ++ [.line didnt], rfl⟩
  | some d => exact ⟨some d, t1 ++ [.line (did ++ "Some(" ++ dbg d ++ ")")], rfl⟩

theorem calm_checkTold {second : Bool} {f : Option (List (MEv D B) → D → Rs Unit)} (h : ∀ g, f = some g → ∀ t i, g t i = .ok ()) (d : D)
    (did didnt : String) (t : List (MEv D B)) : ∃ t', checkTold second f d did didnt t = (.ok (), t') := by
  unfold checkTold
  cases f with
  | none => exact ⟨t ++ [.line didnt], rfl⟩
  | some g =>
    have h1 : checkIf second (some g) d t = (.ok true, t ++ [.check second d true]) := by unfold checkIf; simp only [h g rfl t d]
    rw [P.bind_ok h1]
    exact ⟨_, rfl⟩

theorem calm_dumpAll {l : List CustomMeasurement} (h : ∀ c ∈ l, ∃ s, c.measured.display E N = .ok s) (t : List (MEv D B)) :
    ∃ t', dumpAll E N l t = (.ok (), t') := by
  induction l generalizing t with
  | nil => exact ⟨t, rfl⟩
  | cons c l ih =>
    obtain ⟨s, hs⟩ := h c (by simp)
    obtain ⟨t', h'⟩ := ih (fun x hx => h x (by simp [hx])) (t ++ [.line ("  ## " ++ c.name ++ " = " ++ s)])
    exact ⟨t', by unfold dumpAll; rw [P.lift_ok_bind hs, P.log_bind]; exact h'⟩

theorem after_shown {data : Option D} {ms : List (Measurer D B)} (hs : ∀ m ∈ ms, ∀ h d v x, m.afterFn h d v = .ok x → ∃ s, x.display E N = .ok s)
    {t t' : List (MEv D B)} {r : List (CustomMeasurement × Measurer D B)} (h : inOrder (Measurer.afterCustom data) ms t = (.ok r, t')) :
    ∀ x ∈ r, ∃ s, x.1.measured.display E N = .ok s := by
  induction ms generalizing t r with
  | nil => cases h; simp
  | cons m l ih =>
    obtain ⟨x, r', t1, h1, h2, rfl⟩ := inOrder_cons_ok h
    intro y hy
    rcases List.mem_cons.1 hy with rfl | hy
    · unfold Measurer.afterCustom at h1
      rcases P.bind_cases h1 with ⟨e, -, he⟩ | ⟨z, t2, h3, h4⟩
      · cases he
      cases h4
      unfold Measurer.after at h3
      cases hp : m.pending with
      | none => rw [hp] at h3; cases h3
      | some v =>
        rw [hp] at h3
        simp only at h3
        split at h3
        · cases h3
        · rename_i x hx
          cases h3
          exact hs m (by simp) _ _ _ _ hx
    · exact ih (fun m hm => hs m (by simp [hm])) h2 y hy

theorem calm_dryPass {dbg : D → String} {s : AStep} {txt : PassTexts} {second : Bool} {f : Option (List (MEv D B) → Option D → Rs D)}
    {check : Option (List (MEv D B) → D → Rs Unit)} (input : Option D) {ms : List (Measurer D B)} (t : List (MEv D B))
    (hf : ∀ g, f = some g → ∀ t i, ∃ d, g t i = .ok d) (hp : f.isSome) (hc : ∀ g, check = some g → ∀ t i, g t i = .ok ())
    (hm : ∀ m ∈ ms, m.Calm) (hs : ∀ m ∈ ms, ∀ h d v x, m.afterFn h d v = .ok x → ∃ s, x.display E N = .ok s) :
    ∃ x t', dryPass E N dbg s txt second f check input ms t = (.ok x, t') := by
  obtain ⟨l1, t1, h1⟩ := calm_inOrder (f := Measurer.before input) (l := ms.reverse) (fun m hmem t => by
    obtain ⟨b, hb⟩ := (hm m (by simpa using hmem)).1 t input
    exact ⟨_, _, by unfold Measurer.before; rw [hb]⟩) (t ++ [.line txt.pre])
  obtain ⟨bs, e1, rfl, e3⟩ := inOrder_before h1
  have hB : measureAllBefore input ms (t ++ [.line txt.pre]) = (.ok _, t1) := P.bind_ok h1
  have hcalm : ∀ m ∈ ((ms.reverse.zip bs).map (fun p => ({ p.1 with pending := some p.2 } : Measurer D B))).reverse,
      ∃ m0 ∈ ms, m.beforeFn = m0.beforeFn ∧ m.afterFn = m0.afterFn ∧ m.pending ≠ none := by
    intro m hmem
    simp only [List.mem_reverse, List.mem_map] at hmem
    obtain ⟨⟨m0, b⟩, hmem, rfl⟩ := hmem
    exact ⟨m0, by simpa using (List.of_mem_zip hmem).1, rfl, rfl, by simp⟩
  obtain ⟨o, t2, h2, ho⟩ := calm_runIf (s := s) hf input t1
  obtain ⟨d, rfl⟩ := Option.isSome_iff_exists.1 (ho hp)
  obtain ⟨l2, t3, h3⟩ := calm_inOrder (f := Measurer.afterCustom (some d)) (l := _) (fun m hmem t => by
    obtain ⟨m0, k0, -, k2, k3⟩ := hcalm m hmem
    obtain ⟨b, hb⟩ := Option.ne_none_iff_exists'.1 k3
    obtain ⟨x, hx⟩ := (hm m0 k0).2 t (some d) b
    rw [← k2] at hx
    have h0 : m.after (some d) t = (.ok (x, m.declared), t ++ [.after m.key (some d) b (some x)]) := by
      unfold Measurer.after; rw [hb]; simp only [hx]; rfl
    exact ⟨_, _, by unfold Measurer.afterCustom; rw [P.bind_ok h0]; rfl⟩) (t2 ++ [.line (txt.executed ++ dbg d)] ++ [.line txt.post])
  have hA : measureAllAfter (some d) _ (t2 ++ [.line (txt.executed ++ dbg d)] ++ [.line txt.post]) = (.ok (l2.map Prod.fst, l2.map Prod.snd), t3) := P.bind_ok h3
  obtain ⟨t4, h4⟩ := calm_dumpAll (E := E) (N := N) (l := l2.map Prod.fst) (fun c hc => by
    obtain ⟨x, hx, rfl⟩ := List.mem_map.1 hc
    refine after_shown (fun m hmem => ?_) h3 x hx
    obtain ⟨m0, k0, -, k2, -⟩ := hcalm m hmem
    rw [k2]
    exact hs m0 k0) (t3 ++ [.line txt.dump])
  obtain ⟨t5, h5⟩ := calm_checkTold (second := second) hc d txt.checked txt.unchecked t4
  refine ⟨(d, l2.map Prod.fst, l2.map Prod.snd), t5, ?_⟩
  unfold dryPass
  rw [P.log_bind, P.bind_ok hB, P.bind_ok h2]
  have he : (expectData txt.missing (some d) : P (MEv D B) D) t2 = (.ok d, t2) := rfl
  rw [P.bind_ok he, P.log_bind, P.log_bind, P.bind_ok hA, P.log_bind, P.bind_ok h4, P.bind_ok h5]
  rfl

/-- **C96** (totality): with closures that do not panic, assertions that hold and measurements that can be shown, a dry run ends. -/
theorem C96_completes (E : FloatEnv) (N : NumText) (b : DryTest D B) (hb : b.Calm E N) (t : List (MEv D B)) :
    ∃ r t', testRun E N b t = (.ok r, t') := by
  have f0 : ∀ g, b.resetFn = some g → ∀ t i, ∃ d, g t i = .ok d := fun g hg => hb.fns g (Or.inl hg)
  have f1 : ∀ g, b.warmupFn = some g → ∀ t i, ∃ d, g t i = .ok d := fun g hg => hb.fns g (Or.inr (Or.inl hg))
  have f2 : ∀ g, b.fn1 = some g → ∀ t i, ∃ d, g t i = .ok d := fun g hg => hb.fns g (Or.inr (Or.inr (Or.inl hg)))
  have f3 : ∀ g, b.fn2 = some g → ∀ t i, ∃ d, g t i = .ok d := fun g hg => hb.fns g (Or.inr (Or.inr (Or.inr hg)))
  obtain ⟨r0, t0, h0⟩ := calm_runTold (dbg := b.dbg) (s := .reset)
    (did := "## reset_fn is present and was executed before any passes. reset_optional_result: ")
    (didnt := "## not executing reset_fn as it is not present") f0 none (t ++ dryHeading b)
  obtain ⟨w, t1, h1⟩ := calm_runTold (dbg := b.dbg) (s := .warmup)
    (did := "## warmup_fn is present and was executed. warmup_optional_result: ")
    (didnt := "## not executing warmup_fn as it is not present") f1 r0 t0
  obtain ⟨r1, t2, h2⟩ := calm_runTold (dbg := b.dbg) (s := .reset)
    (did := "## reset_fn is present and was executed after the warmup pass. reset_optional_result: ")
    (didnt := "## again, not executing reset_fn as it is not present") f0 w t1
  obtain ⟨x1, t3, h3⟩ := calm_dryPass (E := E) (N := N) (dbg := b.dbg) (s := .pass1)
    (txt := firstTexts) (second := false) r1 t2 f2 hb.fn1
    (fun c hc => hb.checks c (Or.inl hc)) hb.measurers hb.shown
  obtain ⟨r2, t4, h4⟩ := calm_runTold (dbg := b.dbg) (s := .reset)
    (did := "## reset_fn is present and was executed after the first pass. reset_optional_result: ")
    (didnt := "## again, not executing reset_fn as it is not present") f0 (some x1.1) t3
  have hd := (dryPass_ok (second := false) h3).2
  obtain ⟨os, es, -, -, q⟩ := hd
  have q2 : x1.2.2 = b.measurers.map Measurer.declared := by rw [q]
  obtain ⟨x2, t5, h5⟩ := calm_dryPass (E := E) (N := N) (dbg := b.dbg) (s := .pass2)
    (txt := secondTexts) (second := true) (ms := x1.2.2) r2 t4 f3 hb.fn2
    (fun c hc => hb.checks c (Or.inr hc)) (by
      rw [q2]; intro m hm
      obtain ⟨m0, hm0, rfl⟩ := List.mem_map.1 hm
      exact hb.measurers m0 hm0) (by
      rw [q2]; intro m hm
      obtain ⟨m0, hm0, rfl⟩ := List.mem_map.1 hm
      exact hb.shown m0 hm0)
  refine ⟨(x1.2.1, x2.2.1), t5, ?_⟩
  unfold testRun
  rw [P.bind_ok (dryIntro_ok b t), P.bind_ok h0, P.bind_ok h1, P.bind_ok h2, P.bind_ok h3, P.bind_ok h4, P.bind_ok h5]
  rfl

/-- **C96** (missing passes): a dry run without one of the two pass functions never ends normally. -/
theorem C96_missing_pass (E : FloatEnv) (N : NumText) (b : DryTest D B) (h : b.fn1 = none ∨ b.fn2 = none) (t : List (MEv D B)) :
    ∃ e, (testRun E N b t).1 = .error e := by
  cases hr : testRun E N b t with
  | mk r t' =>
    cases r with
    | error e => exact ⟨e, rfl⟩
    | ok r =>
      exfalso
      unfold testRun at hr
      rw [P.bind_ok (dryIntro_ok b t)] at hr
      rcases P.bind_cases hr with ⟨e, -, he⟩ | ⟨r0, t0, h0, hr⟩
      · cases he
      rcases P.bind_cases hr with ⟨e, -, he⟩ | ⟨w, t1, h1, hr⟩
      · cases he
      rcases P.bind_cases hr with ⟨e, -, he⟩ | ⟨r1, t2, h2, hr⟩
      · cases he
      rcases P.bind_cases hr with ⟨e, -, he⟩ | ⟨x1, t3, h3, hr⟩
      · cases he
      rcases P.bind_cases hr with ⟨e, -, he⟩ | ⟨r2, t4, h4, hr⟩
      · cases he
      rcases P.bind_cases hr with ⟨e, -, he⟩ | ⟨x2, t5, h5, hr⟩
      · cases he
      have k1 := (dryPass_ok (second := false) h3).1
      have k2 := (dryPass_ok (second := true) h5).1
      rcases h with h | h <;> simp [h] at k1 k2

/-! ## a concrete dry run: a reset that gives 7, a warm-up, two passes that add to what they get, assertions and two measurers -/

/-- counts the events between its two steps -/
noncomputable def counter (key : Nat) (name : String) : Measurer Nat Nat :=
  .new key name .o1 "" (fun h _ => .ok h.length) (fun h _ b => .ok ⟨F.fin ((h.length - b : Nat) : ℝ), []⟩)

noncomputable def sampleDry : DryTest Nat Nat where
  resetFn := some (fun _ _ => .ok 7)
  warmupFn := some (fun _ d => .ok (d.getD 0 + 100))
  fn1 := some (fun _ d => .ok (d.getD 0 + 1))
  check1 := some (fun _ _ => .ok ())
  fn2 := some (fun _ d => .ok (d.getD 0 + 2))
  check2 := none
  measurers := [counter 0 "inner", counter 1 "outer"]
  maxReattempts := some 2
  dbg := fun d => toString d

theorem display_unscaled (E : FloatEnv) (N : NumText) (v : F) :
    (⟨v, []⟩ : Presented).display E N = .ok (N.dec 2 v ++ "<missing_unit_suffix_please_fix>") := rfl

theorem sampleDry_calm (E : FloatEnv) (N : NumText) : sampleDry.Calm E N where
  fns := by
    intro f hf h i
    rcases hf with hf | hf | hf | hf <;> cases hf <;> exact ⟨_, rfl⟩
  checks := by
    intro c hc h d
    rcases hc with hc | hc <;> cases hc
    rfl
  fn1 := rfl
  fn2 := rfl
  measurers := by
    intro m hm
    simp only [sampleDry, List.mem_cons, List.not_mem_nil, or_false] at hm
    rcases hm with rfl | rfl <;> exact ⟨fun _ _ => ⟨_, rfl⟩, fun _ _ _ => ⟨_, rfl⟩⟩
  shown := by
    intro m hm h d v x hx
    simp only [sampleDry, List.mem_cons, List.not_mem_nil, or_false] at hm
    rcases hm with rfl | rfl <;> (cases hx; exact ⟨_, rfl⟩)

example (E : FloatEnv) (N : NumText) : ∃ r t', testRun E N sampleDry [] = (.ok r, t') := C96_completes E N _ (sampleDry_calm E N) _

/-- its first pass is measured by both measurers -/
example (E : FloatEnv) (N : NumText) : ∃ r1 d1 os1 p1 t1 t2 t', DryPassCalls E N sampleDry.dbg sampleDry.measurers .pass1 false sampleDry.check1 r1 d1 os1 p1 ∧
    os1.length = 2 ∧ (testRun E N sampleDry []).2 = t1 ++ p1 ++ t2 ++ t' := by
  obtain ⟨r, t', h⟩ := C96_completes E N _ (sampleDry_calm E N) []
  obtain ⟨r0, w, r1, d1, r2, d2, os1, os2, e0, e1, e2, p1, e3, p2, -, -, -, h1, -, -, h2, -⟩ := C96_calls E N _ _ _ _ h
  exact ⟨r1, d1, os1, p1, [] ++ dryHeading sampleDry ++ e0 ++ e1 ++ e2, e3, p2, h1, h1.1, by rw [h]; exact h2⟩

/-- without measurers -/
example (E : FloatEnv) (N : NumText) : (testRun E N { sampleDry with measurers := [] } []).2 =
    [.line "## Wonderful!! We are ready to run.", .line "## This is the data we got:", .line "##   max_reattempts: Some(2)",
     .line "##   warmup_fn: present", .line "##   reset_fn: present", .line "##", .line "## running:",
     .call .reset none (some 7), .line "## reset_fn is present and was executed before any passes. reset_optional_result: Some(7)",
     .call .warmup (some 7) (some 107), .line "## warmup_fn is present and was executed. warmup_optional_result: Some(107)",
     .call .reset (some 107) (some 7), .line "## reset_fn is present and was executed after the warmup pass. reset_optional_result: Some(7)",
     .line "## taking pre-1st pass measurements -- in the reverse order they were declared",
     .call .pass1 (some 7) (some 8), .line "## first_pass_fn was executed. first_pass_result: 8",
     .line "## taking post-1st pass delta measurements -- in the same order they were declared", .line "## dumping 2nd pass measurements:",
     .check false 8 true, .line "## first_pass_assertion_fn is present and was executed after the first pass.",
     .call .reset (some 8) (some 7), .line "## reset_fn is present and was executed after the first pass. reset_optional_result: Some(7)",
     .line "## taking pre-2nd pass measurements -- in the reverse order they were declared",
     .call .pass2 (some 7) (some 9), .line "## second_pass_fn was executed. second_pass_result: 9",
     .line "## taking post-2nd pass delta measurements -- in the same order they were declared", .line "## dumping 2nd pass measurements:",
     .line "## not executing second_pass_assertion_fn as it is not present"] := by
  rfl

example (E : FloatEnv) (N : NumText) : ∃ e, (testRun E N { sampleDry with fn2 := none } []).1 = .error e :=
  C96_missing_pass E N _ (Or.inr rfl) _

end BigO
