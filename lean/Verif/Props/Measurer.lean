import Verif.Spec.MeasurerSpec
import Verif.Proofs.Retry
import Mathlib.Tactic.Common

/-!
# Properties of custom measurers (C68)
-/
namespace BigO
variable {D B : Type}

/-- the measurer without its pending value: what was declared -/
def Measurer.declared (m : Measurer D B) : Measurer D B := { m with pending := none }

theorem inOrder_nil {ε α β : Type} (f : α → P ε β) (t : List ε) : inOrder f [] t = (.ok [], t) := rfl

theorem inOrder_cons_ok {ε α β : Type} {f : α → P ε β} {a : α} {l : List α} {t t' : List ε} {r : List β}
    (h : inOrder f (a :: l) t = (.ok r, t')) :
    ∃ b bs t1, f a t = (.ok b, t1) ∧ inOrder f l t1 = (.ok bs, t') ∧ r = b :: bs := by
  unfold inOrder at h
  rcases P.bind_cases h with ⟨e, -, he⟩ | ⟨b, t1, h1, h2⟩
  · cases he
  rcases P.bind_cases h2 with ⟨e, -, he⟩ | ⟨bs, t2, h3, h4⟩
  · cases he
  cases h4
  exact ⟨b, bs, t1, h1, h3, rfl⟩

theorem before_ok {data : Option D} {m m' : Measurer D B} {t t' : List (MEv D B)} (h : m.before data t = (.ok m', t')) :
    ∃ b, m' = { m with pending := some b } ∧ t' = t ++ [.before m.key data (some b)] := by
  unfold Measurer.before at h
  split at h
  · cases h
  · rename_i b _; cases h; exact ⟨b, rfl, rfl⟩

theorem inOrder_before {data : Option D} {ms ms' : List (Measurer D B)} {t t' : List (MEv D B)}
    (h : inOrder (Measurer.before data) ms t = (.ok ms', t')) :
    ∃ bs : List B, bs.length = ms.length ∧ ms' = (ms.zip bs).map (fun p => { p.1 with pending := some p.2 }) ∧
      t' = t ++ (ms.zip bs).map (fun p => .before p.1.key data (some p.2)) := by
  induction ms generalizing t ms' with
  | nil => cases h; exact ⟨[], rfl, rfl, by simp⟩
  | cons m l ih =>
    obtain ⟨m', l', t1, h1, h2, rfl⟩ := inOrder_cons_ok h
    obtain ⟨b, rfl, rfl⟩ := before_ok h1
    obtain ⟨bs, e1, rfl, rfl⟩ := ih h2
    exact ⟨b :: bs, by simp [e1], by simp, by simp⟩

theorem after_ok {data : Option D} {m : Measurer D B} {b : B} {t t' : List (MEv D B)} {x : CustomMeasurement × Measurer D B}
    (hp : m.pending = some b) (h : m.afterCustom data t = (.ok x, t')) :
    ∃ y, x = (⟨m.name, m.expected, m.description, y⟩, m.declared) ∧ t' = t ++ [.after m.key data b (some y)] := by
  unfold Measurer.afterCustom at h
  rcases P.bind_cases h with ⟨e, -, he⟩ | ⟨z, t1, h1, h2⟩
  · cases he
  cases h2
  unfold Measurer.after at h1
  rw [hp] at h1
  simp only at h1
  split at h1
  · cases h1
  · rename_i y _; cases h1; exact ⟨y, rfl, rfl⟩

theorem inOrder_after {data : Option D} {ms : List (Measurer D B)} {bs : List B} (hl : bs.length = ms.length) {t t' : List (MEv D B)}
    {r : List (CustomMeasurement × Measurer D B)}
    (h : inOrder (Measurer.afterCustom data) ((ms.zip bs).map (fun p => { p.1 with pending := some p.2 })) t = (.ok r, t')) :
    ∃ os : List (Taken B), os.map Taken.value = bs ∧ r.map Prod.fst = namedResults ms os ∧ r.map Prod.snd = ms.map Measurer.declared ∧
      t' = t ++ (ms.zip os).map (fun p => .after p.1.key data p.2.value (some p.2.measured)) := by
  induction ms generalizing bs t r with
  | nil =>
    cases bs with
    | nil => cases h; exact ⟨[], rfl, rfl, rfl, by simp⟩
    | cons b bs => simp at hl
  | cons m l ih =>
    cases bs with
    | nil => simp at hl
    | cons b bs =>
      obtain ⟨x, r', t1, h1, h2, rfl⟩ := inOrder_cons_ok h
      obtain ⟨y, rfl, rfl⟩ := after_ok rfl h1
      obtain ⟨os, e1, e2, e3, rfl⟩ := ih (by simpa using hl) h2
      refine ⟨⟨b, y⟩ :: os, by simp [e1], ?_, ?_, by simp⟩
      · simp [namedResults, e2]
      · simp [e3, Measurer.declared]

theorem round_ok {pre post : Option D} {ms : List (Measurer D B)} {t t' : List (MEv D B)}
    {x : List CustomMeasurement × List (Measurer D B)} (h : measuredRound pre post ms t = (.ok x, t')) :
    ∃ os : List (Taken B), os.length = ms.length ∧ t' = t ++ nestedCalls pre post ms os ∧ x = (namedResults ms os, ms.map Measurer.declared) := by
  unfold measuredRound at h
  rcases P.bind_cases h with ⟨e, -, he⟩ | ⟨ms', t1, h1, h2⟩
  · cases he
  rw [P.log_bind] at h2
  unfold measureAllBefore at h1
  rcases P.bind_cases h1 with ⟨e, -, he⟩ | ⟨l, t2, h3, h4⟩
  · cases he
  cases h4
  obtain ⟨bs, e1, rfl, rfl⟩ := inOrder_before h3
  unfold measureAllAfter at h2
  rcases P.bind_cases h2 with ⟨e, -, he⟩ | ⟨r, t3, h5, h6⟩
  · cases he
  cases h6
  have hrev : ((ms.reverse.zip bs).map (fun p => ({ p.1 with pending := some p.2 } : Measurer D B))).reverse =
      (ms.zip bs.reverse).map (fun p => { p.1 with pending := some p.2 }) := by
    have := List.reverse_zipWith (f := fun (m : Measurer D B) (b : B) => (m, b)) (l := ms.reverse) (l' := bs) e1.symm
    rw [← List.map_reverse]
    congr 1
    simpa [List.zip] using this
  rw [hrev] at h5
  obtain ⟨os, e2, e3, e4, rfl⟩ := inOrder_after (by simpa using e1) h5
  have hlen : os.length = ms.length := by
    have := congrArg List.length e2
    simp at this
    simp at e1
    omega
  refine ⟨os, hlen, ?_, by rw [e3, e4]⟩
  have hbs : bs = (os.map Taken.value).reverse := by rw [e2]; simp
  have hz : (ms.reverse.zip bs).map (fun p => MEv.before (D := D) p.1.key pre (some p.2)) =
      ((ms.zip os).map (fun p => MEv.before p.1.key pre (some p.2.value))).reverse := by
    rw [hbs]
    have := List.reverse_zipWith (f := fun (m : Measurer D B) (b : B) => (m, b)) (l := ms) (l' := os.map Taken.value) (by simp [hlen])
    have h2 : ms.reverse.zip (os.map Taken.value).reverse = (ms.zip (os.map Taken.value)).reverse := by simpa [List.zip] using this.symm
    rw [h2, List.map_reverse, List.zip_map_right, List.map_map]
    rfl
  unfold nestedCalls
  rw [hz]
  simp

/-- **C68** (nesting): in every measured event that ends, however many there were before it, the pre-event closures are called
once each from the last declared to the first, then the event happens, then the post-event closures are called once each from
the first declared to the last; each is given the value of the pre-event closure of the same measurer in the same round; the
results are in the order of declaration, with the declared names, complexities and descriptions. -/
theorem C68_nested (rounds : List (Option D × Option D)) (ms : List (Measurer D B)) (t t' : List (MEv D B))
    (r : List (List CustomMeasurement)) (h : measuredRounds rounds ms t = (.ok r, t')) :
    ∃ oss : List (List (Taken B)), oss.length = rounds.length ∧ (∀ os ∈ oss, os.length = ms.length) ∧
      t' = t ++ ((rounds.zip oss).map (fun p => nestedCalls p.1.1 p.1.2 ms p.2)).flatten ∧ r = oss.map (namedResults ms) := by
  have key : ∀ (ms' : List (Measurer D B)), ms'.map Measurer.declared = ms.map Measurer.declared →
      (∀ pre post os, nestedCalls pre post ms' os = nestedCalls pre post ms os) ∧ (∀ os : List (Taken B), namedResults ms' os = namedResults ms os) ∧
      ms'.length = ms.length := by
    intro ms' he
    have hl : ms'.length = ms.length := by simpa using congrArg List.length he
    have hz : ∀ {γ : Type} (f : Measurer D B → Taken B → γ), (∀ m o, f m o = f m.declared o) → ∀ os : List (Taken B),
        (ms'.zip os).map (fun p => f p.1 p.2) = (ms.zip os).map (fun p => f p.1 p.2) := by
      intro γ f hf os
      have h1 : ∀ l : List (Measurer D B), (l.zip os).map (fun p => f p.1 p.2) = ((l.map Measurer.declared).zip os).map (fun p => f p.1 p.2) := by
        intro l
        rw [List.zip_map_left, List.map_map]
        apply List.map_congr_left
        intro p _; exact hf _ _
      rw [h1 ms', h1 ms, he]
    refine ⟨fun pre post os => ?_, fun os => ?_, hl⟩
    · unfold nestedCalls
      rw [hz (fun m o => MEv.before m.key pre (some o.value)) (fun _ _ => rfl),
        hz (fun m o => MEv.after m.key post o.value (some o.measured)) (fun _ _ => rfl)]
    · exact hz (fun m o => (⟨m.name, m.expected, m.description, o.measured⟩ : CustomMeasurement)) (fun _ _ => rfl) os
  suffices hs : ∀ (ms' : List (Measurer D B)), ms'.map Measurer.declared = ms.map Measurer.declared →
      ∀ t t' r, measuredRounds rounds ms' t = (.ok r, t') →
      ∃ oss : List (List (Taken B)), oss.length = rounds.length ∧ (∀ os ∈ oss, os.length = ms.length) ∧
      t' = t ++ ((rounds.zip oss).map (fun p => nestedCalls p.1.1 p.1.2 ms p.2)).flatten ∧ r = oss.map (namedResults ms) from
    hs ms rfl t t' r h
  clear h r t t'
  induction rounds with
  | nil => intro ms' _ t t' r h; cases h; exact ⟨[], rfl, by simp, by simp, rfl⟩
  | cons p l ih =>
    intro ms' hms t t' r h
    unfold measuredRounds at h
    rcases P.bind_cases h with ⟨e, -, he⟩ | ⟨x, t1, h1, h2⟩
    · cases he
    rcases P.bind_cases h2 with ⟨e, -, he⟩ | ⟨xs, t2, h3, h4⟩
    · cases he
    cases h4
    obtain ⟨os, e1, rfl, rfl⟩ := round_ok h1
    obtain ⟨k1, k2, k3⟩ := key ms' hms
    obtain ⟨oss, f1, f2, rfl, rfl⟩ := ih (ms'.map Measurer.declared) (by rw [List.map_map]; exact hms) _ _ _ h3
    refine ⟨os :: oss, by simp [f1], ?_, by simp [k1], by simp [k2]⟩
    intro o ho
    rcases List.mem_cons.1 ho with rfl | ho
    · omega
    · exact f2 o ho

/-- **C68** (totality): closures that do not panic always lead to results. -/
theorem C68_no_panic (rounds : List (Option D × Option D)) (ms : List (Measurer D B)) (hc : ∀ m ∈ ms, m.Calm) (t : List (MEv D B)) :
    ∃ r t', measuredRounds rounds ms t = (.ok r, t') := by
  have hb : ∀ (data : Option D) (l : List (Measurer D B)), (∀ m ∈ l, m.Calm) → ∀ t, ∃ r t', inOrder (Measurer.before data) l t = (.ok r, t') := by
    intro data l
    induction l with
    | nil => intro _ t; exact ⟨[], t, rfl⟩
    | cons m l ih =>
      intro hl t
      obtain ⟨b, hb⟩ := (hl m (by simp)).1 t data
      have h1 : m.before data t = (.ok { m with pending := some b }, t ++ [.before m.key data (some b)]) := by
        unfold Measurer.before; rw [hb]
      obtain ⟨r, t', h2⟩ := ih (fun x hx => hl x (by simp [hx])) (t ++ [.before m.key data (some b)])
      exact ⟨_ :: r, t', by unfold inOrder; rw [P.bind_ok h1, P.bind_ok h2]; rfl⟩
  have ha : ∀ (data : Option D) (l : List (Measurer D B)), (∀ m ∈ l, m.Calm ∧ m.pending ≠ none) → ∀ t, ∃ r t', inOrder (Measurer.afterCustom data) l t = (.ok r, t') := by
    intro data l
    induction l with
    | nil => intro _ t; exact ⟨[], t, rfl⟩
    | cons m l ih =>
      intro hl t
      obtain ⟨hm, hp⟩ := hl m (by simp)
      obtain ⟨b, hb⟩ := Option.ne_none_iff_exists'.1 hp
      obtain ⟨x, hx⟩ := hm.2 t data b
      have h1 : m.afterCustom data t = (.ok (m.asCustom x, m.declared), t ++ [.after m.key data b (some x)]) := by
        have h0 : m.after data t = (.ok (x, m.declared), t ++ [.after m.key data b (some x)]) := by
          unfold Measurer.after; rw [hb]; simp only [hx]; rfl
        unfold Measurer.afterCustom
        rw [P.bind_ok h0]; rfl
      obtain ⟨r, t', h2⟩ := ih (fun x hx => hl x (by simp [hx])) (t ++ [.after m.key data b (some x)])
      exact ⟨_ :: r, t', by unfold inOrder; rw [P.bind_ok h1, P.bind_ok h2]; rfl⟩
  induction rounds generalizing ms t with
  | nil => exact ⟨[], t, rfl⟩
  | cons p l ih =>
    obtain ⟨l1, t1, h1⟩ := hb p.1 ms.reverse (fun m hm => hc m (by simpa using hm)) t
    obtain ⟨bs, e1, rfl, e3⟩ := inOrder_before h1
    have hcalm : ∀ m ∈ ((ms.reverse.zip bs).map (fun p => ({ p.1 with pending := some p.2 } : Measurer D B))).reverse, m.Calm ∧ m.pending ≠ none := by
      intro m hm
      simp only [List.mem_reverse, List.mem_map] at hm
      obtain ⟨⟨m0, b⟩, hmem, rfl⟩ := hm
      exact ⟨hc m0 (by simpa using (List.of_mem_zip hmem).1), by simp⟩
    obtain ⟨l2, t2, h2⟩ := ha p.2 _ hcalm (t1 ++ [.event])
    have hround : measuredRound p.1 p.2 ms t = (.ok (l2.map Prod.fst, l2.map Prod.snd), t2) := by
      have hB : measureAllBefore p.1 ms t = (.ok _, t1) := P.bind_ok h1
      have hA : measureAllAfter p.2 _ (t1 ++ [.event]) = (.ok _, t2) := P.bind_ok h2
      unfold measuredRound
      rw [P.bind_ok hB, P.log_bind]
      exact hA
    obtain ⟨os, f1, -, f3⟩ := round_ok hround
    have hsnd : l2.map Prod.snd = ms.map Measurer.declared := congrArg Prod.snd f3
    obtain ⟨r, t', h3⟩ := ih (ms.map Measurer.declared) (by
      intro m hm
      obtain ⟨m0, h0, rfl⟩ := List.mem_map.1 hm
      exact hc m0 h0) t2
    rw [hsnd] at hround
    refine ⟨l2.map Prod.fst :: r, t', ?_⟩
    unfold measuredRounds
    rw [P.bind_ok hround, P.bind_ok h3]; rfl

/-- **C68** (misuse): a post-event step of a measurer whose pre-event step did not take place since its last post-event step
panics, without calling its closure. -/
theorem C68_after_needs_before (data : Option D) (m : Measurer D B) (h : m.pending = none) (ms : List (Measurer D B)) (t : List (MEv D B)) :
    ∃ s, measureAllAfter data (m :: ms) t = (.error (.msg s), t) := by
  have h0 : m.after data t = (.error (.msg "BUG! Please, fix: \"after event measurer\" was called but no \"before event measurer\" took place"), t) := by
    unfold Measurer.after; rw [h]
  have h1 : m.afterCustom data t = (.error (.msg _), t) := P.bind_err h0
  have h2 : inOrder (Measurer.afterCustom data) (m :: ms) t = (.error (.msg _), t) := P.bind_err h1
  exact ⟨_, P.bind_err h2⟩

/-- **C68** (misuse): in particular for one that was just used -/
theorem C68_after_twice (pre post post' : Option D) (m : Measurer D B) (ms : List (Measurer D B)) (t t' : List (MEv D B))
    (x : List CustomMeasurement × List (Measurer D B)) (h : measuredRound pre post (m :: ms) t = (.ok x, t')) :
    ∃ s, measureAllAfter post' x.2 t' = (.error (.msg s), t') := by
  obtain ⟨os, -, -, rfl⟩ := round_ok h
  exact C68_after_needs_before post' _ rfl _ _

/-- **C68** (a measurer as the user declares it): its first measured event calls the pre-event closure given to `new` with the data
before the event, hands its value with the data after the event to the post-event closure, and the measurement this returns is
reported under the declared name, complexity and description. -/
theorem C68_declared (key : Nat) (name : String) (expected : Complexity) (description : String)
    (beforeFn : List (MEv D B) → Option D → Rs B) (afterFn : List (MEv D B) → Option D → B → Rs Presented)
    (pre post : Option D) (t : List (MEv D B)) (b : B) (x : Presented) (hb : beforeFn t pre = .ok b)
    (ha : afterFn (t ++ [.before key pre (some b)] ++ [.event]) post b = .ok x) :
    ∃ (r : CustomMeasurement) (ms' : List (Measurer D B)),
      measuredRound pre post [Measurer.new key name expected description beforeFn afterFn] t =
        (.ok ([r], ms'), t ++ [.before key pre (some b)] ++ [.event] ++ [.after key post b (some x)]) ∧
      r.name = name ∧ r.expected = expected ∧ r.description = description ∧ r.measured = x := by
  have h1 : (Measurer.new key name expected description beforeFn afterFn).before pre t =
      (.ok { Measurer.new key name expected description beforeFn afterFn with pending := some b }, t ++ [.before key pre (some b)]) := by
    unfold Measurer.before Measurer.new
    simp only [hb]
  have hI : inOrder (Measurer.before pre) [Measurer.new key name expected description beforeFn afterFn] t =
      (.ok [{ Measurer.new key name expected description beforeFn afterFn with pending := some b }], t ++ [.before key pre (some b)]) :=
    (P.bind_ok h1).trans rfl
  have hB : measureAllBefore pre [Measurer.new key name expected description beforeFn afterFn] t =
      (.ok [{ Measurer.new key name expected description beforeFn afterFn with pending := some b }], t ++ [.before key pre (some b)]) :=
    (P.bind_ok hI).trans rfl
  have h2 : ({ Measurer.new key name expected description beforeFn afterFn with pending := some b } : Measurer D B).after post
      (t ++ [.before key pre (some b)] ++ [.event]) =
      (.ok (x, Measurer.new key name expected description beforeFn afterFn), t ++ [.before key pre (some b)] ++ [.event] ++ [.after key post b (some x)]) := by
    unfold Measurer.after Measurer.new
    simp only [ha]
  have h3 := P.bind_ok (f := fun y => (pure (Measurer.asCustom ({ Measurer.new key name expected description beforeFn afterFn with pending := some b } : Measurer D B) y.1, y.2) : P (MEv D B) _)) h2
  have hA : inOrder (Measurer.afterCustom post) [({ Measurer.new key name expected description beforeFn afterFn with pending := some b } : Measurer D B)]
      (t ++ [.before key pre (some b)] ++ [.event]) =
      (.ok [(⟨name, expected, description, x⟩, Measurer.new key name expected description beforeFn afterFn)],
        t ++ [.before key pre (some b)] ++ [.event] ++ [.after key post b (some x)]) :=
    (P.bind_ok (h3.trans rfl)).trans rfl
  refine ⟨⟨name, expected, description, x⟩, [Measurer.new key name expected description beforeFn afterFn], ?_, rfl, rfl, rfl, rfl⟩
  unfold measuredRound
  rw [P.bind_ok hB, P.log_bind]
  exact (P.bind_ok hA).trans rfl

/-- **C68** (misuse of a new measurer): the post-event step of a measurer that was never used panics. -/
theorem C68_new_needs_before (key : Nat) (name : String) (expected : Complexity) (description : String)
    (beforeFn : List (MEv D B) → Option D → Rs B) (afterFn : List (MEv D B) → Option D → B → Rs Presented)
    (data : Option D) (t : List (MEv D B)) :
    ∃ s, measureAllAfter data [Measurer.new key name expected description beforeFn afterFn] t = (.error (.msg s), t) :=
  C68_after_needs_before data _ rfl [] t

/-! ## a concrete case -/

/-- counts calls -/
def clock (key : Nat) : Measurer Nat Nat :=
  .new key "calls" .o1 "" (fun h _ => .ok h.length) (fun h _ b => .ok ⟨F.nan, [⟨F.nan, F.nan, toString (h.length - b), ""⟩]⟩)

theorem clock_calm (key : Nat) : (clock key).Calm := ⟨fun _ _ => ⟨_, rfl⟩, fun _ _ _ => ⟨_, rfl⟩⟩

example : ∃ r t', measuredRounds [(some 1, some 2), (none, some 3)] [clock 0, clock 1] [] = (.ok r, t') :=
  C68_no_panic _ _ (by
    intro m hm
    simp only [List.mem_cons, List.not_mem_nil, or_false] at hm
    rcases hm with rfl | rfl <;> exact clock_calm _) _

example : (measuredRound (some 1) (some 2) [clock 0, clock 1] []).2 =
    [.before 1 (some 1) (some 0), .before 0 (some 1) (some 1), .event, .after 0 (some 2) 1 (some ⟨F.nan, [⟨F.nan, F.nan, "2", ""⟩]⟩),
     .after 1 (some 2) 0 (some ⟨F.nan, [⟨F.nan, F.nan, "4", ""⟩]⟩)] := rfl

end BigO
