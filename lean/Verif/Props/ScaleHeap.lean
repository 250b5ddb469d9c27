import Verif.Spec.ScaleHeapSpec
import Verif.Props.Presentable

/-!
# C118: measurements of custom units stay valid
-/
namespace BigO
open F

/-- the entries of the map of `f` -/
def ScaleMem.tab (m : ScaleMem) (f : ScaleFn) : List (String × Nat) :=
  match m.map f with
  | some (some a) => match m.heap a with
    | some (.units l) => l
    | _ => []
  | _ => []

/-- the maps and all that was given out are in place -/
structure ScaleInv (E : FloatEnv) (m : ScaleMem) : Prop where
  table : ∀ f a, m.map f = some (some a) → m.heap a = some (.units (m.tab f))
  apart : ∀ f g a, m.map f = some (some a) → m.map g = some (some a) → f = g
  buffer : ∀ f p, p ∈ m.tab f → m.heap p.2 = some (.scales (f.table E p.1))
  key : ∀ f u b b', (u, b) ∈ m.tab f → (u, b') ∈ m.tab f → b = b'
  own : ∀ f g u u' b, (u, b) ∈ m.tab f → (u', b) ∈ m.tab g → f = g ∧ u = u'
  given : ∀ f u v b, (f, u, v, b) ∈ m.given → (u, b) ∈ m.tab f
  asked : ∀ f u b, (u, b) ∈ m.tab f → ∃ v, (f, u, v, b) ∈ m.given

theorem scaleInv_initial (E : FloatEnv) (h : Nat → Option Cell) : ScaleInv E (.initial h) := by
  constructor <;> simp [ScaleMem.initial, ScaleMem.tab]

/-- nothing that matters changes -/
theorem ScaleInv.agree {E : FloatEnv} {m m' : ScaleMem} (i : ScaleInv E m) (hm : m'.map = m.map) (hg : m'.given = m.given)
    (hh : ∀ a x, m.heap a = some x → x ≠ .foreign → m'.heap a = some x) : ScaleInv E m' := by
  have ht : ∀ f, m'.tab f = m.tab f := by
    intro f
    unfold ScaleMem.tab
    rw [hm]
    cases e : m.map f with
    | none => rfl
    | some o =>
      cases o with
      | none => rfl
      | some a =>
        have h1 := i.table f a e
        have h2 := hh a _ h1 (by simp)
        simp only [h1, h2]
  refine ⟨fun f a h => ?_, fun f g a => ?_, fun f p => ?_, fun f u b b' => ?_, fun f g u u' b => ?_, fun f u v b => ?_, fun f u b => ?_⟩
  · rw [ht]; rw [hm] at h; exact hh a _ (i.table f a h) (by simp)
  · rw [hm]; exact i.apart f g a
  · rw [ht]; exact fun h => hh _ _ (i.buffer f p h) (by simp)
  · rw [ht]; exact i.key f u b b'
  · rw [ht, ht]; exact i.own f g u u' b
  · rw [ht, hg]; exact i.given f u v b
  · rw [ht, hg]; exact i.asked f u b

theorem mem_of_lookup {u : String} {b : Nat} : ∀ {l : List (String × Nat)}, l.lookup u = some b → (u, b) ∈ l := by
  intro l
  induction l with
  | nil => simp
  | cons p l ih =>
    obtain ⟨k, c⟩ := p
    rw [List.lookup_cons]
    cases h : u == k with
    | true => rintro ⟨⟩; rw [eq_of_beq h]; simp
    | false => exact fun e => List.mem_cons_of_mem _ (ih e)

theorem lookup_none {u : String} : ∀ {l : List (String × Nat)}, l.lookup u = none → ∀ b, (u, b) ∉ l := by
  intro l
  induction l with
  | nil => simp
  | cons p l ih =>
    obtain ⟨k, c⟩ := p
    rw [List.lookup_cons]
    cases h : u == k with
    | true => rintro ⟨⟩
    | false =>
      intro e b hm
      rcases List.mem_cons.1 hm with hm | hm
      · cases hm; simp at h
      · exact ih e b hm

theorem lookup_of_mem {E : FloatEnv} {m : ScaleMem} (i : ScaleInv E m) {f : ScaleFn} {u : String} {b : Nat} (h : (u, b) ∈ m.tab f) :
    (m.tab f).lookup u = some b := by
  cases e : (m.tab f).lookup u with
  | none => exact absurd h (lookup_none e b)
  | some b' => rw [i.key f u b b' h (mem_of_lookup e)]

/-- the entries that a call finds -/
theorem entries_tab {E : FloatEnv} {m : ScaleMem} (i : ScaleInv E m) (f : ScaleFn) : m.entries ((m.map f).getD none) = .ok (m.tab f) := by
  unfold ScaleMem.tab
  cases e : m.map f with
  | none => rfl
  | some o =>
    cases o with
    | none => rfl
    | some a =>
      have h1 := i.table f a e
      simp only [Option.getD_some, ScaleMem.entries, h1]

/-- a map gets an entry, its table being at `a'` -/
theorem ScaleInv.added {E : FloatEnv} {m m' : ScaleMem} (i : ScaleInv E m) {f : ScaleFn} {unit : String} {a' b : Nat}
    (hnew : (m.tab f).lookup unit = none) (hb : m.heap b = none) (hmap : m'.map f = some (some a'))
    (htab : m'.heap a' = some (.units (m.tab f ++ [(unit, b)]))) (hbuf : m'.heap b = some (.scales (f.table E unit)))
    (hother : ∀ g, g ≠ f → m'.map g = m.map g) (hkeep : ∀ g a, g ≠ f → m.map g = some (some a) → m'.heap a = m.heap a ∧ a ≠ a')
    (hscale : ∀ a l, m.heap a = some (.scales l) → m'.heap a = some (.scales l))
    (hgiven : ∀ g u v c, (g, u, v, c) ∈ m'.given → (g, u, v, c) ∈ m.given ∨ (g = f ∧ u = unit ∧ c = b))
    (hmore : ∀ x, x ∈ m.given → x ∈ m'.given) (hthis : ∃ v, (f, unit, v, b) ∈ m'.given) : ScaleInv E m' := by
  have hf : m'.tab f = m.tab f ++ [(unit, b)] := by unfold ScaleMem.tab; simp only [hmap, htab]; rfl
  have hg : ∀ g, g ≠ f → m'.tab g = m.tab g := by
    intro g hne
    unfold ScaleMem.tab
    rw [hother g hne]
    cases e : m.map g with
    | none => rfl
    | some o =>
      cases o with
      | none => rfl
      | some a => simp only [(hkeep g a hne e).1]
  have old : ∀ g u, (u, b) ∉ m.tab g := fun g u h => by
    have := i.buffer g _ h
    rw [hb] at this; cases this
  have mem : ∀ g p, p ∈ m'.tab g ↔ p ∈ m.tab g ∨ (g = f ∧ p = (unit, b)) := by
    intro g p
    by_cases h : g = f
    · subst h; rw [hf]; simp
    · rw [hg g h]; simp [h]
  refine ⟨fun g a h => ?_, fun g g' a h h' => ?_, fun g p h => ?_, fun g u c c' h h' => ?_, fun g g' u u' c h h' => ?_, fun g u v c h => ?_, fun g u c h => ?_⟩
  · by_cases hgf : g = f
    · subst hgf; rw [hmap] at h; cases h; rw [hf]; exact htab
    · rw [hother g hgf] at h
      rw [(hkeep g a hgf h).1, hg g hgf]; exact i.table g a h
  · by_cases h1 : g = f <;> by_cases h2 : g' = f
    · rw [h1, h2]
    · subst h1; rw [hmap] at h; cases h
      rw [hother g' h2] at h'
      exact absurd rfl (hkeep g' _ h2 h').2
    · subst h2; rw [hmap] at h'; cases h'
      rw [hother g h1] at h
      exact absurd rfl (hkeep g _ h1 h).2
    · rw [hother _ h1] at h; rw [hother _ h2] at h'; exact i.apart g g' a h h'
  · rcases (mem g p).1 h with h | ⟨rfl, rfl⟩
    · exact hscale _ _ (i.buffer g p h)
    · exact hbuf
  · rcases (mem g _).1 h with h | ⟨rfl, e⟩ <;> rcases (mem g _).1 h' with h' | ⟨e1, e2⟩
    · exact i.key g u c c' h h'
    · subst e1; cases e2; exact absurd h (lookup_none hnew c)
    · cases e; exact absurd h' (lookup_none hnew c')
    · cases e; cases e2; rfl
  · rcases (mem g _).1 h with h | ⟨rfl, e⟩ <;> rcases (mem g' _).1 h' with h' | ⟨rfl, e'⟩
    · exact i.own g g' u u' c h h'
    · cases e'; exact absurd h (old g u)
    · cases e; exact absurd h' (old g' u')
    · cases e; cases e'; exact ⟨rfl, rfl⟩
  · refine (mem g _).2 ?_
    rcases hgiven g u v c h with h | ⟨rfl, rfl, rfl⟩
    · exact Or.inl (i.given g u v c h)
    · exact Or.inr ⟨rfl, rfl⟩
  · rcases (mem g (u, c)).1 h with h | ⟨rfl, e⟩
    · obtain ⟨v, hv⟩ := i.asked g u c h
      exact ⟨v, hmore _ hv⟩
    · cases e; exact hthis

/-- the maps may have moved -/
theorem ScaleInv.moved {E : FloatEnv} {m m' : ScaleMem} (i : ScaleInv E m) (ht : ∀ f, m'.tab f = m.tab f)
    (table : ∀ f a, m'.map f = some (some a) → m'.heap a = some (.units (m.tab f)))
    (apart : ∀ f g a, m'.map f = some (some a) → m'.map g = some (some a) → f = g)
    (hscale : ∀ a l, m.heap a = some (.scales l) → m'.heap a = some (.scales l)) (hgiven : m'.given = m.given) : ScaleInv E m' := by
  refine ⟨fun f a h => ?_, apart, fun f p h => ?_, fun f u b b' => ?_, fun f g u u' b => ?_, fun f u v b => ?_, fun f u b => ?_⟩
  · rw [ht]; exact table f a h
  · rw [ht] at h; exact hscale _ _ (i.buffer f p h)
  · rw [ht]; exact i.key f u b b'
  · rw [ht, ht]; exact i.own f g u u' b
  · rw [ht, hgiven]; exact i.given f u v b
  · rw [ht, hgiven]; exact i.asked f u b

/-- making room keeps everything in place -/
theorem makeRoom_inv {E : FloatEnv} {m : ScaleMem} (i : ScaleInv E m) (f : ScaleFn) (c : ScaleChoice) :
    m.makeRoom f ((m.map f).getD none) (m.tab f) c ≠ .undefined ∧
    ∀ m2 a, m.makeRoom f ((m.map f).getD none) (m.tab f) c = .ok (m2, a) → ScaleInv E m2 ∧ m2.map f = some (some a) ∧
      m2.tab f = m.tab f ∧ m2.given = m.given := by
  have free : ∀ {x : Nat}, ¬ (m.heap x).isSome = true → m.heap x = none := fun h => by simpa using h
  cases hm : (m.map f).getD none with
  | some a =>
    have hma : m.map f = some (some a) := by
      cases e : m.map f with
      | none => rw [e] at hm; cases hm
      | some o => rw [e] at hm; simp at hm; rw [hm]
    have ha := i.table f a hma
    cases hgrow : c.grow with
    | false =>
      simp only [ScaleMem.makeRoom, hgrow]
      refine ⟨by simp, ?_⟩
      rintro m2 a2 ⟨⟩
      exact ⟨i, hma, rfl, rfl⟩
    | true =>
      simp only [ScaleMem.makeRoom, hgrow]
      split_ifs with hbt
      · simp
      · have hta : c.tableAt ≠ a := by rintro e; rw [← e, free hbt] at ha; cases ha
        refine ⟨by simp, ?_⟩
        rintro m2 a2 ⟨⟩
        generalize hm2 : ({ (m.put c.tableAt (some (.units (m.tab f)))).put a none with
          map := fun g => if g = f then some (some c.tableAt) else m.map g } : ScaleMem) = m2
        have hmap : ∀ g, m2.map g = if g = f then some (some c.tableAt) else m.map g := by rw [← hm2]; exact fun _ => rfl
        have hheap : ∀ x, m2.heap x = if x = a then none else if x = c.tableAt then some (.units (m.tab f)) else m.heap x := by
          rw [← hm2]; exact fun _ => rfl
        have hgiven : m2.given = m.given := by rw [← hm2]; rfl
        clear hm2
        have hself : m2.heap c.tableAt = some (.units (m.tab f)) := by rw [hheap, if_neg hta, if_pos rfl]
        have hoth : ∀ g x, g ≠ f → m.map g = some (some x) → m2.heap x = m.heap x ∧ x ≠ c.tableAt := by
          intro g x hg hx
          have h1 : x ≠ a := by rintro rfl; exact hg (i.apart g f x hx hma)
          have h2 : x ≠ c.tableAt := by rintro rfl; have := i.table g _ hx; rw [free hbt] at this; cases this
          exact ⟨by rw [hheap, if_neg h1, if_neg h2], h2⟩
        have htab : ∀ g, m2.tab g = m.tab g := by
          intro g
          by_cases hg : g = f
          · subst hg
            have e1 : m2.map g = some (some c.tableAt) := by rw [hmap, if_pos rfl]
            unfold ScaleMem.tab at hself ⊢
            simp only [e1, hself]
          · have e1 : m2.map g = m.map g := by rw [hmap, if_neg hg]
            unfold ScaleMem.tab
            rw [e1]
            cases e : m.map g with
            | none => rfl
            | some o =>
              cases o with
              | none => rfl
              | some x => simp only [(hoth g x hg e).1]
        refine ⟨i.moved htab (fun g x h => ?_) (fun g g' x h h' => ?_) (fun x l hx => ?_) hgiven, by rw [hmap, if_pos rfl], htab f, hgiven⟩
        · rw [hmap] at h
          split_ifs at h with hg
          · cases h; subst hg; exact hself
          · rw [(hoth g x hg h).1]; exact i.table g x h
        · rw [hmap] at h h'
          split_ifs at h h' with h1 h2 h2
          · rw [h1, h2]
          · cases h; exact absurd rfl (hoth g' _ h2 h').2
          · cases h'; exact absurd rfl (hoth g _ h1 h).2
          · exact i.apart g g' x h h'
        · have h1 : x ≠ a := by rintro rfl; rw [ha] at hx; cases hx
          have h2 : x ≠ c.tableAt := by rintro rfl; rw [free hbt] at hx; cases hx
          rw [hheap, if_neg h1, if_neg h2, hx]
  | none =>
    cases hgrow : c.grow with
    | false => simp [ScaleMem.makeRoom, hgrow]
    | true =>
      simp only [ScaleMem.makeRoom, hgrow]
      split_ifs with hbt
      · simp
      · have hnone : ∀ x, m.map f ≠ some (some x) := by intro x e; rw [e] at hm; cases hm
        have htabf : m.tab f = [] := by
          unfold ScaleMem.tab
          cases e : m.map f with
          | none => rfl
          | some o =>
            cases o with
            | none => rfl
            | some x => exact absurd e (hnone x)
        refine ⟨by simp, ?_⟩
        rintro m2 a2 ⟨⟩
        generalize hm2 : ({ m.put c.tableAt (some (.units (m.tab f))) with
          map := fun g => if g = f then some (some c.tableAt) else m.map g } : ScaleMem) = m2
        have hmap : ∀ g, m2.map g = if g = f then some (some c.tableAt) else m.map g := by rw [← hm2]; exact fun _ => rfl
        have hheap : ∀ x, m2.heap x = if x = c.tableAt then some (.units (m.tab f)) else m.heap x := by rw [← hm2]; exact fun _ => rfl
        have hgiven : m2.given = m.given := by rw [← hm2]; rfl
        clear hm2
        have hself : m2.heap c.tableAt = some (.units (m.tab f)) := by rw [hheap, if_pos rfl]
        have hoth : ∀ g x, g ≠ f → m.map g = some (some x) → m2.heap x = m.heap x ∧ x ≠ c.tableAt := by
          intro g x hg hx
          have h2 : x ≠ c.tableAt := by rintro rfl; have := i.table g _ hx; rw [free hbt] at this; cases this
          exact ⟨by rw [hheap, if_neg h2], h2⟩
        have htab : ∀ g, m2.tab g = m.tab g := by
          intro g
          by_cases hg : g = f
          · subst hg
            have e1 : m2.map g = some (some c.tableAt) := by rw [hmap, if_pos rfl]
            rw [htabf] at hself ⊢
            unfold ScaleMem.tab
            simp only [e1, hself]
          · have e1 : m2.map g = m.map g := by rw [hmap, if_neg hg]
            unfold ScaleMem.tab
            rw [e1]
            cases e : m.map g with
            | none => rfl
            | some o =>
              cases o with
              | none => rfl
              | some x => simp only [(hoth g x hg e).1]
        refine ⟨i.moved htab (fun g x h => ?_) (fun g g' x h h' => ?_) (fun x l hx => ?_) hgiven, by rw [hmap, if_pos rfl], htab f, hgiven⟩
        · rw [hmap] at h
          split_ifs at h with hg
          · cases h; subst hg; exact hself
          · rw [(hoth g x hg h).1]; exact i.table g x h
        · rw [hmap] at h h'
          split_ifs at h h' with h1 h2 h2
          · rw [h1, h2]
          · cases h; exact absurd rfl (hoth g' _ h2 h').2
          · cases h'; exact absurd rfl (hoth g _ h1 h).2
          · exact i.apart g g' x h h'
        · have h2 : x ≠ c.tableAt := by rintro rfl; rw [free hbt] at hx; cases hx
          rw [hheap, if_neg h2, hx]

/-- a call, if it is possible, keeps everything in place and gives out what was asked for; it is never undefined -/
theorem call_inv {E : FloatEnv} {m : ScaleMem} (i : ScaleInv E m) (t : Nat) (f : ScaleFn) (v : F) (unit : String) (c : ScaleChoice) :
    m.call E t f v unit c ≠ .undefined ∧ ∀ m', m.call E t f v unit c = .ok m' →
      ScaleInv E m' ∧ ∃ a, m'.given = m.given ++ [(f, unit, v, a)] := by
  have i1 : ScaleInv E (m.readMap t f) := i.agree rfl rfl fun _ _ h _ => h
  have he : (m.readMap t f).entries (((m.readMap t f).map f).getD none) = .ok ((m.readMap t f).tab f) := entries_tab i1 f
  unfold ScaleMem.call
  simp only [he]
  cases hl : ((m.readMap t f).tab f).lookup unit with
  | some b =>
    refine ⟨by simp, ?_⟩
    rintro m' ⟨⟩
    refine ⟨⟨i1.table, i1.apart, i1.buffer, i1.key, i1.own, ?_, ?_⟩, b, rfl⟩
    rotate_left
    · intro g u d h
      obtain ⟨w, hw⟩ := i1.asked g u d h
      exact ⟨w, List.mem_append_left _ hw⟩
    intro g u w d h
    rcases List.mem_append.1 (show (g, u, w, d) ∈ m.given ++ [(f, unit, v, b)] from h) with h | h
    · exact i1.given g u w d h
    · simp only [List.mem_singleton, Prod.mk.injEq] at h
      obtain ⟨rfl, rfl, -, rfl⟩ := h
      exact mem_of_lookup hl
  | none =>
    have i2 : ScaleInv E ((m.readMap t f).writeMap t f) := i1.agree rfl rfl fun _ _ h _ => h
    obtain ⟨k1, k2⟩ := makeRoom_inv i2 f c
    have e1 : (((m.readMap t f).writeMap t f).map f).getD none = ((m.readMap t f).map f).getD none := rfl
    have e2 : ((m.readMap t f).writeMap t f).tab f = (m.readMap t f).tab f := rfl
    rw [e1, e2] at k1 k2
    cases hr : ((m.readMap t f).writeMap t f).makeRoom f (((m.readMap t f).map f).getD none) ((m.readMap t f).tab f) c with
    | cannot => simp
    | undefined => exact absurd hr k1
    | ok y =>
      obtain ⟨m2, a⟩ := y
      obtain ⟨i3, hma, htab, hgiven⟩ := k2 m2 a hr
      dsimp only
      split_ifs with hbf
      · simp
      · refine ⟨by simp, ?_⟩
        rintro m' ⟨⟩
        have ha := i3.table f a hma
        have hb : m2.heap c.bufferAt = none := by simpa using hbf
        have hab : c.bufferAt ≠ a := by rintro e; rw [← e, hb] at ha; cases ha
        generalize hm' : (((m2.put c.bufferAt (some (.scales (f.table E unit)))).put a
          (some (.units ((m.readMap t f).tab f ++ [(unit, c.bufferAt)])))).give f unit v c.bufferAt) = m'
        have hmap : m'.map = m2.map := by rw [← hm']; rfl
        have hheap : ∀ x, m'.heap x = if x = a then some (.units ((m.readMap t f).tab f ++ [(unit, c.bufferAt)])) else
            if x = c.bufferAt then some (.scales (f.table E unit)) else m2.heap x := by rw [← hm']; exact fun _ => rfl
        have hg' : m'.given = m.given ++ [(f, unit, v, c.bufferAt)] := by
          rw [← hm']; show m2.given ++ _ = _; rw [hgiven]; rfl
        clear hm'
        refine ⟨i3.added (a' := a) (b := c.bufferAt) (unit := unit) (by rw [htab]; exact hl) hb (by rw [hmap]; exact hma)
          (by rw [hheap, if_pos rfl, htab]) (by rw [hheap, if_neg hab, if_pos rfl]) (fun g _ => by rw [hmap]) (fun g x hg hx => ?_)
          (fun x l hx => ?_) (fun g u w d h => ?_)
          (fun x hx => by rw [hg']; rw [hgiven] at hx; exact List.mem_append_left _ hx) ⟨v, by rw [hg']; simp⟩, c.bufferAt, hg'⟩
        · have h1 : x ≠ a := by rintro rfl; exact hg (i3.apart g f x hx hma)
          have h2 : x ≠ c.bufferAt := by rintro rfl; have := i3.table g _ hx; rw [hb] at this; cases this
          exact ⟨by rw [hheap, if_neg h1, if_neg h2], h1⟩
        · have h1 : x ≠ a := by rintro rfl; rw [ha] at hx; cases hx
          have h2 : x ≠ c.bufferAt := by rintro rfl; rw [hb] at hx; cases hx
          rw [hheap, if_neg h1, if_neg h2, hx]
        · rw [hg'] at h
          rcases List.mem_append.1 h with h | h
          · exact Or.inl (by rw [hgiven]; exact h)
          · simp only [List.mem_singleton, Prod.mk.injEq] at h
            exact Or.inr ⟨h.1, h.2.1, h.2.2.2⟩

/-- any step keeps everything in place and is never undefined -/
theorem scale_act {E : FloatEnv} {m : ScaleMem} (i : ScaleInv E m) (x : ScaleAct) :
    m.act E x ≠ .undefined ∧ ∀ m', m.act E x = .ok m' →
      ScaleInv E m' ∧ m'.given.map (fun g => (g.1, g.2.1, g.2.2.1)) = m.given.map (fun g => (g.1, g.2.1, g.2.2.1)) ++ askedFor [x] := by
  cases x with
  | call t f v unit c =>
    obtain ⟨k1, k2⟩ := call_inv i t f v unit c
    refine ⟨k1, fun m' h => ?_⟩
    obtain ⟨i', a, hg⟩ := k2 m' h
    exact ⟨i', by rw [hg]; simp [askedFor]⟩
  | alloc a =>
    unfold ScaleMem.act
    dsimp only
    split_ifs with h
    · simp
    · refine ⟨by simp, ?_⟩
      rintro m' ⟨⟩
      refine ⟨i.agree rfl rfl fun b x hb _ => ?_, by simp [askedFor, ScaleMem.put]⟩
      have : b ≠ a := by rintro rfl; rw [hb] at h; simp at h
      simp [ScaleMem.put, this, hb]
  | free a =>
    unfold ScaleMem.act
    dsimp only
    split
    · rename_i h
      refine ⟨by simp, ?_⟩
      rintro m' ⟨⟩
      refine ⟨i.agree rfl rfl fun b x hb hx => ?_, by simp [askedFor, ScaleMem.put]⟩
      have : b ≠ a := by rintro rfl; rw [hb] at h; cases h; exact hx rfl
      simp [ScaleMem.put, this, hb]
    · simp
  | sync t u =>
    refine ⟨by simp [ScaleMem.act], ?_⟩
    rintro m' ⟨⟩
    exact ⟨i.agree rfl rfl fun _ _ h _ => h, by simp [askedFor]⟩

theorem askedFor_cons (x : ScaleAct) (l : List ScaleAct) : askedFor (x :: l) = askedFor [x] ++ askedFor l := by cases x <;> rfl

theorem scale_run {E : FloatEnv} : ∀ (acts : List ScaleAct) (m : ScaleMem), ScaleInv E m →
    m.run E acts ≠ .undefined ∧ ∀ m', m.run E acts = .ok m' →
      ScaleInv E m' ∧ m'.given.map (fun g => (g.1, g.2.1, g.2.2.1)) = m.given.map (fun g => (g.1, g.2.1, g.2.2.1)) ++ askedFor acts := by
  intro acts
  induction acts with
  | nil =>
    intro m i
    refine ⟨by simp [ScaleMem.run], ?_⟩
    rintro m' ⟨⟩
    exact ⟨i, by simp [askedFor]⟩
  | cons x l ih =>
    intro m i
    obtain ⟨k1, k2⟩ := scale_act i x
    unfold ScaleMem.run
    cases h : m.act E x with
    | cannot => simp
    | undefined => exact absurd h k1
    | ok m1 =>
      obtain ⟨i1, g1⟩ := k2 m1 h
      obtain ⟨j1, j2⟩ := ih m1 i1
      refine ⟨j1, fun m' hm' => ?_⟩
      obtain ⟨i', g'⟩ := j2 m' hm'
      exact ⟨i', by rw [g', g1, askedFor_cons x l, List.append_assoc]⟩

/-- **C118** (no undefined behaviour): whatever is called in whatever order, whenever the hash maps move and whatever addresses are used and reused,
a call never finds its map gone (data races apart: `Verif.Props.ScaleRace`). -/
theorem C118_never_undefined (E : FloatEnv) (h : Nat → Option Cell) (acts : List ScaleAct) :
    (ScaleMem.initial h).run E acts ≠ .undefined := (scale_run acts _ (scaleInv_initial E h)).1

/-- **C118** (measurements stay valid): every measurement ever given out is, whenever it is shown, still what was asked for: its value, with the
scales of its unit. The reference in it does not dangle, though its hash map may have moved, and memory been reused, since. -/
theorem C118_measurements_stay_valid (E : FloatEnv) (h : Nat → Option Cell) (acts : List ScaleAct) (m : ScaleMem)
    (hrun : (ScaleMem.initial h).run E acts = .ok m) :
    m.given.map (fun g => (g.1, g.2.1, g.2.2.1)) = askedFor acts ∧
    (∀ v unit a, (ScaleFn.custom, unit, v, a) ∈ m.given → m.find v a = .ok (customUnitMeasurement .initial v unit).1) ∧
    (∀ v unit a, (ScaleFn.perSecond, unit, v, a) ∈ m.given → m.find v a = .ok (customUnitPerSecondMeasurement E .initial v unit).1) := by
  obtain ⟨i, hg⟩ := (scale_run acts _ (scaleInv_initial E h)).2 m hrun
  have found : ∀ f v unit a, (f, unit, v, a) ∈ m.given → m.find v a = .ok ⟨v, f.table E unit⟩ := by
    intro f v unit a hmem
    have := i.buffer f _ (i.given f unit v a hmem)
    simp only [ScaleMem.find, this]
  refine ⟨by simpa [ScaleMem.initial] using hg, fun v unit a hm => ?_, fun v unit a hm => ?_⟩
  · rw [(C73_caches_transparent E [] v unit).2.2.1]; exact found _ v unit a hm
  · rw [(C73_caches_transparent E [] v unit).2.2.2]; exact found _ v unit a hm

/-- **C118** (shared): all measurements of a function and a unit share one table, and others have others: what is never freed is one table per
unit, however many measurements are made. -/
theorem C118_one_table_per_unit (E : FloatEnv) (h : Nat → Option Cell) (acts : List ScaleAct) (m : ScaleMem)
    (hrun : (ScaleMem.initial h).run E acts = .ok m) {f g : ScaleFn} {unit unit' : String} {v v' : F} {a b : Nat}
    (h1 : (f, unit, v, a) ∈ m.given) (h2 : (g, unit', v', b) ∈ m.given) : a = b ↔ f = g ∧ unit = unit' := by
  obtain ⟨i, -⟩ := (scale_run acts _ (scaleInv_initial E h)).2 m hrun
  have k1 := i.given f unit v a h1
  have k2 := i.given g unit' v' b h2
  constructor
  · rintro rfl; exact i.own f g unit unit' a k1 k2
  · rintro ⟨rfl, rfl⟩; exact i.key f unit a b k1 k2

end BigO
