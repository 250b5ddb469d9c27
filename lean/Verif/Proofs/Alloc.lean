import Verif.Spec.Heap
import Verif.Proofs.Ring

/-! # Proofs about the metrics allocator, one call at a time -/
set_option linter.unusedSimpArgs false
set_option linter.unusedVariables false
namespace BigO

theorem usizeMod_pos : 0 < usizeMod := by decide

@[simp] theorem set_same (s : Stats) (c : Ctr) (v : Nat) : s.set c v c = v := by simp [Stats.set]
theorem set_other (s : Stats) {c c' : Ctr} (v : Nat) (h : c' ≠ c) : s.set c v c' = s c' := by simp [Stats.set, h]

theorem minMax_other (s : Stats) {k : Ctr} (h1 : k ≠ .minUsedMemory) (h2 : k ≠ .maxUsedMemory) :
    s.computeMinMax k = s k := by
  simp only [Stats.computeMinMax]
  split <;> split <;> simp [Stats.set, h1, h2]

theorem minMax_min (s : Stats) :
    s.computeMinMax .minUsedMemory = Nat.min (s .minUsedMemory) (s .currentUsedMemory) := by
  simp only [Stats.computeMinMax]
  by_cases h : s .currentUsedMemory < s .minUsedMemory
  · rw [show Nat.min (s .minUsedMemory) (s .currentUsedMemory) = _ from Nat.min_eq_right (by omega)]
    simp only [h, if_true]
    split <;> simp [Stats.set]
  · rw [show Nat.min (s .minUsedMemory) (s .currentUsedMemory) = _ from Nat.min_eq_left (by omega)]
    simp only [h, if_false]
    split <;> simp [Stats.set]

theorem minMax_max (s : Stats) :
    s.computeMinMax .maxUsedMemory = Nat.max (s .maxUsedMemory) (s .currentUsedMemory) := by
  simp only [Stats.computeMinMax]
  have h0 : (if s .currentUsedMemory < s .minUsedMemory then s.set .minUsedMemory (s .currentUsedMemory) else s)
      .maxUsedMemory = s .maxUsedMemory := by split <;> simp [Stats.set]
  rw [h0]
  by_cases h : s .currentUsedMemory > s .maxUsedMemory
  · rw [show Nat.max (s .maxUsedMemory) (s .currentUsedMemory) = _ from Nat.max_eq_right (by omega)]
    simp [h]
  · rw [show Nat.max (s .maxUsedMemory) (s .currentUsedMemory) = _ from Nat.max_eq_left (by omega)]
    simp [h, h0]

/-- what a call does to the used memory -/
def usedAfter (u : Nat) : HeapCall → Nat
  | .alloc size _ => (u + size) % usizeMod
  | .dealloc size => (u + (usizeMod - size)) % usizeMod
  | .allocZeroed size _ => (u + size) % usizeMod
  | .realloc old new _ =>
    if new > old then (u + (new - old)) % usizeMod
    else if new < old then (u + (usizeMod - (old - new))) % usizeMod
    else u

theorem call_used (s : Stats) (c : HeapCall) :
    s.call c .currentUsedMemory = usedAfter (s .currentUsedMemory) c := by
  cases c with
  | alloc n ok => simp [Stats.call, Stats.computeAlloc, minMax_other, Stats.fetchAdd, Stats.set, usedAfter]
  | dealloc n => simp [Stats.call, Stats.computeDealloc, minMax_other, Stats.fetchAdd, Stats.fetchSub, Stats.set, usedAfter]
  | allocZeroed n ok => simp [Stats.call, Stats.computeAllocZeroed, minMax_other, Stats.fetchAdd, Stats.set, usedAfter]
  | realloc a b ok =>
    simp only [Stats.call, Stats.computeRealloc, usedAfter]
    rw [minMax_other _ (by simp) (by simp)]
    split
    · simp [Stats.fetchAdd, Stats.set]
    · split <;> simp [Stats.fetchAdd, Stats.fetchSub, Stats.set]

theorem call_min (s : Stats) (c : HeapCall) :
    s.call c .minUsedMemory = Nat.min (s .minUsedMemory) (s.call c .currentUsedMemory) := by
  cases c with
  | alloc n ok =>
    simp only [Stats.call, Stats.computeAlloc]; rw [minMax_min, minMax_other _ (by simp) (by simp)]
    simp [Stats.fetchAdd, Stats.set]
  | dealloc n =>
    simp only [Stats.call, Stats.computeDealloc]; rw [minMax_min, minMax_other _ (by simp) (by simp)]
    simp [Stats.fetchAdd, Stats.fetchSub, Stats.set]
  | allocZeroed n ok =>
    simp only [Stats.call, Stats.computeAllocZeroed]; rw [minMax_min, minMax_other _ (by simp) (by simp)]
    simp [Stats.fetchAdd, Stats.set]
  | realloc a b ok =>
    simp only [Stats.call, Stats.computeRealloc]; rw [minMax_min, minMax_other _ (by simp) (by simp)]
    split
    · simp [Stats.fetchAdd, Stats.set]
    · split <;> simp [Stats.fetchAdd, Stats.fetchSub, Stats.set]

theorem call_max (s : Stats) (c : HeapCall) :
    s.call c .maxUsedMemory = Nat.max (s .maxUsedMemory) (s.call c .currentUsedMemory) := by
  cases c with
  | alloc n ok =>
    simp only [Stats.call, Stats.computeAlloc]; rw [minMax_max, minMax_other _ (by simp) (by simp)]
    simp [Stats.fetchAdd, Stats.set]
  | dealloc n =>
    simp only [Stats.call, Stats.computeDealloc]; rw [minMax_max, minMax_other _ (by simp) (by simp)]
    simp [Stats.fetchAdd, Stats.fetchSub, Stats.set]
  | allocZeroed n ok =>
    simp only [Stats.call, Stats.computeAllocZeroed]; rw [minMax_max, minMax_other _ (by simp) (by simp)]
    simp [Stats.fetchAdd, Stats.set]
  | realloc a b ok =>
    simp only [Stats.call, Stats.computeRealloc]; rw [minMax_max, minMax_other _ (by simp) (by simp)]
    split
    · simp [Stats.fetchAdd, Stats.set]
    · split <;> simp [Stats.fetchAdd, Stats.fetchSub, Stats.set]

theorem call_ctr (s : Stats) (c : HeapCall) {k : Ctr} (hk : k ∈ deltaCtrs) (hs : s k < usizeMod) :
    s.call c k = (s k + contribution k c) % usizeMod := by
  have hm : s k % usizeMod = s k := Nat.mod_eq_of_lt hs
  have h1 : k ≠ .minUsedMemory := by rintro rfl; simp [deltaCtrs] at hk
  have h2 : k ≠ .maxUsedMemory := by rintro rfl; simp [deltaCtrs] at hk
  have h3 : k ≠ .currentUsedMemory := by rintro rfl; simp [deltaCtrs] at hk
  cases c with
  | alloc n ok =>
    simp only [Stats.call, Stats.computeAlloc]; rw [minMax_other _ h1 h2]
    cases k <;> simp_all [Stats.fetchAdd, Stats.set, contribution]
  | dealloc n =>
    simp only [Stats.call, Stats.computeDealloc]; rw [minMax_other _ h1 h2]
    cases k <;> simp_all [Stats.fetchAdd, Stats.fetchSub, Stats.set, contribution]
  | allocZeroed n ok =>
    simp only [Stats.call, Stats.computeAllocZeroed]; rw [minMax_other _ h1 h2]
    cases k <;> simp_all [Stats.fetchAdd, Stats.set, contribution]
  | realloc a b ok =>
    simp only [Stats.call, Stats.computeRealloc]; rw [minMax_other _ h1 h2]
    have : ∀ s1 : Stats, (if b > a then s1.fetchAdd .currentUsedMemory (b - a)
        else if b < a then s1.fetchSub .currentUsedMemory (a - b) else s1) k = s1 k := by
      intro s1; split
      · simp [Stats.fetchAdd, Stats.set, h3]
      · split <;> simp [Stats.fetchSub, Stats.set, h3]
    rw [this]
    cases k <;> simp_all [Stats.fetchAdd, Stats.set, contribution]

theorem savePoint_other (p : Profile) (N : Nat) (s : AllocSys) {k : Ctr} (h1 : k ≠ .minUsedMemory)
    (h2 : k ≠ .maxUsedMemory) : (s.savePoint p N).1.st k = s.st k := by
  simp only [AllocSys.savePoint]
  split <;> simp [Stats.set, h1, h2]

theorem step_ctr (p : Profile) (N : Nat) (s : AllocSys) (e : AllocEv) {k : Ctr} (hk : k ∈ deltaCtrs)
    (hs : s.st k < usizeMod) : (s.step p N e).st k = (s.st k + total k [e]) % usizeMod := by
  cases e with
  | call c => simp only [AllocSys.step]; rw [call_ctr _ _ hk hs]; simp [total, callsOf]
  | savePoint =>
    have h1 : k ≠ .minUsedMemory := by rintro rfl; simp [deltaCtrs] at hk
    have h2 : k ≠ .maxUsedMemory := by rintro rfl; simp [deltaCtrs] at hk
    simp only [AllocSys.step, savePoint_other _ _ _ h1 h2, total, callsOf, List.map_nil, List.sum_nil, Nat.add_zero]
    exact (Nat.mod_eq_of_lt hs).symm

theorem callsOf_cons (e : AllocEv) (es : List AllocEv) : callsOf (e :: es) = callsOf [e] ++ callsOf es := by
  cases e <;> simp [callsOf]

theorem callsOf_append (a b : List AllocEv) : callsOf (a ++ b) = callsOf a ++ callsOf b := by
  induction a with
  | nil => rfl
  | cons e a ih => rw [List.cons_append, callsOf_cons, ih, callsOf_cons e a, List.append_assoc]

theorem total_cons (k : Ctr) (e : AllocEv) (es : List AllocEv) : total k (e :: es) = total k [e] + total k es := by
  simp only [total]; rw [callsOf_cons]; simp

theorem total_append (k : Ctr) (a b : List AllocEv) : total k (a ++ b) = total k a + total k b := by
  simp [total, callsOf_append]

theorem savePoints_append (a b : List AllocEv) : savePoints (a ++ b) = savePoints a + savePoints b := by
  induction a with
  | nil => simp [savePoints]
  | cons e a ih => cases e <;> simp [savePoints, ih]; omega

theorem run_ctr (p : Profile) (N : Nat) (es : List AllocEv) {k : Ctr} (hk : k ∈ deltaCtrs) :
    ∀ s : AllocSys, s.st k < usizeMod → (s.run p N es).st k = (s.st k + total k es) % usizeMod := by
  induction es with
  | nil => intro s hs; simp [AllocSys.run, total, callsOf, Nat.mod_eq_of_lt hs]
  | cons e es ih =>
    intro s hs
    have hst := step_ctr p N s e hk hs
    have hlt : (s.step p N e).st k < usizeMod := by rw [hst]; exact Nat.mod_lt _ usizeMod_pos
    have := ih (s.step p N e) hlt
    simp only [AllocSys.run, List.foldl_cons] at this ⊢
    rw [this, hst, total_cons k e es, Nat.mod_add_mod, Nat.add_assoc]

theorem run_cons (p : Profile) (N : Nat) (s : AllocSys) (e : AllocEv) (es) :
    s.run p N (e :: es) = (s.step p N e).run p N es := rfl

theorem run_append_alloc (p : Profile) (N : Nat) (s : AllocSys) (a b : List AllocEv) :
    s.run p N (a ++ b) = (s.run p N a).run p N b := by simp [AllocSys.run, List.foldl_append]

/-! ### the ring along a history -/

theorem step_ring {p : Profile} {N : Nat} {s : AllocSys} {log : List Slot} (h : RingInv N s.ring log) (e : AllocEv)
    (hs : log.length + savePoints [e] < 2 ^ 32) :
    RingInv N (s.step p N e).ring
      (match e with | .call _ => log | .savePoint => log ++ [⟨s.st .minUsedMemory, s.st .maxUsedMemory⟩]) := by
  cases e with
  | call c => exact h
  | savePoint =>
    have hq := enqueue_inv (p := p) h ⟨s.st .minUsedMemory, s.st .maxUsedMemory⟩ (by simpa [savePoints] using hs)
    simp only [AllocSys.step, AllocSys.savePoint]
    cases hx : s.ring.enqueue p N ⟨s.st .minUsedMemory, s.st .maxUsedMemory⟩ with
    | mk r o =>
      rw [hx] at hq
      simp only at hq
      obtain ⟨rfl, hq2⟩ := hq
      exact hq2

theorem savePoint_ok {p : Profile} {N : Nat} {s : AllocSys} {log : List Slot} (h : RingInv N s.ring log)
    (hs : log.length + 1 < 2 ^ 32) :
    ∃ r, (s.ring.enqueue p N ⟨s.st .minUsedMemory, s.st .maxUsedMemory⟩) = (r, .ok ()) ∧
      s.savePoint p N =
        ({ st := (s.st.set .minUsedMemory (s.st .currentUsedMemory)).set .maxUsedMemory (s.st .currentUsedMemory), ring := r },
         .ok { metrics := (s.st.set .minUsedMemory (s.st .currentUsedMemory)).set .maxUsedMemory (s.st .currentUsedMemory),
               head := log.length + 1 }) ∧
      RingInv N r (log ++ [⟨s.st .minUsedMemory, s.st .maxUsedMemory⟩]) := by
  have hq := enqueue_inv (p := p) h ⟨s.st .minUsedMemory, s.st .maxUsedMemory⟩ hs
  cases hx : s.ring.enqueue p N ⟨s.st .minUsedMemory, s.st .maxUsedMemory⟩ with
  | mk r o =>
    rw [hx] at hq
    simp only at hq
    obtain ⟨rfl, hq2⟩ := hq
    refine ⟨r, rfl, ?_, hq2⟩
    simp only [AllocSys.savePoint, hx]
    have : r.consumer = log.length + 1 := by simp [Ring.consumer, hq2.pub]
    simp [this, Stats.set]

/-- slots of the save points in a history, in order -/
def slotsOf (p : Profile) (N : Nat) (s : AllocSys) : List AllocEv → List Slot
  | [] => []
  | .call c :: es => slotsOf p N (s.step p N (.call c)) es
  | .savePoint :: es =>
    ⟨s.st .minUsedMemory, s.st .maxUsedMemory⟩ :: slotsOf p N (s.step p N .savePoint) es

theorem slotsOf_length (p : Profile) (N : Nat) (es : List AllocEv) :
    ∀ s, (slotsOf p N s es).length = savePoints es := by
  induction es with
  | nil => intro s; rfl
  | cons e es ih => intro s; cases e <;> simp [slotsOf, savePoints, ih]

theorem run_ring {p : Profile} {N : Nat} (es : List AllocEv) :
    ∀ {s : AllocSys} {log : List Slot}, RingInv N s.ring log → log.length + savePoints es < 2 ^ 32 →
      RingInv N (s.run p N es).ring (log ++ slotsOf p N s es) := by
  induction es with
  | nil => intro s log h _; simpa [slotsOf, AllocSys.run] using h
  | cons e es ih =>
    intro s log h hs
    rw [run_cons]
    cases e with
    | call c =>
      simp only [slotsOf]
      exact ih (step_ring (p := p) h (.call c) (by simp [savePoints] at hs ⊢; omega)) (by simpa [savePoints] using hs)
    | savePoint =>
      have h1 := step_ring (p := p) h .savePoint (by simp [savePoints] at hs ⊢; omega)
      have := ih h1 (by simp [savePoints] at hs ⊢; omega)
      simpa [slotsOf] using this

/-! ### extremes -/

/-- the extremes known to the allocator since a save point: pending slots plus the running minimum and maximum -/
structure Ext (lo hi : Nat) (tr : List Nat) : Prop where
  lo : IsMinOf lo tr
  hi : IsMaxOf hi tr

theorem savePoint_st {p : Profile} {N : Nat} {s : AllocSys} {log : List Slot} (h : RingInv N s.ring log)
    (hs : log.length + 1 < 2 ^ 32) :
    (s.step p N .savePoint).st .minUsedMemory = s.st .currentUsedMemory ∧
    (s.step p N .savePoint).st .maxUsedMemory = s.st .currentUsedMemory ∧
    (s.step p N .savePoint).st .currentUsedMemory = s.st .currentUsedMemory := by
  obtain ⟨r, _, h2, _⟩ := savePoint_ok (p := p) h hs
  simp only [AllocSys.step, h2]
  simp [Stats.set]

theorem minOf_append {m : Nat} {l : List Nat} (h : IsMinOf m l) (x : Nat) : IsMinOf (Nat.min m x) (l ++ [x]) := by
  refine ⟨?_, ?_⟩
  · rcases Nat.le_total m x with h1 | h1
    · rw [show Nat.min m x = m from Nat.min_eq_left h1]; exact List.mem_append_left _ h.1
    · rw [show Nat.min m x = x from Nat.min_eq_right h1]; simp
  · intro y hy
    rcases List.mem_append.1 hy with h1 | h1
    · exact Nat.le_trans (Nat.min_le_left _ _) (h.2 y h1)
    · simp only [List.mem_singleton] at h1; subst h1; exact Nat.min_le_right _ _

theorem maxOf_append {m : Nat} {l : List Nat} (h : IsMaxOf m l) (x : Nat) : IsMaxOf (Nat.max m x) (l ++ [x]) := by
  refine ⟨?_, ?_⟩
  · rcases Nat.le_total m x with h1 | h1
    · rw [show Nat.max m x = x from Nat.max_eq_right h1]; simp
    · rw [show Nat.max m x = m from Nat.max_eq_left h1]; exact List.mem_append_left _ h.1
  · intro y hy
    rcases List.mem_append.1 hy with h1 | h1
    · exact Nat.le_trans (h.2 y h1) (Nat.le_max_left _ _)
    · simp only [List.mem_singleton] at h1; subst h1; exact Nat.le_max_right _ _

/-- fold of the pending slots -/
def foldMin (l : List Slot) (m : Nat) : Nat := l.foldl (fun a x => Nat.min a x.min) m
/-- fold of the pending slots -/
def foldMax (l : List Slot) (m : Nat) : Nat := l.foldl (fun a x => Nat.max a x.max) m

theorem foldSlots_eq (l : List Slot) : ∀ a b, foldSlots (l.map some) (a, b) = some (foldMin l a, foldMax l b) := by
  induction l with
  | nil => intro a b; rfl
  | cons x l ih => intro a b; simp [foldSlots, ih, foldMin, foldMax]

theorem foldMin_min (l : List Slot) : ∀ a b, Nat.min (foldMin l a) b = foldMin l (Nat.min a b) := by
  induction l with
  | nil => intro a b; rfl
  | cons x l ih =>
    intro a b
    simp only [foldMin, List.foldl_cons] at ih ⊢
    rw [ih]; congr 1
    show min (min a x.min) b = min (min a b) x.min
    omega

theorem foldMax_max (l : List Slot) : ∀ a b, Nat.max (foldMax l a) b = foldMax l (Nat.max a b) := by
  induction l with
  | nil => intro a b; rfl
  | cons x l ih =>
    intro a b
    simp only [foldMax, List.foldl_cons] at ih ⊢
    rw [ih]; congr 1
    show max (max a x.max) b = max (max a b) x.max
    omega

theorem ext_run {p : Profile} {N : Nat} (es : List AllocEv) :
    ∀ {s : AllocSys} {log pend : List Slot} {tr : List Nat}, RingInv N s.ring log → log.length + savePoints es < 2 ^ 32 →
      Ext (foldMin pend (s.st .minUsedMemory)) (foldMax pend (s.st .maxUsedMemory)) tr → s.st .currentUsedMemory ∈ tr →
      Ext (foldMin (pend ++ slotsOf p N s es) ((s.run p N es).st .minUsedMemory))
        (foldMax (pend ++ slotsOf p N s es) ((s.run p N es).st .maxUsedMemory)) (tr ++ (usedTrace p N s es).tail) := by
  induction es with
  | nil => intro s log pend tr _ _ he _; simpa [slotsOf, AllocSys.run, usedTrace] using he
  | cons e es ih =>
    intro s log pend tr hr hs he hc
    have hhead : ∀ t : AllocSys, usedTrace p N t es = t.st .currentUsedMemory :: (usedTrace p N t es).tail := by
      intro t; cases es <;> rfl
    rw [run_cons]
    simp only [usedTrace, List.tail_cons]
    rw [hhead]
    have hr' := step_ring (p := p) hr e (by cases e <;> simp [savePoints] at hs ⊢ <;> omega)
    cases e with
    | call c =>
      simp only [slotsOf]
      have hmin : (s.step p N (.call c)).st .minUsedMemory =
          Nat.min (s.st .minUsedMemory) ((s.step p N (.call c)).st .currentUsedMemory) := call_min s.st c
      have hmax : (s.step p N (.call c)).st .maxUsedMemory =
          Nat.max (s.st .maxUsedMemory) ((s.step p N (.call c)).st .currentUsedMemory) := call_max s.st c
      have hx : Ext (foldMin pend ((s.step p N (.call c)).st .minUsedMemory))
          (foldMax pend ((s.step p N (.call c)).st .maxUsedMemory))
          (tr ++ [(s.step p N (.call c)).st .currentUsedMemory]) := by
        rw [hmin, hmax, ← foldMin_min, ← foldMax_max]
        exact ⟨minOf_append he.lo _, maxOf_append he.hi _⟩
      have := ih hr' (by simpa [savePoints] using hs) hx (by simp)
      simpa using this
    | savePoint =>
      simp only [slotsOf]
      obtain ⟨g1, g2, g3⟩ := savePoint_st (p := p) hr (by simp [savePoints] at hs; omega)
      have hx : Ext (foldMin (pend ++ [⟨s.st .minUsedMemory, s.st .maxUsedMemory⟩]) ((s.step p N .savePoint).st .minUsedMemory))
          (foldMax (pend ++ [⟨s.st .minUsedMemory, s.st .maxUsedMemory⟩]) ((s.step p N .savePoint).st .maxUsedMemory))
          (tr ++ [(s.step p N .savePoint).st .currentUsedMemory]) := by
        rw [g1, g2, g3]
        have e1 : foldMin (pend ++ [⟨s.st .minUsedMemory, s.st .maxUsedMemory⟩]) (s.st .currentUsedMemory) =
            Nat.min (foldMin pend (s.st .minUsedMemory)) (s.st .currentUsedMemory) := by
          rw [foldMin, List.foldl_append]
          show Nat.min (foldMin pend (s.st .currentUsedMemory)) (s.st .minUsedMemory) = _
          rw [foldMin_min, foldMin_min]; congr 1; exact Nat.min_comm _ _
        have e2 : foldMax (pend ++ [⟨s.st .minUsedMemory, s.st .maxUsedMemory⟩]) (s.st .currentUsedMemory) =
            Nat.max (foldMax pend (s.st .maxUsedMemory)) (s.st .currentUsedMemory) := by
          rw [foldMax, List.foldl_append]
          show Nat.max (foldMax pend (s.st .currentUsedMemory)) (s.st .maxUsedMemory) = _
          rw [foldMax_max, foldMax_max]; congr 1; exact Nat.max_comm _ _
        rw [e1, e2]
        exact ⟨minOf_append he.lo _, maxOf_append he.hi _⟩
      have := ih hr' (by simp [savePoints] at hs ⊢; omega) hx (by simp)
      simpa using this

/-! ### the subtractions -/

theorem usizeSub_mod {p : Profile} {b t : Nat} (hb : b < usizeMod) (ht : t < usizeMod)
    (hp : p = .wrapping ∨ b + t < usizeMod) : usizeSub p ((b + t) % usizeMod) b = .ok t := by
  by_cases h : b + t < usizeMod
  · rw [Nat.mod_eq_of_lt h]; unfold usizeSub; rw [if_pos (by omega)]; congr 1; omega
  · have h1 : (b + t) % usizeMod = b + t - usizeMod := by
      rw [Nat.mod_eq_sub_mod (by omega), Nat.mod_eq_of_lt (by omega)]
    rw [h1]; unfold usizeSub; rw [if_neg (by omega)]
    rcases hp with rfl | hp
    · have : (b + t - usizeMod + usizeMod - b) = t := by omega
      simp [this, Nat.mod_eq_of_lt ht]
    · omega

theorem subCtrs_ok {p : Profile} {now before : Stats} (f : Ctr → Nat) :
    ∀ (cs : List Ctr) (acc : Stats), (∀ c ∈ cs, usizeSub p (now c) (before c) = .ok (f c)) →
      ∃ d, subCtrs p now before cs acc = .ok d ∧ (∀ c ∈ cs, d c = f c) ∧ (∀ c, c ∉ cs → d c = acc c) := by
  intro cs
  induction cs with
  | nil => intro acc _; exact ⟨acc, rfl, by simp, fun _ _ => rfl⟩
  | cons c cs ih =>
    intro acc h
    obtain ⟨d, h1, h2, h3⟩ := ih (acc.set c (f c)) (fun x hx => h x (List.mem_cons_of_mem _ hx))
    refine ⟨d, ?_, ?_, ?_⟩
    · simp only [subCtrs, h c List.mem_cons_self]; exact h1
    · intro x hx
      by_cases hm : x ∈ cs
      · exact h2 x hm
      · rcases List.mem_cons.1 hx with rfl | hx
        · rw [h3 x hm]; simp
        · exact (hm hx).elim
    · intro x hx
      simp only [List.mem_cons, not_or] at hx
      rw [h3 x hx.2, set_other _ _ hx.1]

theorem used_lt_run (p : Profile) (N : Nat) (es : List AllocEv) :
    ∀ s : AllocSys, s.st .currentUsedMemory < usizeMod → (s.run p N es).st .currentUsedMemory < usizeMod := by
  induction es with
  | nil => intro s h; exact h
  | cons e es ih =>
    intro s h
    rw [run_cons]
    apply ih
    cases e with
    | call c =>
      simp only [AllocSys.step, call_used]
      cases c <;> simp only [usedAfter]
      case realloc a b ok =>
        split
        · exact Nat.mod_lt _ usizeMod_pos
        · split
          · exact Nat.mod_lt _ usizeMod_pos
          · exact h
      all_goals exact Nat.mod_lt _ usizeMod_pos
    | savePoint => simp only [AllocSys.step]; rw [savePoint_other _ _ _ (by simp) (by simp)]; exact h

/-- everything about `delta_statistics` in one place -/
theorem delta_master {p : Profile} {N : Nat} (hN : 0 < N) (hN32 : N < 2 ^ 32) (pre post : List AllocEv)
    (hfew : savePoints pre + 1 + savePoints post < 2 ^ 32)
    (hfit : ∀ k ∈ deltaCtrs, total k post < usizeMod ∧ (p = .wrapping ∨ total k (pre ++ post) < usizeMod)) :
    ∃ s1 sp, (AllocSys.new.run p N pre).savePoint p N = (s1, .ok sp) ∧
      sp.metrics .currentUsedMemory = (AllocSys.new.run p N pre).st .currentUsedMemory ∧
      (N < savePoints post → ∃ e, (s1.run p N post).delta p N sp = .ok (.error e)) ∧
      (savePoints post ≤ N → ∃ st, (s1.run p N post).delta p N sp = .ok (.ok st) ∧
        (∀ k ∈ deltaCtrs, st k = total k post) ∧
        st .currentUsedMemory = (s1.run p N post).st .currentUsedMemory ∧
        IsMinOf (st .minUsedMemory) (usedTrace p N s1 post) ∧ IsMaxOf (st .maxUsedMemory) (usedTrace p N s1 post)) := by
  have hr0 := run_ring (p := p) pre (s := AllocSys.new) (ringInv_new N hN) (by simp; omega)
  rw [List.nil_append] at hr0
  have hlen0 := slotsOf_length p N pre AllocSys.new
  obtain ⟨r, hr1, hsp, hr2⟩ := savePoint_ok (p := p) hr0 (by rw [hlen0]; omega)
  refine ⟨_, _, hsp, by simp [Stats.set], ?_⟩
  generalize hs1 : AllocSys.mk (((AllocSys.new.run p N pre).st.set .minUsedMemory
    ((AllocSys.new.run p N pre).st .currentUsedMemory)).set .maxUsedMemory
      ((AllocSys.new.run p N pre).st .currentUsedMemory)) r = s1
  have hst1 : s1.st = ((AllocSys.new.run p N pre).st.set .minUsedMemory
    ((AllocSys.new.run p N pre).st .currentUsedMemory)).set .maxUsedMemory
      ((AllocSys.new.run p N pre).st .currentUsedMemory) := by rw [← hs1]
  have hring1 : s1.ring = r := by rw [← hs1]
  have hrun := run_ring (p := p) post (s := s1) (by rw [hring1]; exact hr2)
    (by rw [List.length_append, hlen0]; simp; omega)
  generalize hlog : slotsOf p N AllocSys.new pre ++
    [⟨(AllocSys.new.run p N pre).st .minUsedMemory, (AllocSys.new.run p N pre).st .maxUsedMemory⟩] = log1 at hrun hr2
  have hlog1 : log1.length = savePoints pre + 1 := by rw [← hlog]; simp [hlen0]
  rw [← hlen0] at hlog1
  rw [← hlog1]
  have hlen1 := slotsOf_length p N post s1
  have hpeek := peek_inv (p := p) hrun hN32 (head := log1.length) (by simp)
  rw [List.drop_left, hlen1] at hpeek
  rw [← hst1]
  constructor
  · intro hov
    rcases hpeek with ⟨_, hk⟩ | ⟨hk, _⟩
    · unfold AllocSys.delta; rw [hk]; exact ⟨_, rfl⟩
    · omega
  · intro hle
    rcases hpeek with ⟨hk, _⟩ | ⟨_, a, b, hk, hab⟩
    · omega
    · have hsub : ∀ k ∈ deltaCtrs, usizeSub p ((s1.run p N post).st k) (s1.st k) = .ok (total k post) := by
        intro k hkm
        have h1 : k ≠ .minUsedMemory := by rintro rfl; simp [deltaCtrs] at hkm
        have h2 : k ≠ .maxUsedMemory := by rintro rfl; simp [deltaCtrs] at hkm
        have hs1k : s1.st k = total k pre % usizeMod := by
          rw [hst1, set_other _ _ h2, set_other _ _ h1, run_ctr p N pre hkm _ usizeMod_pos]
          simp [AllocSys.new]
        have hlt : s1.st k < usizeMod := by rw [hs1k]; exact Nat.mod_lt _ usizeMod_pos
        rw [run_ctr p N post hkm s1 hlt]
        obtain ⟨f1, f2⟩ := hfit k hkm
        apply usizeSub_mod hlt f1
        rcases f2 with f2 | f2
        · exact Or.inl f2
        · rw [total_append] at f2
          right
          rw [hs1k, Nat.mod_eq_of_lt (by omega)]; exact f2
      obtain ⟨d, hd1, hd2, hd3⟩ := subCtrs_ok (p := p) (fun k => total k post) deltaCtrs (s1.run p N post).st hsub
      have hfold := foldSlots_eq (slotsOf p N s1 post) usizeMax 0
      rw [← hab] at hfold
      have hdelta : (s1.run p N post).delta p N ⟨s1.st, log1.length⟩ = .ok (.ok ((d.set .minUsedMemory
          (Nat.min (foldMin (slotsOf p N s1 post) usizeMax) ((s1.run p N post).st .minUsedMemory))).set .maxUsedMemory
          (Nat.max (foldMax (slotsOf p N s1 post) 0) ((s1.run p N post).st .maxUsedMemory)))) := by
        unfold AllocSys.delta
        simp only [hk, hfold, hd1]
      refine ⟨_, hdelta, ?_, ?_, ?_⟩
      · intro k hkm
        have h1 : k ≠ .minUsedMemory := by rintro rfl; simp [deltaCtrs] at hkm
        have h2 : k ≠ .maxUsedMemory := by rintro rfl; simp [deltaCtrs] at hkm
        rw [set_other _ _ h2, set_other _ _ h1, hd2 k hkm]
      · rw [set_other _ _ (by simp), set_other _ _ (by simp), hd3 _ (by simp [deltaCtrs])]
      · have hc1 : s1.st .currentUsedMemory = (AllocSys.new.run p N pre).st .currentUsedMemory := by
          rw [hst1, set_other _ _ (by simp), set_other _ _ (by simp)]
        have hmin1 : s1.st .minUsedMemory = s1.st .currentUsedMemory := by
          rw [hc1, hst1, set_other _ _ (by simp)]; simp
        have hmax1 : s1.st .maxUsedMemory = s1.st .currentUsedMemory := by
          rw [hc1, hst1]; simp
        have hx := ext_run (p := p) post (s := s1) (pend := []) (tr := [s1.st .currentUsedMemory])
          (by rw [hring1]; exact hr2) (by rw [hlog1, hlen0]; omega)
          ⟨⟨by simp [foldMin, hmin1], by simp [foldMin, hmin1]⟩, ⟨by simp [foldMax, hmax1], by simp [foldMax, hmax1]⟩⟩ (by simp)
        have htr : [s1.st .currentUsedMemory] ++ (usedTrace p N s1 post).tail = usedTrace p N s1 post := by
          cases post <;> rfl
        rw [htr, List.nil_append] at hx
        have hcur : ∀ x ∈ usedTrace p N s1 post, x < usizeMod := by
          have : ∀ (es : List AllocEv) (s : AllocSys), s.st .currentUsedMemory < usizeMod →
              ∀ x ∈ usedTrace p N s es, x < usizeMod := by
            intro es
            induction es with
            | nil => intro s h x hx; simp [usedTrace] at hx; rw [hx]; exact h
            | cons e es ih =>
              intro s h x hx
              simp only [usedTrace, List.mem_cons] at hx
              rcases hx with rfl | hx
              · exact h
              · exact ih _ (used_lt_run p N [e] s h) x hx
          apply this
          rw [hc1]
          exact used_lt_run p N pre _ usizeMod_pos
        have e1 : Nat.min (foldMin (slotsOf p N s1 post) usizeMax) ((s1.run p N post).st .minUsedMemory) =
            foldMin (slotsOf p N s1 post) ((s1.run p N post).st .minUsedMemory) := by
          have h1 := hcur _ hx.lo.1
          have h2 := foldMin_min (slotsOf p N s1 post) ((s1.run p N post).st .minUsedMemory) usizeMax
          rw [foldMin_min]
          rw [show Nat.min usizeMax ((s1.run p N post).st .minUsedMemory) =
            Nat.min ((s1.run p N post).st .minUsedMemory) usizeMax from Nat.min_comm _ _, ← h2]
          apply Nat.min_eq_left
          have : usizeMax + 1 = usizeMod := by decide
          omega
        have e2 : Nat.max (foldMax (slotsOf p N s1 post) 0) ((s1.run p N post).st .maxUsedMemory) =
            foldMax (slotsOf p N s1 post) ((s1.run p N post).st .maxUsedMemory) := by
          rw [foldMax_max]; congr 1
        rw [set_other _ _ (by simp), set_same, set_same, e1, e2]
        exact ⟨hx.lo, hx.hi⟩

/-! ### used memory against live blocks -/

theorem sum_erase {l : List Nat} {x : Nat} (h : x ∈ l) : (l.erase x).sum + x = l.sum := by
  induction l with
  | nil => simp at h
  | cons y l ih =>
    by_cases hy : y = x
    · subst hy; simp; omega
    · rw [List.erase_cons_tail (by simpa using hy)]
      have : x ∈ l := by simpa [Ne.symm hy] using h
      have := ih this
      simp only [List.sum_cons]; omega

/-- used memory against live bytes and refused bytes -/
def UsedIs (u : Nat) (v : Int) : Prop := (u : Int) = v % (2 ^ 64 : Int)

theorem usedAfter_is {u : Nat} {f : Int} {live : List Nat} {c : HeapCall} (h : UsedIs u ((live.sum : Int) + f))
    (hr : respects live c) : UsedIs (usedAfter u c) (((liveAfter live c).sum : Int) + (f + refused c)) := by
  have hM : usizeMod = 2 ^ 64 := rfl
  unfold UsedIs at h ⊢
  cases c with
  | alloc n ok =>
    cases ok <;> simp only [usedAfter, liveAfter, refused, hM, List.sum_cons] <;> omega
  | allocZeroed n ok =>
    cases ok <;> simp only [usedAfter, liveAfter, refused, hM, List.sum_cons] <;> omega
  | dealloc n =>
    have := sum_erase hr.1
    have := hr.2
    simp only [usedAfter, liveAfter, refused, hM]; omega
  | realloc a b ok =>
    have := sum_erase hr.1
    have := hr.2.1
    have := hr.2.2
    cases ok <;> simp only [usedAfter, liveAfter, refused, hM, List.sum_cons] <;> split <;> (try split) <;>
      omega

theorem used_run (p : Profile) (N : Nat) (es : List AllocEv) : ∀ (s : AllocSys) (live : List Nat) (f : Int),
    Respects live es → UsedIs (s.st .currentUsedMemory) ((live.sum : Int) + f) →
    UsedIs ((s.run p N es).st .currentUsedMemory) (((liveBlocks live es).sum : Int) + (f + refusedBytes es)) := by
  induction es with
  | nil => intro s live f _ h; simpa [AllocSys.run, liveBlocks, refusedBytes, callsOf] using h
  | cons e es ih =>
    intro s live f hr h
    rw [run_cons]
    cases e with
    | call c =>
      have h2 := ih (s.step p N (.call c)) (liveAfter live c) (f + refused c) hr.2
        (by simp only [AllocSys.step, call_used]; exact usedAfter_is h hr.1)
      simp only [liveBlocks, refusedBytes, callsOf, List.map_cons, List.sum_cons] at h2 ⊢
      rwa [Int.add_assoc] at h2
    | savePoint =>
      exact ih _ live f hr (by simp only [AllocSys.step]; rw [savePoint_other _ _ _ (by simp) (by simp)]; exact h)

theorem refused_of_succeeds {c : HeapCall} (h : succeeds c = true) : refused c = 0 := by
  cases c with
  | dealloc n => rfl
  | alloc n ok => simp [succeeds] at h; subst h; rfl
  | allocZeroed n ok => simp [succeeds] at h; subst h; rfl
  | realloc a b ok => simp [succeeds] at h; subst h; rfl

theorem refusedBytes_zero {es : List AllocEv} (h : ∀ c ∈ callsOf es, succeeds c = true) : refusedBytes es = 0 := by
  unfold refusedBytes
  generalize callsOf es = cs at h
  induction cs with
  | nil => rfl
  | cons c cs ih =>
    simp only [List.map_cons, List.sum_cons]
    rw [refused_of_succeeds (h c (by simp)), ih (fun x hx => h x (by simp [hx]))]; rfl

/-- while nothing fails, the used memory is the live bytes at every instant -/
theorem usedTrace_live (p : Profile) (N : Nat) (es : List AllocEv) : ∀ (s : AllocSys) (live : List Nat),
    Respects live es → (∀ c ∈ callsOf es, succeeds c = true) → (∀ x ∈ liveTrace live es, x < 2 ^ 64) →
    s.st .currentUsedMemory = live.sum → usedTrace p N s es = liveTrace live es := by
  induction es with
  | nil => intro s live _ _ _ h; simp [usedTrace, liveTrace, h]
  | cons e es ih =>
    intro s live hr hs hf h
    cases e with
    | call c =>
      simp only [usedTrace, liveTrace, h, List.cons.injEq, true_and]
      have hf' : ∀ x ∈ liveTrace (liveAfter live c) es, x < 2 ^ 64 := fun x hx => hf x (by simp [liveTrace, hx])
      apply ih _ _ hr.2 (fun x hx => hs x (by simp [callsOf, hx])) hf'
      have hlt : live.sum < 2 ^ 64 := hf _ (by simp [liveTrace])
      have h1 := usedAfter_is (u := s.st .currentUsedMemory) (f := 0) (live := live) (c := c)
        (by unfold UsedIs; rw [h]; omega) hr.1
      rw [refused_of_succeeds (hs c (by simp [callsOf]))] at h1
      have hlt2 : (liveAfter live c).sum < 2 ^ 64 := by
        apply hf'; cases es with
        | nil => simp [liveTrace]
        | cons e es => cases e <;> simp [liveTrace]
      simp only [AllocSys.step, call_used]
      unfold UsedIs at h1
      omega
    | savePoint =>
      simp only [usedTrace, liveTrace, h, List.cons.injEq, true_and]
      apply ih _ _ hr (fun x hx => hs x (by simpa [callsOf] using hx)) (fun x hx => hf x (by simp [liveTrace, hx]))
      simp only [AllocSys.step]; rw [savePoint_other _ _ _ (by simp) (by simp)]; exact h

theorem liveBlocks_append (a b : List AllocEv) : ∀ live, liveBlocks live (a ++ b) = liveBlocks (liveBlocks live a) b := by
  induction a with
  | nil => intro live; rfl
  | cons e a ih => intro live; cases e <;> simp [liveBlocks, ih]

theorem respects_append (a b : List AllocEv) : ∀ live, Respects live (a ++ b) ↔
    Respects live a ∧ Respects (liveBlocks live a) b := by
  induction a with
  | nil => intro live; simp [Respects, liveBlocks]
  | cons e a ih => intro live; cases e <;> simp [Respects, liveBlocks, ih, and_assoc]

/-- what happens to the used memory depends on the calls only -/
theorem used_calls (p : Profile) (N : Nat) (es : List AllocEv) : ∀ s : AllocSys,
    (s.run p N es).st .currentUsedMemory = (callsOf es).foldl usedAfter (s.st .currentUsedMemory) := by
  induction es with
  | nil => intro s; rfl
  | cons e es ih =>
    intro s
    rw [run_cons, ih]
    cases e with
    | call c => simp only [AllocSys.step, call_used, callsOf, List.foldl_cons]
    | savePoint => simp only [AllocSys.step, callsOf]; rw [savePoint_other _ _ _ (by simp) (by simp)]

theorem usedTrace_start (p : Profile) (N : Nat) : ∀ (cs : List HeapCall) (a b : AllocSys),
    a.st .currentUsedMemory = b.st .currentUsedMemory →
    usedTrace p N a (cs.map .call) = usedTrace p N b (cs.map .call) := by
  intro cs
  induction cs with
  | nil => intro a b h; simp [usedTrace, h]
  | cons c cs ih2 =>
    intro a b h
    simp only [List.map_cons, usedTrace, h, List.cons.injEq, true_and]
    exact ih2 _ _ (by simp only [AllocSys.step, call_used, h])

theorem usedTrace_last (p : Profile) (N : Nat) (es : List AllocEv) : ∀ s : AllocSys,
    (s.run p N es).st .currentUsedMemory ∈ usedTrace p N s es := by
  induction es with
  | nil => intro s; simp [usedTrace, AllocSys.run]
  | cons e es ih => intro s; rw [run_cons]; simp only [usedTrace, List.mem_cons]; exact Or.inr (ih _)

/-- the values met, as a set, depend on the calls only -/
theorem usedTrace_calls (p : Profile) (N : Nat) (es : List AllocEv) : ∀ (s : AllocSys) (x : Nat),
    x ∈ usedTrace p N s es ↔ x ∈ usedTrace p N s ((callsOf es).map .call) := by
  induction es with
  | nil => intro s x; simp [usedTrace, callsOf]
  | cons e es ih =>
    intro s x
    cases e with
    | call c => simp only [usedTrace, callsOf, List.map_cons, List.mem_cons, ih]
    | savePoint =>
      have hcur : (s.step p N .savePoint).st .currentUsedMemory = s.st .currentUsedMemory := by
        simp only [AllocSys.step]; rw [savePoint_other _ _ _ (by simp) (by simp)]
      simp only [usedTrace, callsOf, List.mem_cons, ih]
      rw [usedTrace_start p N _ _ _ hcur]
      constructor
      · rintro (rfl | h)
        · cases callsOf es <;> simp [usedTrace]
        · exact h
      · exact Or.inr

end BigO
