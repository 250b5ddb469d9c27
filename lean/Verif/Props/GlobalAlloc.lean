import Verif.Spec.GlobalAllocSpec
import Verif.Props.Alloc

/-!
# C97: the metrics allocator only observes
-/
namespace BigO
variable {Y : SysAlloc}

theorem global_call (m : GlobalSys Y) (c : GCall) :
    m.call c = (⟨{ m.metrics with st := m.metrics.st.call (sizesOnly (c, (Y.call m.sys c).2)) }, (Y.call m.sys c).1⟩, (Y.call m.sys c).2) := by
  cases c <;> rfl

/-- **C97** (transparency): a program that uses the metrics allocator makes the system allocator see exactly the program's calls, in order,
unchanged, and gets exactly the answers the system allocator would have given it directly; save points and statistics requests are
invisible to the system allocator. -/
theorem C97_transparent (p : Profile) (N : Nat) (m : GlobalSys Y) (es : List GEv) :
    (m.run p N es).1.sys = (direct Y m.sys (programCalls es)).1 ∧ (m.run p N es).2 = (direct Y m.sys (programCalls es)).2 := by
  induction es generalizing m with
  | nil => exact ⟨rfl, rfl⟩
  | cons e es ih =>
    cases e with
    | call c =>
      have h := ih (m.call c).1
      rw [global_call] at h
      simp only [GlobalSys.run, GlobalSys.step, programCalls, direct, global_call]
      exact ⟨h.1, by rw [h.2]; rfl⟩
    | savePoint => exact ih ⟨(m.metrics.savePoint p N).1, m.sys⟩
    | delta sp => exact ih m

/-- **C97** (what is counted): the statistics are those of the history of sizes (addresses, alignment and statistics requests have no influence),
so the theorems about `AllocSys` (C20-C28) are about every program and every system allocator. -/
theorem C97_statistics (p : Profile) (N : Nat) (m : GlobalSys Y) (es : List GEv) :
    (m.run p N es).1.metrics = m.metrics.run p N (observed es ((m.run p N es).2.map Prod.snd)) := by
  induction es generalizing m with
  | nil => rfl
  | cons e es ih =>
    cases e with
    | call c =>
      simp only [GlobalSys.run, GlobalSys.step, List.singleton_append, List.map_cons, observed]
      rw [ih]
      simp only [AllocSys.run, List.foldl_cons, AllocSys.step]
      rw [global_call]
    | savePoint => exact ih ⟨(m.metrics.savePoint p N).1, m.sys⟩
    | delta sp => exact ih m

theorem erase_sizes {live : List (Nat × Layout)} {b : Nat × Layout} (h : b ∈ live) :
    ((live.erase b).map (fun b => b.2.size)).Perm ((live.map (fun b => b.2.size)).erase b.2.size) := by
  have h1 := (List.perm_cons_erase h).map (fun b => b.2.size)
  have h2 := h1.erase b.2.size
  simp only [List.map_cons, List.erase_cons_head] at h2
  exact h2.symm

theorem heapAfter_sizes {live : List (Nat × Layout)} {sizes : List Nat} (hp : (live.map (fun b => b.2.size)).Perm sizes) {c : GCall} {r : Nat}
    (h : lawful live c) : respects sizes (sizesOnly (c, r)) ∧
      ((heapAfter live c r).map (fun b => b.2.size)).Perm (liveAfter sizes (sizesOnly (c, r))) ∧ refused (sizesOnly (c, r)) = failedBytes (c, r) := by
  have hmem : ∀ {b : Nat × Layout}, b ∈ live → b.2.size ∈ sizes := fun hb => hp.subset (List.mem_map_of_mem hb)
  cases c with
  | alloc l =>
    by_cases hr : r = 0
    · subst hr; exact ⟨h, hp, rfl⟩
    · refine ⟨h, ?_, ?_⟩
      · simp only [heapAfter, sizesOnly, hr, if_false, bne, beq_eq_false_iff_ne.2 hr, Bool.not_false, liveAfter, List.map_cons]
        exact hp.cons _
      · obtain ⟨r, rfl⟩ := Nat.exists_eq_succ_of_ne_zero hr; rfl
  | allocZeroed l =>
    by_cases hr : r = 0
    · subst hr; exact ⟨h, hp, rfl⟩
    · refine ⟨h, ?_, ?_⟩
      · simp only [heapAfter, sizesOnly, hr, if_false, bne, beq_eq_false_iff_ne.2 hr, Bool.not_false, liveAfter, List.map_cons]
        exact hp.cons _
      · obtain ⟨r, rfl⟩ := Nat.exists_eq_succ_of_ne_zero hr; rfl
  | dealloc p l =>
    exact ⟨⟨hmem h.1, h.2⟩, (erase_sizes h.1).trans (hp.erase _), rfl⟩
  | realloc p l n =>
    by_cases hr : r = 0
    · subst hr; exact ⟨⟨hmem h.1, h.2⟩, hp, rfl⟩
    · refine ⟨⟨hmem h.1, h.2⟩, ?_, ?_⟩
      · simp only [heapAfter, sizesOnly, hr, if_false, bne, beq_eq_false_iff_ne.2 hr, Bool.not_false, liveAfter, List.map_cons]
        exact ((erase_sizes h.1).trans (hp.erase _)).cons _
      · obtain ⟨r, rfl⟩ := Nat.exists_eq_succ_of_ne_zero hr; rfl

theorem observed_sizes (p : Profile) (N : Nat) (m : GlobalSys Y) (es : List GEv) (live : List (Nat × Layout)) (sizes : List Nat)
    (hp : (live.map (fun b => b.2.size)).Perm sizes) (h : Lawful live (m.run p N es).2) :
    Respects sizes (observed es ((m.run p N es).2.map Prod.snd)) ∧
      ((heapOf live (m.run p N es).2).map (fun b => b.2.size)).Perm (liveBlocks sizes (observed es ((m.run p N es).2.map Prod.snd))) ∧
      refusedBytes (observed es ((m.run p N es).2.map Prod.snd)) = ((m.run p N es).2.map failedBytes).sum := by
  induction es generalizing m live sizes with
  | nil => exact ⟨trivial, hp, rfl⟩
  | cons e es ih =>
    cases e with
    | call c =>
      simp only [GlobalSys.run, GlobalSys.step, List.singleton_append] at h
      obtain ⟨h1, h2⟩ := h
      obtain ⟨k1, k2, k3⟩ := heapAfter_sizes hp (r := (m.call c).2) h1
      obtain ⟨i1, i2, i3⟩ := ih (m.call c).1 _ _ k2 h2
      simp only [GlobalSys.run, GlobalSys.step, List.singleton_append, List.map_cons, observed]
      refine ⟨⟨k1, i1⟩, i2, ?_⟩
      simp only [refusedBytes, callsOf, List.map_cons, List.sum_cons, k3] at i3 ⊢
      rw [i3]
    | savePoint => exact ih ⟨(m.metrics.savePoint p N).1, m.sys⟩ live sizes hp h
    | delta sp => exact ih m live sizes hp h

/-- **C97** (live blocks): for every program that respects the `GlobalAlloc` contract and every system allocator, the used memory is the
total size of the blocks, identified by address and layout, that the program holds, plus the bytes of the requests that the system allocator
answered with a null pointer. -/
theorem C97_used_is_live (p : Profile) (N : Nat) (y : Y.State) (es : List GEv) (m' : GlobalSys Y) (answered : List (GCall × Nat))
    (h : (⟨AllocSys.new, y⟩ : GlobalSys Y).run p N es = (m', answered)) (hl : Lawful [] answered)
    (h0 : 0 ≤ (heapBytes (heapOf [] answered) : Int) + (answered.map failedBytes).sum)
    (hfit : (heapBytes (heapOf [] answered) : Int) + (answered.map failedBytes).sum < 2 ^ 64) :
    (m'.metrics.st .currentUsedMemory : Int) = heapBytes (heapOf [] answered) + (answered.map failedBytes).sum := by
  have e1 : ((⟨AllocSys.new, y⟩ : GlobalSys Y).run p N es).2 = answered := by rw [h]
  have e2 : ((⟨AllocSys.new, y⟩ : GlobalSys Y).run p N es).1 = m' := by rw [h]
  have hs := C97_statistics p N (⟨AllocSys.new, y⟩ : GlobalSys Y) es
  have ho := observed_sizes p N (⟨AllocSys.new, y⟩ : GlobalSys Y) es [] [] (.refl _) (by rw [e1]; exact hl)
  rw [e1] at hs ho
  rw [e2] at hs
  obtain ⟨h1, h2, h3⟩ := ho
  unfold heapBytes at *
  rw [h2.sum_nat, ← h3] at h0 hfit ⊢
  rw [hs]
  exact C28_used_is_live_plus_refused_partial p N _ h1 h0 hfit

/-- **C97** (nothing refused): then it is exactly the size of the blocks that the program holds. -/
theorem C97_used_is_live_exactly (p : Profile) (N : Nat) (y : Y.State) (es : List GEv) (m' : GlobalSys Y) (answered : List (GCall × Nat))
    (h : (⟨AllocSys.new, y⟩ : GlobalSys Y).run p N es = (m', answered)) (hl : Lawful [] answered) (hn : ∀ a ∈ answered, nullAnswer a = false)
    (hfit : heapBytes (heapOf [] answered) < 2 ^ 64) : m'.metrics.st .currentUsedMemory = heapBytes (heapOf [] answered) := by
  have hz : (answered.map failedBytes).sum = 0 := by
    clear h hl hfit
    induction answered with
    | nil => rfl
    | cons a l ih =>
      rw [List.map_cons, List.sum_cons, ih fun x hx => hn x (by simp [hx])]
      have := hn a (by simp)
      rcases a with ⟨c, r⟩
      cases c <;> cases r <;> simp_all [nullAnswer, failedBytes]
  have := C97_used_is_live p N y es m' answered h hl (by rw [hz]; omega) (by rw [hz]; omega)
  rw [hz] at this
  omega

/-! ## a concrete system allocator: hands out fresh addresses, refuses more than 1000 bytes -/

def bumpSystem : SysAlloc where
  State := Nat
  call y
    | .alloc l | .allocZeroed l => if 1000 < l.size then (y, 0) else (y + l.size + 1, y)
    | .dealloc _ _ => (y, 0)
    | .realloc _ _ n => if 1000 < n then (y, 0) else (y + n + 1, y)

def bumpStart : GlobalSys bumpSystem := ⟨AllocSys.new, (1 : Nat)⟩

def bumpHistory : List GEv :=
  [.call (.alloc ⟨100, 8⟩), .savePoint, .call (.allocZeroed ⟨40, 4⟩), .call (.realloc 1 ⟨100, 8⟩ 250), .call (.dealloc 102 ⟨40, 4⟩)]

example : (bumpStart.run .checked 16 bumpHistory).2 =
    [(.alloc ⟨100, 8⟩, 1), (.allocZeroed ⟨40, 4⟩, 102), (.realloc 1 ⟨100, 8⟩ 250, 143), (.dealloc 102 ⟨40, 4⟩, 0)] := by
  rw [(C97_transparent _ _ _ _).2]; rfl

example : Lawful [] [(.alloc ⟨100, 8⟩, 1), (.allocZeroed ⟨40, 4⟩, 102), (.realloc 1 ⟨100, 8⟩ 250, 143), (.dealloc 102 ⟨40, 4⟩, 0)] ∧
    heapOf [] [(.alloc ⟨100, 8⟩, 1), (.allocZeroed ⟨40, 4⟩, 102), (.realloc 1 ⟨100, 8⟩ 250, 143), (.dealloc 102 ⟨40, 4⟩, 0)] = [(143, ⟨250, 8⟩)] := by
  refine ⟨?_, rfl⟩
  simp [Lawful, lawful, heapAfter]

example : (bumpStart.run .checked 16 bumpHistory).1.metrics.st .currentUsedMemory = 250 := by
  cases h : bumpStart.run .checked 16 bumpHistory with
  | mk m' a =>
    have ha : a = [(.alloc ⟨100, 8⟩, 1), (.allocZeroed ⟨40, 4⟩, 102), (.realloc 1 ⟨100, 8⟩ 250, 143), (.dealloc 102 ⟨40, 4⟩, 0)] := by
      have := (C97_transparent .checked 16 bumpStart bumpHistory).2
      rw [h] at this
      exact this.trans rfl
    rw [C97_used_is_live_exactly .checked 16 (Y := bumpSystem) (1 : Nat) bumpHistory m' a h]
    · rw [ha]; rfl
    · rw [ha]; simp [Lawful, lawful, heapAfter]
    · rw [ha]; simp [nullAnswer]
    · rw [ha]; decide

end BigO
