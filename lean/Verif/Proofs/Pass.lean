import Verif.Spec.PassSpec
import Mathlib.Data.List.Induction

/-!
# Proofs about iterator passes
-/
namespace BigO

theorem i32Res_ok (p : Profile) (e : Panic) {z : Int} (h1 : -2 ^ 31 ≤ z) (h2 : z < 2 ^ 31) : i32Res p e z = .ok z := by
  unfold i32Res; rw [if_pos ⟨h1, h2⟩]

theorem u32OfI32_nat {z : Int} {n : Nat} (h : z = n) (hn : n < 2 ^ 31) : u32OfI32 z = n := by
  unfold u32OfI32; omega

theorem i32OfU32_small {n : Nat} (h : n < 2 ^ 31) : i32OfU32 n = n := by unfold i32OfU32; rw [if_pos h]

theorem mapM_ok {α β : Type} {f : α → Rs β} {g : α → β} : ∀ {l : List α}, (∀ x ∈ l, f x = .ok (g x)) →
    l.mapM f = .ok (l.map g) := by
  intro l
  induction l with
  | nil => intro _; rfl
  | cons x l ih =>
    intro h
    rw [List.mapM_cons, h x (by simp), ih (fun y hy => h y (by simp [hy]))]
    rfl

/-- elements per thread -/
def perThread (start stop threads : Nat) : Nat := (max start stop - min start stop) / threads

theorem perThread_mul_le (start stop threads n : Nat) (h : n ≤ threads) :
    perThread start stop threads * n ≤ max start stop - min start stop := by
  unfold perThread
  calc _ ≤ (max start stop - min start stop) / threads * threads := Nat.mul_le_mul_left _ h
    _ ≤ _ := Nat.div_mul_le_self _ _

theorem chunkOf_ok (p : Profile) {a cs m m1 : Int} {n lo hi : Nat} (hm : cs * n = m) (hm1 : cs * ((n : Int) + 1) = m1)
    (h1 : -2 ^ 31 ≤ m) (h2 : m < 2 ^ 31) (h3 : -2 ^ 31 ≤ m1) (h4 : m1 < 2 ^ 31) (h5 : a + m = lo) (h6 : a + m1 = hi)
    (h7 : lo < 2 ^ 31) (h8 : hi < 2 ^ 31) (hn : (n : Int) + 1 < 2 ^ 31) : chunkOf p a cs n = .ok (lo, hi) := by
  have e1 : i32Mul p cs n = .ok m := by unfold i32Mul; rw [hm]; exact i32Res_ok p _ h1 h2
  have e2 : i32Add p a m = .ok (lo : Int) := by
    unfold i32Add; rw [h5]; exact i32Res_ok p _ (by omega) (by omega)
  have e3 : i32Add p n 1 = .ok ((n : Int) + 1) := by unfold i32Add; exact i32Res_ok p _ (by omega) hn
  have e4 : i32Mul p cs ((n : Int) + 1) = .ok m1 := by unfold i32Mul; rw [hm1]; exact i32Res_ok p _ h3 h4
  have e5 : i32Add p a m1 = .ok (hi : Int) := by
    unfold i32Add; rw [h6]; exact i32Res_ok p _ (by omega) (by omega)
  have k1 : u32OfI32 (lo : Int) = lo := u32OfI32_nat rfl h7
  have k2 : u32OfI32 (hi : Int) = hi := u32OfI32_nat rfl h8
  unfold chunkOf
  simp only [e1, e2, e3, e4, e5, k1, k2]

theorem chunk_asc (p : Profile) {start stop threads n : Nat} (h : start ≤ stop) (hs : stop < 2 ^ 31)
    (hn : n < threads) (ht : threads < 2 ^ 31) :
    chunkOf p stop (-(perThread start stop threads : Nat)) n =
      .ok (stop - perThread start stop threads * n, stop - perThread start stop threads * (n + 1)) := by
  have h1 := perThread_mul_le start stop threads n (by omega)
  have h2 := perThread_mul_le start stop threads (n + 1) (by omega)
  generalize perThread start stop threads = q at *
  have e1 : max start stop - min start stop = stop - start := by omega
  rw [e1] at h1 h2
  have z1 : -(q : Int) * (n : Int) = -((q * n : Nat) : Int) := by push_cast; exact Int.neg_mul _ _
  have z2 : -(q : Int) * ((n : Int) + 1) = -((q * (n + 1) : Nat) : Int) := by push_cast; exact Int.neg_mul _ _
  generalize q * n = x at *
  generalize q * (n + 1) = y at *
  apply chunkOf_ok p z1 z2 <;> omega

theorem chunk_desc (p : Profile) {start stop threads n : Nat} (h : stop ≤ start) (hs : start < 2 ^ 31)
    (hn : n < threads) (ht : threads < 2 ^ 31) :
    chunkOf p stop (perThread start stop threads : Nat) n =
      .ok (stop + perThread start stop threads * n, stop + perThread start stop threads * (n + 1)) := by
  have h1 := perThread_mul_le start stop threads n (by omega)
  have h2 := perThread_mul_le start stop threads (n + 1) (by omega)
  generalize perThread start stop threads = q at *
  have e1 : max start stop - min start stop = start - stop := by omega
  rw [e1] at h1 h2
  have z1 : (q : Int) * (n : Int) = ((q * n : Nat) : Int) := by push_cast; rfl
  have z2 : (q : Int) * ((n : Int) + 1) = ((q * (n + 1) : Nat) : Int) := by push_cast; rfl
  generalize q * n = x at *
  generalize q * (n + 1) = y at *
  apply chunkOf_ok p z1 z2 <;> omega

theorem passChunks_asc (p : Profile) {start stop threads : Nat} (h : start ≤ stop) (hs : stop < 2 ^ 31)
    (h1 : 1 ≤ threads) (ht : threads < 2 ^ 31) :
    passChunks p start stop threads = .ok ((List.range threads).map fun n =>
      (stop - perThread start stop threads * n, stop - perThread start stop threads * (n + 1))) := by
  unfold passChunks i32Sub i32Div
  simp only [i32OfU32_small hs, i32OfU32_small (show start < 2 ^ 31 by omega), i32OfU32_small ht]
  rw [i32Res_ok p _ (by omega) (by omega)]
  simp only [bind, Except.bind]
  rw [if_neg (by omega), if_neg (by omega)]
  simp only
  have hq : ((start : Int) - stop).tdiv threads = -(perThread start stop threads : Nat) := by
    have : ((start : Int) - stop) = -((stop - start : Nat) : Int) := by omega
    rw [this, Int.neg_tdiv, Int.tdiv_eq_ediv_of_nonneg (by omega)]
    unfold perThread
    rw [show max start stop - min start stop = stop - start by omega]
    rfl
  rw [hq, show ((threads : Int)).toNat = threads by simp]
  apply mapM_ok
  intro n hn
  exact chunk_asc p h hs (List.mem_range.1 hn) ht

theorem passChunks_desc (p : Profile) {start stop threads : Nat} (h : stop ≤ start) (hs : start < 2 ^ 31)
    (h1 : 1 ≤ threads) (ht : threads < 2 ^ 31) :
    passChunks p start stop threads = .ok ((List.range threads).map fun n =>
      (stop + perThread start stop threads * n, stop + perThread start stop threads * (n + 1))) := by
  unfold passChunks i32Sub i32Div
  simp only [i32OfU32_small hs, i32OfU32_small (show stop < 2 ^ 31 by omega), i32OfU32_small ht]
  rw [i32Res_ok p _ (by omega) (by omega)]
  simp only [bind, Except.bind]
  rw [if_neg (by omega), if_neg (by omega)]
  simp only
  have hq : ((start : Int) - stop).tdiv threads = (perThread start stop threads : Nat) := by
    have : ((start : Int) - stop) = ((start - stop : Nat) : Int) := by omega
    rw [this, Int.tdiv_eq_ediv_of_nonneg (by omega)]
    unfold perThread
    rw [show max start stop - min start stop = start - stop by omega]
    rfl
  rw [hq, show ((threads : Int)).toNat = threads by simp]
  apply mapM_ok
  intro n hn
  exact chunk_desc p h hs (List.mem_range.1 hn) ht

/-! ### the machine -/

theorem run_append_pass (f) (s : PassRun) (a : List Nat) (t : Nat) :
    s.run f (a ++ [t]) = (s.run f a).step f t := by simp [PassRun.run, List.foldl_append]

/-- what a thread has done and has still to do is its list; and overall, as a multiset, nothing is lost or added -/
structure PassInv (chunks : List (Nat × Nat)) (s : PassRun) : Prop where
  len : s.threads.length = chunks.length
  each : ∀ (t : Nat) (c : Nat × Nat) (th : PTh), chunks[t]? = some c → s.threads[t]? = some th →
    callsBy s t ++ th.todo = threadElems c.1 c.2
  all : (allCalls s ++ (s.threads.map PTh.todo).flatten).Perm ((chunks.map fun c => threadElems c.1 c.2).flatten)
  tids : ∀ c ∈ s.calls, c.1 < chunks.length

theorem passInv_start (chunks : List (Nat × Nat)) : PassInv chunks (PassRun.start chunks) := by
  refine ⟨by simp [PassRun.start], ?_, ?_, by simp [PassRun.start]⟩
  · intro t c th hc hth
    simp only [PassRun.start, List.getElem?_map, hc, Option.map_some, Option.some.injEq] at hth
    subst hth
    simp [callsBy, PassRun.start]
  · simp only [allCalls, PassRun.start, List.map_nil, List.nil_append, List.map_map]
    exact List.Perm.refl _

theorem flatten_set_perm {l : List (List Nat)} {t e : Nat} {es : List Nat} (h : l[t]? = some (e :: es)) :
    l.flatten.Perm (e :: (l.set t es).flatten) := by
  induction l generalizing t with
  | nil => simp at h
  | cons x l ih =>
    cases t with
    | zero => simp at h; subst h; simp
    | succ t =>
      simp at h
      simp only [List.set_cons_succ, List.flatten_cons]
      exact ((ih h).append_left x).trans List.perm_middle

theorem passInv_step (f) {chunks : List (Nat × Nat)} {s : PassRun} (h : PassInv chunks s) (t : Nat) :
    PassInv chunks (s.step f t) := by
  unfold PassRun.step
  split
  · rename_i e es acc hth
    have htlt : t < s.threads.length := by
      rcases Nat.lt_or_ge t s.threads.length with h1 | h1
      · exact h1
      · rw [List.getElem?_eq_none h1] at hth; simp at hth
    refine ⟨by simpa using h.len, ?_, ?_, ?_⟩
    · intro u c th hc hu
      by_cases hut : u = t
      · subst hut
        rw [List.getElem?_set_self htlt] at hu
        simp at hu; subst hu
        have := h.each u c _ hc hth
        simpa [callsBy] using this
      · rw [List.getElem?_set_ne (Ne.symm hut)] at hu
        have := h.each u c th hc hu
        simpa [callsBy, Ne.symm hut] using this
    · refine List.Perm.trans ?_ h.all
      simp only [allCalls, List.map_append, List.map_cons, List.map_nil, List.append_assoc, List.map_set]
      apply List.Perm.append_left
      have : (s.threads.map PTh.todo)[t]? = some (e :: es) := by rw [List.getElem?_map, hth]; rfl
      exact (flatten_set_perm this).symm
    · intro c hc
      simp at hc
      rcases hc with hc | rfl
      · exact h.tids c hc
      · rw [← h.len]; exact htlt
  · exact h

theorem passInv_run (f) (chunks : List (Nat × Nat)) (sched : List Nat) :
    PassInv chunks ((PassRun.start chunks).run f sched) := by
  induction sched using List.reverseRecOn with
  | nil => exact passInv_start chunks
  | append_singleton l t ih => rw [run_append_pass]; exact passInv_step f ih t

theorem done_all {chunks : List (Nat × Nat)} {s : PassRun} (h : PassInv chunks s) (hd : s.Done) :
    (allCalls s).Perm ((chunks.map fun c => threadElems c.1 c.2).flatten) := by
  have : (s.threads.map PTh.todo).flatten = [] := by
    rw [List.flatten_eq_nil_iff]
    intro l hl
    simp at hl
    obtain ⟨th, hth, rfl⟩ := hl
    exact hd th hth
  have h2 := h.all
  rwa [this, List.append_nil] at h2

theorem done_each {chunks : List (Nat × Nat)} {s : PassRun} (h : PassInv chunks s) (hd : s.Done) {t : Nat} {c : Nat × Nat}
    (hc : chunks[t]? = some c) : callsBy s t = threadElems c.1 c.2 := by
  have htlt : t < chunks.length := by
    rcases Nat.lt_or_ge t chunks.length with h1 | h1
    · exact h1
    · rw [List.getElem?_eq_none h1] at hc; simp at hc
  have hlt : t < s.threads.length := by rw [h.len]; exact htlt
  have hth : s.threads[t]? = some s.threads[t] := List.getElem?_eq_getElem hlt
  have := h.each t c _ hc hth
  rw [hd _ (List.getElem_mem hlt), List.append_nil] at this
  exact this

/-! ### the chunks cover a range -/

theorem flatten_asc (stop q : Nat) : ∀ T : Nat, q * T ≤ stop →
    (((List.range T).map fun n => (stop - q * n, stop - q * (n + 1))).map fun c => threadElems c.1 c.2).flatten =
      (List.range' (stop - q * T) (q * T)).reverse := by
  intro T
  induction T with
  | zero => intro _; simp
  | succ T ih =>
    intro h
    have hq : q * (T + 1) = q * T + q := by rw [Nat.mul_succ]
    rw [List.range_succ, List.map_append, List.map_append, List.flatten_append, ih (by omega)]
    simp only [List.map_cons, List.map_nil, List.flatten_cons, List.flatten_nil, List.append_nil]
    have hth : threadElems (stop - q * T) (stop - q * (T + 1)) = (List.range' (stop - q * (T + 1)) q).reverse := by
      unfold threadElems
      by_cases hq0 : q = 0
      · subst hq0; simp
      · rw [if_pos (by omega), show stop - q * T - (stop - q * (T + 1)) = q by omega]
    rw [hth, ← List.reverse_append]
    congr 1
    have := @List.range'_append_1 (stop - q * (T + 1)) q (q * T)
    rw [show stop - q * (T + 1) + q = stop - q * T by omega] at this
    rw [this, hq, Nat.add_comm q]

theorem flatten_desc (stop q : Nat) : ∀ T : Nat,
    (((List.range T).map fun n => (stop + q * n, stop + q * (n + 1))).map fun c => threadElems c.1 c.2).flatten =
      List.range' stop (q * T) := by
  intro T
  induction T with
  | zero => simp
  | succ T ih =>
    have hq : q * (T + 1) = q * T + q := by rw [Nat.mul_succ]
    rw [List.range_succ, List.map_append, List.map_append, List.flatten_append, ih]
    simp only [List.map_cons, List.map_nil, List.flatten_cons, List.flatten_nil, List.append_nil]
    have hth : threadElems (stop + q * T) (stop + q * (T + 1)) = List.range' (stop + q * T) q := by
      unfold threadElems
      rw [if_neg (by omega), show stop + q * (T + 1) - (stop + q * T) = q by omega]
    rw [hth]
    have := @List.range'_append_1 stop (q * T) q
    rw [this, hq]

/-! ### the checksum -/

theorem xorAll_append (a b : List Nat) : xorAll (a ++ b) = xorAll a ^^^ xorAll b := by
  induction a with
  | nil => simp [xorAll]
  | cons x a ih => simp [xorAll, ih, Nat.xor_assoc]

theorem xorAll_perm {a b : List Nat} (h : a.Perm b) : xorAll a = xorAll b := by
  induction h with
  | nil => rfl
  | cons x _ ih => simp [xorAll, ih]
  | swap x y l => simp only [xorAll]; rw [← Nat.xor_assoc, Nat.xor_comm y x, Nat.xor_assoc]
  | trans _ _ h1 h2 => rw [h1, h2]

theorem xorAll_set {l : List Nat} {t x y : Nat} (h : l[t]? = some x) : xorAll (l.set t (x ^^^ y)) = xorAll l ^^^ y := by
  induction l generalizing t with
  | nil => simp at h
  | cons z l ih =>
    cases t with
    | zero => simp at h; subst h; simp only [List.set_cons_zero, xorAll]; rw [Nat.xor_assoc, Nat.xor_comm y, Nat.xor_assoc]
    | succ t => simp at h; simp only [List.set_cons_succ, xorAll]; rw [ih h, Nat.xor_assoc]

theorem acc_run (g : Nat → Nat) (chunks : List (Nat × Nat)) (sched : List Nat) :
    let s := (PassRun.start chunks).run (fun _ e => g e) sched
    xorAll (s.threads.map PTh.acc) = xorAll (chunks.map Prod.snd) ^^^ xorAll ((allCalls s).map g) := by
  induction sched using List.reverseRecOn with
  | nil => simp [PassRun.run, PassRun.start, allCalls, xorAll, Function.comp_def]
  | append_singleton l t ih =>
    simp only at ih ⊢
    rw [run_append_pass]
    unfold PassRun.step
    split
    · rename_i e es acc hth
      simp only [allCalls, List.map_append, List.map_cons, List.map_nil, xorAll_append, List.map_set]
      rw [xorAll_set (x := acc) (by rw [List.getElem?_map, hth]; rfl), ih]
      simp [xorAll, allCalls, Nat.xor_assoc]
    · exact ih

theorem foldl_acc (l : List PTh) : ∀ r, l.foldl (fun r th => r ^^^ th.acc) r = r ^^^ xorAll (l.map PTh.acc) := by
  induction l with
  | nil => intro r; simp [xorAll]
  | cons x l ih => intro r; simp [ih, xorAll, Nat.xor_assoc]

end BigO
