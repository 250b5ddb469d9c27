import Verif.Spec.FrontVectorSpec
import Verif.Props.Vectors

/-!
# C122: vectors with insertions and removals at the front
-/
namespace BigO

/-- the same, of the lengths only -/
def RoomFor (most : ℕ) (v : List ℕ) : UCall → Prop
  | .call _ .create n => n ≤ most
  | .call _ .read _ => v ≠ []
  | .call _ .update _ => v ≠ []
  | .call _ .delete _ => v ≠ []
  | .reset _ => True

theorem frontKeep_length (most : ℕ) {v w : List ℕ} (h : w.length = v.length) (c : UCall) : (frontKeep most w c).length = (vecKeep v c).length := by
  rcases c with ⟨ph, op, e⟩ | n
  · cases op <;> simp [frontKeep, vecKeep, h]
  · rfl

theorem frontAfter_length (most : ℕ) : ∀ (calls : List UCall) {v w : List ℕ}, w.length = v.length →
    (frontAfter most w calls).length = (vecAfter v calls).length
  | [], _, _, h => h
  | c :: calls, _, _, h => frontAfter_length most calls (frontKeep_length most h c)

theorem front_of_room {most : ℕ} {which : UCall → Prop} {v : List ℕ} {calls : List UCall} (h : EveryCall (RoomFor most) which v calls) :
    NonePanicsAtFront most which v calls := by
  intro b c a e hw
  have hl := frontAfter_length most b (v := v) (w := v) rfl
  have := h b c a e hw
  rcases c with ⟨ph, op, n⟩ | n
  · cases op
    · exact this
    · have h0 : (frontAfter most v b).length ≠ 0 := by rw [hl]; exact fun e => this (List.length_eq_zero_iff.1 e)
      exact ⟨h0, Nat.mod_lt _ (Nat.pos_of_ne_zero h0)⟩
    · have h0 : (frontAfter most v b).length ≠ 0 := by rw [hl]; exact fun e => this (List.length_eq_zero_iff.1 e)
      exact ⟨h0, Nat.mod_lt _ (Nat.pos_of_ne_zero h0)⟩
    · show frontAfter most v b ≠ []
      exact fun e => this (List.length_eq_zero_iff.1 (by rw [← hl, e]; rfl))
  · trivial

variable {p : Profile} {cfg : CrudCfg} {most : ℕ} {which : UCall → Prop}

theorem f_creates (ph : Phase) : ∀ (l : List ℕ) (v : List ℕ), (∀ e ∈ l, e ≤ most) →
    VOk (RoomFor most) which v (l.map (UCall.call ph .create)) ∧ vecAfter v (l.map (UCall.call ph .create)) = v ++ l
  | [], v, _ => ⟨trivial, by simp [vecAfter]⟩
  | e :: l, v, h => by
    obtain ⟨i1, i2⟩ := f_creates ph l (v ++ [e]) (fun x hx => h x (by simp [hx]))
    refine ⟨⟨fun _ => h e (by simp), i1⟩, ?_⟩
    show vecAfter (v ++ [e]) _ = _
    rw [i2]; simp

theorem f_pops (ph : Phase) : ∀ (l : List ℕ) (v : List ℕ), l.length ≤ v.length →
    VOk (RoomFor most) which v (l.map (UCall.call ph .delete)) ∧ (vecAfter v (l.map (UCall.call ph .delete))).length = v.length - l.length
  | [], v, _ => ⟨trivial, by simp [vecAfter]⟩
  | e :: l, v, h => by
    simp only [List.length_cons] at h
    have hl : v.dropLast.length = v.length - 1 := List.length_dropLast
    obtain ⟨i1, i2⟩ := f_pops ph l v.dropLast (by omega)
    refine ⟨⟨fun _ => ?_, i1⟩, ?_⟩
    · show v ≠ []
      rintro rfl
      simp at h
    · show (vecAfter v.dropLast _).length = _
      rw [i2, hl, List.length_cons]; omega

theorem f_create {ph a b h} (hf : Fits cfg) (hab : a ≤ b) (ha : a < 2 ^ 31) (hb : b < 2 ^ 31) (hm : b ≤ most)
    (hd : (cfg.op .create).threads ∣ b - a) (h0 : (cfg.op .create).iters = 0 → a = b) (hh : h = a) :
    VTriple p (RoomFor most) which (AtLeast h) (opRun cfg ph .create a b) (AtLeast b) := by
  subst hh
  refine VTriple.of_short (opRun_short ..) fun v hv calls hs => ?_
  rcases seen_opRun hs with ⟨hz, rfl⟩ | ⟨hpos, f, s, hs', rfl⟩
  · exact ⟨trivial, by have := h0 hz; subst this; exact hv⟩
  · have hp := C42_remainder_ascending p h b _ ⟨ha, hb, (hf.2 _ hpos).2.1, (hf.2 _ hpos).2.2⟩ hab f s hs'
    obtain ⟨o, e⟩ := f_creates (which := which) (most := most) ph (allCalls s) v (by
      intro e he
      rw [hp.mem_iff, List.mem_range'_1] at he
      have hmod := Nat.mod_le (b - h) (cfg.op .create).threads
      omega)
    refine ⟨o, ?_⟩
    have hl := hp.length_eq
    rw [Nat.mod_eq_zero_of_dvd hd] at hl
    unfold AtLeast at *
    rw [e]
    simp at hl ⊢
    omega

theorem f_look {ph op a b h} (hop : op = .read ∨ op = .update) (hh : 0 < h) :
    VTriple p (RoomFor most) which (AtLeast h) (opRun cfg ph op a b) (AtLeast h) := by
  refine VTriple.of_short (opRun_short ..) fun v hv calls hs => ?_
  rcases seen_opRun hs with ⟨hz, rfl⟩ | ⟨hpos, f, s, hs', rfl⟩
  · exact ⟨trivial, hv⟩
  · have hne : v ≠ [] := by
      rintro rfl
      have : h ≤ 0 := hv
      omega
    obtain ⟨o, e⟩ := v_looks (which := which) (wanted := RoomFor most) ph op hop (allCalls s) v (by
      intro e he
      rcases hop with rfl | rfl
      · exact hne
      · exact hne)
    exact ⟨o, by rw [e]; exact hv⟩

theorem f_delete {ph a b h} (hf : Fits cfg) (hab : b ≤ a) (ha : a < 2 ^ 31) (hb : b < 2 ^ 31) (hh : a - b ≤ h) :
    VTriple p (RoomFor most) which (AtLeast h) (opRun cfg ph .delete a b) (AtLeast (h - (a - b))) := by
  refine VTriple.of_short (opRun_short ..) fun v hv calls hs => ?_
  have hv' : h ≤ v.length := hv
  rcases seen_opRun hs with ⟨hz, rfl⟩ | ⟨hpos, f, s, hs', rfl⟩
  · exact ⟨trivial, by show _ ≤ v.length; omega⟩
  · have hl := (C42_remainder_descending p a b _ ⟨ha, hb, (hf.2 _ hpos).2.1, (hf.2 _ hpos).2.2⟩ hab f s hs').length_eq
    rw [List.length_range'] at hl
    obtain ⟨o, e⟩ := f_pops (which := which) (most := most) ph (allCalls s) v (by omega)
    exact ⟨o, by show _ ≤ (vecAfter _ _).length; omega⟩

theorem f_measured (hf : Fits cfg) (he : CreatesEvenly cfg) (hpos : 0 < (cfg.op .create).iters)
    (cd : (cfg.op .delete).iters ≤ (cfg.op .create).iters) (hm : 2 * (cfg.op .create).iters ≤ most) :
    VTriple p (RoomFor most) which (AtLeast 0) (opRun cfg .pass1 .create 0 (cfg.op .create).iters ++ opRun cfg .pass1 .read 0 (cfg.op .read).iters ++
      opRun cfg .pass1 .update 0 (cfg.op .update).iters ++
      opRun cfg .pass2 .create (cfg.op .create).iters (2 * (cfg.op .create).iters) ++
      opRun cfg .pass2 .read (cfg.op .read).iters (2 * (cfg.op .read).iters) ++
      opRun cfg .pass2 .update (cfg.op .update).iters (2 * (cfg.op .update).iters) ++
      opRun cfg .pass2 .delete (2 * (cfg.op .delete).iters) (cfg.op .delete).iters ++ opRun cfg .pass1 .delete (cfg.op .delete).iters 0)
      (AtLeast 0) := by
  have b := fun o => fits_lt (cfg := cfg) (o := o) hf
  have bc := b .create
  have bd := b .delete
  have d0 : (cfg.op .create).threads ∣ (cfg.op .create).iters - 0 := he
  have d1 : (cfg.op .create).threads ∣ 2 * (cfg.op .create).iters - (cfg.op .create).iters := by
    rw [show 2 * (cfg.op .create).iters - (cfg.op .create).iters = (cfg.op .create).iters by omega]; exact he
  exact ((((((((f_create hf (by omega) (by omega) (by omega) (by omega) d0 (by omega) rfl).append
    (f_look (Or.inl rfl) hpos)).append
    (f_look (Or.inr rfl) hpos)).append
    (f_create hf (by omega) (by omega) (by omega) hm d1 (by omega) rfl)).append
    (f_look (Or.inl rfl) (by omega))).append
    (f_look (Or.inr rfl) (by omega))).append
    (f_delete hf (by omega) (by omega) (by omega) (by omega))).append
    (f_delete hf (by omega) (by omega) (by omega) (by omega))).weaken (fun _ h => h) (fun _ _ => Nat.zero_le _)

theorem f_warmup : VTriple p (RoomFor most) UCall.Measured (AtLeast 0) (warmupSequence cfg) (AtLeast 0) := by
  intro v _
  refine ⟨fun calls hs => ⟨vOk_exempt (warm_exempt warm_events hs), Nat.zero_le _⟩, fun pre hp calls hs =>
    vOk_exempt (warm_exempt (fun e he => warm_events e (hp.subset he)) hs)⟩

theorem f_no_warmup (h0 : cfg.warmup = 0) : VTriple p (RoomFor most) which (AtLeast 0) (warmupSequence cfg) (AtLeast 0) := by
  unfold warmupSequence
  rw [if_pos h0]
  refine VTriple.of_short (by simp) fun v hv calls hs => ?_
  cases hs
  exact ⟨trivial, hv⟩

/-- **C122** (analyses): during a CRUD analysis, finished or aborted, of a vector that is inserted at and removed from its front and indexed
modulo its length, if something is created, the threads of the creations divide them evenly, no more is deleted per pass than created, and
the number of creations of both passes is at most `most`, then in every interleaving no measured call panics, however much is read or
updated by however many threads, whatever the vector held before -- and no call at all, if there is no warm-up. -/
theorem C122_no_panic (env : CrudEnv) (cfg : CrudCfg) (most : ℕ) (hf : Fits cfg) (he : CreatesEvenly cfg) (hpos : 0 < (cfg.op .create).iters)
    (hd : (cfg.op .delete).iters ≤ (cfg.op .create).iters) (hm : 2 * (cfg.op .create).iters ≤ most) (t ext : List Ev)
    (res : Res (CrudAnalyses × String)) (h : internalAnalyse env cfg t = (res, t ++ ext)) (calls : List UCall)
    (hs : SeenAs env.profile ext calls) (v : List ℕ) :
    NonePanicsAtFront most UCall.Measured v calls ∧ (cfg.warmup = 0 → NonePanicsAtFront most (fun _ => True) v calls) := by
  obtain ⟨pre, h1, h2, -⟩ := seen_prefix hf h hs
  rw [crudSequence_assoc] at h1
  exact ⟨front_of_room (vOk_iff.1 ((f_warmup.append (f_measured hf he hpos hd hm) v (Nat.zero_le _)).2 pre h1 calls h2)),
    fun hw => front_of_room (vOk_iff.1 (((f_no_warmup hw).append (f_measured hf he hpos hd hm) v (Nat.zero_le _)).2 pre h1 calls h2))⟩

/-- **C122** (whole tests): a test without warm-up whose operations run on one thread, which creates at least ten elements and at least
as many as it deletes, three times its creations being at most `most`, never has a closure panic, in all of its attempts: the retries change
the numbers of iterations, but neither below one element nor to a number above `most`. -/
theorem C122_test (env : CrudEnv) (cfg : CrudCfg) (max most : ℕ) (t ext : List Ev)
    (h1 : ∀ o, 0 < (cfg.op o).iters → (cfg.op o).threads = 1) (hr : RoomForRetries cfg) (h3 : ∀ o, 3 * (cfg.op o).iters < 2 ^ 31)
    (hw : cfg.warmup = 0) (hpos : 10 ≤ (cfg.op .create).iters) (hd : (cfg.op .delete).iters ≤ (cfg.op .create).iters)
    (hm : 3 * (cfg.op .create).iters ≤ most)
    (h : (testCrud env cfg max t).2 = t ++ ext) (calls : List UCall) (hs : SeenAs env.profile ext calls) (v : List ℕ) :
    NonePanicsAtFront most (fun _ => True) v calls := by
  refine front_of_room (vOk_iff.1 (v_test env cfg t ext max (fun _ _ => trivial) (fun k _ cfg' hk => ?_) h calls hs v))
  obtain ⟨⟨r1, r2, r3, r4, r5, r6⟩, no⟩ := attempt_cfg env hr hk
  have ht : ∀ o, 0 < (cfg'.op o).iters → (cfg'.op o).threads = 1 := by
    intro o ho
    rw [r2 o]
    refine h1 o ?_
    have := r6 o
    omega
  have ad := adaptCfg_ok hk
  have hf : Fits cfg' := ⟨no, fun o ho => by
    have a := r6 o
    have b := h3 o
    rw [ht o ho]
    omega⟩
  have c5 := r5 .create
  have c6 := r6 .create
  have hc0 : 0 < (cfg'.op .create).iters := by omega
  have hdd : (cfg'.op .delete).iters ≤ (cfg'.op .create).iters := by
    have b := h3 .create
    exact adapt_mono hd (by omega) (ad .delete).1 (ad .create).1
  have hw' : cfg'.warmup = 0 := by rw [(ad .create).2.2.2.2]; exact hw
  refine ⟨no, fun t' e' he calls' hs' v' => ?_⟩
  have full : internalAnalyse env cfg' t' = ((internalAnalyse env cfg' t').1, t' ++ e') := by rw [← he]
  have hE : CreatesEvenly cfg' := by unfold CreatesEvenly; rw [ht _ hc0]; exact one_dvd _
  obtain ⟨pre, p1, p2, -⟩ := seen_prefix hf full hs'
  rw [crudSequence_assoc] at p1
  exact ((f_no_warmup hw').append (f_measured hf hE hc0 hdd (by omega)) v' (Nat.zero_le _)).2 pre p1 calls' p2

/-- **C122** (necessity): if there are fewer creations than threads for them, nothing is created; then, if there are at least as many reads as
threads for them, some measured read takes a remainder by zero, in every interleaving, if the vector is empty to begin with: such an
analysis cannot finish. -/
theorem C122_nothing_created (env : CrudEnv) (cfg : CrudCfg) (most : ℕ) (hf : Fits cfg)
    (hc : (cfg.op .create).iters = 0 ∨ (cfg.op .create).iters < (cfg.op .create).threads) (hpos : 0 < (cfg.op .read).iters)
    (hr : (cfg.op .read).threads ≤ (cfg.op .read).iters) (t ext : List Ev)
    (a : CrudAnalyses × String) (h : internalAnalyse env cfg t = (.ok a, t ++ ext)) (calls : List UCall)
    (hs : SeenAs env.profile ext calls) : ¬ NonePanicsAtFront most UCall.Measured [] calls := by
  obtain ⟨pre, -, hp, h3⟩ := seen_prefix hf h hs
  rw [h3 a rfl] at hp
  obtain ⟨w, c1, r1, u1, c2, r2, u2, d2, d1, P⟩ := pieces hp
  intro hm
  have hw : frontAfter most [] w = [] := by
    have hw := P.hw
    unfold warmupSequence at hw
    split at hw
    · cases hw; rfl
    · obtain ⟨l1, l2, rfl, -, rest, h2, rfl⟩ := seen_append.1 hw
      cases h2
      unfold frontAfter
      rw [List.foldl_append]; rfl
  have hc1 : c1 = [] := by
    rcases seen_opRun P.hc1 with ⟨-, h⟩ | ⟨hz, f, s, hs1, h⟩
    · exact h
    · have bc := fits_lt (cfg := cfg) (o := .create) hf
      obtain ⟨-, tc1, tc2⟩ := hf.2 .create (by omega)
      have e1 := (C42_remainder_ascending _ 0 (cfg.op .create).iters _ ⟨by omega, by omega, tc1, tc2⟩ (by omega) f s hs1).length_eq
      rw [Nat.sub_zero, Nat.mod_eq_of_lt (by omega), List.length_range', Nat.sub_self] at e1
      rw [h, List.length_eq_zero_iff.1 e1]; rfl
  rcases seen_opRun P.hr1 with ⟨hz, -⟩ | ⟨-, g, s', hs2, hr1⟩
  · omega
  have br := fits_lt (cfg := cfg) (o := .read) hf
  obtain ⟨-, tr1, tr2⟩ := hf.2 .read hpos
  have e2 := (C42_remainder_ascending _ 0 (cfg.op .read).iters _ ⟨by omega, by omega, tr1, tr2⟩ (by omega) g s' hs2).length_eq
  have hlt := Nat.mod_lt (cfg.op .read).iters tr1
  rw [Nat.sub_zero, List.length_range'] at e2
  cases hl : allCalls s' with
  | nil => rw [hl] at e2; simp at e2; omega
  | cons n rest =>
    rw [hl] at hr1
    have key := hm w (.call .pass1 .read n) (rest.map (UCall.call .pass1 .read) ++ u1 ++ c2 ++ r2 ++ u2 ++ d2 ++ d1) (by
      rw [P.eq, hc1, hr1]; simp) (by simp [UCall.Measured])
    rw [hw] at key
    exact key.1 rfl

/-! ### concrete cases -/

-- the project's own test (big_o_tests.rs 101-145, in debug builds, LOOP_MULTIPLIER being 1) meets the hypotheses of C122_test
example : let n := 16384
    let cfg : CrudCfg := ⟨"Vec Insert & Remove (worst case) with ParkingLot", 0,
      fun | .create => ⟨n, 1, .oN, .o1⟩ | .read => ⟨n * 10, 1, .o1, .o1⟩ | .update => ⟨n * 10, 1, .o1, .o1⟩ | .delete => ⟨n, 1, .oN, .o1⟩⟩
    (∀ o, 0 < (cfg.op o).iters → (cfg.op o).threads = 1) ∧ RoomForRetries cfg ∧ (∀ o, 3 * (cfg.op o).iters < 2 ^ 31) ∧
    cfg.warmup = 0 ∧ 10 ≤ (cfg.op .create).iters ∧ (cfg.op .delete).iters ≤ (cfg.op .create).iters ∧ 3 * (cfg.op .create).iters ≤ n * 5 := by
  refine ⟨fun o _ => ?_, fun o => ?_, fun o => ?_, rfl, ?_, le_rfl, ?_⟩
  · cases o <;> rfl
  · cases o <;> decide
  · cases o <;> decide
  · decide
  · decide

-- 100 creations on two threads, finished
example (T : TextEnv) : ∃ a ext calls, internalAnalyse (steadyCrudEnv shipped T) (steadyCfg 100 .o1) [] = (.ok a, ext) ∧
    SeenAs (steadyCrudEnv shipped T).profile ext calls ∧ NonePanicsAtFront 500 UCall.Measured [7] calls := by
  obtain ⟨a, ext, calls, h, hs⟩ := steady_seen T 100 (by norm_num)
  exact ⟨a, ext, calls, h, hs, (C122_no_panic _ _ 500 (steadyCfg_fits 100 (by norm_num) .o1) ⟨50, rfl⟩ (by show 0 < 100; decide)
    (by show 100 ≤ 100; decide) (by show 2 * 100 ≤ 500; decide) [] ext _ h calls hs [7]).1⟩

-- one creation on two threads creates nothing
example : let cfg : CrudCfg := ⟨"", 0, fun | .create => ⟨1, 2, .o1, .o1⟩ | _ => ⟨10, 1, .o1, .o1⟩⟩
    Fits cfg ∧ (cfg.op .create).iters < (cfg.op .create).threads ∧ (cfg.op .read).threads ≤ (cfg.op .read).iters ∧ 0 < (cfg.op .read).iters := by
  refine ⟨⟨fun o => ?_, fun o _ => ?_⟩, ?_, ?_, ?_⟩
  · cases o <;> decide
  · cases o <;> decide
  all_goals decide

-- what some calls do to the vector
example : frontAfter 10 [] [.call .pass1 .create 1, .call .pass1 .create 0, .call .pass1 .update 3, .call .pass1 .read 9] = [10, 4] ∧
    frontAfter 10 [10, 4] [.call .pass1 .delete 0, .call .pass1 .delete 1] = [] := by decide

end BigO
