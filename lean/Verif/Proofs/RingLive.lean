import Verif.Proofs.RingConc
import Verif.Spec.RingLiveSpec

/-! # Progress of the ring buffer's calls along infinite schedules -/
namespace BigO

variable {α : Type} {T : Nat} {p : Profile} {N : Nat} {σ : Nat → RAct α T}

theorem sized_inv (hs : Sized p N σ) (n : Nat) : PInv N (RState.at p N σ n) ∧ KInv True (RState.at p N σ n) := by
  induction n with
  | zero => exact ⟨pinv_init N, kinv_init⟩
  | succ n ih => exact inv_act hs.slots hs.size (hs.inFlight n) ih.1 ih.2 (σ n) (hs.few (n + 1))

/-- a thread inside a call moves only by its own turns -/
theorem pc_stays (s : RState α T) (t : Fin T) (a : RAct α T) (hbusy : s.pc t ≠ .idle) (ha : ∀ sp, a ≠ .next t sp) :
    (s.act p N a).pc t = s.pc t := by
  have key : ∀ (t' : Fin T) (s' : RState α T) (x : RPc α), s'.pc = s.pc → t ≠ t' → (s'.setPc t' x).pc t = s.pc t := by
    intro t' s' x h1 h2
    rw [setPc_pc, if_neg h2, h1]
  cases a with
  | enqueue t' e =>
    simp only [RState.act]
    cases h : s.pc t' with
    | idle => exact key t' _ _ rfl (by rintro rfl; exact hbusy h)
    | _ => rfl
  | consumer t' => simp only [RState.act]; cases s.pc t' <;> rfl
  | dequeue t' c =>
    simp only [RState.act]
    cases h : s.pc t' with
    | idle =>
      cases s.heads[c]? with
      | none => rfl
      | some hd => exact key t' _ _ rfl (by rintro rfl; exact hbusy h)
    | _ => rfl
  | peekAll t' c =>
    simp only [RState.act]
    cases h : s.pc t' with
    | idle =>
      cases s.heads[c]? with
      | none => rfl
      | some hd => exact key t' _ _ rfl (by rintro rfl; exact hbusy h)
    | _ => rfl
  | next t' sp =>
    have hne : t ≠ t' := by rintro rfl; exact ha sp rfl
    simp only [RState.act]
    cases s.pc t' <;> simp only [RState.nextStep, RState.emit] <;>
      repeat (first | rfl | exact key t' _ _ rfl hne | split)

/-- a busy thread still busy at `m` without having had a turn since `n` is where it was -/
theorem at_stays (t : Fin T) {n m : Nat} (hnm : n ≤ m) (hbusy : (RState.at p N σ n).pc t ≠ .idle)
    (hno : ∀ k, n ≤ k → k < m → ∀ sp, σ k ≠ .next t sp) : (RState.at p N σ m).pc t = (RState.at p N σ n).pc t := by
  induction m, hnm using Nat.le_induction with
  | base => rfl
  | succ m hm ih =>
    have h1 := ih (fun k a b => hno k a (by omega))
    rw [RState.at, pc_stays _ t _ (by rw [h1]; exact hbusy) (hno m hm (by omega)), h1]

/-- the first turn of a busy thread: it is still where it was -/
theorem first_turn (t : Fin T) (n : Nat) (hturn : ∃ m, n ≤ m ∧ ∃ sp, σ m = .next t sp)
    (hbusy : (RState.at p N σ n).pc t ≠ .idle) :
    ∃ m, n ≤ m ∧ (∃ sp, σ m = .next t sp) ∧ (RState.at p N σ m).pc t = (RState.at p N σ n).pc t := by
  classical
  have hm := Nat.find_spec hturn
  refine ⟨Nat.find hturn, hm.1, hm.2, at_stays t hm.1 hbusy ?_⟩
  intro k hk hlt sp he
  exact Nat.find_min hturn hlt ⟨hk, sp, he⟩

/-- what an action may do to `published_tail` and the heads -/
theorem act_monotone (s : RState α T) (hN : 0 < N) (hp : PInv N s) (hk : KInv True s) (hlen : s.log.length < 2 ^ 32) (a : RAct α T) :
    s.ring.published ≤ (s.act p N a).ring.published ∧
    ∀ (c h : Nat), s.heads[c]? = some h → ∃ h', (s.act p N a).heads[c]? = some h' ∧ h ≤ h' := by
  have hN' : N ≠ 0 := by omega
  have same : ∀ s' : RState α T, s'.ring.published = s.ring.published → s'.heads = s.heads →
      s.ring.published ≤ s'.ring.published ∧ ∀ (c h : Nat), s.heads[c]? = some h → ∃ h', s'.heads[c]? = some h' ∧ h ≤ h' := by
    intro s' h1 h2
    exact ⟨by omega, fun c h hc => ⟨h, by rw [h2]; exact hc, Nat.le_refl _⟩⟩
  cases a with
  | enqueue t e => simp only [RState.act]; cases s.pc t <;> exact same _ rfl rfl
  | consumer t =>
    simp only [RState.act]
    cases s.pc t with
    | idle =>
      refine ⟨Nat.le_refl _, fun c h hc => ⟨h, ?_, Nat.le_refl _⟩⟩
      show (s.heads ++ [s.ring.published])[c]? = some h
      rw [List.getElem?_append_left (List.getElem?_eq_some_iff.1 hc).1]; exact hc
    | _ => exact same _ rfl rfl
  | dequeue t c => simp only [RState.act]; cases s.pc t <;> cases s.heads[c]? <;> exact same _ rfl rfl
  | peekAll t c => simp only [RState.act]; cases s.pc t <;> cases s.heads[c]? <;> exact same _ rfl rfl
  | next t sp =>
    simp only [RState.act]
    have hme := hk.pcs t
    cases hpc : s.pc t with
    | idle => exact same _ rfl rfl
    | panicked q => exact same _ rfl rfl
    | enqReserved e r =>
      simp only [RState.nextStep, hN', if_false]
      exact same _ rfl rfl
    | enqWritten e r =>
      obtain ⟨h1, h2⟩ := hp.hold t e r (by rw [hpc]; rfl)
      have h3 := (List.getElem?_eq_some_iff.1 h2).1
      have h4 : r + 1 < 2 ^ 32 := by omega
      simp only [RState.nextStep, u32Add, h4, if_true]
      split
      · rename_i hc
        refine ⟨?_, fun c h hc => ⟨h, hc, Nat.le_refl _⟩⟩
        show s.ring.published ≤ r + 1
        omega
      · split <;> exact same _ rfl rfl
    | deqHead c h =>
      simp only [RState.nextStep]
      split
      · exact same _ rfl rfl
      · split <;> exact same _ rfl rfl
    | deqReload c => exact same _ rfl rfl
    | deqTail c h tl =>
      rw [hpc] at hme
      obtain ⟨m0, m1, hh, m2, m3⟩ := hme
      have hpub := hp.pub
      have h4 : h + 1 < 2 ^ 32 := by omega
      simp only [RState.nextStep, u32Add, h4, if_true]
      split
      · rename_i hc
        refine ⟨Nat.le_refl _, fun c' x hx => ?_⟩
        have hlt := (List.getElem?_eq_some_iff.1 hc.1).1
        by_cases hcc : c' = c
        · subst hcc
          rw [hc.1] at hx
          obtain rfl := Option.some.inj hx
          refine ⟨h + 1, ?_, by omega⟩
          show (s.heads.set c' (h + 1))[c']? = some (h + 1)
          simp [hlt]
        · refine ⟨x, ?_, Nat.le_refl _⟩
          show (s.heads.set c (h + 1))[c']? = some x
          rw [List.getElem?_set_ne (fun h => hcc h.symm)]; exact hx
      · exact same _ rfl rfl
    | deqClaimed c h tl =>
      simp only [RState.nextStep]
      split
      · exact same _ rfl rfl
      · split <;> exact same _ rfl rfl
    | peekHead c h =>
      simp only [RState.nextStep]
      split <;> exact same _ rfl rfl

theorem at_monotone (hs : Sized p N σ) {n m : Nat} (hnm : n ≤ m) :
    (RState.at p N σ n).ring.published ≤ (RState.at p N σ m).ring.published ∧
    ∀ (c h : Nat), (RState.at p N σ n).heads[c]? = some h → ∃ h', (RState.at p N σ m).heads[c]? = some h' ∧ h ≤ h' := by
  induction m, hnm using Nat.le_induction with
  | base => exact ⟨Nat.le_refl _, fun c h hc => ⟨h, hc, Nat.le_refl _⟩⟩
  | succ m hm ih =>
    obtain ⟨hp, hk⟩ := sized_inv hs m
    obtain ⟨a, b⟩ := act_monotone (p := p) _ hs.slots hp hk (hs.few m) (σ m)
    refine ⟨Nat.le_trans ih.1 a, fun c h hc => ?_⟩
    obtain ⟨h1, e1, l1⟩ := ih.2 c h hc
    obtain ⟨h2, e2, l2⟩ := b c h1 e1
    exact ⟨h2, e2, by omega⟩

/-- a turn of a thread in `enqueue` -/
theorem enq_turn (hs : Sized p N σ) {m : Nat} {t : Fin T} {sp : Bool} (hσ : σ m = .next t sp) {e : α} {r : Nat}
    (hpc : ((RState.at p N σ m).pc t).enq? = some (e, r)) :
    (((RState.at p N σ (m + 1)).pc t = .enqWritten e r ∧
      (RState.at p N σ (m + 1)).ring.published = (RState.at p N σ m).ring.published ∧
      ((RState.at p N σ m).pc t = .enqWritten e r → ¬ ((RState.at p N σ m).ring.published = r ∧ sp = false))) ∨
    ((RState.at p N σ (m + 1)).pc t = .idle ∧ REv.enqDone e r ∈ (RState.at p N σ (m + 1)).events ∧
      (RState.at p N σ (m + 1)).ring.published = r + 1)) := by
  obtain ⟨hp, hk⟩ := sized_inv hs m
  have hlen := hs.few m
  have hN : N ≠ 0 := by have := hs.slots; omega
  obtain ⟨h1, h2⟩ := hp.hold t e r hpc
  have h3 := (List.getElem?_eq_some_iff.1 h2).1
  have h4 : r + 1 < 2 ^ 32 := by omega
  rw [RState.at, hσ]
  generalize RState.at p N σ m = s at *
  simp only [RState.act]
  cases h : s.pc t with
  | enqReserved e' r' =>
    rw [h] at hpc
    simp only [RPc.enq?, Option.some.injEq, Prod.mk.injEq] at hpc
    obtain ⟨rfl, rfl⟩ := hpc
    left
    simp [RState.nextStep, hN, RState.setPc, Ring.write]
  | enqWritten e' r' =>
    rw [h] at hpc
    simp only [RPc.enq?, Option.some.injEq, Prod.mk.injEq] at hpc
    obtain ⟨rfl, rfl⟩ := hpc
    simp only [RState.nextStep, u32Add, h4, if_true]
    by_cases hc : s.ring.published = r' ∧ sp = false
    · right
      rw [if_pos hc]
      simp [RState.setPc, RState.emit]
    · left
      rw [if_neg hc, if_neg (by omega)]
      exact ⟨h, rfl, fun _ => hc⟩
  | _ => rw [h] at hpc; simp [RPc.enq?] at hpc

/-- while `published_tail` is `q`, the enqueue that reserved `q` either finishes or stays in flight -/
theorem published_advances (hs : Sized p N σ) (hfair : ∀ t, KeepsRunning p N σ t) (n : Nat)
    (hlt : (RState.at p N σ n).ring.published < (RState.at p N σ n).log.length) :
    ∃ m, n ≤ m ∧ (RState.at p N σ n).ring.published < (RState.at p N σ m).ring.published := by
  by_contra hcon
  have hcon' : ∀ m, n ≤ m → (RState.at p N σ m).ring.published = (RState.at p N σ n).ring.published := by
    intro m hm
    have h1 := (at_monotone hs hm).1
    by_contra h2
    exact hcon ⟨m, hm, by omega⟩
  obtain ⟨t, e, ht⟩ := (sized_inv hs n).1.cover _ (Nat.le_refl _) hlt
  generalize hq : (RState.at p N σ n).ring.published = q at *
  -- it stays in flight
  have stays : ∀ m, n ≤ m → ((RState.at p N σ m).pc t).enq? = some (e, q) := by
    intro m hm
    induction m, hm using Nat.le_induction with
    | base => exact ht
    | succ m hm ih =>
      by_cases htu : ∃ sp, σ m = .next t sp
      · obtain ⟨sp, hsp⟩ := htu
        rcases enq_turn hs hsp ih with ⟨h, _⟩ | ⟨_, _, h⟩
        · rw [h]; rfl
        · have := hcon' (m + 1) (by omega); omega
      · have hb : (RState.at p N σ m).pc t ≠ .idle := by intro h; rw [h] at ih; cases ih
        rw [RState.at, pc_stays _ t _ hb (fun sp h => htu ⟨sp, h⟩)]
        exact ih
  -- from its first turn on it is at the compare-exchange
  obtain ⟨m0, hm0, sp0, hsp0⟩ := (hfair t).turns n
  have written : ∀ m, m0 + 1 ≤ m → (RState.at p N σ m).pc t = .enqWritten e q := by
    intro m hm
    induction m, hm using Nat.le_induction with
    | base =>
      rcases enq_turn hs hsp0 (stays m0 hm0) with ⟨h, _⟩ | ⟨_, _, h⟩
      · exact h
      · have := hcon' (m0 + 1) (by omega); omega
    | succ m hm ih =>
      by_cases htu : ∃ sp, σ m = .next t sp
      · obtain ⟨sp, hsp⟩ := htu
        rcases enq_turn hs hsp (stays m (by omega)) with ⟨h, _⟩ | ⟨_, _, h⟩
        · exact h
        · have := hcon' (m + 1) (by omega); omega
      · rw [RState.at, pc_stays _ t _ (by rw [ih]; simp) (fun sp h => htu ⟨sp, h⟩), ih]
  obtain ⟨m, hm, _, hσ⟩ := (hfair t).lucky (fun k => by
    obtain ⟨m, hm, sp, hsp⟩ := (hfair t).turns (max k (m0 + 1))
    refine ⟨m, by omega, ?_, sp, hsp⟩
    rw [written m (by omega)]; trivial) (m0 + 1)
  rcases enq_turn hs hσ (stays m (by omega)) with ⟨_, _, h⟩ | ⟨_, _, h⟩
  · exact h (written m hm) ⟨hcon' m (by omega), rfl⟩
  · have := hcon' (m + 1) (by omega); omega

/-- every reserved position gets published -/
theorem published_passes (hs : Sized p N σ) (hfair : ∀ t, KeepsRunning p N σ t) (r : Nat) (n : Nat)
    (hr : r < (RState.at p N σ n).log.length) : ∃ m, n ≤ m ∧ r < (RState.at p N σ m).ring.published := by
  have loglen : ∀ m, n ≤ m → (RState.at p N σ n).log.length ≤ (RState.at p N σ m).log.length := by
    intro m hm
    induction m, hm using Nat.le_induction with
    | base => exact Nat.le_refl _
    | succ m hm ih => exact Nat.le_trans ih (act_log_prefix _ _).length_le
  have : ∀ q, q ≤ r + 1 → ∃ m, n ≤ m ∧ q ≤ (RState.at p N σ m).ring.published := by
    intro q
    induction q with
    | zero => intro _; exact ⟨n, Nat.le_refl _, Nat.zero_le _⟩
    | succ q ih =>
      intro hq
      obtain ⟨m, hm, h⟩ := ih (by omega)
      by_cases hle : q + 1 ≤ (RState.at p N σ m).ring.published
      · exact ⟨m, hm, hle⟩
      · have := loglen m hm
        obtain ⟨m', hm', h'⟩ := published_advances hs hfair m (by omega)
        exact ⟨m', by omega, by omega⟩
  obtain ⟨m, hm, h⟩ := this (r + 1) (Nat.le_refl _)
  exact ⟨m, hm, by omega⟩

/-- an `enqueue` in flight returns -/
theorem enq_returns (hs : Sized p N σ) (hfair : ∀ t, KeepsRunning p N σ t) (t : Fin T) (n : Nat) (e : α) (r : Nat)
    (hpc : ((RState.at p N σ n).pc t).enq? = some (e, r)) :
    ∃ m, n < m ∧ (RState.at p N σ m).pc t = .idle ∧ REv.enqDone e r ∈ (RState.at p N σ m).events := by
  by_contra hcon
  have stays : ∀ m, n ≤ m → ((RState.at p N σ m).pc t).enq? = some (e, r) := by
    intro m hm
    induction m, hm using Nat.le_induction with
    | base => exact hpc
    | succ m hm ih =>
      by_cases htu : ∃ sp, σ m = .next t sp
      · obtain ⟨sp, hsp⟩ := htu
        rcases enq_turn hs hsp ih with ⟨h, _⟩ | ⟨h1, h2, _⟩
        · rw [h]; rfl
        · exact (hcon ⟨m + 1, by omega, h1, h2⟩).elim
      · have hb : (RState.at p N σ m).pc t ≠ .idle := by intro h; rw [h] at ih; cases ih
        rw [RState.at, pc_stays _ t _ hb (fun sp h => htu ⟨sp, h⟩)]
        exact ih
  obtain ⟨_, h2⟩ := (sized_inv hs n).1.hold t e r hpc
  obtain ⟨m, hm, hlt⟩ := published_passes hs hfair r n (List.getElem?_eq_some_iff.1 h2).1
  have := ((sized_inv hs m).1.hold t e r (stays m hm)).1
  omega

/-- the thread is in a `dequeue` on consumer `c` -/
def RPc.deqOf (c : Nat) : RPc α → Prop
  | .deqHead c' _ => c' = c
  | .deqReload c' => c' = c
  | .deqTail c' _ _ => c' = c
  | .deqClaimed c' _ _ => c' = c
  | _ => False

/-- a turn of a thread in `dequeue` -/
theorem deq_turn (hs : Sized p N σ) {m : Nat} {t : Fin T} {sp : Bool} (hσ : σ m = .next t sp) {c : Nat}
    (hpc : ((RState.at p N σ m).pc t).deqOf c) :
    ((RState.at p N σ (m + 1)).pc t = .idle ∧
      ∃ x, (RState.at p N σ (m + 1)).events = (RState.at p N σ m).events ++ [x] ∧ x.answersDequeue c) ∨
    (∃ h, (RState.at p N σ m).pc t = .deqHead c h ∧ ∃ tl, (RState.at p N σ (m + 1)).pc t = .deqTail c h tl) ∨
    (∃ h tl hh, (RState.at p N σ m).pc t = .deqTail c h tl ∧ (RState.at p N σ m).heads[c]? = some hh ∧
      (RState.at p N σ (m + 1)).pc t = .deqHead c hh ∧ (RState.at p N σ (m + 1)).heads[c]? = some hh ∧ ¬ (h = hh ∧ sp = false)) ∨
    (∃ h tl, (RState.at p N σ m).pc t = .deqTail c h tl ∧ (RState.at p N σ m).heads[c]? = some h ∧
      (RState.at p N σ (m + 1)).pc t = .deqClaimed c h tl ∧ (RState.at p N σ (m + 1)).heads[c]? = some (h + 1)) := by
  obtain ⟨hp, hk⟩ := sized_inv hs m
  have hlen := hs.few m
  have hN : N ≠ 0 := by have := hs.slots; omega
  have hsz := hs.size
  have hme := hk.pcs t
  rw [RState.at, hσ]
  generalize RState.at p N σ m = s at *
  simp only [RState.act]
  cases h : s.pc t with
  | deqHead c' hd =>
    rw [h] at hpc hme
    obtain rfl : c' = c := hpc
    obtain ⟨hh, m1, m2⟩ := hme
    have m3 := hk.headLe c' hh m1
    have h1 : ¬ hd > s.ring.published := by omega
    simp only [RState.nextStep, h1, if_false]
    by_cases h2 : hd = s.ring.published
    · left; rw [if_pos h2]; exact ⟨by simp [RState.setPc, RState.emit], .deqNone c', rfl, rfl⟩
    · right; left
      rw [if_neg h2]
      exact ⟨hd, rfl, s.ring.published, by simp [RState.setPc]⟩
  | deqReload c' => rw [h] at hme; exact (hme trivial).elim
  | deqTail c' hd tl =>
    rw [h] at hpc hme
    obtain rfl : c' = c := hpc
    obtain ⟨m0, m1, hh, m2, m3⟩ := hme
    have hpub := hp.pub
    have h4 : hd + 1 < 2 ^ 32 := by omega
    have hlt := (List.getElem?_eq_some_iff.1 m2).1
    simp only [RState.nextStep, u32Add, h4, if_true]
    by_cases hc : s.heads[c']? = some hd ∧ sp = false
    · right; right; right
      rw [if_pos hc]
      exact ⟨hd, tl, rfl, hc.1, by simp [RState.setPc, RState.emit], by simp [RState.setPc, RState.emit, hlt]⟩
    · right; right; left
      rw [if_neg hc]
      refine ⟨hd, tl, hh, rfl, m2, by simp [RState.setPc, List.getD, m2], m2, ?_⟩
      rintro ⟨rfl, h⟩
      exact hc ⟨m2, h⟩
  | deqClaimed c' hd tl =>
    rw [h] at hpc hme
    obtain rfl : c' = c := hpc
    obtain ⟨m0, m1, _⟩ := hme
    have hpub := hp.pub
    have h4 : hd ≤ s.ring.reserved := by rw [hp.res]; omega
    left
    simp only [RState.nextStep, u32Sub, h4, if_true, hN, if_false]
    split
    · exact ⟨by simp [RState.setPc, RState.emit], .deqErr c' hd, rfl, rfl⟩
    · exact ⟨by simp [RState.setPc, RState.emit], .deqSome c' hd _, rfl, rfl⟩
  | _ => rw [h] at hpc; exact hpc.elim

/-- a monotone bounded sequence is eventually constant -/
theorem eventually_constant (f : Nat → Nat) (B n : Nat) (hmono : ∀ a b, n ≤ a → a ≤ b → f a ≤ f b) (hB : ∀ a, n ≤ a → f a ≤ B) :
    ∃ m, n ≤ m ∧ ∀ k, m ≤ k → f k = f m := by
  by_contra hcon
  have step : ∀ m, n ≤ m → ∃ k, m ≤ k ∧ f m < f k := by
    intro m hm
    by_contra h
    refine hcon ⟨m, hm, fun k hk => ?_⟩
    have := hmono m k hm hk
    by_contra h2
    exact h ⟨k, hk, by omega⟩
  have : ∀ b, ∃ m, n ≤ m ∧ b ≤ f m := by
    intro b
    induction b with
    | zero => exact ⟨n, Nat.le_refl _, Nat.zero_le _⟩
    | succ b ih =>
      obtain ⟨m, hm, h⟩ := ih
      obtain ⟨k, hk, h'⟩ := step m hm
      exact ⟨k, by omega, by omega⟩
  obtain ⟨m, hm, h⟩ := this (B + 1)
  have := hB m hm
  omega

/-- a `dequeue` in flight returns, whatever the other threads do -/
theorem deq_returns (hs : Sized p N σ) (t : Fin T) (hfair : KeepsRunning p N σ t) (n c : Nat)
    (hpc : ((RState.at p N σ n).pc t).deqOf c) : 
    ∃ m, n ≤ m ∧ (RState.at p N σ (m + 1)).pc t = .idle ∧
      ∃ x, (RState.at p N σ (m + 1)).events = (RState.at p N σ m).events ++ [x] ∧ x.answersDequeue c := by
  by_contra hcon
  have busy : ∀ m, ((RState.at p N σ m).pc t).deqOf c → (RState.at p N σ m).pc t ≠ .idle := by
    intro m h h'; rw [h'] at h; exact h
  have stays : ∀ m, n ≤ m → ((RState.at p N σ m).pc t).deqOf c := by
    intro m hm
    induction m, hm using Nat.le_induction with
    | base => exact hpc
    | succ m hm ih =>
      by_cases htu : ∃ sp, σ m = .next t sp
      · obtain ⟨sp, hsp⟩ := htu
        rcases deq_turn hs hsp ih with h | ⟨h, _, tl, h'⟩ | ⟨_, _, _, _, _, h', _⟩ | ⟨_, _, _, _, h', _⟩
        · exact (hcon ⟨m, by omega, h⟩).elim
        all_goals rw [h']; rfl
      · rw [RState.at, pc_stays _ t _ (busy m ih) (fun sp h => htu ⟨sp, h⟩)]
        exact ih
  -- the consumer exists
  have hex : ∃ h, (RState.at p N σ n).heads[c]? = some h := by
    have hme := (sized_inv hs n).2.pcs t
    revert hme hpc
    cases (RState.at p N σ n).pc t with
    | deqHead c' h => rintro rfl ⟨hh, a, _⟩; exact ⟨hh, a⟩
    | deqReload c' => intro _ h; exact (h trivial).elim
    | deqTail c' h tl => rintro rfl ⟨_, _, hh, a, _⟩; exact ⟨hh, a⟩
    | deqClaimed c' h tl => rintro rfl ⟨_, _, ⟨hh, a, _⟩, _⟩; exact ⟨hh, a⟩
    | _ => intro h; exact h.elim
  obtain ⟨h0, hh0⟩ := hex
  have hsome : ∀ m, n ≤ m → (RState.at p N σ m).heads[c]? = some ((RState.at p N σ m).heads.getD c 0) := by
    intro m hm
    obtain ⟨x, hx, _⟩ := (at_monotone hs hm).2 c h0 hh0
    simp [List.getD, hx]
  obtain ⟨n0, hn0, hconst⟩ := eventually_constant (fun m => (RState.at p N σ m).heads.getD c 0) (2 ^ 32) n
    (by
      intro a b ha hab
      obtain ⟨x, hx, hle⟩ := (at_monotone hs hab).2 c _ (hsome a ha)
      have := hsome b (by omega)
      rw [this] at hx
      have := Option.some.inj hx
      show (RState.at p N σ a).heads.getD c 0 ≤ (RState.at p N σ b).heads.getD c 0
      omega)
    (by
      intro a ha
      have h1 := (sized_inv hs a).2.headLe c _ (hsome a ha)
      have h2 := (sized_inv hs a).1.pub
      have h3 := hs.few a
      show (RState.at p N σ a).heads.getD c 0 ≤ 2 ^ 32
      omega)
  have hconst' : ∀ m, n0 ≤ m → (RState.at p N σ m).heads[c]? = some ((RState.at p N σ n0).heads.getD c 0) := by
    intro m hm
    rw [hsome m (by omega)]
    exact congrArg some (hconst m hm)
  generalize (RState.at p N σ n0).heads.getD c 0 = H at hconst'
  -- after n0 no claim: the thread alternates between the two places
  have alt : ∀ m, n0 ≤ m → ∀ sp, σ m = .next t sp →
      (∃ h, (RState.at p N σ m).pc t = .deqHead c h ∧ ∃ tl, (RState.at p N σ (m + 1)).pc t = .deqTail c h tl) ∨
      (∃ h tl, (RState.at p N σ m).pc t = .deqTail c h tl ∧ (RState.at p N σ (m + 1)).pc t = .deqHead c H ∧ ¬ (h = H ∧ sp = false)) := by
    intro m hm sp hsp
    rcases deq_turn hs hsp (stays m (by omega)) with h | h | ⟨h, tl, hh, a1, a2, a3, a4, a5⟩ | ⟨h, tl, a1, a2, a3, a4⟩
    · exact (hcon ⟨m, by omega, h⟩).elim
    · exact Or.inl h
    · rw [hconst' m hm] at a2
      obtain rfl := Option.some.inj a2
      exact Or.inr ⟨h, tl, a1, a3, a5⟩
    · rw [hconst' m hm] at a2
      rw [hconst' (m + 1) (by omega)] at a4
      have := Option.some.inj a2
      have := Option.some.inj a4
      omega
  -- it attempts compare-exchanges infinitely often
  have often : ∀ k, ∃ m, k ≤ m ∧ n0 ≤ m ∧ (∃ h tl, (RState.at p N σ m).pc t = .deqTail c h tl) ∧ ∃ sp, σ m = .next t sp := by
    intro k
    obtain ⟨m, hm, sp, hsp⟩ := hfair.turns (max k n0)
    rcases alt m (by omega) sp hsp with ⟨h, a1, tl, a2⟩ | ⟨h, tl, a1, _⟩
    · obtain ⟨m', hm', hsp', he⟩ := first_turn (p := p) (N := N) t (m + 1) (hfair.turns (m + 1)) (by rw [a2]; simp)
      exact ⟨m', by omega, by omega, ⟨h, tl, by rw [he, a2]⟩, hsp'⟩
    · exact ⟨m, by omega, by omega, ⟨h, tl, a1⟩, sp, hsp⟩
  -- after one attempt it only knows the newest head
  obtain ⟨m1, _, hm1, ⟨x, y, hx⟩, sp1, hsp1⟩ := often n0
  have fresh : ∀ m, m1 + 1 ≤ m → ((RState.at p N σ m).pc t = .deqHead c H ∨ ∃ tl, (RState.at p N σ m).pc t = .deqTail c H tl) := by
    intro m hm
    induction m, hm using Nat.le_induction with
    | base =>
      rcases alt m1 hm1 sp1 hsp1 with ⟨h, a1, _⟩ | ⟨h, tl, _, a2, _⟩
      · rw [hx] at a1; cases a1
      · exact Or.inl a2
    | succ m hm ih =>
      by_cases htu : ∃ sp, σ m = .next t sp
      · obtain ⟨sp, hsp⟩ := htu
        rcases alt m (by omega) sp hsp with ⟨h, a1, tl, a2⟩ | ⟨h, tl, a1, a2, _⟩
        · rcases ih with ih | ⟨tl', ih⟩
          · rw [ih] at a1
            obtain rfl := (RPc.deqHead.inj a1).2
            exact Or.inr ⟨tl, a2⟩
          · rw [ih] at a1; cases a1
        · exact Or.inl a2
      · have := pc_stays (p := p) (N := N) (RState.at p N σ m) t (σ m) (busy m (stays m (by omega))) (fun sp h => htu ⟨sp, h⟩)
        rw [RState.at, this]
        exact ih
  obtain ⟨m, hm, hcas, hσ⟩ := hfair.lucky (fun k => by
    obtain ⟨m, hm, _, ⟨h, tl, he⟩, hsp⟩ := often k
    exact ⟨m, hm, by rw [he]; trivial, hsp⟩) (m1 + 1)
  rcases fresh m hm with h | ⟨tl, h⟩
  · rw [h] at hcas; exact hcas
  · rcases alt m (by omega) false hσ with ⟨h', a1, _⟩ | ⟨h', tl', a1, _, a3⟩
    · rw [h] at a1; cases a1
    · rw [h] at a1
      obtain ⟨_, rfl, _⟩ := RPc.deqTail.inj a1
      exact a3 ⟨rfl, rfl⟩

/-- a `peek_all` in flight returns at its next turn -/
theorem peek_turn (hs : Sized p N σ) {m : Nat} {t : Fin T} {sp : Bool} (hσ : σ m = .next t sp) {c h : Nat}
    (hpc : (RState.at p N σ m).pc t = .peekHead c h) : (RState.at p N σ (m + 1)).pc t = .idle ∧
      ∃ x, (RState.at p N σ (m + 1)).events = (RState.at p N σ m).events ++ [x] ∧ x.answersPeek c := by
  obtain ⟨hp, hk⟩ := sized_inv hs m
  have hme := hk.pcs t
  rw [RState.at, hσ]
  generalize RState.at p N σ m = s at *
  rw [hpc] at hme
  obtain ⟨hh, m1, m2⟩ := hme
  have m3 := hk.headLe c hh m1
  obtain ⟨e, he, _⟩ := peekEvent_ok (p := p) hs.slots (r := s.ring) (c := c) (h := h) (by omega)
  refine ⟨by simp [RState.act, hpc, RState.nextStep, he, RState.setPc, RState.emit], e,
    by simp [RState.act, hpc, RState.nextStep, he, RState.setPc, RState.emit], ?_⟩
  unfold peekEvent at he
  split at he <;> cases he <;> rfl

end BigO
