import Verif.Spec.RingWeakSpec
import Verif.Proofs.RingConc

/-! # Invariants of the ring buffer under the orderings of the code -/
set_option linter.unusedSimpArgs false
set_option linter.unusedVariables false
namespace BigO

variable {α : Type} {T : Nat}

theorem WCell.last_push {β : Type} (l : WCell β) (v : β) (r : View) : (l.push v r).last = v := by
  simp [WCell.last, WCell.push]

theorem WCell.val_push_old {β : Type} (l : WCell β) (v : β) (r : View) {i : Nat} (h : i ≤ l.top) : (l.push v r).val i = l.val i := by
  have : ¬ i = l.top + 1 := by omega
  simp [WCell.push, this]

theorem newest_reserve (s : WRing α T) (t : Fin T) (e : α) : (s.reserve t e).newest =
    { s.newest with ring := { s.newest.ring with reserved := (s.newest.ring.reserved + 1) % 2 ^ 32 }, log := s.log ++ [e] } := by
  simp [WRing.reserve, WRing.newest, WRing.see, WCell.last_push]

theorem newest_store (s : WRing α T) (t : Fin T) (k : Nat) (e : α) : (s.store t k e).newest =
    { s.newest with ring := s.newest.ring.write k e } := by
  simp only [WRing.store, WRing.newest, WRing.see, Ring.write]
  congr 2
  funext x
  split
  · rename_i h; subst h; rw [WCell.last_push]
  · rfl

theorem newest_publish (s : WRing α T) (t : Fin T) (v : Nat) : (s.publish t v).newest =
    { s.newest with ring := { s.newest.ring with published := v } } := by
  simp [WRing.publish, WRing.newest, WRing.see, WCell.last_push]

theorem newest_claim (s : WRing α T) (t : Fin T) (c : Nat) (l : WCell Nat) (v : Nat) : (s.claim t c l v).newest =
    { s.newest with heads := s.newest.heads.set c v } := by
  simp [WRing.claim, WRing.newest, WRing.see, WRing.learn, List.map_set, WCell.last_push]

theorem newest_addConsumer (s : WRing α T) (t : Fin T) (i : Nat) : (s.addConsumer t i).newest =
    { s.newest with heads := s.newest.heads ++ [s.published.val i], starts := s.newest.starts ++ [s.published.val i] } := by
  simp [WRing.addConsumer, WRing.newest, WRing.see, WCell.new, WCell.last]

/-- the invariants on the newest values, and on the modification orders -/
structure WInv (N : Nat) (s : WRing α T) : Prop where
  prod : PInv N s.newest
  cons : KInv False s.newest
  res : ∀ i, i ≤ s.reserved.top → s.reserved.val i = i
  pub : ∀ i, i ≤ s.published.top → s.published.val i = i
  hds : ∀ (c : Nat) l, s.heads[c]? = some l → ∀ i, i ≤ l.top → l.val i ≤ l.last

theorem winv_init (N : Nat) : WInv N (WRing.init α T) := by
  refine ⟨pinv_init N, kinv_init, ?_, ?_, ?_⟩ <;> simp [WRing.init, WCell.new]

theorem readable_iff (s : WRing α T) (t : Fin T) (l : WLoc) (top i : Nat) :
    s.readable t l top i = true ↔ s.view t l ≤ i ∧ i ≤ top := by simp [WRing.readable]

/-- same memory, same newest state -/
theorem winv_keep {N : Nat} {s s' : WRing α T} (h : WInv N s) (h1 : PInv N s'.newest) (h2 : KInv False s'.newest)
    (e1 : s'.reserved = s.reserved) (e2 : s'.published = s.published) (e3 : s'.heads = s.heads) : WInv N s' :=
  ⟨h1, h2, by rw [e1]; exact h.res, by rw [e2]; exact h.pub, by rw [e3]; exact h.hds⟩

/-- a move of a thread outside `enqueue` to a program counter without reservation or claim -/
theorem winv_move {N : Nat} {s : WRing α T} (h : WInv N s) (t : Fin T) (x : RPc α) (v : Fin T → View) (rc : Bool)
    (h1 : (s.pc t).enq? = none) (h2 : x.enq? = none) (hx : x.ok False s.newest) (hx' : ∀ c a b, x ≠ .deqClaimed c a b) :
    WInv N ({ s with view := v, raced := rc }.setPc t x) :=
  winv_keep h (pinv_pc (s := s.newest) h.prod t x rfl rfl rfl h1 h2)
    (kinv_frame (s := s.newest) h.cons t x rfl rfl rfl rfl (List.prefix_refl _) rfl
      (by revert hx; cases x <;> exact id) hx' (by intro hb; exact hb.elim)) rfl rfl rfl

/-- the same with an event that reports neither a claim, a result nor a completed enqueue -/
theorem winv_emit {N : Nat} {s : WRing α T} (h : WInv N s) (e : REv α) (h1 : ∀ c, claimsOf c [e] = [])
    (h2 : ∀ c, resultsOf c [e] = []) (h3 : doneOf [e] = []) (h4 : ∀ c a v, e ≠ .deqSome c a v) (h5 : ∀ a r, e ≠ .enqDone a r) :
    WInv N (s.emit e) :=
  winv_keep h (pinv_emit h.prod e) (kinv_emit h.cons e h1 h2 h3 h4 h5) rfl rfl rfl

theorem pub_le {N : Nat} {s : WRing α T} (h : WInv N s) {i : Nat} (hi : i ≤ s.published.top) :
    s.published.val i ≤ s.newest.ring.published := by
  show _ ≤ s.published.val s.published.top
  rw [h.pub i hi, h.pub _ (Nat.le_refl _)]; exact hi

theorem head_some {s : WRing α T} {c : Nat} {l : WCell Nat} (hc : s.heads[c]? = some l) :
    s.newest.heads[c]? = some l.last := by
  simp [WRing.newest, hc]

/-- the events of `peek_all` are neither claims, results nor completed enqueues -/
theorem peekEvent_kind {p : Profile} {N : Nat} {r : Ring α} {c h : Nat} {e : REv α} (he : peekEvent p N r c h = .ok e) :
    (∀ c, claimsOf c [e] = []) ∧ (∀ c, resultsOf c [e] = []) ∧ doneOf [e] = [] ∧
      (∀ c a v, e ≠ .deqSome c a v) ∧ (∀ a r, e ≠ .enqDone a r) := by
  simp only [peekEvent] at he
  split at he <;> simp only [Except.ok.injEq, reduceCtorEq] at he <;> subst he <;> simp [claimsOf, resultsOf, doneOf]

/-- every action preserves the invariants, while fewer than 2^32 elements were enqueued and no more than `N` enqueues are in flight -/
theorem winv_act {p : Profile} {N : Nat} (hN : 0 < N) {s : WRing α T} (hT : s.newest.inFlight ≤ N)
    (h : WInv N s) (a : WAct α T) (hs : (s.act p N a).log.length < 2 ^ 32) : WInv N (s.act p N a) := by
  have hN' : N ≠ 0 := by omega
  have hp := h.prod
  have hk := h.cons
  cases a with
  | sync t u => exact winv_keep h hp hk rfl rfl rfl
  | enqueue t e =>
    simp only [WRing.act] at hs ⊢
    cases hpc : s.pc t with
    | idle =>
      rw [hpc] at hs
      simp only at hs ⊢
      have hs' : s.log.length + 1 < 2 ^ 32 := by simpa [WRing.reserve, WRing.setPc, WRing.see] using hs
      have hres : s.reserved.last = s.log.length := hp.res
      have htop : s.reserved.top = s.log.length := by rw [← hres]; exact (h.res _ (Nat.le_refl _)).symm
      have hn : ((s.reserve t e).setPc t (.enqReserved e s.reserved.last)).newest =
          ({ s.newest with ring := { s.newest.ring with reserved := (s.newest.ring.reserved + 1) % 2 ^ 32 }, log := s.newest.log ++ [e] }.setPc t
            (.enqReserved e s.newest.ring.reserved)) := by
        show ((s.reserve t e).newest).setPc t _ = _
        rw [newest_reserve]; rfl
      refine ⟨?_, ?_, ?_, h.pub, h.hds⟩
      · rw [hn]; exact pinv_reserve hp t e hpc hs'
      · rw [hn]
        exact kinv_frame hk t _ rfl rfl rfl rfl (List.prefix_append _ _) rfl trivial (by simp) (by simp)
      · intro i hi
        change i ≤ s.reserved.top + 1 at hi
        show (s.reserved.push _ _).val i = i
        by_cases hi' : i = s.reserved.top + 1
        · subst hi'
          simp only [WCell.push, if_true]
          omega
        · rw [WCell.val_push_old _ _ _ (by omega)]; exact h.res i (by omega)
    | _ => exact h
  | consumer t i =>
    simp only [WRing.act]
    cases hpc : s.pc t with
    | idle =>
      simp only
      split
      · rename_i hr
        rw [readable_iff] at hr
        have hle := pub_le h hr.2
        have hn := newest_addConsumer s t i
        refine ⟨?_, ?_, h.res, h.pub, ?_⟩
        · rw [hn]; exact ⟨hp.res, hp.pub, hp.hold, hp.uniq, hp.cover, hp.slots⟩
        · rw [hn]; exact kinv_consumer hk hle
        · intro c l hl
          change (s.heads ++ [WCell.new (s.published.val i)])[c]? = some l at hl
          rcases Nat.lt_or_ge c s.heads.length with g | g
          · rw [List.getElem?_append_left g] at hl; exact h.hds c l hl
          · rw [List.getElem?_append_right g] at hl
            obtain ⟨hlt, hl⟩ := List.getElem?_eq_some_iff.1 hl
            simp at hl
            subst hl
            intro i _; exact Nat.le_refl _
      · exact h
    | _ => exact h
  | dequeue t c i =>
    simp only [WRing.act]
    split
    · rename_i l v hpc hc hb
      split
      · rename_i hr
        rw [readable_iff] at hr
        exact winv_move h t _ _ s.raced (by rw [hpc]; rfl) rfl ⟨_, head_some hc, h.hds c l hc i hr.2⟩ (by simp)
      · exact h
    · exact h
  | peekAll t c i =>
    simp only [WRing.act]
    split
    · rename_i l v hpc hc hb
      split
      · rename_i hr
        rw [readable_iff] at hr
        exact winv_move h t _ _ s.raced (by rw [hpc]; rfl) rfl ⟨_, head_some hc, h.hds c l hc i hr.2⟩ (by simp)
      · exact h
    · exact h
  | next t i j ok =>
    have hlog : s.log.length < 2 ^ 32 := by
      have : (s.act p N (.next t i j ok)).log = s.log := by
        simp only [WRing.act]
        cases s.pc t <;> simp only [WRing.nextStep, WRing.setPc, WRing.emit, WRing.store, WRing.fetch, WRing.publish, WRing.claim,
          WRing.see, WRing.learn] <;> repeat (first | rfl | split)
      rwa [this] at hs
    have hme := hk.pcs t
    change (s.pc t).ok False s.newest at hme
    have htop : s.published.top = s.newest.ring.published := (h.pub _ (Nat.le_refl _)).symm
    simp only [WRing.act]
    cases hpc : s.pc t with
    | idle => exact h
    | panicked q => exact h
    | enqReserved e r =>
      simp only [WRing.nextStep, hN', if_false]
      have hn : ((s.store t (r % N) e).setPc t (.enqWritten e r)).newest =
          { s.newest with ring := s.newest.ring.write (r % N) e }.setPc t (.enqWritten e r) := by
        show ((s.store t (r % N) e).newest).setPc t _ = _
        rw [newest_store]
      refine ⟨?_, ?_, h.res, h.pub, h.hds⟩
      · rw [hn]; exact pinv_write hT hp t e r hpc
      · rw [hn]
        exact kinv_frame hk t _ rfl rfl rfl rfl (List.prefix_refl _) rfl trivial (by simp) (by simp)
    | enqWritten e r =>
      obtain ⟨h1, h2⟩ := hp.hold t e r (by show (s.pc t).enq? = _; rw [hpc]; rfl)
      have h3 : r < s.log.length := (List.getElem?_eq_some_iff.1 h2).1
      have h4 : r + 1 < 2 ^ 32 := by omega
      simp only [WRing.nextStep, u32Add, h4, if_true]
      split
      · split
        · rename_i hl
          have hpc' : s.newest.pc t = .enqWritten e s.newest.ring.published := by
            show s.pc t = .enqWritten e s.published.last
            rw [hl]; exact hpc
          have hn : (((s.publish t (r + 1)).setPc t .idle).emit (.enqDone e r)).newest =
              (({ s.newest with ring := { s.newest.ring with published := s.newest.ring.published + 1 } }.setPc t .idle).emit
                (.enqDone e s.newest.ring.published)) := by
            show (((s.publish t (r + 1)).newest).setPc t .idle).emit (.enqDone e r) = _
            rw [newest_publish]
            show _ = (({ s.newest with ring := { s.newest.ring with published := s.published.last + 1 } }.setPc t .idle).emit
                (.enqDone e s.published.last))
            rw [hl]
          refine ⟨?_, ?_, h.res, ?_, h.hds⟩
          · rw [hn]; exact pinv_publish hp t e hpc' rfl rfl rfl
          · rw [hn]
            refine kinv_publish hk t e hpc' ?_
            show s.newest.log[s.published.last]? = some e
            rw [hl]; exact h2
          · intro i hi
            change i ≤ s.published.top + 1 at hi
            show (s.published.push _ _).val i = i
            by_cases hi' : i = s.published.top + 1
            · subst hi'
              simp only [WCell.push, if_true]
              have : s.newest.ring.published = r := hl
              omega
            · rw [WCell.val_push_old _ _ _ (by omega)]; exact h.pub i (by omega)
        · exact h
      · split
        · rename_i hr
          rw [readable_iff] at hr
          have hle := pub_le h hr.2
          have : ¬ s.published.val i > r := by omega
          simp only [this, if_false]
          exact winv_keep h hp hk rfl rfl rfl
        · exact h
    | deqHead c hd =>
      rw [hpc] at hme
      obtain ⟨hh, m1, m2⟩ := hme
      simp only [WRing.nextStep]
      split
      · rename_i hr
        rw [readable_iff] at hr
        have hle := pub_le h hr.2
        split
        · exact winv_move h t _ _ s.raced (by rw [hpc]; rfl) rfl not_false (by simp)
        · split
          · refine winv_emit (winv_move h t .idle _ s.raced (by rw [hpc]; rfl) rfl trivial (by simp)) _ ?_ ?_ ?_ ?_ ?_
            all_goals simp [claimsOf, resultsOf, doneOf]
          · exact winv_move h t _ _ s.raced (by rw [hpc]; rfl) rfl ⟨by omega, hle, hh, m1, m2⟩ (by simp)
      · exact h
    | deqReload c =>
      simp only [WRing.nextStep]
      split
      · exact h
      · rename_i l hc
        split
        · rename_i hr
          rw [readable_iff] at hr
          exact winv_move h t _ _ s.raced (by rw [hpc]; rfl) rfl ⟨_, head_some hc, h.hds c l hc i hr.2⟩ (by simp)
        · exact h
    | deqTail c hd tl =>
      rw [hpc] at hme
      obtain ⟨m0, m1, hh, m2, m3⟩ := hme
      have hpub : s.newest.ring.published ≤ s.log.length := hp.pub
      have h4 : hd + 1 < 2 ^ 32 := by omega
      simp only [WRing.nextStep, u32Add, h4, if_true]
      split
      · exact h
      · rename_i l hc
        split
        · split
          · rename_i hl
            have hn : (((s.claim t c l (hd + 1)).setPc t (.deqClaimed c hd tl)).emit (.claim c hd)).newest =
                (({ s.newest with heads := s.newest.heads.set c (hd + 1) }.setPc t (.deqClaimed c hd tl)).emit (.claim c hd)) := by
              show (((s.claim t c l (hd + 1)).newest).setPc t _).emit _ = _
              rw [newest_claim]
            refine ⟨?_, ?_, h.res, h.pub, ?_⟩
            · rw [hn]
              apply pinv_emit
              exact pinv_pc hp t _ rfl rfl rfl (by show (s.pc t).enq? = _; rw [hpc]; rfl) rfl
            · rw [hn]
              exact kinv_claim hk t c hd tl hpc (by rw [head_some hc, hl])
            · intro c' l' hl' i hi
              change (s.heads.set c (l.push (hd + 1) (l.rel l.top)))[c']? = some l' at hl'
              by_cases hcc : c' = c
              · subst hcc
                rw [List.getElem?_set_self (List.getElem?_eq_some_iff.1 hc).1] at hl'
                obtain rfl := Option.some.inj hl'
                rw [WCell.last_push]
                change i ≤ l.top + 1 at hi
                by_cases hi' : i = l.top + 1
                · subst hi'; simp [WCell.push]
                · rw [WCell.val_push_old _ _ _ (by omega)]
                  have := h.hds c' l hc i (by omega)
                  omega
              · rw [List.getElem?_set_ne (fun h => hcc h.symm)] at hl'
                exact h.hds c' l' hl' i hi
          · exact h
        · split
          · rename_i hr
            rw [readable_iff] at hr
            exact winv_move h t _ _ s.raced (by rw [hpc]; rfl) rfl ⟨_, head_some hc, h.hds c l hc i hr.2⟩ (by simp)
          · exact h
    | deqClaimed c hd tl =>
      have hpidle := pinv_pc (s' := s.newest.setPc t .idle) hp t .idle rfl rfl rfl (by show (s.pc t).enq? = _; rw [hpc]; rfl) rfl
      simp only [WRing.nextStep, hN', if_false]
      split
      · split
        · exact winv_move h t _ _ s.raced (by rw [hpc]; rfl) rfl not_false (by simp)
        · split
          · refine winv_keep h (pinv_emit hpidle _) ?_ rfl rfl rfl
            refine kinv_result hk t c hd tl (.deqErr c hd) hpc ?_ ?_ ?_ ?_ ?_
            · simp [claimsOf]
            · intro c'; simp [resultsOf, eq_comm]
            all_goals simp [doneOf]
          · split
            · refine winv_keep h (pinv_emit hpidle _) ?_ rfl rfl rfl
              refine kinv_result hk t c hd tl (.deqSome c hd _) hpc ?_ ?_ ?_ ?_ ?_
              · simp [claimsOf]
              · intro c'; simp [resultsOf, eq_comm]
              all_goals simp [doneOf]
            · exact h
      · exact h
    | peekHead c hd =>
      simp only [WRing.nextStep]
      split
      · split
        · rename_i e he
          obtain ⟨e1, e2, e3, e4, e5⟩ := peekEvent_kind he
          exact winv_emit (winv_move h t .idle _ s.raced (by rw [hpc]; rfl) rfl trivial (by simp)) e e1 e2 e3 e4 e5
        · exact winv_move h t _ _ s.raced (by rw [hpc]; rfl) rfl not_false (by simp)
      · exact h

theorem wact_log_prefix {p : Profile} {N : Nat} (s : WRing α T) (a : WAct α T) : s.log <+: (s.act p N a).log := by
  cases a with
  | enqueue t e =>
    simp only [WRing.act]
    cases s.pc t <;> simp [WRing.setPc, WRing.reserve, WRing.see]
  | consumer t i =>
    simp only [WRing.act]; cases s.pc t <;> simp only [WRing.addConsumer, WRing.see] <;> repeat (first | exact List.prefix_refl _ | split)
  | dequeue t c i =>
    simp only [WRing.act, WRing.see, WRing.learn, WRing.setPc]; repeat (first | exact List.prefix_refl _ | split)
  | peekAll t c i =>
    simp only [WRing.act, WRing.see, WRing.learn, WRing.setPc]; repeat (first | exact List.prefix_refl _ | split)
  | sync t u => exact List.prefix_refl _
  | next t i j ok =>
    have : (s.act p N (.next t i j ok)).log = s.log := by
      simp only [WRing.act]
      cases s.pc t <;> simp only [WRing.nextStep, WRing.setPc, WRing.emit, WRing.store, WRing.fetch, WRing.publish, WRing.claim,
        WRing.see, WRing.learn] <;> repeat (first | rfl | split)
    rw [this]

theorem wrun_log_prefix {p : Profile} {N : Nat} (acts : List (WAct α T)) :
    ∀ s : WRing α T, s.log <+: (s.run p N acts).log := by
  induction acts with
  | nil => intro s; exact List.prefix_refl _
  | cons a acts ih => intro s; exact (wact_log_prefix s a).trans (ih _)

theorem winv_run {p : Profile} {N : Nat} (hN : 0 < N) (acts : List (WAct α T)) :
    ∀ {s : WRing α T}, WInv N s → (∀ k, (s.run p N (acts.take k)).newest.inFlight ≤ N) →
      (s.run p N acts).log.length < 2 ^ 32 → WInv N (s.run p N acts) := by
  induction acts with
  | nil => intro s h _ _; exact h
  | cons a acts ih =>
    intro s h hT hs
    have hs1 : (s.act p N a).log.length < 2 ^ 32 :=
      Nat.lt_of_le_of_lt (wrun_log_prefix (p := p) (N := N) acts (s.act p N a)).length_le hs
    exact ih (winv_act hN (hT 0) h a hs1) (fun k => hT (k + 1)) hs

end BigO
