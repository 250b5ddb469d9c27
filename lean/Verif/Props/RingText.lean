import Verif.Props.Ring
import Verif.Props.RingConc
import Verif.Props.StatsText

/-!
# What the overflow error of the ring buffer says: C111
-/
namespace BigO

variable {α : Type}

/-- the text, in words: how many elements were published, at which position the consumer stood, and the size -/
def overflowWords (published position size : Nat) : String :=
  "Ring-Buffer overflow: published_tail=" ++ toString published ++ ", head=" ++ toString position ++
    " -- tail could not be farther from head than the ring buffer size of " ++ toString size

theorem words_eq (N a b : Nat) : (overflowError N a b).msg = overflowWords a b N := by
  unfold overflowWords overflowError
  with_reducible rfl

theorem shown_eq (N a b : Nat) : (overflowError N a b).display = "RingBufferOverflowError: " ++ overflowWords a b N := by
  rw [← words_eq]
  generalize overflowError N a b = e
  rfl

theorem io_shown (e : OverflowError) : e.toIo.display = e.display := rfl

/-- C111: after any history, a new consumer followed by any calls: when a `dequeue` or `peek_all` on it then fails, the error
tells how many elements were ever enqueued, how many the consumer had left behind (those enqueued before its creation, and one
per `dequeue` that did not answer `Ok(None)`) and the size of the buffer - and by these numbers it is a real overflow. The error
shown to the user, also when turned into an `std::io::Error`, is that text after the name of the error. -/
theorem C111_overflow_text (p : Profile) (N : Nat) (hN : 0 < N) (hN32 : N < 2 ^ 32) (pre post : List (RingOp α))
    (hfew : (enqueued (pre ++ post)).length < 2 ^ 32) (id : Nat)
    (hid : ((afterHist p N pre).step p N .consumer).2 = .consumer id)
    (s : RingSys α) (outs : List (RingOut α)) (hrun : ((afterHist p N pre).step p N .consumer).1.run p N post = (s, outs))
    (call : RingOp α) (hcall : call = .dequeue id ∨ call = .peekAll id) (e : OverflowError)
    (herr : (s.step p N call).2 = .overflow e) (published position : Nat)
    (hpub : published = (enqueued pre).length + (enqueued post).length)
    (hpos : position = (enqueued pre).length + consumedCount id post outs) :
    e.msg = overflowWords published position N ∧ position + N < published ∧
      e.display = "RingBufferOverflowError: " ++ overflowWords published position N ∧
      e.toIo.kind = "InvalidInput" ∧ e.toIo.display = "RingBufferOverflowError: " ++ overflowWords published position N := by
  obtain ⟨l, h1, h2, h3, h4⟩ := sys_after p N hN hN32 pre post hfew hid
  obtain ⟨k1, k2, k3⟩ := run_cursor (p := p) hN32 post h1 h4 h3
  obtain ⟨_, hsys, hlog⟩ := run_refines (p := p) hN32 post h1 h4
  rw [hrun] at k1 k2 k3 hsys
  simp only at k1 k2 k3 hsys
  rw [← hpos] at k1 k3
  have hlen : (l.run N post).1.log.length = published := by rw [hlog, h2, List.length_append, hpub]
  have key : e = overflowError N published position ∧ position + N < published := by
    rcases hcall with rfl | rfl
    · have hd := dequeue_inv (p := p) hsys.ring hN32 k3
      simp only [RingSys.step, hsys.heads, k1, hd, hlen] at herr
      by_cases he : position = published
      · rw [if_pos he] at herr; cases herr
      · rw [if_neg he] at herr
        by_cases ho : published - position > N
        · simp only [ho, if_true, RingOut.overflow.injEq] at herr
          exact ⟨herr.symm, by omega⟩
        · simp only [ho, if_false] at herr; cases herr
    · rcases peek_inv (p := p) hsys.ring hN32 k3 with ⟨q1, q⟩ | ⟨_, a, b, q, _⟩
      · simp only [RingSys.step, hsys.heads, k1, q, hlen, RingOut.overflow.injEq] at herr
        rw [List.length_drop, hlen] at q1
        exact ⟨herr.symm, by omega⟩
      · simp only [RingSys.step, hsys.heads, k1, q] at herr; cases herr
  obtain ⟨rfl, hlt⟩ := key
  exact ⟨words_eq _ _ _, hlt, shown_eq _ _ _, rfl, (io_shown _).trans (shown_eq _ _ _)⟩

/-- C111: the three numbers can be read back from the text. -/
theorem C111_readable (a b n a' b' n' : Nat) (h : overflowWords a b n = overflowWords a' b' n') : a = a' ∧ b = b' ∧ n = n' := by
  unfold overflowWords at h
  replace h := congrArg String.toList h
  have hn : ∀ n : Nat, (toString n).toList = Nat.toDigits 10 n := fun n => by rw [Nat.toString_eq_repr, Nat.toList_repr]
  simp only [String.toList_append, hn, List.append_assoc] at h
  replace h := List.append_cancel_left h
  obtain ⟨k0, h⟩ := number_sep (by decide) h
  obtain ⟨k1, h⟩ := number_sep (by decide) h
  exact ⟨k0, k1, by rw [← Nat.ofDigitChars_ten_toDigits (n := n), h, Nat.ofDigitChars_ten_toDigits]⟩

/-- non-vacuity: a consumer of a buffer of two slots, four elements (one taken out before it was created) -/
example : (((RingSys.init Nat).run .checked 2 [.enqueue 10, .consumer, .enqueue 11, .dequeue 0, .enqueue 12, .enqueue 13,
      .enqueue 14, .dequeue 0]).2.getLast?).map (fun | .overflow e => e.display | _ => "")
    = some ("RingBufferOverflowError: Ring-Buffer overflow: published_tail=5, head=2 -- tail could not be farther from " ++
      "head than the ring buffer size of 2") := by decide +kernel

/-- the error with which a thread that has claimed a position fails if it fails (ring_buffer.rs 128-132): `published_tail` and
`head` are those of the moment of the claim -/
def RPc.error? (N : Nat) : RPc α → Option OverflowError
  | .deqClaimed _ h tail => some (overflowError N tail h)
  | _ => none

/-- C111: with enqueues in flight the text can contradict itself: the element is lost as soon as its slot is reserved again, but
the text names the elements *published* before the claim. With two slots, one published element and two more enqueues under way
while a `dequeue` is, the call fails with "published_tail=1, head=0 ... ring buffer size of 2". -/
theorem C111_concurrent_text_contradicts_itself :
    ∃ (acts : List (RAct Nat 3)) (s : RState Nat 3), (RState.init Nat 3).run .checked 2 acts = s ∧
      ((s.pc 0).error? 2).map OverflowError.msg = some (overflowWords 1 0 2) ∧
      (s.act .checked 2 (.next 0 false)).events = s.events ++ [.deqErr 0 0] :=
  ⟨[.consumer 0, .enqueue 0 1, .next 0 false, .next 0 false, .dequeue 0 0, .next 0 false, .next 0 false,
    .enqueue 1 2, .enqueue 2 3], _, rfl, by rw [← words_eq]; rfl, by rfl⟩

end BigO
