import Verif.Spec.OutputSpec
import Mathlib.Tactic.Common

/-!
# C105: reports reach the selected stream, whole and in order
-/
namespace BigO
variable {dev : Device}

theorem deliveredBy_append (c : Chan) (l l' : List (Chan × String)) : deliveredBy c (l ++ l') = deliveredBy c l ++ deliveredBy c l' := by
  simp [deliveredBy]

/-- delivered or waiting -/
def Screen.sent (t : Screen) (c : Chan) : String := deliveredBy c t.log ++ t.pend c

theorem deliver_sent (t : Screen) (c c' : Chan) (a b : String) :
    (t.deliver c a b).sent c' = if c' = c then deliveredBy c t.log ++ a ++ b else t.sent c' := by
  unfold Screen.sent Screen.deliver
  rw [deliveredBy_append]
  by_cases h : c' = c
  · subst h; simp [deliveredBy]
  · simp [deliveredBy, h, Ne.symm h]

theorem print_works (w : dev.Works) (t : Screen) (c c' : Chan) (s : String) :
    (t.print dev c s).1 = .ok () ∧ (t.print dev c s).2.sent c' = t.sent c' ++ (if c' = c then s else "") ∧
      ∃ l, (t.print dev c s).2.log = t.log ++ l := by
  obtain ⟨h1, h2⟩ := w.write t c s
  unfold Screen.print
  refine ⟨by simp [h1], ?_, _, rfl⟩
  simp only [deliver_sent]
  by_cases h : c' = c
  · subst h; rw [if_pos rfl, if_pos rfl, String.append_assoc, h2]; simp [Screen.sent, String.append_assoc]
  · simp [h]

theorem flush_works (w : dev.Works) (t : Screen) (c c' : Chan) :
    (t.flush dev c).sent c' = t.sent c' ∧ (t.flush dev c).pend c = "" ∧ (c' ≠ c → (t.flush dev c).pend c' = t.pend c') ∧
      (t.flush dev c).log = t.log ++ [(c, t.pend c)] := by
  obtain ⟨-, h2, h3⟩ := w.flush t c
  unfold Screen.flush
  refine ⟨?_, by simp [Screen.deliver, h3], fun h => by simp [Screen.deliver, h], by simp [Screen.deliver, h2]⟩
  rw [deliver_sent, h2, h3]
  by_cases h : c' = c
  · subst h; simp [Screen.sent]
  · simp [h]

theorem flush_delivered (w : dev.Works) (t : Screen) (c : Chan) : deliveredBy c (t.flush dev c).log = t.sent c := by
  rw [(flush_works w t c c).2.2.2, deliveredBy_append]
  simp [Screen.sent, deliveredBy]

theorem printedTo_cons (c : Chan) (a : PrintAct) (l : List PrintAct) : printedTo c (a :: l) = printedTo c [a] ++ printedTo c l := by
  simp [printedTo]

theorem printedTo_append (c : Chan) (l l' : List PrintAct) : printedTo c (l ++ l') = printedTo c l ++ printedTo c l' := by
  simp [printedTo]

theorem others_work (w : dev.Works) (l : List PrintAct) (t : Screen) (c : Chan) :
    (otherThreads dev l t).sent c = t.sent c ++ printedTo c l ∧ ∃ e, (otherThreads dev l t).log = t.log ++ e := by
  induction l generalizing t with
  | nil => exact ⟨by simp [otherThreads, printedTo], [], by simp [otherThreads]⟩
  | cons a l ih =>
    obtain ⟨h1, e, h2⟩ := ih (a.run dev t)
    have hs : (a.run dev t).sent c = t.sent c ++ printedTo c [a] ∧ ∃ e, (a.run dev t).log = t.log ++ e := by
      cases a with
      | print c' s =>
        obtain ⟨-, k1, k2⟩ := print_works w t c' c s
        refine ⟨?_, k2⟩
        show (t.print dev c' s).2.sent c = _
        rw [k1]
        simp only [printedTo, List.map_cons, List.map_nil, String.join_cons, String.join_nil, String.append_empty]
        by_cases h : c = c'
        · subst h; rfl
        · rw [if_neg h, if_neg (Ne.symm h)]
      | flush c' =>
        obtain ⟨k1, -, -, k2⟩ := flush_works w t c' c
        exact ⟨by show (t.flush dev c').sent c = _; rw [k1]; simp [printedTo], _, k2⟩
    obtain ⟨q1, e', q2⟩ := hs
    refine ⟨?_, e' ++ e, ?_⟩
    · show (otherThreads dev l (a.run dev t)).sent c = _
      rw [h1, q1, printedTo_cons c a l, String.append_assoc]
    · show (otherThreads dev l (a.run dev t)).log = _
      rw [h2, q2, List.append_assoc]

/-- after `sync_outputs`, all that had been printed before is delivered, whatever other threads do meanwhile -/
theorem sync_works (w : dev.Works) (l : List PrintAct) (t : Screen) (c : Chan) :
    (syncOutputs dev l t).sent c = t.sent c ++ printedTo c l ∧ (∃ e, (syncOutputs dev l t).log = t.log ++ e) ∧
      ∃ x, deliveredBy c (syncOutputs dev l t).log = t.sent c ++ x := by
  unfold syncOutputs
  obtain ⟨a1, -, -, a2⟩ := flush_works w t .out c
  obtain ⟨b1, e, b2⟩ := others_work w l (t.flush dev .out) c
  obtain ⟨c1, -, -, c2⟩ := flush_works w (otherThreads dev l (t.flush dev .out)) .err c
  refine ⟨by rw [c1, b1, a1], ⟨_, by rw [c2, b2, a2]; simp only [List.append_assoc]; rfl⟩, ?_⟩
  cases c with
  | err => exact ⟨printedTo .err l, by rw [flush_delivered w, b1, a1]⟩
  | out =>
    refine ⟨deliveredBy .out e ++ deliveredBy .out [(Chan.err, (otherThreads dev l (t.flush dev .out)).pend .err)], ?_⟩
    rw [c2, b2, deliveredBy_append, deliveredBy_append, flush_delivered w, String.append_assoc]

theorem chan_works (w : dev.Works) (c : Chan) (m : Meanwhile) (s : String) (t : Screen) :
    ∃ t2 t3 : Screen, t2 = otherThreads dev m.beforePrint (syncOutputs dev m.sync1 t) ∧ t3 = (t2.print dev c s).2 ∧
      chanWrite dev c m s t = (.ok (), syncOutputs dev m.sync2 (otherThreads dev m.afterPrint t3)) := by
  refine ⟨_, _, rfl, rfl, ?_⟩
  unfold chanWrite
  simp only
  have h := (print_works w (otherThreads dev m.beforePrint (syncOutputs dev m.sync1 t)) c c s).1
  generalize (otherThreads dev m.beforePrint (syncOutputs dev m.sync1 t)).print dev c s = y at h ⊢
  obtain ⟨r, t'⟩ := y
  simp only at h
  subst h
  rfl

theorem output_chan {k : Sink} {c : Chan} (hk : k.chan = some c) (m : Meanwhile) (s : String) (t : Screen) :
    outputTo dev k m s t = chanWrite dev c m s t := by
  cases k <;> cases hk <;> rfl

/-- **C105** (one thread prints): the report appears on the device right after everything printed before on either stream, whole; nothing
is left waiting; and it is the selected stream that delivers it. -/
theorem C105_in_order (w : dev.Works) (k : Sink) (c : Chan) (hk : k.chan = some c) (s : String) (t : Screen) :
    ∃ t', outputTo dev k {} s t = (.ok (), t') ∧ t'.text = t.text ++ t.pend .out ++ t.pend .err ++ s ∧ t'.Quiet ∧
      ∀ c', deliveredBy c' t'.log = deliveredBy c' t.log ++ t.pend c' ++ (if c' = c then s else "") := by
  rw [output_chan hk]
  obtain ⟨t2, t3, e2, e3, h⟩ := chan_works w c {} s t
  refine ⟨_, h, ?_⟩
  have e2' : t2 = ((t.flush dev .out).flush dev .err) := e2
  have e4 : syncOutputs dev [] (otherThreads dev [] t3) = ((t3.flush dev .out).flush dev .err) := rfl
  simp only [e4]
  obtain ⟨-, a2, a3, a4⟩ := flush_works w t .out .err
  obtain ⟨-, b2, b3, b4⟩ := flush_works w (t.flush dev .out) .err .out
  obtain ⟨-, c2, c3, c4⟩ := flush_works w t3 .out .err
  obtain ⟨-, d2, d3, d4⟩ := flush_works w (t3.flush dev .out) .err .out
  have p1 : t2.pend .out = "" := by rw [e2', b3 (by simp), a2]
  have p2 : t2.pend .err = "" := by rw [e2', b2]
  have l2 : t2.log = t.log ++ [(.out, t.pend .out)] ++ [(.err, t.pend .err)] := by rw [e2', b4, a4, a3 (by simp)]
  obtain ⟨-, h2⟩ := w.write t2 c s
  have l3 : t3.log = t2.log ++ [(c, (dev.write t2 c s).1)] := by rw [e3]; rfl
  have p3 : ∀ c', t3.pend c' = if c' = c then (dev.write t2 c s).2.1 else t2.pend c' := by rw [e3]; intro c'; rfl
  have hp : t2.pend c = "" := by cases c <;> assumption
  rw [hp, String.empty_append] at h2
  have tl : ((t3.flush dev .out).flush dev .err).log = t3.log ++ [(.out, t3.pend .out)] ++ [(.err, t3.pend .err)] := by
    rw [d4, c4, c3 (by simp)]
  refine ⟨?_, ⟨by rw [d3 (by simp), c2], d2⟩, ?_⟩
  · unfold Screen.text
    rw [tl, l3, l2, p3, p3]
    cases c <;> simp [p1, p2, String.append_assoc, h2]
  · intro c'
    rw [tl, l3, l2, p3, p3]
    cases c <;> cases c' <;> simp [deliveredBy, p1, p2, String.append_assoc, h2]

/-- **C105** (a whole run): the reports appear one after the other, nothing between them, nothing missing. -/
theorem C105_sequence (w : dev.Works) (k : Sink) (c : Chan) (hk : k.chan = some c) (l : List String) (t : Screen) (hq : t.Quiet) :
    ∃ t', outputAll dev k l t = (.ok (), t') ∧ t'.text = t.text ++ String.join l ∧ t'.Quiet ∧
      ∀ c', deliveredBy c' t'.log = deliveredBy c' t.log ++ (if c' = c then String.join l else "") := by
  induction l generalizing t with
  | nil => exact ⟨t, rfl, by simp, hq, fun c' => by simp⟩
  | cons s l ih =>
    obtain ⟨t1, h1, h2, h3, h4⟩ := C105_in_order w k c hk s t
    obtain ⟨t2, k1, k2, k3, k4⟩ := ih t1 h3
    refine ⟨t2, ?_, ?_, k3, fun c' => ?_⟩
    · unfold outputAll; rw [h1]; exact k1
    · rw [k2, h2, hq.1, hq.2]; simp [String.append_assoc]
    · have hp : t.pend c' = "" := by cases c' <;> [exact hq.1; exact hq.2]
      rw [k4, h4, hp]
      by_cases h : c' = c <;> simp [h, String.append_assoc]

/-- **C105** (no output selected): the streams are not touched at all, whatever the device does. -/
theorem C105_null (dev : Device) (m : Meanwhile) (s : String) (t : Screen) (l : List String) :
    outputTo dev .null m s t = (.ok (), t) ∧ outputAll dev .null l t = (.ok (), t) := by
  refine ⟨rfl, ?_⟩
  induction l with
  | nil => rfl
  | cons s l ih => exact ih

/-- **C105** (other threads print meanwhile): when `OUTPUT` returns, what the selected stream delivered is: all that was printed to it
before the call, what other threads printed before the report, the report in one piece, and then only what other threads printed. All
that was printed to either stream before the call is delivered before the first character of the report. -/
theorem C105_concurrent (w : dev.Works) (k : Sink) (c : Chan) (hk : k.chan = some c) (m : Meanwhile) (s : String) (t : Screen) :
    ∃ t' l1 l2, outputTo dev k m s t = (.ok (), t') ∧ t'.log = t.log ++ l1 ++ l2 ∧
      (∀ c', ∃ x, deliveredBy c' (t.log ++ l1) = deliveredBy c' t.log ++ t.pend c' ++ x) ∧
      (∃ y z, deliveredBy c t'.log = deliveredBy c t.log ++ t.pend c ++ printedTo c (m.sync1 ++ m.beforePrint) ++ s ++ y ∧
        y ++ z = printedTo c (m.afterPrint ++ m.sync2) ∧
        ∃ u, deliveredBy c (t.log ++ l1) ++ u = deliveredBy c t.log ++ t.pend c ++ printedTo c (m.sync1 ++ m.beforePrint)) := by
  rw [output_chan hk]
  obtain ⟨t2, t3, e2, e3, h⟩ := chan_works w c m s t
  have log1 : ∃ e, t2.log = t.log ++ e := by
    obtain ⟨-, ⟨e, q1⟩, -⟩ := sync_works w m.sync1 t .out
    obtain ⟨-, e', q2⟩ := others_work w m.beforePrint (syncOutputs dev m.sync1 t) .out
    exact ⟨e ++ e', by rw [e2, q2, q1, List.append_assoc]⟩
  obtain ⟨l1, hl1⟩ := log1
  have log2 : ∃ e, (syncOutputs dev m.sync2 (otherThreads dev m.afterPrint t3)).log = t2.log ++ e := by
    obtain ⟨-, -, e0, q0⟩ := print_works w t2 c c s
    obtain ⟨-, e', q2⟩ := others_work w m.afterPrint t3 c
    obtain ⟨-, ⟨e, q1⟩, -⟩ := sync_works w m.sync2 (otherThreads dev m.afterPrint t3) .out
    exact ⟨e0 ++ e' ++ e, by rw [q1, q2, e3, q0]; simp⟩
  obtain ⟨l2, hl2⟩ := log2
  have sent2 : ∀ c', t2.sent c' = t.sent c' ++ printedTo c' (m.sync1 ++ m.beforePrint) := by
    intro c'
    rw [e2, (others_work w _ _ _).1, (sync_works w _ _ _).1, printedTo_append, String.append_assoc]
  refine ⟨_, l1, l2, h, by rw [hl2, hl1], fun c' => ?_, ?_⟩
  · obtain ⟨-, -, x, q⟩ := sync_works w m.sync1 t c'
    obtain ⟨-, e', q2⟩ := others_work w m.beforePrint (syncOutputs dev m.sync1 t) c'
    refine ⟨x ++ deliveredBy c' e', ?_⟩
    rw [← hl1, e2, q2, deliveredBy_append, q]
    simp only [Screen.sent, String.append_assoc]
  · obtain ⟨s1, -, y, q⟩ := sync_works w m.sync2 (otherThreads dev m.afterPrint t3) c
    have s3 : (otherThreads dev m.afterPrint t3).sent c = t2.sent c ++ s ++ printedTo c m.afterPrint := by
      rw [(others_work w _ _ _).1, e3, (print_works w t2 c c s).2.1, if_pos rfl]
    rw [s3] at s1 q
    refine ⟨printedTo c m.afterPrint ++ y, (syncOutputs dev m.sync2 (otherThreads dev m.afterPrint t3)).pend c, ?_, ?_, t2.pend c, ?_⟩
    · rw [q, sent2]; simp only [Screen.sent, String.append_assoc]
    · have this : deliveredBy c (syncOutputs dev m.sync2 (otherThreads dev m.afterPrint t3)).log ++
          (syncOutputs dev m.sync2 (otherThreads dev m.afterPrint t3)).pend c = _ := s1
      rw [q] at this
      simp only [String.append_assoc, String.append_right_inj] at this
      rw [printedTo_append, String.append_assoc, this]
    · have := sent2 c
      rw [← hl1]
      show t2.sent c = _
      rw [this]
      simp only [Screen.sent, String.append_assoc]

/-- **C105** (errors of printing): if the selected stream does not take the report, `OUTPUT` panics; it never returns as if it had. -/
theorem C105_write_error (dev : Device) (k : Sink) (c : Chan) (hk : k.chan = some c) (m : Meanwhile) (s : String) (t : Screen)
    (hw : ∀ t, (dev.write t c s).2.2 = false) : ∃ e t', outputTo dev k m s t = (.error e, t') := by
  rw [output_chan hk]
  unfold chanWrite
  simp only
  generalize otherThreads dev m.beforePrint (syncOutputs dev m.sync1 t) = t1
  have : (t1.print dev c s).1 = .error (.msg "failed printing") := by unfold Screen.print; simp [hw]
  generalize t1.print dev c s = y at this ⊢
  obtain ⟨r, t'⟩ := y
  simp only at this
  subst this
  exact ⟨_, t', rfl⟩

/-! ## what is not guaranteed -/

/-- a device whose stdout is line buffered, in the way of the standard library: what follows the last end of line waits; stderr is not
buffered -/
def lineDevice : Device where
  write t c s :=
    match c with
    | .err => (t.pend c ++ s, "", true)
    | .out =>
      let rest := (s.toList.reverse.takeWhile (· ≠ '\n')).reverse
      if s.toList.contains '\n' then (t.pend c ++ String.ofList (s.toList.reverse.dropWhile (· ≠ '\n')).reverse, String.ofList rest, true)
      else ("", t.pend c ++ s, true)
  flush t c := (t.pend c, "", true)

theorem lineDevice_works : lineDevice.Works where
  write := by
    intro t c s
    cases c with
    | err => simp [lineDevice]
    | out =>
      by_cases h : s.toList.contains '\n'
      · have key : ∀ l : List Char, String.ofList (l.dropWhile (· ≠ '\n')).reverse ++ String.ofList (l.takeWhile (· ≠ '\n')).reverse =
            String.ofList l.reverse := by
          intro l
          rw [← String.ofList_append, ← List.reverse_append, List.takeWhile_append_dropWhile]
        refine ⟨by simp only [lineDevice, h, if_true], ?_⟩
        simp only [lineDevice, h, if_true, String.append_assoc]
        rw [key]
        simp
      · simp only [lineDevice, h, Bool.false_eq_true, if_false, true_and, String.empty_append]
  flush := by intro t c; simp [lineDevice]

/-- **C105** (one device, several threads): on a device that shows both streams, a report can be torn by what another thread prints to the
other stream, although each stream is in order. -/
theorem C105_torn : ∃ (m : Meanwhile) (t' : Screen),
    outputTo lineDevice .stdout m "report\nends" ⟨[], fun _ => ""⟩ = (.ok (), t') ∧ t'.text = "report\n<noise>ends" ∧
      deliveredBy .out t'.log = "report\nends" := by
  refine ⟨{ afterPrint := [.print .err "<noise>"] }, _, rfl, ?_, ?_⟩ <;> decide +kernel

/-- **C105** (errors of flushing are ignored): if flushing fails, `OUTPUT` returns normally although nothing reached the device. -/
theorem C105_flush_errors_ignored (s : String) : ∃ (dev : Device) (t' : Screen),
    (∀ t c s, (dev.write t c s).2.2 = true ∧ (dev.write t c s).1 ++ (dev.write t c s).2.1 = t.pend c ++ s) ∧
      outputTo dev .stdout {} s ⟨[], fun _ => ""⟩ = (.ok (), t') ∧ t'.text = "" := by
  refine ⟨⟨fun t c s => ("", t.pend c ++ s, true), fun t c => ("", t.pend c, false)⟩, _, fun t c s => ⟨rfl, by simp⟩, rfl, ?_⟩
  simp [Screen.text, syncOutputs, otherThreads, Screen.flush, Screen.deliver]

/-! ## a concrete case -/

-- the user printed to stdout without an end of line; the report follows it, and the next one follows the first
example : ∃ t', outputAll lineDevice .stderr ["first\n", "second"] ⟨[], fun _ => ""⟩ = (.ok (), t') ∧ t'.text = "first\nsecond" := by
  obtain ⟨t', h1, h2, -⟩ := C105_sequence lineDevice_works .stderr .err rfl ["first\n", "second"] ⟨[], fun _ => ""⟩ ⟨rfl, rfl⟩
  exact ⟨t', h1, by rw [h2]; decide +kernel⟩

example : ∃ t', outputTo lineDevice .stderr {} "report" ⟨[], fun c => if c = .out then "user's text " else ""⟩ = (.ok (), t') ∧
    t'.text = "user's text report" := by
  obtain ⟨t', h1, h2, -⟩ := C105_in_order lineDevice_works .stderr .err rfl "report" ⟨[], fun c => if c = .out then "user's text " else ""⟩
  exact ⟨t', h1, by rw [h2]; decide +kernel⟩

end BigO
