import Verif.Proofs.Bridge
/-! C73: messages between robot processes. -/
namespace Verif
namespace Bridge
open Clock
variable {P : Type}

/-- In any history, what a source takes is what the sink sent while both were started, each message at most
once and in order; a call either tells what it took or tells nothing new. -/
theorem C73_once_in_order (cap i : Nat) (es : List (Event P)) :
    ∃ l, Pointwise Told (answers i es ((Net.new : Net P).run cap es).2) l ∧
      List.Sublist (l.filterMap id) (heard i (false, false) es) :=
  sublist_run cap i es Net.new

/-- As long as no more than `cap` messages wait, a source takes all of them, except those still waiting. -/
theorem C73_complete_partial (cap i : Nat) (n : Net P) (es : List (Event P)) (b : Nat)
    (hs : ∀ e ∈ es, e ≠ .srcStart i ∧ e ≠ .srcStop i) (hb : backlog cap i (n.on, true) 0 es = some b) :
    ∃ l rest, Pointwise Told (answers i (.srcStart i :: es) (n.run cap (.srcStart i :: es)).2) l ∧
      heard i (n.on, false) (.srcStart i :: es) = l.filterMap id ++ rest ∧ rest.length = b := by
  have := complete_run cap i es (n.step cap (.srcStart i)).1 b hs (by simp [Net.step, setSrc_self])
    (by simpa [Net.step, setSrc_self] using hb)
  simpa [Net.run, answers, heard, Net.step, setSrc_self] using this

/-- Messages for the examples. -/
def msg (k : Nat) : Msg Nat := ⟨some k, ⟨.default, .time ⟨7⟩, ""⟩⟩
/-- A message of the other robot. -/
def slot : Msg Nat := ⟨none, ⟨.default, .none, ""⟩⟩

example : heard 3 (true, false) [.srcStart 3, .sinkProcess (msg 1), .srcStart 4, .sinkProcess (msg 2), .srcProcess 3 slot,
      .sinkProcess (msg 5)] = [msg 1, msg 2, msg 5] ∧
    backlog 2 3 (true, true) 0 [.sinkProcess (msg 1), .srcStart 4, .sinkProcess (msg 2), .srcProcess 3 slot,
      .sinkProcess (msg 5)] = some 2 := by decide
example : ((Net.new : Net Nat).run 2 [.sinkStart, .sinkProcess (msg 9), .srcStart 0, .sinkProcess (msg 1), .srcStart 1,
      .sinkProcess (msg 2), .srcProcess 0 slot, .srcProcess 1 slot, .srcProcess 0 slot]).2 =
    [.done, .done, .done, .done, .done, .done, .message (msg 1), .message (msg 2), .message (msg 2)] := by decide

/-- Negation: with one message more than the buffer holds the oldest is lost, and no call is an error. -/
theorem C73_overflow_violated :
    ((Net.new : Net Nat).run 2 [.sinkStart, .srcStart 0, .sinkProcess (msg 1), .sinkProcess (msg 2), .sinkProcess (msg 3),
        .srcProcess 0 slot, .srcProcess 0 slot]).2 =
      [.done, .done, .done, .done, .done, .message (msg 2), .message (msg 3)] := by decide

/-- Negation: when nothing was sent, whatever the output message still has goes out once more. -/
theorem C73_again_violated (cap i : Nat) (n : Net P) (out : Msg P) (hon : (n.srcs i).on = true)
    (hq : (n.srcs i).queue = []) : (n.step cap (.srcProcess i out)).2 = .message out := by
  simp [Net.step, Src.process, hon, hq]

example : (((Net.new : Net Nat).run 2 [.sinkStart, .srcStart 0, .sinkProcess (msg 1), .srcProcess 0 slot]).1.srcs 0).queue = []
    := by decide

/-- Negation: a message without payload, which the sink sends, is an error of each source that takes it. -/
theorem C73_empty_violated (md : MsgMeta) (out : Msg P) : answerTo ⟨none, md⟩ out = .failed := rfl

/-- Negation: the status of a message does not arrive; the source has its own. -/
theorem C73_status_violated (p : P) (md : MsgMeta) (out m : Msg P) (h : answerTo ⟨some p, md⟩ out = .message m) :
    m.md.statusTxt = out.md.statusTxt := by
  cases h; rfl

/-- Before the start and after the stop, calls of the sink fail and reach nobody, and calls of a source fail. -/
theorem C73_stopped (cap : Nat) (n : Net P) :
    (∀ m, n.on = false → n.step cap (.sinkProcess m) = (n, .failed)) ∧
    (∀ i out, (n.srcs i).on = false → (n.step cap (.srcProcess i out)).2 = .failed) :=
  ⟨fun m h => by simp [Net.step, h], fun i out h => by simp [Net.step, Src.process, h]⟩

example : ((Net.new : Net Nat).run 2 [.srcStart 0, .sinkProcess (msg 1), .sinkStart, .sinkStop, .sinkProcess (msg 2),
    .srcProcess 0 slot, .srcProcess 1 slot, .srcStop 0, .srcProcess 0 slot]).2 =
    [.done, .failed, .done, .done, .failed, .message slot, .failed, .done, .failed] := by decide

/-- The service is the one configured; without one, or with a name that is not valid, creation fails; a name
that is not a text is a panic. -/
theorem C73_service (valid : String → Bool) (c : Option Params.ComponentConfig) :
    serviceName valid c =
      match c.bind (·.lookup "service") with
      | some (.str s) => .ok (if valid s then some s else none)
      | some _ => .panic
      | none => .ok none := by
  cases c with
  | none => rfl
  | some c =>
    simp only [serviceName, Params.ComponentConfig.get, Option.bind_some]
    cases c.lookup "service" with
    | none => rfl
    | some v => cases v <;> rfl

example : serviceName (fun _ => true) (some [("service", .str "imu")]) = .ok (some "imu") := rfl

end Bridge
end Verif
