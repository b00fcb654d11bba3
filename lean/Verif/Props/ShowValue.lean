import Verif.Proofs.TextLog
import Verif.Props.LogRuntime
/-!
C93: from the calls of `debug!` to the lines that the log reader prints.
-/
namespace Verif
open Bincode

/-- Every integer is written so that it can be read. -/
theorem C93_integers (fl : Floats) :
    (∀ n : UInt8, readInt ((Value.u8 n).display fl) = some n.toNat) ∧
    (∀ n : UInt16, readInt ((Value.u16 n).display fl) = some n.toNat) ∧
    (∀ n : UInt32, readInt ((Value.u32 n).display fl) = some n.toNat) ∧
    (∀ n : UInt64, readInt ((Value.u64 n).display fl) = some n.toNat) ∧
    (∀ n : Int8, readInt ((Value.i8 n).display fl) = some n.toInt) ∧
    (∀ n : Int16, readInt ((Value.i16 n).display fl) = some n.toInt) ∧
    (∀ n : Int32, readInt ((Value.i32 n).display fl) = some n.toInt) ∧
    ∀ n : Int64, readInt ((Value.i64 n).display fl) = some n.toInt := by
  refine ⟨?_, ?_, ?_, ?_, ?_, ?_, ?_, ?_⟩ <;> intro n <;> simp only [Value.display]
  · exact readInt_digits _
  · exact readInt_digits _
  · exact readInt_digits _
  · exact readInt_digits _
  · exact readInt_show _
  · exact readInt_show _
  · exact readInt_show _
  · exact readInt_show _

/-- Two values of the same shape with the same text are the same value: numbers, flags, options, bytes, sequences and
maps of these, however nested.  Missing: texts, floats and times inside of which they differ; see
`C93_texts_violated`. -/
theorem C93_values_partial (fl : Floats) {v w : Value} (h : v.Alike w) (e : v.display fl = w.display fl) : v = w :=
  (Value.display_cut fl v w (r := []) (r' := []) h (by intro c r e; cases e) (by intro c r e; cases e) (by rw [e])).1

/-- A sequence of options of numbers, and another one. -/
example (fl : Floats) : Value.Alike (.seq [.opt (some (.u8 1)), .opt none]) (.seq [.opt none]) ∧
    (Value.seq [.opt (some (.u8 1)), .opt none]).display fl = "[Some(1), None]".toList ∧
    (Value.map [(.str "x", .i8 (-3)), (.str "raw", .bytes [0, 255])]).display fl = "{x: -3, raw: [00 ff]}".toList := by
  refine ⟨?_, ?_, ?_⟩
  · simp [Value.Alike, Value.AlikeSeq, Value.AlikeOpt, Value.IsText]
  · simp only [Value.display, Value.displaySeq, Value.displayOpt]; decide +kernel
  · simp only [Value.display, Value.displayMap]; decide +kernel

/-- Texts are written without quotes: one text with a comma is written like two texts, and a text like a number. -/
theorem C93_texts_violated (fl : Floats) :
    (Value.seq [.str "a, b"]).display fl = (Value.seq [.str "a", .str "b"]).display fl ∧
    (Value.str "1").display fl = (Value.u8 1).display fl ∧
    (Value.seq []).display fl = (Value.seq [.str ""]).display fl := by
  simp only [Value.display, Value.displaySeq]; decide +kernel

/-- From the source to the screen.  Compilers intern the strings of an application, in any order and with any races;
its threads call `debug!`, in any order; the lines recorded by the text stream of a unified log, which other threads use
too, in any interleaving, are printed by the log reader, one for each entry recorded and in that order (see
`C61_recorded` for which they are), each with the format string and the values of its call in their places.
Missing: calls that `Says` does not cover, see `C93_map_violated` and `C34_violated`. -/
theorem C93_log_partial (fl : Floats) (n : Nat) (schedule : List Intern.Step) {entries : List (Nat × String)}
    (hp : entries.Perm ((Intern.begin n).run schedule).1.store.toString)
    {answer : Nat → List LogEntry → LogEntry → LogRt.Answer} {acts : List LogRt.Act} {w : Nat}
    (hcalls : ∀ th e now, LogRt.Act.stamp th e now ∈ acts → ∃ (c : LogCall) (line : Text), e = c.entry ∧ c.entry.Legal ∧
      c.Compiled ((Intern.begin n).run schedule).2 ∧ c.Says (Value.display fl) line)
    {page slabSize : Nat} (hz : ULog.SizesOk page slabSize) {ops : List ULog.ConcOp}
    (hin : ULog.Interleaved [] ops) (hover : ULog.busyAfter [] ops = [])
    (hops : ULog.HistoryOk page slabSize [] (ULog.calls ops))
    (hobj : ULog.objsOf .structuredLogLine [] (ULog.calls ops) =
      ((LogRt.Sys.new.steps answer acts).1.file w).map enc) :
    ∃ files sections lines, ULog.writeConc slabSize page ops = .ok files ∧
      ULog.readLog files .structuredLogLine = .ok sections ∧
      textlogDump (Value.display fl) showTime ((Intern.readTable entries).map String.toList) sections.flatten =
        .done lines true ∧
      Pointwise (LineOf fl acts) ((LogRt.Sys.new.steps answer acts).1.file w) lines := by
  have hall := recorded_says fl hcalls (w := w) (answer := answer)
  obtain ⟨files, sections, h1, h2, h3⟩ := LogRt.C61_log hz hin hover hops hobj fun e he => (hall e he).1
  obtain ⟨lines, h4, h5⟩ := textLines_says fl hp _ fun e he => (hall e he).2
  refine ⟨files, sections, lines, h1, h2, ?_, h5⟩
  unfold textlogDump
  rw [h3]
  exact h4

/-- The strings of the demonstration as two compilers interned them, the second one while the first one was at it:
`x` twice. -/
def demoTexts : List Intern.Step :=
  [.lookup 0 "at {} of {}", .write 0, .lookup 0 "x", .lookup 1 "x", .write 0, .write 1, .lookup 1 "{} is {x}", .write 1]

/-- `debug!("at {} of {}", 3, [("a", 1)])` in one crate. -/
def demoCall : LogCall :=
  ⟨fun t => if t = "x".toList then 2 else 1, "at {} of {}".toList, [.anon (.u8 3), .anon (.map [(.str "a", .u8 1)])]⟩

/-- `debug!("{} is {x}", true, x = -5)` in the other one. -/
def demoCall' : LogCall :=
  ⟨fun t => if t = "x".toList then 3 else 4, "{} is {x}".toList, [.anon (.bool true), .named "x".toList (.i8 (-5))]⟩

example : ((Intern.begin 2).run demoTexts).2 = [("at {} of {}", 1), ("x", 2), ("x", 3), ("{} is {x}", 4)] ∧
    demoCall.Compiled ((Intern.begin 2).run demoTexts).2 ∧ demoCall'.Compiled ((Intern.begin 2).run demoTexts).2 := by
  have h : ((Intern.begin 2).run demoTexts).2 = [("at {} of {}", 1), ("x", 2), ("x", 3), ("{} is {x}", 4)] := by
    decide +kernel
  refine ⟨h, ?_, ?_⟩ <;> rw [h]
  · intro t ht
    simp only [demoCall, argNames, List.mem_cons, List.not_mem_nil, or_false] at ht
    subst ht
    decide +kernel
  · intro t ht
    simp only [demoCall', argNames, List.mem_cons, List.not_mem_nil, or_false] at ht
    rcases ht with rfl | rfl <;> decide +kernel

example (fl : Floats) : demoCall.Says (Value.display fl) "at 3 of {a: 1}".toList := by
  refine .holes [.u8 3, .map [(.str "a", .u8 1)]] rfl ?_ ?_
  · simp only [List.mem_cons, List.not_mem_nil, or_false]
    rintro v (rfl | rfl)
    · exact ⟨by simp [Value.Clear], by simp only [Value.display]; decide +kernel⟩
    · refine ⟨?_, by simp only [Value.display, Value.displayMap]; decide +kernel⟩
      simp [Value.Clear, Value.ClearMap, Braceless]
  · simp only [List.map_cons, List.map_nil, Value.display, Value.displayMap]; decide +kernel

example (fl : Floats) : demoCall'.Says (Value.display fl) "true is -5".toList := by
  refine .pieces [.hole, .text " is ".toList, .name "x".toList] (by decide +kernel) ?_ (by decide) ?_ ?_
  · simp only [List.mem_cons, List.not_mem_nil, or_false]
    rintro q (rfl | rfl | rfl) <;> simp [Piece.Plain, Braceless]
  · intro v hv
    simp only [demoCall', List.mem_cons, List.not_mem_nil, or_false, LogArg.anon.injEq, reduceCtorEq] at hv
    subst hv
    simp [Value.Bare]
  · simp only [demoCall', anonTexts, Piece.fill, namedText, Value.display]
    decide +kernel

/-- Two threads make the two calls. -/
def demoActs : List LogRt.Act :=
  [.init 0 7, .stamp 1 demoCall.entry (fun _ => 10), .stamp 2 demoCall'.entry (fun _ => 20), .write 2, .write 1]

/-- They reach the log in the other order, while the stream of the copper lists is in use. -/
def demoTextOps : List ULog.ConcOp :=
  [.openStream .structuredLogLine 64, .openStream .copperList 32, .begin_ 0 [[20, 4, 2, 0, 3], [2, 0, 1, 5, 251]], .finish 0,
    .begin_ 1 [[1, 2, 3]], .begin_ 0 [[10, 1, 2, 0, 0, 2, 1, 3, 17, 1, 12, 1, 97, 1, 1]], .finish 1, .finish 0]

example : ULog.SizesOk 16 192 ∧ ULog.Interleaved [] demoTextOps ∧ ULog.busyAfter [] demoTextOps = [] ∧
    ULog.HistoryOk 16 192 [] (ULog.calls demoTextOps) ∧
    ULog.objsOf .structuredLogLine [] (ULog.calls demoTextOps) =
      ((LogRt.Sys.new.steps (fun _ _ _ => .recorded) demoActs).1.file 7).map enc := by
  refine ⟨⟨by decide, by decide, by decide⟩, by simp [demoTextOps, ULog.Interleaved], by decide, ?_, by rfl⟩
  simp only [demoTextOps, ULog.calls, ULog.HistoryOk]
  exact ⟨by decide, by decide, by simp, ⟨by decide, by decide, by decide⟩, by decide, by decide, by simp,
    ⟨by decide, by decide, by decide⟩, by simp, by simp, by simp, trivial⟩

/-- "A value is shown in its place", refuted by maps: one without entries is written `{}`, which takes the next value;
and one with entries beside a named argument looks like a placeholder, and the line is not printed. -/
theorem C93_map_violated (fl : Floats) {strings : List Text} {intern : Text → UInt32} :
    (TableOk intern strings "{} {}".toList [] →
      rebuildLogline (Value.display fl) showTime strings
        (debugEntry intern 0 "{} {}".toList [.anon (.map []), .anon (.u8 5)]) = .ok (some "5 {}".toList)) ∧
    (TableOk intern strings "{} {n}".toList [.named "n".toList (.u8 5)] →
      rebuildLogline (Value.display fl) showTime strings
        (debugEntry intern 0 "{} {n}".toList [.anon (.map [(.str "a", .u8 1)]), .named "n".toList (.u8 5)]) =
      .ok none) := by
  refine ⟨fun h => ?_, fun h => ?_⟩
  · rw [rebuild_args ⟨h.fmt, by intro n hn; simp [argNames] at hn⟩]
    simp only [anonTexts, Value.display, Value.displayMap]
    rfl
  · rw [rebuild_args ⟨h.fmt, by intro n hn; exact h.names n (by simpa [argNames] using hn)⟩]
    simp only [anonTexts, Value.display, Value.displayMap]
    rfl

end Verif
