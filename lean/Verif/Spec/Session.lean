import Verif.Spec.EndToEnd
import Verif.Spec.SharedLog
import Verif.Spec.Runtime
/-!
Vocabulary of C101: a program that uses several applications, one after the other, with one log.
-/
namespace Verif
namespace Runtime
open Bincode CopperList
variable {σ P : Type}

/-- What a program can ask of an application. -/
inductive Call where
  | start
  | iteration
  | stop
  | run (n : Nat)
  deriving DecidableEq, Repr

/-- One call; what it returns is ignored. -/
def Call.does (app : App σ P) : Call → Rt σ P → Rs (Rt σ P)
  | .start, rt => .ok (startAll app rt).1
  | .iteration, rt => (runOneIteration app rt).map' Prod.fst
  | .stop, rt => .ok (stopAll app rt).1
  | .run n, rt => (Verif.Runtime.run app n rt).map' Prod.fst

/-- Any calls, in any order. -/
def uses (app : App σ P) : List Call → Rt σ P → Rs (Rt σ P)
  | [], rt => .ok rt
  | c :: cs, rt =>
    match c.does app rt with
    | .panic => .panic
    | .ok rt => uses app cs rt

/-- After the operations `h`, these open no stream of copper lists and leave those there are alone. -/
structure Elsewhere (h ops : List ULog.LogOp) : Prop where
  opens : ∀ n, .openStream .copperList n ∉ ops
  logs : ∀ i obj, .log i obj ∈ ops → (ULog.openedTypes (h ++ ops))[i]? ≠ some .copperList
  drops : ∀ i, .drop i ∈ ops → (ULog.openedTypes (h ++ ops))[i]? ≠ some .copperList

/-- What a program has done with a log after using applications one after the other, with the lists each of them has
logged.  An application opens its stream when it is created, and it is dropped with it; before, in between and
meanwhile the log may be used for other things. -/
inductive Session (hist : σ → List ULog.LogOp) (pieces : CL (List (Msg P)) → List Bytes) :
    List ULog.LogOp → List (List (CL (List (Msg P)))) → Prop
  | begin_ {h : List ULog.LogOp} (hn : ∀ n, .openStream .copperList n ∉ h) : Session hist pieces h []
  | next {h before after : List ULog.LogOp} {runs : List (List (CL (List (Msg P))))} {size : Nat}
      {app : App σ P} {cs : List Call} {rt rt' : Rt σ P} {t : List (Ev P)} (hs : Session hist pieces h runs)
      (hb : Elsewhere h before)
      (ha : Elsewhere (h ++ before ++ [.openStream .copperList size]) after)
      (hh : hist rt.w.st = h ++ before ++ [.openStream .copperList size] ++ after)
      (hl : LogsTo app.env hist (ULog.openedTypes (h ++ before)).length pieces)
      (hr : uses app cs rt = .ok rt') (ht : rt'.w.trace = rt.w.trace ++ t) :
      Session hist pieces (hist rt'.w.st ++ [.drop (ULog.openedTypes (h ++ before)).length])
        (runs ++ [loggedLists t])

end Runtime
end Verif
