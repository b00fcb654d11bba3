import Verif.Model.EndOfProcessing
import Verif.Model.CopperList
/-!
Specification for C11/C12: the copper lists between their creation and their logging.
-/
namespace Verif
namespace CopperList
variable {P : Type}

/-- What an application does with copper lists: take a new one and fill it, or declare the
processing of one finished. -/
inductive LifeOp (P : Type) where
  | create (msgs : P)
  | finish (id : UInt32)
  deriving DecidableEq, Repr

/-- The code side: a manager and the lists written to the log stream so far. -/
structure Life (P : Type) where
  mgr : Manager P
  log : List (CL P)
  deriving DecidableEq, Repr

/-- A log stream that accepts everything. -/
def memLog : Logger (List (CL P)) P := some (fun l c => .ok (l ++ [c]))

/-- One operation on the code.  `create` is what the generated loop does
(core/cu29_derive/src/lib.rs:966-969): create, `expect`, set the state to `Processing`, fill the
messages. -/
def Life.step (o : Overflow) (s : Life P) : LifeOp P → Rs (Life P)
  | .create msgs =>
    match s.mgr.create o with
    | .panic => .panic
    | .ok (_, none) => .panic
    | .ok (m, some slot) =>
      .ok { s with mgr := m.write slot (fun c => { c with state := .processing, msgs := msgs }) }
  | .finish id =>
    match endOfProcessing memLog s.log s.mgr id with
    | .panic => .panic
    | .ok (log, m) => .ok ⟨m, log⟩

def Life.run (o : Overflow) (s : Life P) : List (LifeOp P) → Rs (Life P)
  | [] => .ok s
  | op :: ops =>
    match s.step o op with
    | .panic => .panic
    | .ok s' => Life.run o s' ops

/-! The specification side. -/

/-- A list in flight. -/
structure InFlight (P : Type) where
  id : UInt32
  done : Bool
  msgs : P

/-- The lists in flight, newest first, the number of lists created and the log. -/
structure Flight (P : Type) where
  cap : Nat
  flying : List (InFlight P)
  created : Nat
  log : List (UInt32 × P)

/-- Creating pushes a new list; finishing marks the list and moves every list on top of the stack
that is finished to the log. -/
def Flight.step (s : Flight P) : LifeOp P → Option (Flight P)
  | .create msgs =>
    if s.flying.length < s.cap then
      some { s with flying := ⟨UInt32.ofNat s.created, false, msgs⟩ :: s.flying
                    created := s.created + 1 }
    else none
  | .finish id =>
    let marked := s.flying.map (fun c => { c with done := c.done || c.id == id })
    some { s with
      flying := marked.dropWhile (fun c => c.done)
      log := s.log ++ (marked.takeWhile (fun c => c.done)).map (fun c => (c.id, c.msgs)) }

def Flight.run (s : Flight P) : List (LifeOp P) → Option (Flight P)
  | [] => some s
  | op :: ops =>
    match s.step op with
    | none => none
    | some s' => Flight.run s' ops

def Flight.empty (cap : Nat) : Flight P := ⟨cap, [], 0, []⟩

end CopperList
end Verif

namespace Verif
namespace CopperList
variable {P : Type}

/-- The lists created by a history, in creation order, with the ids they must carry. -/
def createdLists (ops : List (LifeOp P)) : List (UInt32 × P) :=
  (ops.filterMap (fun | .create m => some m | .finish _ => none)).zipIdx.map
    (fun x => (UInt32.ofNat x.2, x.1))

/-- `id` was created, and declared finished afterwards, in the history. -/
def FinishedIn (ops : List (LifeOp P)) (id : UInt32) : Prop :=
  ∃ before after, ops = before ++ .finish id :: after ∧ id ∈ (createdLists before).map Prod.fst

/-- An application using one list at a time: create, finish, create, finish, ... -/
def oneAtATime (msgs : List P) : List (LifeOp P) :=
  msgs.zipIdx.flatMap (fun x => [.create x.1, .finish (UInt32.ofNat x.2)])

end CopperList
end Verif
