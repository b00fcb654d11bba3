import Verif.Model.CopperListOps
/-!
Specification for C08/C09: a stack of at most `cap` copper lists, newest first, with a counter
of the lists created so far.
-/
namespace Verif
namespace CopperList
variable {P : Type}

structure BStack (P : Type) where
  cap : Nat
  items : List (CL P)      -- newest first
  created : Nat            -- number of lists created so far

def BStack.empty (cap : Nat) : BStack P := ⟨cap, [], 0⟩

def BStack.step (s : BStack P) : Op P → BStack P × Out P
  | .create st msgs =>
    if s.items.length < s.cap then
      let id := UInt32.ofNat s.created
      ({ s with items := ⟨id, st, msgs⟩ :: s.items, created := s.created + 1 }, .created (some id))
    else (s, .created none)
  | .pop => ({ s with items := s.items.tail }, .list s.items.head?)
  | .dropLast => ({ s with items := s.items.tail }, .unit)
  | .peek => (s, .list s.items.head?)
  | .clear => ({ s with items := [] }, .unit)
  | .len => (s, .nat s.items.length)
  | .isEmpty => (s, .bool (s.items.length == 0))
  | .isFull => (s, .bool (s.items.length == s.cap))
  | .iter => (s, .lists s.items)
  | .mutate k st msgs => ({ s with items := s.items.modify k (fill st msgs) }, .unit)

def BStack.run (s : BStack P) : List (Op P) → BStack P × List (Out P)
  | [] => (s, [])
  | op :: ops =>
    let (s', out) := s.step op
    let (s'', outs) := BStack.run s' ops
    (s'', out :: outs)

end CopperList
end Verif

namespace Verif
namespace CopperList
variable {P : Type}
/-- Operations that ask for a new list. -/
def Op.isCreate : Op P → Bool
  | .create .. => true
  | _ => false

/-- The ids handed out during a session, in order. -/
def createdIds : List (Out P) → List UInt32
  | [] => []
  | .created (some i) :: l => i :: createdIds l
  | _ :: l => createdIds l
end CopperList
end Verif
