import Verif.Model.Basic
/-!
Model of core/cu29_runtime/src/copperlist.rs: copper lists and their preallocated manager.
-/
namespace Verif
namespace CopperList

/-- `CopperListState` (copperlist.rs:25-32). -/
inductive CLState where
  | free | initialized | processing | doneProcessing | beingSerialized
  deriving DecidableEq, Repr

/-- `CopperList<P>` (copperlist.rs:46-51). -/
structure CL (P : Type) where
  id : UInt32
  state : CLState
  msgs : P
  deriving DecidableEq, Repr

/-- `CuListsManager<P, N>` (copperlist.rs:75-80).  `data` has `N` elements (a boxed array). -/
structure Manager (P : Type) where
  data : List (CL P)
  length : Nat
  insertionIndex : Nat
  currentClId : UInt32
  deriving DecidableEq, Repr

variable {P : Type}

/-- `CuListsManager::new` (copperlist.rs:105-117).  The array is zero initialised: id 0, state
`Free` (discriminant 0) and an all-zero payload `zero`. -/
def Manager.new (N : Nat) (zero : P) : Manager P :=
  { data := List.replicate N ⟨0, .free, zero⟩, length := 0, insertionIndex := 0, currentClId := 0 }

/-- The const parameter `N`. -/
def Manager.cap (m : Manager P) : Nat := m.data.length

/-- `len` (copperlist.rs:121-124). -/
def Manager.len (m : Manager P) : Nat := m.length
/-- `is_empty` (copperlist.rs:128-131). -/
def Manager.isEmpty (m : Manager P) : Bool := m.length == 0
/-- `is_full` (copperlist.rs:135-138). -/
def Manager.isFull (m : Manager P) : Bool := m.cap == m.len
/-- `clear` (copperlist.rs:142-146). -/
def Manager.clear (m : Manager P) : Manager P := { m with insertionIndex := 0, length := 0 }

/-- `create` (copperlist.rs:148-162).  Returns the index of the slot lent to the caller.
Panics on an out of bounds index and, with overflow checks, on the increment of the largest
id. -/
def Manager.create (o : Overflow) (m : Manager P) : Rs (Manager P × Option Nat) :=
  if m.isFull then .ok (m, none)
  else
    match m.data[m.insertionIndex]? with
    | none => .panic
    | some slot =>
      if m.currentClId = 0xFFFFFFFF ∧ o = .checked then .panic
      else
        .ok ({ data := m.data.set m.insertionIndex { slot with id := m.currentClId }
               insertionIndex := (m.insertionIndex + 1) % m.cap
               length := m.length + 1
               currentClId := m.currentClId + 1 }, some m.insertionIndex)

/-- The caller of `create` writes through the `&mut CopperList` it received. -/
def Manager.write (m : Manager P) (slot : Nat) (f : CL P → CL P) : Manager P :=
  { m with data := m.data.modify slot f }

/-- The index of the newest list (`peek`, `drop_last`, `pop`). -/
def Manager.lastIndex (m : Manager P) : Nat :=
  if m.insertionIndex = 0 then m.cap - 1 else m.insertionIndex - 1

/-- `peek` (copperlist.rs:165-176). -/
def Manager.peek (m : Manager P) : Rs (Option (CL P)) :=
  if m.length = 0 then .ok none
  else
    match m.data[m.lastIndex]? with
    | none => .panic
    | some c => .ok (some c)

/-- `drop_last` (copperlist.rs:178-190). -/
def Manager.dropLast (m : Manager P) : Manager P :=
  if m.length = 0 then m
  else { m with insertionIndex := m.lastIndex, length := m.length - 1 }

/-- `pop` (copperlist.rs:192-204).  Returns the popped list. -/
def Manager.pop (m : Manager P) : Rs (Manager P × Option (CL P)) :=
  if m.length = 0 then .ok (m, none)
  else
    let m' := { m with insertionIndex := m.lastIndex, length := m.length - 1 }
    match m'.data[m'.insertionIndex]? with
    | none => .panic
    | some c => .ok (m', some c)

/-- `slice.split_at(mid)`: panics when `mid` exceeds the length. -/
def splitAt' {α : Type} (l : List α) (mid : Nat) : Rs (List α × List α) :=
  if mid ≤ l.length then .ok (l.take mid, l.drop mid) else .panic

/-- `iter` (copperlist.rs:210-214). -/
def Manager.iter (m : Manager P) : Rs (List (CL P)) :=
  if m.length ≤ m.cap then
    match splitAt' (m.data.take m.length) m.insertionIndex with
    | .panic => .panic
    | .ok (a, b) => .ok (a.reverse ++ b.reverse)
  else .panic

/-- `iter_mut` (copperlist.rs:220-224): the visited elements in visiting order. -/
def Manager.iterMut (m : Manager P) : Rs (List (CL P)) :=
  match splitAt' m.data m.insertionIndex with
  | .panic => .panic
  | .ok (a, b) => .ok (a.reverse ++ b.reverse)

/-- `asc_iter` and `asc_iter_mut` (copperlist.rs:230-244). -/
def Manager.ascIter (m : Manager P) : Rs (List (CL P)) :=
  match splitAt' m.data m.insertionIndex with
  | .panic => .panic
  | .ok (a, b) => .ok (b ++ a)

/-- Slot index of the `k`-th element visited by `iter_mut`. -/
def Manager.iterMutSlot (m : Manager P) (k : Nat) : Nat :=
  if k < m.insertionIndex then m.insertionIndex - 1 - k
  else m.cap - 1 - (k - m.insertionIndex)

end CopperList
end Verif
