import Verif.Model.CopperList
/-!
The public operations of `CuListsManager` (core/cu29_runtime/src/copperlist.rs:104-245) as a
state machine: one operation of a client and what the client observes.
-/
namespace Verif
namespace CopperList
variable {P : Type}

/-- Client operations.  `create` is followed by the client filling the list it got (state and
messages); `mutate k` writes to the `k`-th list visited by `iter_mut`. -/
inductive Op (P : Type) where
  | create (st : CLState) (msgs : P)
  | pop | dropLast | peek | clear | len | isEmpty | isFull | iter
  | mutate (k : Nat) (st : CLState) (msgs : P)
  deriving DecidableEq, Repr

/-- What the client observes. -/
inductive Out (P : Type) where
  | created (id : Option UInt32)
  | list (l : Option (CL P))
  | nat (n : Nat)
  | bool (b : Bool)
  | lists (l : List (CL P))
  | unit
  deriving DecidableEq, Repr

/-- The client overwrites state and messages of a list. -/
def fill (st : CLState) (msgs : P) (c : CL P) : CL P := { c with state := st, msgs := msgs }

/-- One client operation on the code. -/
def Manager.step (o : Overflow) (m : Manager P) : Op P → Rs (Manager P × Out P)
  | .create st msgs =>
    match m.create o with
    | .panic => .panic
    | .ok (m', none) => .ok (m', .created none)
    | .ok (m', some slot) =>
      let m'' := m'.write slot (fill st msgs)
      match m''.data[slot]? with
      | none => .panic
      | some c => .ok (m'', .created (some c.id))
  | .pop =>
    match m.pop with
    | .panic => .panic
    | .ok (m', c) => .ok (m', .list c)
  | .dropLast => .ok (m.dropLast, .unit)
  | .peek =>
    match m.peek with
    | .panic => .panic
    | .ok c => .ok (m, .list c)
  | .clear => .ok (m.clear, .unit)
  | .len => .ok (m, .nat m.len)
  | .isEmpty => .ok (m, .bool m.isEmpty)
  | .isFull => .ok (m, .bool m.isFull)
  | .iter =>
    match m.iter with
    | .panic => .panic
    | .ok l => .ok (m, .lists l)
  | .mutate k st msgs =>
    if k < m.cap then .ok (m.write (m.iterMutSlot k) (fill st msgs), .unit) else .ok (m, .unit)

/-- A client session: the operations one after the other, with everything observed. -/
def Manager.run (o : Overflow) (m : Manager P) : List (Op P) → Rs (Manager P × List (Out P))
  | [] => .ok (m, [])
  | op :: ops =>
    match m.step o op with
    | .panic => .panic
    | .ok (m', out) =>
      match Manager.run o m' ops with
      | .panic => .panic
      | .ok (m'', outs) => .ok (m'', out :: outs)

end CopperList
end Verif
