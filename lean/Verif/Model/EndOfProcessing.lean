import Verif.Model.CopperList
/-!
Model of `CuRuntime::end_of_processing` and `available_copper_lists`
(core/cu29_runtime/src/curuntime.rs:97-124).
-/
namespace Verif
namespace CopperList
variable {P σ : Type}

/-- The logger of the runtime (curuntime.rs:44-46): `none` when task logging is disabled.  `σ` is
whatever the write stream changes.  `logger.log(cl).unwrap()` panics when the stream reports an
error, so the call is `ok` or a panic. -/
abbrev Logger (σ P : Type) := Option (σ → CL P → Rs σ)

/-- `available_copper_lists` (curuntime.rs:97-99).  The subtraction cannot underflow on a manager
satisfying its invariant; natural number subtraction is used. -/
def Manager.available (m : Manager P) : Nat := m.cap - m.len

/-- The closure of `for_each` (curuntime.rs:104-119) applied to one list: new stream state,
`is_top`, `nb_done` and the list as it is left. -/
def eopVisit (log : Logger σ P) (id : UInt32) (s : σ) (isTop : Bool) (nb : Nat) (c : CL P) :
    Rs (σ × Bool × Nat × CL P) :=
  let c := if c.id = id ∧ c.state = .processing then { c with state := .doneProcessing } else c
  if isTop = true ∧ c.state = .doneProcessing then
    match log with
    | some f =>
      match f s { c with state := .beingSerialized } with
      | .panic => .panic
      | .ok s' => .ok (s', true, nb + 1, { c with state := .free })
    | none => .ok (s, true, nb + 1, { c with state := .free })
  else .ok (s, false, nb, c)

/-- The iteration over all the lists (curuntime.rs:104-119). -/
def eopLoop (log : Logger σ P) (id : UInt32) :
    σ → Bool → Nat → List (CL P) → Rs (σ × Nat × List (CL P))
  | s, _, nb, [] => .ok (s, nb, [])
  | s, isTop, nb, c :: cs =>
    match eopVisit log id s isTop nb c with
    | .panic => .panic
    | .ok (s', isTop', nb', c') =>
      match eopLoop log id s' isTop' nb' cs with
      | .panic => .panic
      | .ok (s'', nb'', cs') => .ok (s'', nb'', c' :: cs')

/-- `for _ in 0..nb_done { pop() }` (curuntime.rs:120-122). -/
def Manager.popN : Nat → Manager P → Rs (Manager P)
  | 0, m => .ok m
  | n + 1, m =>
    match m.pop with
    | .panic => .panic
    | .ok (m', _) => popN n m'

/-- `end_of_processing` (curuntime.rs:101-124).  `iter_mut` visits the elements before the
insertion index backwards, then the others backwards; the visited elements are put back where
they came from. -/
def endOfProcessing (log : Logger σ P) (s : σ) (m : Manager P) (id : UInt32) :
    Rs (σ × Manager P) :=
  match m.iterMut with
  | .panic => .panic
  | .ok visited =>
    match eopLoop log id s true 0 visited with
    | .panic => .panic
    | .ok (s', nb, out) =>
      let data := (out.take m.insertionIndex).reverse ++ (out.drop m.insertionIndex).reverse
      match Manager.popN nb { m with data := data } with
      | .panic => .panic
      | .ok m' => .ok (s', m')

end CopperList
end Verif
