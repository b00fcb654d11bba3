import Verif.Model.Runtime
/-!
The messages of a copper list before any task wrote to them.  `CuListsManager::new`
(core/cu29_runtime/src/copperlist.rs:105-117) allocates the lists with `alloc_zeroed`: every byte is zero.
What these bytes mean is up to the layout of the types, which rustc chooses (trusted base).
-/
namespace Verif
namespace Runtime
open Clock CopperList Planner

/-- The layout of `Option<T>` for a payload: with a tag of its own, zero for `None`; or, when `T` has bytes
with unused values (a `bool`, an enumeration), `None` is such an unused value, and zeroes are a `T`. -/
inductive Layout (P : Type) where
  | tagged
  | niche (zero : P)
  deriving DecidableEq, Repr

/-- The payload of a zeroed message. -/
def Layout.zero {P : Type} : Layout P → Option P
  | .tagged => none
  | .niche z => some z

/-- The status of a zeroed message: a `CompactString` keeps up to 24 bytes in place, and its length in the
last one only when it is shorter. -/
def zeroText : String := String.ofList (List.replicate 24 '\x00')

/-- A zeroed `CuMsg` (cutask.rs:97-136).  An `OptionCuTime` is `None` when it is `u64::MAX`
(core/cu29_clock/src/lib.rs:212-227); `Tov::None` is the first case of its enumeration. -/
def zeroMsg {P : Type} (l : Layout P) : Msg P := ⟨l.zero, ⟨⟨⟨⟨0⟩⟩, ⟨⟨0⟩⟩⟩, .none, zeroText⟩⟩

/-- The lists of a new runtime, of `N` copper lists, for tasks with these payloads in plan order. -/
def zeroLists {P : Type} (N : Nat) (ls : List (Layout P)) : Manager (List (Msg P)) :=
  Manager.new N (ls.map zeroMsg)

/-- The payload of the GPIO pin, `RPGpioPayload { on: bool }`
(components/sinks/cu_rp_gpio/src/lib.rs:27-30). -/
def gpioLayout : Layout Bool := .niche false

end Runtime
end Verif
