import Verif.Model.Render
import Verif.Model.Params
import Verif.Model.ShowValue
/-!
The drawing of a configuration with its parameters: `Display for Value` (core/cu29_runtime/src/config.rs:180-207), which
`render` (config.rs:573-633) uses.
-/
namespace Verif
namespace Params
open Config Bincode

/-- `fmt` (config.rs:181-206).  The text of the kinds that are written with `{:?}`, and of characters and units, is a
part of `other`. -/
def RonValue.display (fl : Floats) : RonValue → List Char
  | .number num =>
    match num with
    | .i8 n => showInt n.toInt
    | .i16 n => showInt n.toInt
    | .i32 n => showInt n.toInt
    | .i64 n => showInt n.toInt
    | .u8 n => Nat.toDigits 10 n.toNat
    | .u16 n => Nat.toDigits 10 n.toNat
    | .u32 n => Nat.toDigits 10 n.toNat
    | .u64 n => Nat.toDigits 10 n.toNat
    | .f32 b => fl.f32 ⟨b⟩
    | .f64 b => fl.f64 ⟨b⟩
  | .str s => s.toList
  | .bool b => if b then "true".toList else "false".toList
  | .other text => text.toList

/-- The keys and values of a task as `render` writes them (config.rs:580-586). -/
def shownNode (fl : Floats) (n : Node ComponentConfig) : Node Render.Shown :=
  ⟨n.id, n.type_, n.config.map fun c => c.map fun e => (e.1, String.ofList (e.2.display fl))⟩

/-- `render` (config.rs:573-633), from the parameters as they were read; it does not look at the monitor. -/
def draw (fl : Floats) (c : CuConfig ComponentConfig) : Rs (List Char) :=
  Render.render ⟨c.nodes.map (shownNode fl), c.edges, none, c.logging⟩

end Params
end Verif
