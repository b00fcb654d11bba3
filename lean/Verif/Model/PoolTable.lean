import Verif.Model.ConsoleMon
import Verif.Model.Fp
/-!
The table of memory pools of the console: `draw_memory_pools` (components/monitors/cu_consolemon/src/lib.rs:518-598), as
the texts of its cells; their columns are shares of the width of the terminal.
-/
namespace Verif
namespace ConsoleMon
open Fp

/-- The last `k` digits of a number. -/
def lastDigits : Nat → Nat → List Char
  | 0, _ => []
  | k + 1, n => lastDigits k (n / 10) ++ [Nat.digitChar (n % 10)]

/-- `{:.k}` of a number that is not negative: the standard library gives the nearest decimal number. -/
def fixed (k : Nat) : Num → List Char
  | .nan => "NaN".toList
  | .inf _ => "inf".toList
  | .fin q => let m := (nearest (q * 10 ^ k)).toNat; Nat.toDigits 10 (m / 10 ^ k) ++ '.' :: lastDigits k m

/-- `n as f64 * buffer_size as f64 / mb_unit` (lib.rs:558-559). -/
def megabytes (n buffer : Nat) : Num := ((ofInt f64 n).mul f64 (ofInt f64 buffer)).div f64 (.fin (1024 * 1024))

/-- `percent` (lib.rs:544-548). -/
def percent (used total : Nat) : Num :=
  if 0 < total then (Num.mul f64 (.fin 100) (ofInt f64 used)).div f64 (ofInt f64 total) else .fin 0

/-- The cells of a pool (lib.rs:543-576). -/
def poolRow (p : PoolStats) : List (List Char) :=
  let used := inUse p.spaceLeft p.totalSize
  [p.id.toList,
   fixed 2 (megabytes used p.bufferSize) ++ " MB / ".toList ++ fixed 2 (megabytes p.totalSize p.bufferSize) ++
     " MB (".toList ++ fixed 1 (percent used p.totalSize) ++ "%)".toList,
   Nat.toDigits 10 (p.bufferSize / 1024) ++ " KB".toList,
   Nat.toDigits 10 p.handlesInUse,
   Nat.toDigits 10 p.handlesPerSecond ++ "/s".toList]

/-- `draw_memory_pools` (lib.rs:518-598). -/
def poolTable (ps : List PoolStats) : List (List (List Char)) := ps.map poolRow

end ConsoleMon
end Verif
