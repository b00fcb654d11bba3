import Verif.Model.ConsoleMon
import Verif.Model.Quantile
import Verif.Model.ShowTime
/-!
The table of latencies of the console: `draw_latency_table` (components/monitors/cu_consolemon/src/lib.rs:401-516),
drawn in a terminal which is wide enough for all its columns (87 characters with the borders and the spaces
between columns), without its header and its colours.
-/
namespace Verif
namespace ConsoleMon
open Clock Monitoring ShowTime

/-- A line aligned to the right in a column of `w` characters, as the crate `ratatui` 0.29 draws it (trusted): what
does not fit is left out at the start of the line.  Every character is taken to be one column wide. -/
def cell (w : Nat) (s : List Char) : List Char := List.replicate (w - s.length) ' ' ++ s.drop (s.length - w)

/-- A figure (lib.rs:434-449): `CuDuration(n).to_string()` of what the statistics give as a `u64`. -/
def figure (n : Nat) : List Char := text ⟨UInt64.ofNat n⟩

/-- A row (lib.rs:431-450, 455-497), with the widths of the columns (lib.rs:502-510). -/
def latencyRow (name : List Char) (s : DurStats) : List (List Char) :=
  [cell 10 name,
   cell 10 (figure s.bare.min),
   cell 12 (figure s.bare.max),
   cell 12 (figure s.bare.mean),
   cell 10 (figure s.stddev),
   cell 12 (figure s.jitter.mean),
   cell 13 (figure s.jitter.max)]

/-- The rows of the tasks (lib.rs:425-453), from number `i` on: `self.task_ids[i]` must exist. -/
def latencyRows (ids : List (List Char)) (i : Nat) : List DurStats → Rs (List (List (List Char)))
  | [] => .ok []
  | s :: ss =>
    match ids[i]? with
    | none => .panic
    | some id =>
      match latencyRows ids (i + 1) ss with
      | .panic => .panic
      | .ok rows => .ok (latencyRow id s :: rows)

/-- `draw_latency_table` (lib.rs:401-516): the row of whole iterations comes last. -/
def latencyTable (ids : List (List Char)) (t : TaskStats) : Rs (List (List (List Char))) :=
  match latencyRows ids 0 t.stats with
  | .panic => .panic
  | .ok rows => .ok (rows ++ [latencyRow "End2End".toList t.end2end])

end ConsoleMon
end Verif
