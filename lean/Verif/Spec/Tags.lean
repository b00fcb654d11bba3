import Verif.Model.Tags
/-!
Specification for the properties of `Props/Tags`.
-/
namespace Verif
namespace Tags
open Bincode Payload Payloads Clock

/-- The detections with a pose, in order. -/
def located (l : List Tag) : List (UInt64 × Pose F32 × F32) :=
  l.filterMap fun t => t.pose.map fun p => (t.id, p, t.margin)

/-- The message that carries these detections. -/
def report (rows : List (UInt64 × Pose F32 × F32)) : Detections :=
  ⟨⟨rows.map (·.1)⟩, ⟨rows.map (·.2.1)⟩, ⟨rows.map (·.2.2)⟩⟩

end Tags
end Verif
