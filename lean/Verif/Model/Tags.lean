import Verif.Model.Payloads
import Verif.Model.Message
/-!
The task that detects tags in images: components/tasks/cu_apriltag/src/lib.rs:105-200, 304-343.  The
detector is the external crate `apriltag`.
-/
namespace Verif
namespace Tags
open Bincode Payload Payloads Clock

/-- A detection of the crate `apriltag`: its number, how sure it is, and what `estimate_tag_pose` gives
(the entries of the pose are those of `Spatial.tagPose`). -/
structure Tag where
  id : UInt64
  margin : F32
  pose : Option (Pose F32)
  deriving DecidableEq, Repr

/-- `AprilTagDetections::new` (lib.rs:182-184). -/
def Detections.new : Detections := ⟨⟨[]⟩, ⟨[]⟩, ⟨[]⟩⟩

/-- The three pushes of a detection (lib.rs:331-336): a push on a full array panics. -/
def Detections.add (d : Detections) (id : UInt64) (pose : Pose F32) (margin : F32) : Rs Detections := do
  let poses ← d.poses.push pose
  let margins ← d.margins.push margin
  let ids ← d.ids.push id
  pure ⟨ids, poses, margins⟩

/-- The loop over the detections (lib.rs:314-338). -/
def addAll (d : Detections) : List Tag → Rs Detections
  | [] => .ok d
  | t :: l =>
    match t.pose with
    | none => addAll d l
    | some p =>
      match Detections.add d t.id p t.margin with
      | .panic => .panic
      | .ok d => addAll d l

/-- `process` (lib.rs:304-343); `detect` is the detector. -/
def process {I : Type} (detect : I → List Tag) (input : Msg I) (out : Msg Detections) : Rs (Msg Detections) :=
  let result : Rs Detections := match input.payload with
    | none => .ok Detections.new
    | some image => addAll Detections.new (detect image)
  match result with
  | .panic => .panic
  | .ok d => .ok (({ out with md := { out.md with tov := input.md.tov } }).setPayload d)

/-- The three arrays side by side (lib.rs:132-135, 188-190). -/
def Detections.rows (d : Detections) : List (UInt64 × Pose F32 × F32) :=
  d.ids.elems.zip (d.poses.elems.zip d.margins.elems)

/-- `filtered_by_decision_margin` (lib.rs:185-199); `gt` is `>` on `f32`. -/
def Detections.filtered (gt : F32 → F32 → Bool) (d : Detections) (threshold : F32) : List (UInt64 × Pose F32 × F32) :=
  (Detections.rows d).filterMap fun r => if gt r.2.2 threshold then some r else none

/-! As a dynamic value. -/

/-- `[T; n]` for serde. -/
def arrayData {T : Type} {n : Nat} (f : T → Serde.Data) (a : Vector T n) : Serde.Data := .tuple (a.toList.map f)
/-- `Serialize for Transform3D` (cu_spatial_payloads/src/lib.rs:12-15), derived. -/
def poseData (p : Pose F32) : Serde.Data := .struct [("mat", arrayData (arrayData fun x => .prim (.f32 x)) p)]
/-- An element: a tuple (lib.rs:135-138). -/
def rowData (r : UInt64 × Pose F32 × F32) : Serde.Data := .tuple [.prim (.u64 r.1), poseData r.2.1, .prim (.f32 r.2.2)]
/-- `Serialize for AprilTagDetections` (lib.rs:127-144). -/
def Detections.data (d : Detections) : Serde.Data := .tuple ((Detections.rows d).map rowData)

def poseTy : Serde.Ty := .struct [("mat", .tuple (List.replicate 4 (.tuple (List.replicate 4 (.prim .f32)))))]
def rowTy : Serde.Ty := .tuple [.prim .u64, poseTy, .prim .f32]

/-- The Rust array of what was read. -/
def arrayOf {T : Type} (n : Nat) (f : Serde.Data → Option T) : Serde.Data → Option (Vector T n)
  | .tuple l =>
    match l.mapM f with
    | none => none
    | some l => if h : l.length = n then some ⟨l.toArray, by simpa using h⟩ else none
  | _ => none
def f32Of : Serde.Data → Option F32
  | .prim (.f32 x) => some x
  | _ => none
def poseOf : Serde.Data → Option (Pose F32)
  | .struct [(_, a)] => arrayOf 4 (arrayOf 4 f32Of) a
  | _ => none
def rowOf : Serde.Data → Option (UInt64 × Pose F32 × F32)
  | .tuple [.prim (.u64 i), p, .prim (.f32 m)] => (poseOf p).map fun p => (i, p, m)
  | _ => none

/-- `visit_seq` of `Deserialize for AprilTagDetections` (lib.rs:160-174): the elements, until there is
no more; `none` is an error.  The order of the pushes, on arrays of the same length, does not show. -/
def visitSeq (fc : Serde.Floats) (d : Detections) : List Value → Rs (Option Detections)
  | [] => .ok (some d)
  | v :: l =>
    match (Serde.de fc rowTy v).bind rowOf with
    | none => .ok none
    | some (id, pose, margin) =>
      match Detections.add d id pose margin with
      | .panic => .panic
      | .ok d => visitSeq fc d l

/-- `Deserialize for AprilTagDetections` (lib.rs:146-179) from a dynamic value: `deserialize_tuple` is
`deserialize_any` (core/cu29_value/src/de.rs:353-385, 410-414). -/
def ofValue (fc : Serde.Floats) : Value → Rs (Option Detections)
  | .seq l => visitSeq fc Detections.new l
  | _ => .ok none

end Tags
end Verif
