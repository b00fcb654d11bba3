import Verif.Proofs.Tags
/-!
C67: detections of tags.
-/
namespace Verif
namespace Tags
open Bincode Payload Payloads Clock

/-- With at most 16 located tags in the image, the message reports each of them, in order, its number
next to its own pose and margin; and its time is the time of the image. -/
theorem C67_reported_partial {I : Type} (detect : I → List Tag) (image : I) (md : MsgMeta) (out : Msg Detections)
    (h : (located (detect image)).length ≤ 16) :
    ∃ d, process detect ⟨some image, md⟩ out = .ok ⟨some d, { out.md with tov := md.tov }⟩ ∧
      Detections.rows d = located (detect image) := by
  refine ⟨report (located (detect image)), ?_, rows_report _⟩
  unfold process
  have := (addAll_report (detect image) []).1 (by simpa using h)
  have h0 : Detections.new = report [] := rfl
  simp only [h0, this]
  rfl

/-- Without an image there are no detections, which is not the same as no message. -/
theorem C67_no_image {I : Type} (detect : I → List Tag) (md : MsgMeta) (out : Msg Detections) :
    process detect ⟨none, md⟩ out = .ok ⟨some (report []), { out.md with tov := md.tov }⟩ := rfl

/-- Negation: an image with more than 16 located tags panics, whatever they are. -/
theorem C67_many_violated {I : Type} (detect : I → List Tag) (image : I) (md : MsgMeta) (out : Msg Detections)
    (h : 16 < (located (detect image)).length) : process detect ⟨some image, md⟩ out = .panic := by
  unfold process
  have := (addAll_report (detect image) []).2 (by simp) (by simpa using h)
  have h0 : Detections.new = report [] := rfl
  simp only [h0, this]

/-- The filter gives the rows whose margin is above the threshold: all, only them, in order. -/
theorem C67_filtered (gt : F32 → F32 → Bool) (d : Detections) (threshold : F32) :
    Detections.filtered gt d threshold = (Detections.rows d).filter fun r => gt r.2.2 threshold := by
  unfold Detections.filtered
  induction Detections.rows d with
  | nil => rfl
  | cons r l ih => by_cases h : gt r.2.2 threshold <;> simp [h, ih]

/-! Through a dynamic value. -/

/-- A message of the task, logged as a dynamic value, is read back as it was. -/
theorem C67_logged (fc : Serde.Floats) (rows : List (UInt64 × Pose F32 × F32)) (h : rows.length ≤ 16) :
    ofValue fc (Detections.data (report rows)).toValue = .ok (some (report rows)) := by
  unfold Detections.data
  rw [rows_report]
  simp only [Serde.Data.toValue, ofValue]
  have ht : ∀ l : List (UInt64 × Pose F32 × F32),
      Serde.toValues (l.map rowData) = l.map fun r => (rowData r).toValue := by
    intro l
    induction l with
    | nil => rfl
    | cons r l ih => simp [Serde.toValues, ih]
  rw [ht]
  have := visit_rt fc rows [] (by simpa using h)
  have h0 : Detections.new = report [] := rfl
  rw [h0]
  simpa using this

/-- And only such values are read: each element of the sequence is a row, and the message has these rows. -/
theorem C67_read (fc : Serde.Floats) (v : Value) (d : Detections) (h : ofValue fc v = .ok (some d)) :
    ∃ vs, v = .seq vs ∧ vs.map (fun v => (Serde.de fc rowTy v).bind rowOf) = (Detections.rows d).map some ∧
      d = report (Detections.rows d) ∧ vs.length ≤ 16 := by
  unfold ofValue at h
  split at h
  · rename_i vs
    obtain ⟨rows, h1, h2, h3⟩ := visit_inv fc vs [] d (by simp) h
    simp only [List.nil_append, List.length_nil, Nat.zero_add] at h2 h3
    exact ⟨vs, rfl, by rw [h2, rows_report, h1], by rw [h2, rows_report], by
      have := congrArg List.length h1
      simp only [List.length_map] at this
      omega⟩
  · cases h

example (fc : Serde.Floats) : ofValue fc (.seq [.u8 3]) = .ok none := by
  have : (Serde.de fc rowTy (.u8 3)).bind rowOf = none := by unfold rowTy; rw [Serde.de.eq_def]; rfl
  simp only [ofValue, visitSeq, this]

/-! A case: two tags, one without a pose. -/
def demoPose : Pose F32 := Vector.replicate 4 (Vector.replicate 4 ⟨7⟩)
def demoTags : List Tag := [⟨4, ⟨1⟩, some demoPose⟩, ⟨5, ⟨2⟩, none⟩, ⟨6, ⟨3⟩, some demoPose⟩]
example : located demoTags = [(4, demoPose, ⟨1⟩), (6, demoPose, ⟨3⟩)] := rfl
example : (located demoTags).length ≤ 16 := by decide
example : 16 < (located (List.replicate 17 ⟨4, ⟨1⟩, some demoPose⟩)).length := by decide

end Tags
end Verif
