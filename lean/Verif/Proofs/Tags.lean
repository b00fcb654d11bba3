import Verif.Spec.Tags
import Verif.Proofs.ValueSerde
/-!
Lemmas for `Props/Tags`.
-/
namespace Verif
namespace Tags
open Bincode Payload Payloads Clock

theorem rows_report (rows : List (UInt64 × Pose F32 × F32)) : Detections.rows (report rows) = rows := by
  unfold Detections.rows report
  induction rows with
  | nil => rfl
  | cons r l ih => simp only [List.map_cons, List.zip_cons_cons]; rw [ih]

theorem add_report (rows : List (UInt64 × Pose F32 × F32)) (i : UInt64) (p : Pose F32) (m : F32) :
    Detections.add (report rows) i p m =
      if rows.length < 16 then .ok (report (rows ++ [(i, p, m)])) else .panic := by
  unfold Detections.add report ArrayVec.push
  by_cases h : rows.length < 16 <;> simp [h, bind, Rs.bind, pure]

theorem addAll_report (l : List Tag) (rows : List (UInt64 × Pose F32 × F32)) :
    (rows.length + (located l).length ≤ 16 → addAll (report rows) l = .ok (report (rows ++ located l))) ∧
    (rows.length ≤ 16 → 16 < rows.length + (located l).length → addAll (report rows) l = .panic) := by
  induction l generalizing rows with
  | nil => simp [addAll, located]
  | cons t l ih =>
    unfold addAll
    cases hp : t.pose with
    | none =>
      have : located (t :: l) = located l := by simp [located, hp]
      rw [this]
      exact ih rows
    | some p =>
      have : located (t :: l) = (t.id, p, t.margin) :: located l := by simp [located, hp]
      rw [this]
      simp only [add_report, List.length_cons]
      have ih' := ih (rows ++ [(t.id, p, t.margin)])
      simp only [List.length_append, List.length_cons, List.length_nil] at ih'
      by_cases h : rows.length < 16
      · simp only [h, if_true]
        refine ⟨fun h1 => ?_, fun h1 h2 => ?_⟩
        · rw [ih'.1 (by omega)]; simp
        · rw [ih'.2 (by omega) (by omega)]
      · simp only [h, if_false]
        refine ⟨fun h1 => by omega, fun _ _ => trivial⟩

theorem vec4 {T : Type} (v : Vector T 4) : ∃ a b c d, v = #v[a, b, c, d] := by
  obtain ⟨⟨l⟩, h⟩ := v
  match l, h with
  | [a, b, c, d], _ => exact ⟨a, b, c, d, rfl⟩

theorem line_rt (fc : Serde.Floats) (v : Vector F32 4) :
    (Serde.de fc (.tuple (List.replicate 4 (.prim .f32))) (arrayData (fun x => .prim (.f32 x)) v).toValue) =
      some (arrayData (fun x => .prim (.f32 x)) v) := by
  obtain ⟨a, b, c, d, rfl⟩ := vec4 v
  rfl

theorem tuple_cons (fc : Serde.Floats) (t : Serde.Ty) (ts : List Serde.Ty) (v : Value) (l : List Value)
    (d : Serde.Data) (r : List Serde.Data) (h1 : Serde.de fc t v = some d) (h2 : Serde.deTuple fc ts l = some r) :
    Serde.deTuple fc (t :: ts) (v :: l) = some (d :: r) := by
  rw [Serde.deTuple, h1, h2]

theorem de_tuple (fc : Serde.Floats) (ts : List Serde.Ty) (l : List Value) (r : List Serde.Data)
    (h : Serde.deTuple fc ts l = some r) : Serde.de fc (.tuple ts) (.seq l) = some (.tuple r) := by
  rw [Serde.de.eq_def]
  simp only [h, Option.map_some]

theorem pose_de (fc : Serde.Floats) (p : Pose F32) : Serde.de fc poseTy (poseData p).toValue = some (poseData p) := by
  obtain ⟨r0, r1, r2, r3, rfl⟩ := vec4 p
  have ht : Serde.de fc (.tuple (List.replicate 4 (.tuple (List.replicate 4 (.prim .f32)))))
      (arrayData (arrayData fun x => .prim (.f32 x)) #v[r0, r1, r2, r3]).toValue =
      some (arrayData (arrayData fun x => .prim (.f32 x)) #v[r0, r1, r2, r3]) :=
    de_tuple fc _ _ _ (tuple_cons fc _ _ _ _ _ _ (line_rt fc r0) (tuple_cons fc _ _ _ _ _ _ (line_rt fc r1)
      (tuple_cons fc _ _ _ _ _ _ (line_rt fc r2) (tuple_cons fc _ _ _ _ _ _ (line_rt fc r3) (by simp [Serde.deTuple])))))
  unfold poseTy poseData
  generalize (arrayData (arrayData fun x => .prim (.f32 x)) #v[r0, r1, r2, r3]) = a at *
  generalize (Serde.Ty.tuple (List.replicate 4 (.tuple (List.replicate 4 (.prim .f32))))) = t at *
  have h1 : Serde.keysOk ["mat"] [(Value.str "mat", a.toValue)] = true := rfl
  have h2 : Serde.valuesFor ["mat"] 0 [(Value.str "mat", a.toValue)] = [a.toValue] := rfl
  simp only [Serde.Data.toValue, Serde.toFields, Serde.insertAll, List.foldl_cons, List.foldl_nil,
    Value.insertKey]
  rw [Serde.de.eq_def]
  simp only [List.map_cons, List.map_nil, h1, if_true, Serde.deFields, h2, ht, Option.map_some]

theorem array_of {T : Type} (f : T → Serde.Data) (g : Serde.Data → Option T) (h : ∀ x, g (f x) = some x)
    (v : Vector T 4) : arrayOf 4 g (arrayData f v) = some v := by
  obtain ⟨a, b, c, d, rfl⟩ := vec4 v
  have : List.mapM g (#v[a, b, c, d].toList.map f) = some [a, b, c, d] := by simp [h]
  unfold arrayOf arrayData
  simp only [this]
  rfl

theorem pose_of (p : Pose F32) : poseOf (poseData p) = some p :=
  array_of _ _ (array_of (fun x => .prim (.f32 x)) f32Of fun _ => rfl) p

theorem row_rt (fc : Serde.Floats) (r : UInt64 × Pose F32 × F32) :
    (Serde.de fc rowTy (rowData r).toValue).bind rowOf = some r := by
  obtain ⟨i, p, m⟩ := r
  have hi : Serde.de fc (.prim .u64) (Serde.Data.prim (.u64 i)).toValue = some (.prim (.u64 i)) := by
    rw [Serde.de.eq_def]
    simp only [Serde.Data.toValue]
    rw [show Serde.Prim.de fc .u64 (Serde.Prim.u64 i).toValue = some (.u64 i) from Serde.prim_rt fc (.u64 i)]
    rfl
  have hm : Serde.de fc (.prim .f32) (Serde.Data.prim (.f32 m)).toValue = some (.prim (.f32 m)) := by
    rw [Serde.de.eq_def]
    rfl
  have hr : Serde.de fc rowTy (rowData (i, p, m)).toValue = some (rowData (i, p, m)) := by
    unfold rowTy rowData
    simp only [Serde.Data.toValue.eq_6, Serde.toValues]
    exact de_tuple fc _ _ _ (tuple_cons fc _ _ _ _ _ _ hi (tuple_cons fc _ _ _ _ _ _ (pose_de fc p)
      (tuple_cons fc _ _ _ _ _ _ hm (by simp [Serde.deTuple]))))
  rw [hr]
  simp only [Option.bind_some, rowData, rowOf, pose_of, Option.map_some]

theorem visit_rt (fc : Serde.Floats) (l rows : List (UInt64 × Pose F32 × F32)) :
    (rows.length + l.length ≤ 16 →
      visitSeq fc (report rows) (l.map fun r => (rowData r).toValue) = .ok (some (report (rows ++ l)))) := by
  induction l generalizing rows with
  | nil => simp [visitSeq]
  | cons r l ih =>
    intro h
    simp only [List.length_cons] at h
    simp only [List.map_cons, visitSeq, row_rt, add_report]
    rw [if_pos (by omega)]
    have := ih (rows ++ [r]) (by simp; omega)
    simpa using this

theorem visit_inv (fc : Serde.Floats) (vs : List Value) (rows : List (UInt64 × Pose F32 × F32)) (d : Detections)
    (h0 : rows.length ≤ 16) (h : visitSeq fc (report rows) vs = .ok (some d)) :
    ∃ l, vs.map (fun v => (Serde.de fc rowTy v).bind rowOf) = l.map some ∧ d = report (rows ++ l) ∧
      rows.length + l.length ≤ 16 := by
  induction vs generalizing rows with
  | nil =>
    simp only [visitSeq, Rs.ok.injEq, Option.some.injEq] at h
    exact ⟨[], rfl, by simp [h], by simpa using h0⟩
  | cons v vs ih =>
    unfold visitSeq at h
    cases hv : (Serde.de fc rowTy v).bind rowOf with
    | none => simp [hv] at h
    | some r =>
      simp only [hv, add_report] at h
      by_cases hl : rows.length < 16
      · simp only [hl, if_true] at h
        obtain ⟨l, h1, h2, h3⟩ := ih (rows ++ [r]) (by simp; omega) h
        refine ⟨r :: l, by simp [hv, h1], by simpa using h2, ?_⟩
        simp only [List.length_append, List.length_cons, List.length_nil] at h3 ⊢
        omega
      · simp [hl] at h

end Tags
end Verif
