import Verif.Proofs.Payloads
/-!
C65: the payloads of the components are decoded as they were encoded.
-/
namespace Verif
namespace Payloads
open Bincode Payload

/-- Poses, of either precision. -/
theorem C65_poses (p : Pose F32) (q : Pose F64) : RoundTrips p ∧ RoundTrips q :=
  ⟨rt_array fun _ _ => rt_array fun x _ => rt_f32 x, rt_array fun _ _ => rt_array fun x _ => rt_f64 x⟩

/-- Readings of the inertial sensor. -/
theorem C65_readings (r : Readings) (rest : Bytes) : decReadings (encReadings r ++ rest) = .ok (r, rest) := by
  unfold decReadings encReadings
  simp only [List.append_assoc]
  rw [Dec.bind_ok (rt_f32 _ _), Dec.bind_ok (rt_f32 _ _), Dec.bind_ok (rt_f32 _ _), Dec.bind_ok (rt_f32 _ _),
    Dec.bind_ok (rt_f32 _ _), Dec.bind_ok (rt_f32 _ _), Dec.bind_ok (rt_f32 _ _), Dec.bind_ok (rt_f32 _ _),
    Dec.bind_ok (rt_f32 _ _), Dec.bind_ok (rt_f32 _ _), Dec.bind_ok (rt_f32 _ _), Dec.bind_ok (rt_f32 _ _)]
  rfl

/-- Detected tags: at most 16, as the arrays hold. -/
theorem C65_detections (d : Detections) (h1 : d.ids.elems.length ≤ 16) (h2 : d.poses.elems.length ≤ 16)
    (h3 : d.margins.elems.length ≤ 16) (rest : Bytes) :
    decDetections (encDetections d ++ rest) = .ok (.ok d, rest) := by
  unfold decDetections encDetections
  simp only [List.append_assoc]
  obtain ⟨⟨ids⟩, ⟨poses⟩, ⟨margins⟩⟩ := d
  rw [Dec.bind_ok ((C35_round_trip 16 (by omega) ids h1 (fun x _ => rt_u64 x) _).2),
    Dec.bind_ok ((C35_round_trip 16 (by omega) poses h2 (fun x _ => (C65_poses x (Vector.replicate 4 (Vector.replicate 4 ⟨0⟩))).1) _).2),
    Dec.bind_ok ((C35_round_trip 16 (by omega) margins h3 (fun x _ => rt_f32 x) _).2)]
  rfl

/-- Positions of servos, outputs of the PID, ticks of an encoder, levels of a pin, powers of a motor,
readings of the converter, and buffers of video of any length that fits in memory. -/
theorem C65_plain (a : ServoPositions) (b : PidOutput) (c : EncoderTicks) (d : Gpio) (e : Motor) (f : AdsReading)
    (g : GstBuffer) (hg : g.length < 18446744073709551616) :
    RoundTrips a ∧ RoundTrips b ∧ RoundTrips c ∧ RoundTrips d ∧ RoundTrips e ∧ RoundTrips f ∧ RoundTrips g :=
  ⟨rt_array fun x _ => rt_f32 x, rt_pair (rt_f32 _) (rt_pair (rt_f32 _) (rt_pair (rt_f32 _) (rt_f32 _))),
    rt_i32 c, rt_bool d, rt_f32 e, rt_u16 f, rt_list hg fun x _ => rt_u8 x⟩

/-- Positions of servos take 32 bytes: eight numbers of four, one after the other. -/
theorem C65_servo_bytes (a : ServoPositions) :
    (enc a).length = 32 ∧ enc a = (List.ofFn fun i : Fin 8 => enc (a.get i)).flatten := by
  have h4 : ∀ x : F32, (enc x).length = 4 := fun x => by simp [enc]
  have e : enc a = (List.ofFn fun i : Fin 8 => enc (a.get i)).flatten := by
    have h : ∀ l : List F32, encAll l = (l.map enc).flatten := by
      intro l
      induction l with
      | nil => rfl
      | cons x l ih => simp only [encAll, List.map_cons, List.flatten_cons, ih]
    change encAll a.toList = _
    rw [h]
    congr 1
    apply List.ext_getElem
    · simp
    · intro i h1 h2
      rw [List.getElem_map, List.getElem_ofFn, Vector.getElem_toList]
      rfl
  refine ⟨?_, e⟩
  rw [e]
  simp [h4, List.ofFn_succ]

/-- Batches of requests to a flight controller. -/
theorem C65_requests (b : List Msp.Request) (hb : b.length < 18446744073709551616)
    (h : ∀ c, Msp.Request.setRawRc c ∈ b → c.length = 16) (rest : Bytes) :
    decBatch (encBatch b ++ rest) = .ok (b, rest) :=
  @rt_list _ requestCodec b hb (fun _ hr rest => rt_request (fun c hc => h c (hc ▸ hr)) rest) rest

/-- A point is decoded with everything but its reflectivity, which is taken for a percentage: it is
decoded as it was exactly if that changes nothing. -/
theorem C65_point_partial (percent : F32 → F32) (p : Point) (rest : Bytes) :
    decPoint percent (encPoint p ++ rest) = .ok ({ p with i := percent p.i }, rest) ∧
    (decPoint percent (encPoint p ++ rest) = .ok (p, rest) ↔ percent p.i = p.i) := by
  have h : decPoint percent (encPoint p ++ rest) = .ok ({ p with i := percent p.i }, rest) := by
    unfold decPoint encPoint
    simp only [List.append_assoc]
    rw [Dec.bind_ok (rt_u64 _ _), Dec.bind_ok (rt_f32 _ _), Dec.bind_ok (rt_f32 _ _), Dec.bind_ok (rt_f32 _ _),
      Dec.bind_ok (rt_f32 _ _), Dec.bind_ok (rt_u8 _ _)]
    rfl
  refine ⟨h, ?_⟩
  rw [h]
  cases p
  simp

/-- Negation: the ratio 1 (100 %) is decoded as the ratio 0.01, if `percent` divides by 100 (of two
numbers: 1 and 0.01, that is 0x3F800000 and 0x3C23D70A). -/
theorem C65_reflectivity_violated (percent : F32 → F32) (h : percent ⟨0x3F800000⟩ = ⟨0x3C23D70A⟩) :
    ∃ p q : Point, decPoint percent (encPoint p) = .ok (q, []) ∧ p.i = ⟨0x3F800000⟩ ∧ q.i = ⟨0x3C23D70A⟩ := by
  have := (C65_point_partial percent ⟨1, ⟨0⟩, ⟨0⟩, ⟨0⟩, ⟨0x3F800000⟩, 0⟩ []).1
  rw [List.append_nil] at this
  exact ⟨_, _, this, rfl, h⟩

/-- Negation: readings that were turned into a dynamic value (a map of their fields) cannot be read
back (an array is asked for): no readings at all. -/
theorem C65_readings_value_violated (fc : Serde.Floats) (r : Readings) :
    Serde.de fc readingsTy (Serde.Data.toValue r.data) = none := by
  simp [readingsTy, Readings.data, Serde.Data.toValue, Serde.toFields, Serde.de]

example : decDetections (encDetections ⟨⟨[3]⟩, ⟨[Vector.replicate 4 (Vector.replicate 4 ⟨7⟩)]⟩, ⟨[⟨5⟩]⟩⟩) =
    .ok (.ok ⟨⟨[3]⟩, ⟨[Vector.replicate 4 (Vector.replicate 4 ⟨7⟩)]⟩, ⟨[⟨5⟩]⟩⟩, []) := by
  have := C65_detections ⟨⟨[3]⟩, ⟨[Vector.replicate 4 (Vector.replicate 4 ⟨7⟩)]⟩, ⟨[⟨5⟩]⟩⟩ (by decide) (by decide)
    (by decide) []
  rwa [List.append_nil] at this
example : decBatch (encBatch [.rc, .setRawRc (List.replicate 16 1500), .rawImu] ++ [9]) =
    .ok ([.rc, .setRawRc (List.replicate 16 1500), .rawImu], [9]) :=
  C65_requests _ (by decide) (fun c hc => by simp at hc; simp [hc]) _

end Payloads
end Verif
