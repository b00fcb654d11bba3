import Verif.Model.Basic
import Verif.Proofs.ValueSerde
import Verif.Proofs.ValueCodec
import Verif.Proofs.ValueOrd
/-! C57: Rust values as dynamic values and back. -/
namespace Verif
open Bincode Serde

/-- A value of any type made of numbers, text, options, newtypes, sequences, tuples, structs, enums
and maps, made a dynamic value and read back as its type, is the same value. -/
theorem C57_roundtrip_partial (fc : Floats) {t : Ty} (ht : t.Ok) {d : Data} (h : HasTy t d) :
    ∃ d', de fc t d.toValue = some d' ∧ Same d d' := by
  obtain ⟨d', h1, h2, _⟩ := rt fc t ht d h
  exact ⟨d', h1, h2⟩

/-- Without maps in it the value is the same to the last detail. -/
theorem C57_exact_partial (fc : Floats) {t : Ty} (ht : t.Ok) (hp : t.Plain) {d : Data} (h : HasTy t d) :
    de fc t d.toValue = some d := by
  obtain ⟨d', h1, _, h3⟩ := rt fc t ht d h
  rw [h1, h3 hp]

/-- The same through the bytes of the log: a parameter of a log line, encoded with the entry and
decoded by a reader, is the value that was passed. -/
theorem C57_logged_partial (fc : Floats) {t : Ty} (ht : t.Ok) {d : Data} (h : HasTy t d) (hf : d.Fits)
    (rest : Bytes) :
    ∃ v d', (dec : Dec Value) (enc d.toValue ++ rest) = .ok (v, rest) ∧ de fc t v = some d' ∧ Same d d' := by
  obtain ⟨d', h1, h2, _⟩ := rt fc t ht d h
  exact ⟨_, d', Value.rt_value (legal_toValue fc t ht d h hf) rest, h1, h2⟩

/-- An integer is read as any integer type that can hold the number, and refused by the others. -/
theorem C57_integers (fc : Floats) {x : Prim} {n lo hi : Int} (hx : x.number = some n) {p : PrimTy}
    (hp : rangeOf p = some (lo, hi)) :
    (lo ≤ n ∧ n ≤ hi → ∃ y, de fc (.prim p) (Data.prim x).toValue = some (.prim y) ∧ y.ty = p ∧
      y.number = some n) ∧
    (¬ (lo ≤ n ∧ n ≤ hi) → de fc (.prim p) (Data.prim x).toValue = none) := by
  obtain ⟨h1, h2⟩ := integers fc hx hp
  constructor
  · intro h
    obtain ⟨y, h3, h4⟩ := h1 h
    exact ⟨y, by simp [de, Data.toValue, h3], h4⟩
  · intro h
    simp [de, Data.toValue, h2 h]

example (fc : Floats) : de fc (.prim .u8) (Data.prim (.u16 300)).toValue = none ∧
    de fc (.prim .i64) (Data.prim (.u16 300)).toValue = some (.prim (.i64 300)) := by
  simp [de, Data.toValue, Prim.toValue, Prim.de, intIn, intOf]

def anyFloats : Floats := ⟨fun _ => ⟨0⟩, fun _ => ⟨0⟩, fun _ => ⟨0⟩, fun _ => ⟨0⟩⟩

/-- A sequence of integers of any types is read as bytes when they are all bytes, and refused
otherwise. -/
theorem C57_bytes (fc : Floats) {xs : List Prim} {ns : List Int} (h : xs.map Prim.number = ns.map some) :
    (∀ b : Bytes, b.map (fun x => (x.toNat : Int)) = ns →
      de fc (.prim .bytes) (.seq (xs.map fun x => (Data.prim x).toValue)) = some (.prim (.bytes b))) ∧
    ((∃ n ∈ ns, n < 0 ∨ 255 < n) →
      de fc (.prim .bytes) (.seq (xs.map fun x => (Data.prim x).toValue)) = none) := by
  obtain ⟨h1, h2⟩ := bytes_of h
  refine ⟨fun b hb => ?_, fun hn => ?_⟩
  · simp [de, Prim.de, Data.toValue, h1 b hb]
  · simp [de, Prim.de, Data.toValue, h2 hn]

example : de anyFloats (.prim .bytes) (.seq ([.u16 255, .i8 3].map fun x => (Data.prim x).toValue)) =
    some (.prim (.bytes [255, 3])) :=
  (C57_bytes _ (ns := [255, 3]) rfl).1 [255, 3] rfl

theorem structSeq (fc : Floats) : ∀ {fs : List (String × Ty)} {ps : List (Value × Data)},
    Pointwise (fun (f : String × Ty) (vd : Value × Data) => de fc f.2 vd.1 = some vd.2) fs ps →
    deStructSeq fc fs (ps.map (·.1)) = some ((fs.map (·.1)).zip (ps.map (·.2)))
  | _, _, .nil => by simp [deStructSeq]
  | (n, t) :: fs, (v, d) :: ps, .cons h1 h2 => by
    simp only at h1
    simp [deStructSeq, h1, structSeq fc h2]

/-- A struct is read from a sequence too: its fields are read from the values in order. -/
theorem C57_struct_seq (fc : Floats) {fs : List (String × Ty)} {ps : List (Value × Data)}
    (h : Pointwise (fun (f : String × Ty) (vd : Value × Data) => de fc f.2 vd.1 = some vd.2) fs ps) :
    de fc (.struct fs) (.seq (ps.map (·.1))) = some (.struct ((fs.map (·.1)).zip (ps.map (·.2)))) := by
  simp [de, structSeq fc h]

example : de anyFloats (.struct [("a", .prim .u8), ("b", .prim .bool)]) (.seq [.u8 3, .bool true]) =
    some (.struct [("a", .prim (.u8 3)), ("b", .prim (.bool true))]) :=
  C57_struct_seq _ (ps := [(.u8 3, .prim (.u8 3)), (.bool true, .prim (.bool true))])
    (.cons (by simp [de, Prim.de, intIn, intOf]) (.cons (by simp [de, Prim.de]) .nil))

theorem ofValues_map (l : List Value) : ofValues l = l.map ofValue := by
  induction l with
  | nil => simp [ofValues]
  | cons v l ih => simp [ofValues, ih]

theorem ofEntries_map (l : List (Value × Value)) : ofEntries l = l.map fun e => (ofValue e.1, ofValue e.2) := by
  induction l with
  | nil => simp [ofEntries]
  | cons e l ih => obtain ⟨k, v⟩ := e; simp [ofEntries, ih]

/-- A value that is serialized again goes out element by element and entry by entry, each key with what it had. -/
theorem C57_again (l : List Value) (m : List (Value × Value)) :
    ofValue (.seq l) = .seq (l.map ofValue) ∧ ofValue (.map m) = .map (m.map fun e => (ofValue e.1, ofValue e.2)) := by
  simp [ofValue, ofValues_map, ofEntries_map]

theorem fields_missing (fc : Floats) (names : List String) (m : List (Value × Value))
    (h : ∀ i, valuesFor names i m = []) (fs : List (String × Ty)) : ∀ i,
    ((∀ f ∈ fs, ∃ t, f.2 = .opt t) → deFields fc names i fs m = some (fs.map fun f => (f.1, .none))) ∧
    ((∃ f ∈ fs, ∀ t, f.2 ≠ .opt t) → deFields fc names i fs m = none) := by
  induction fs with
  | nil => intro i; simp [deFields]
  | cons f fs ih =>
    intro i
    obtain ⟨n, t⟩ := f
    obtain ⟨h1, h2⟩ := ih (i + 1)
    simp only [deFields, h]
    constructor
    · intro ho
      obtain ⟨t', ht⟩ := ho (n, t) (List.mem_cons_self ..)
      simp only at ht
      subst ht
      rw [h1 fun f hf => ho f (List.mem_cons_of_mem _ hf)]
      rfl
    · rintro ⟨f, hf, hn⟩
      rcases List.mem_cons.1 hf with hf | hf
      · subst hf
        cases t <;> first | rfl | exact absurd rfl (hn _)
      · rw [h2 ⟨f, hf, hn⟩]
        cases missing t <;> rfl

/-- A struct is read from a map that has none of its fields if they are all options, none of which is set; if
one of them is of another type it is refused. -/
theorem C57_missing (fc : Floats) {fs : List (String × Ty)} {m : List (String × Value)}
    (h : ∀ e ∈ m, e.1 ∉ fs.map (·.1)) :
    ((∀ f ∈ fs, ∃ t, f.2 = .opt t) → de fc (.struct fs) (.map (m.map fun e => (.str e.1, e.2))) =
      some (.struct (fs.map fun f => (f.1, .none)))) ∧
    ((∃ f ∈ fs, ∀ t, f.2 ≠ .opt t) → de fc (.struct fs) (.map (m.map fun e => (.str e.1, e.2))) = none) := by
  have hk : keysOk (fs.map (·.1)) (m.map fun e => (Value.str e.1, e.2)) = true := by
    simp [keysOk, identOf]
  have hv : ∀ i, valuesFor (fs.map (·.1)) i (m.map fun e => (Value.str e.1, e.2)) = [] := by
    intro i
    simp only [valuesFor, List.map_eq_nil_iff, List.filter_eq_nil_iff, List.mem_map]
    rintro _ ⟨e, he, rfl⟩
    have : (fs.map (·.1)).findIdx? (· == e.1) = none := by
      rw [List.findIdx?_eq_none_iff]
      intro x hx
      have := h e he
      simp only [beq_eq_false_iff_ne, ne_eq]
      rintro rfl
      exact this hx
    simp [identOf, this]
  obtain ⟨h1, h2⟩ := fields_missing fc (fs.map (·.1)) _ hv fs 0
  simp only [de, hk, if_true]
  exact ⟨fun ho => by rw [h1 ho]; rfl, fun hn => by rw [h2 hn]; rfl⟩

example : de anyFloats (.struct [("a", .opt (.prim .u8))]) (.map [(.str "z", .u8 3)]) =
    some (.struct [("a", .none)]) :=
  (C57_missing _ (m := [("z", .u8 3)]) (by simp)).1 (by simp)

/-- A dynamic value without times, copied through its own `Deserialize`, is the same. -/
theorem C57_copy_partial {v : Value} (h : v.Legal) (ht : NoTime v) : reread v = v :=
  reread_eq v h ht

/-! The types of the clock meet the hypotheses: the range of validity of a message. -/

def someTime (n : UInt64) : Data := .newtype "CuDuration" (.prim (.u64 n))

def someTov : Data := .variant "Range" .newtype (.struct [("start", someTime 5), ("end", someTime 9)])

example : tov.Ok ∧ tov.Plain ∧ HasTy tov someTov := by
  simp [tov, cuTime, cuTimeRange, someTov, someTime, Ty.Ok, OkVariants, OkFields, FormOk, Ty.Plain, PlainVariants,
    PlainFields, HasTy, HasVariant, HasFields, Prim.ty]

/-- Its dynamic value: the fields in the order of their names, the times as times. -/
example : someTov.toValue = .map [(.str "Range", .map [(.str "end", .time 9), (.str "start", .time 5)])] := by
  have hc : (Value.str "end").cmp (.str "start") = .lt := by decide +kernel
  simp [someTov, Data.toValue, variantValue, toFields, someTime, newtypeValue, Prim.toValue, insertAll,
    Value.insertKey, hc]

/-- A map from names to numbers. -/
def someMap : Data := .map [(.prim (.str "b"), .some (.prim (.u8 1))), (.prim (.str "a"), .none)]

example : (Ty.map (.prim .str) (.opt (.prim .u8))).Ok ∧ HasTy (.map (.prim .str) (.opt (.prim .u8))) someMap ∧
    someMap.Fits := by
  refine ⟨by simp [Ty.Ok, Ty.Plain], by simp [someMap, HasTy, Prim.ty], ?_⟩
  simp only [someMap, Data.Fits, FitsEntries]
  decide +kernel

/-- The iteration order is lost, the entries are not. -/
example : someMap.toValue = .map [(.str "a", .opt none), (.str "b", .opt (some (.u8 1)))] := by
  have hc : (Value.str "a").cmp (.str "b") = .lt := by decide +kernel
  simp [someMap, Data.toValue, toEntries, Prim.toValue, insertAll, Value.insertKey, hc]

/-! Violations. -/

/-- A time does not survive a copy: it is a number from then on, and two keys can become one. -/
theorem C57_violated_copy :
    reread (.time 7) = .u64 7 ∧
    reread (.map [(.u64 7, .bool true), (.time 7, .bool false)]) = .map [(.u64 7, .bool false)] := by
  constructor
  · rfl
  · have hc : (Value.u64 7).cmp (.u64 7) = .eq := Value.cmp_self _
    simp [reread, rereadEntries, insertAll, Value.insertKey, hc]

/-- A dynamic value is not its own dynamic value, and does not come back. -/
theorem C57_violated_dynamic :
    (ofValue (.bool true)).toValue = .newtype (.seq [.u8 0, .bool true]) ∧
    reread (ofValue (.bool true)).toValue = .newtype (.seq [.u8 0, .bool true]) := by
  constructor
  · simp [ofValue, tagged, Data.toValue, newtypeValue, toValues, Prim.toValue, Value.discriminant]
  · simp [ofValue, tagged, Data.toValue, newtypeValue, toValues, Prim.toValue, Value.discriminant, reread, rereads]

/-- A sequence that is too long is read as a tuple: what follows is dropped without an error. -/
theorem C57_violated_tuple (fc : Floats) :
    de fc (.tuple [.prim .u8, .prim .u8]) (.seq [.u8 1, .u8 2, .u8 3]) =
      some (.tuple [.prim (.u8 1), .prim (.u8 2)]) := by
  simp [de, deTuple, Prim.de, intIn, intOf]

end Verif
