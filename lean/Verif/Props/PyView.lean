import Verif.Proofs.PyView
/-! C74: a Python program sees what was logged. -/
namespace Verif
namespace PyView
open Bincode

/-! ### Values -/

/-- Values of one type that Python can tell apart are converted without panic, and to different objects when
they are different; `nan` are the numbers the conversion from `f32` need not keep apart. -/
theorem C74_values_partial (f : Floats) (nan : F32 → Bool)
    (hw : ∀ a b, nan a = false → nan b = false → f.widen a = f.widen b → a = b)
    (v w : Value) (ha : alike v w = true) (hv : plain f nan v = true) (hp : plain f nan w = true) :
    (∃ p, toPy f v = .ok p) ∧ (toPy f v = toPy f w → v = w) :=
  ⟨plain_ok f nan v hv, toPy_inj f nan hw v w ha hv hp⟩

/-- Floating point numbers for the examples. -/
def fl : Floats := ⟨fun x => ⟨x.bits.toUInt64⟩, fun x y => x == y, fun x i => (x.bits.toNat : Int) == i⟩

example : ∀ a b, fl.widen a = fl.widen b → a = b := by
  intro ⟨a⟩ ⟨b⟩ h
  simp only [fl, F64.mk.injEq] at h
  have := congrArg UInt64.toNat h
  simp only [UInt32.toNat_toUInt64, UInt32.toNat_inj] at this
  rw [this]
example : plain fl (fun _ => false) (.map [(.str "a", .seq [.u8 1, .f32 ⟨3⟩]), (.u8 4, .opt (some (.bytes [1])))]) = true := by
  decide +kernel

/-- Which keys are equal for Python: the same text, the same bytes, the same integer, a boolean also with 0 or 1. -/
theorem C74_equal_keys (f : Floats) (s t : String) (b c : Bytes) (i j : Int) (p q : Bool) :
    ((Py.str s).keyEq f (.str t) = true ↔ s = t) ∧ ((Py.bytes b).keyEq f (.bytes c) = true ↔ b = c) ∧
    ((Py.int i).keyEq f (.int j) = true ↔ i = j) ∧ ((Py.bool p).keyEq f (.bool q) = true ↔ p = q) ∧
    ((Py.bool p).keyEq f (.int i) = true ↔ i = if p then 1 else 0) ∧ Py.none.keyEq f .none = true ∧
    ∀ k ∈ [Py.none, .int i, .bool p, .bytes b], k.keyEq f (.str s) = false ∧ (Py.str s).keyEq f k = false := by
  refine ⟨?_, ?_, ?_, ?_, ?_, rfl, ?_⟩
  · simp [Py.keyEq]
  · simp [Py.keyEq]
  · simp [Py.keyEq, Py.intOf]
  · cases p <;> cases q <;> simp [Py.keyEq, Py.intOf]
  · cases p <;> simp only [Py.keyEq, Py.intOf, beq_iff_eq] <;> exact eq_comm
  · simp [Py.keyEq, Py.intOf]

/-- A map with keys that are different for Python is a `dict` with these entries, in order. -/
theorem C74_maps (f : Floats) (m : List (Value × Value)) (ps : List (Py × Py)) (h : toPyEntries f m = .ok ps)
    (hd : distinct f ps = true) : toPy f (.map m) = .ok (.dict ps) := by
  rw [toPy, h]
  simp only []
  rw [setItems_distinct f ps [] hd (by simp)]
  rfl

example : toPyEntries fl [(.u8 4, .unit), (.bool true, .char 'x')] =
    .ok [(.int 4, .none), (.bool true, .str (String.singleton 'x'))] := by rfl

/-- Negation: an entry is lost when two keys are equal in Python. -/
theorem C74_keys_violated : toPy fl (.map [(.bool true, .str "a"), (.u8 1, .str "b")]) = .ok (.dict [(.bool true, .str "b")]) := by
  rfl

/-- Negation: a map with a sequence or a map as a key panics. -/
theorem C74_key_panic_violated (f : Floats) (l : List Value) (v : Value) (m : List (Value × Value)) :
    toPy f (.map ((.seq l, v) :: m)) = .panic := by
  rw [toPy, toPyEntries, toPy]
  cases h1 : toPyList f l with
  | panic => rfl
  | ok ps =>
    simp only [Rs.map']
    cases h2 : toPy f v with
    | panic => rfl
    | ok q =>
      cases h3 : toPyEntries f m with
      | panic => rfl
      | ok es => rfl

/-- Negation: no value, and a value that is no value, are the same. -/
theorem C74_options_violated (f : Floats) : toPy f (.opt none) = toPy f (.opt (some (.opt none))) ∧
    toPy f (.opt none) = toPy f (.opt (some .unit)) := ⟨by rw [toPy, toPy, toPy], by rw [toPy, toPy, toPy]⟩

/-! ### Times -/

/-- In the first 68 years, the time of an entry is right, to the microsecond, only on the first day. -/
theorem C74_time_partial (ns : UInt64) (h : ns.toNat < 2 ^ 31 * 1000000000) :
    (ts ns).total = (ns.toNat / 1000 : Nat) ↔ ns.toNat < 86400000000000 := by
  obtain ⟨h1, h2, h3⟩ := ts_fields ns h
  rw [Delta.total, h1, h2, h3]
  omega

/-- Negation: after it, the days are counted twice. -/
theorem C74_time_violated (ns : UInt64) (h : ns.toNat < 2 ^ 31 * 1000000000) :
    (ts ns).total = (ns.toNat / 1000 + ns.toNat / 86400000000000 * 86400000000 : Nat) := by
  obtain ⟨h1, h2, h3⟩ := ts_fields ns h
  rw [Delta.total, h1, h2, h3]
  omega

/-- The 26th hour is shown as the 50th; a time of 68 years and more may be shown as negative. -/
example : (ts 93600000000000).total = 50 * 3600 * 1000000 := by decide
example : (ts 2147483648000000000).total < 0 := by decide

/-- But comparing times in Python compares them as logged, to the microsecond. -/
theorem C74_order (a b : UInt64) (ha : a.toNat < 2 ^ 31 * 1000000000) (hb : b.toNat < 2 ^ 31 * 1000000000) :
    (ts a).lt (ts b) = true ↔ a.toNat / 1000 < b.toNat / 1000 := by
  obtain ⟨a1, a2, a3⟩ := ts_fields a ha
  obtain ⟨b1, b2, b3⟩ := ts_fields b hb
  simp only [Delta.lt, Bool.or_eq_true, Bool.and_eq_true, decide_eq_true_eq, beq_iff_eq, Int32.lt_iff_toInt_lt,
    ← Int32.toInt_inj, a1, a2, a3, b1, b2, b3]
  omega

/-! ### Entries -/

/-- A log written to its end, or torn in an entry, gives its entries in Python, up to the first that has the
number of no message. -/
theorem C74_entries (es : List LogEntry) (hl : ∀ e ∈ es, e.Legal) (tail : Bytes)
    (ht : (dec : Dec LogEntry) tail = .error .unexpectedEnd) :
    entries (encAll es ++ tail) = (es.takeWhile fun e => e.msgIndex != 0, true) := by
  have hs := decodeStream_encAll (fun e he => rt_entry (hl e he)) tail ht (fuel := (encAll es ++ tail).length + 1)
    (by have := encAll_length_ge (l := es) (fun e _ => entry_pos e)
        simp only [List.length_append]; omega)
  rw [entries, forLoop_stream, hs]
  simp

/-- Bytes that are no entry raise an exception, after the entries before them. -/
theorem C74_damaged (es : List LogEntry) (hl : ∀ e ∈ es, e.Legal ∧ e.msgIndex ≠ 0) (tail : Bytes) (err : DecodeError)
    (ht : (dec : Dec LogEntry) tail = .error err) (he : err ≠ .unexpectedEnd) :
    entries (encAll es ++ tail) = (es, false) := by
  have hs := decodeStream_encAll (fun e he => rt_entry (hl e he).1) tail ht (fuel := (encAll es ++ tail).length + 1)
    (by have := encAll_length_ge (l := es) (fun e _ => entry_pos e)
        simp only [List.length_append]; omega)
  rw [entries, forLoop_stream, hs]
  have h1 : es.takeWhile (fun e => e.msgIndex != 0) = es := by
    apply takeWhile_all
    intro e h; simpa using (hl e h).2
  have h2 : (es.any fun e => e.msgIndex == 0) = false := by
    rw [List.any_eq_false]
    intro e h; simpa using (hl e h).2
  have h3 : (err == DecodeError.unexpectedEnd) = false := by simpa using he
  rw [h1, h2, h3]
  rfl

/-- Negation: an iterator that has ended goes on when asked again. -/
theorem C74_ended_violated (e e' : LogEntry) (he : e.Legal) (he' : e'.Legal) (h : e.msgIndex = 0) (h' : e'.msgIndex ≠ 0) :
    next (enc e ++ enc e') = .stop (some (enc e')) ∧ next (enc e') = .entry e' [] := by
  have h1 := rt_entry he (enc e')
  have h2 := rt_entry he' []
  rw [List.append_nil] at h2
  simp [next, h1, h2, h, h']

def demo : LogEntry := ⟨1000, 3, [0], [.u8 1]⟩
example : demo.Legal := by
  constructor <;> simp [demo, Value.Legal]
example : (dec : Dec LogEntry) [1] = .error .unexpectedEnd := by rfl
example : (dec : Dec LogEntry) [255] = .error .invalidIntegerType := by rfl

end PyView
end Verif
