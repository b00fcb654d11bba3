import Verif.Proofs.Params
/-!
C63: a component reads the parameters it was given.
-/
namespace Verif
namespace Params
open Config

/-- A parameter has the value last given to it, whatever was given to it and to the others before;
a parameter that was not given keeps what the configuration had. -/
theorem C63_last {α : Type} (n : Node ComponentConfig) (l : List (String × Settable)) (f : RonValue → Rs α)
    (key : String) :
    getParam (setAll n l) f key =
      match lastSet key l with
      | some v => (f v.toValue).map' some
      | none => getParam n f key := by
  rw [getParam_raw, raw_setAll, getParam_raw]
  cases lastSet key l <;> rfl

/-- An integer given to a task is read back exactly as any type that has it, a float and a text too. -/
theorem C63_given (n : Node ComponentConfig) (l : List (String × Settable)) (key : String) (v : Settable)
    (h : lastSet key l = some v) :
    (∀ (t : IntTy) (i : Int), v.integer? = some i → t.Has i → getParam (setAll n l) (asInt t) key = .ok (some i)) ∧
    (∀ (fc : Fpu) (b : UInt64), v = .f64 b → getParam (setAll n l) (asF64 fc) key = .ok (some b)) ∧
    (∀ s, v = .str s → getParam (setAll n l) asString key = .ok (some s)) := by
  refine ⟨?_, ?_, ?_⟩
  · intro t i hi ht
    rw [C63_last, h]
    show (asInt t v.toValue).map' some = _
    rw [asInt_eq, integer_toValue, hi]
    show Rs.ok (some (t.cast i)) = _
    rw [cast_of_has ht]
  · intro fc b hb
    rw [C63_last, h, hb]; rfl
  · intro s hs
    rw [C63_last, h, hs]; rfl

/-- Reading a parameter as an integer answers the number of the configuration exactly if it is an
integer of the type asked for.  An integer out of the range gives another number, anything else a
panic: no error reaches the task. -/
theorem C63_integer_partial (c : ComponentConfig) (t : IntTy) (key : String) (v : RonValue)
    (h : c.lookup key = some v) :
    (∀ i, v.integer? = some i →
      ∃ j, ComponentConfig.get c (asInt t) key = .ok (some j) ∧ t.Has j ∧ (j = i ↔ t.Has i)) ∧
    (v.integer? = none → ComponentConfig.get c (asInt t) key = .panic) := by
  refine ⟨?_, ?_⟩
  · intro i hi
    refine ⟨t.cast i, ?_, has_cast t i, ?_, cast_of_has⟩
    · simp [ComponentConfig.get, h, asInt_eq, hi, Rs.map']
    · intro hj; rw [← hj]; exact has_cast t i
  · intro hn
    simp [ComponentConfig.get, h, asInt_eq, hn, Rs.map']

/-- A parameter read as a boolean or as a string is what the configuration says, if that is of the kind asked for;
otherwise the process panics. -/
theorem C63_bool_string (c : ComponentConfig) (key : String) (v : RonValue) (h : c.lookup key = some v) :
    (∀ b, ComponentConfig.get c asBool key = .ok (some b) ↔ v = .bool b) ∧
    (ComponentConfig.get c asBool key = .panic ↔ ∀ b, v ≠ .bool b) ∧
    (∀ s, ComponentConfig.get c asString key = .ok (some s) ↔ v = .str s) ∧
    (ComponentConfig.get c asString key = .panic ↔ ∀ s, v ≠ .str s) := by
  simp only [ComponentConfig.get, h]
  refine ⟨fun b => ?_, ?_, fun s => ?_, ?_⟩ <;> cases v <;> simp [asBool, asString, Rs.map']

/-- The text of a configuration may hold an integer in another width than the value it was made
from: every read answers the same. -/
theorem C63_text {a b : RonValue} (h : SameText a b) (t : IntTy) (fc : Fpu) :
    asInt t a = asInt t b ∧ asF64 fc a = asF64 fc b ∧ asBool a = asBool b ∧ asString a = asString b := by
  rcases h with rfl | ⟨i, ha, hb⟩
  · exact ⟨rfl, rfl, rfl, rfl⟩
  · refine ⟨by rw [asInt_eq, asInt_eq, ha, hb], by rw [asF64_int fc ha, asF64_int fc hb], ?_, ?_⟩
    · cases a <;> cases b <;> simp_all [RonValue.integer?, asBool]
    · cases a <;> cases b <;> simp_all [RonValue.integer?, asString]

/-- A duration in milliseconds that the configuration gives as an integer of 32 bits is that duration,
in nanoseconds, in any build. -/
theorem C63_millis (m : Overflow) (c : ComponentConfig) (key : String) (v : RonValue) (ms : Nat)
    (h : c.lookup key = some v) (hv : v.integer? = some (ms : Int)) (hms : ms < 2 ^ 32) :
    ∃ d, getMillis m c key = .ok (some d) ∧ d.toNat = ms * 1000000 := by
  obtain ⟨j, h1, _, h2⟩ := (C63_integer_partial c .u32 key v h).1 ms hv
  have hj : j = (ms : Int) := h2.2 (by simp only [IntTy.Has]; omega)
  subst hj
  have hd : (UInt64.ofNat ms * 1000000).toNat = ms * 1000000 := by
    rw [UInt64.toNat_mul, UInt64.toNat_ofNat']
    have : (1000000 : UInt64).toNat = 1000000 := rfl
    rw [this, Nat.mod_eq_of_lt (a := ms) (by omega), Nat.mod_eq_of_lt (by omega)]
  refine ⟨UInt64.ofNat ms * 1000000, ?_, hd⟩
  unfold getMillis
  rw [h1]
  cases m
  · simp only [Int.toNat_natCast]
    rw [if_pos (by omega)]
  · simp only [Int.toNat_natCast]

/-- A task with two parameters, given twice. -/
def demoNode : Node ComponentConfig := ⟨"servo", some "Servo", none⟩
def demoSets : List (String × Settable) :=
  [("pin", .u8 3), ("gain", .f64 0x3FF8000000000000), ("pin", .i32 (-7)), ("dev", .str "/dev/tty0")]

example : lastSet "pin" demoSets = some (.i32 (-7)) ∧
    getParam (setAll demoNode demoSets) (asInt .i8) "pin" = .ok (some (-7)) ∧
    getParam (setAll demoNode demoSets) asString "dev" = .ok (some "/dev/tty0") ∧
    getParam (setAll demoNode demoSets) (asInt .u8) "speed" = .ok none := by decide
example : SameText (.number (.u64 5)) (.number (.u8 5)) ∧ RonValue.number (.u64 5) ≠ .number (.u8 5) :=
  ⟨.inr ⟨5, rfl, rfl⟩, by decide⟩
example : getMillis .checked [("w", .number (.u8 20))] "w" = .ok (some 20000000) := by decide

example : ComponentConfig.get [("dry", .bool true), ("dev", .str "x")] asBool "dry" = .ok (some true) := by decide

/-- Negation: a pin 300 is read as pin 44, and a period of -1 as 4294967295. -/
theorem C63_truncated_violated :
    getParam (setParam demoNode "pin" (.u32 300)) (asInt .u8) "pin" = .ok (some 44) ∧
    getParam (setParam demoNode "sampling_ms" (.i32 (-1))) (asInt .u32) "sampling_ms" = .ok (some 4294967295) := by
  decide

/-- Negation: a parameter of another kind than the one asked for is a panic, also where the number is
whole: `10.0` for an integer, `"true"` for a boolean. -/
theorem C63_kind_violated (fc : Fpu) :
    getParam (setParam demoNode "sampling_ms" (.f64 0x4024000000000000)) (asInt .u32) "sampling_ms" = .panic ∧
    getParam (setParam demoNode "dryrun" (.str "true")) asBool "dryrun" = .panic ∧
    getParam (setParam demoNode "kp" (.str "1.5")) (asF64 fc) "kp" = .panic := by
  exact ⟨by decide, by decide, rfl⟩

end Params
end Verif
