import Verif.Proofs.ArrowArity
/-!
C100: the element-wise kernels compute slot by slot.
-/
namespace Verif
namespace Arrow
variable {A B O T : Type}

/-- An array of numbers, with a null where there is none. -/
def demo (l : List (Option Int)) : Prim Int :=
  ⟨l.map fun v => v.getD 77, some ⟨l.map Option.isSome, 0, l.length⟩⟩

theorem demo_ok (l : List (Option Int)) : (demo l).Ok := by
  intro n hn
  injection hn with hn
  subst hn
  exact ⟨by simp, by simp [demo]⟩

example : (demo [some 3, none, some 5]).slots = [some 3, none, some 5] := by decide

/-- C100: an operation that cannot fail is applied to every slot that is not null, and the others stay null. -/
theorem C100_unary {a : Prim A} (h : a.Ok) (op : A → O) :
    ∃ b, unary a op = .ok b ∧ b.Ok ∧ b.slots = a.slots.map (Option.map op) := unary_ok h op

example : (unary (demo [some 3, none, some 5]) (· + 1)).map' Prim.slots = .ok [some 4, none, some 6] := by decide

/-- C100: an operation that can fail is applied to the slots that are not null only, in their order: the result has
the same nulls, or is the first error. -/
theorem C100_try_unary [Inhabited A] (zero : O) {a : Prim A} (h : a.Ok) (op : A → Except ArrowErr O) :
    result (tryUnary zero a op) = .ok (collect (a.slots.map (strictTry op))) := tryUnary_ok zero h op

example : ∃ b, tryUnary 0 (demo [some 3, none, some 5]) (fun x => if x = 77 then .error .overflow else .ok (x * 2)) =
    .ok (.ok b) ∧ b.slots = [some 6, none, some 10] := ⟨_, rfl, by decide⟩
example : tryUnary 0 (demo [some 3, some 4, none, some 5])
    (fun x => if x = 4 then .error .divZero else if x = 3 then .ok 0 else .error .overflow) =
    .ok (.error .divZero) := rfl

/-- C100: a binary operation gives, slot by slot, its result, or null if one of the operands is null. -/
theorem C100_binary {a : Prim A} {b : Prim B} (ha : a.Ok) (hb : b.Ok) (hl : a.slots.length = b.slots.length)
    (op : A → B → O) :
    ∃ c, binary a b op = .ok (.ok c) ∧ c.Ok ∧ c.slots = List.zipWith (strict op) a.slots b.slots :=
  binary_ok ha hb ((slots_length ha).symm.trans (hl.trans (slots_length hb))) op

example : ∃ c, binary (demo [some 3, none, some 5]) (demo [some 1, some 2, none]) (· - ·) = .ok (.ok c) ∧
    c.slots = [some 2, none, none] := ⟨_, rfl, by decide⟩

/-- C100: arrays of different lengths are refused by all the binary kernels, with nothing computed. -/
theorem C100_lengths [Inhabited A] [Inhabited B] {a : Prim A} {b : Prim B} {c : Prim A} (ha : a.Ok) (hb : b.Ok)
    (hc : c.Ok) (h : a.slots.length ≠ b.slots.length) (h' : a.slots.length ≠ c.slots.length) (zero : O) (shared : Bool)
    (op : A → B → O) (op' : A → B → A) (tr : A → B → Except ArrowErr O) (tr' : A → A → Except ArrowErr A) :
    binary a b op = .ok (.error .compute) ∧ tryBinary zero a.access b.access tr = .ok (.error .compute) ∧
      binaryMut shared a b op' = .ok (.failed .compute) ∧ tryBinaryMut shared a c tr' = .ok (.failed .compute) := by
  have e1 : a.values.length ≠ b.values.length := by
    rw [← slots_length ha, ← slots_length hb]; exact h
  have e2 : a.values.length ≠ c.values.length := by
    rw [← slots_length ha, ← slots_length hc]; exact h'
  exact ⟨if_pos e1, if_pos e1, if_pos e1, if_pos e2⟩

example : (demo [some 3, none]).slots.length ≠ (demo [some 3]).slots.length := by decide

/-- C100 (restricted to arrays that mean the nulls they have, which all but dictionaries do): a binary operation that
can fail is applied to the pairs of slots that are both not null only, in their order. -/
theorem C100_try_binary_partial [Inhabited A] [Inhabited B] (zero : O) {a : Access A} {b : Access B} (ha : a.Ok)
    (hb : b.Ok) (pa : a.Plain) (pb : b.Plain) (hl : a.slots.length = b.slots.length) (op : A → B → Except ArrowErr O) :
    result (tryBinary zero a b op) = .ok (collect (List.zipWith (strictTry₂ op) a.slots b.slots)) :=
  tryBinary_ok zero ha hb pa pb ((slots_length ha.2).symm.trans (hl.trans (slots_length hb.2))) op

/-- C100: arrays of numbers do. -/
theorem C100_primitive (a : Prim A) (h : a.Ok) : a.access.Ok ∧ a.access.Plain ∧ a.access.slots = a.slots :=
  ⟨⟨h, h⟩, Iff.rfl, rfl⟩

example : ∃ c, tryBinary 0 (demo [some 3, none, some 5]).access (demo [some 1, some 2, none]).access
    (fun x y => if x = 77 ∨ y = 77 then .error .overflow else .ok (x - y)) = .ok (.ok c) ∧
    c.slots = [some 2, none, none] := ⟨_, rfl, by decide⟩

/-- C100: in place, the same, if the buffers are not shared. -/
theorem C100_binary_mut {a : Prim A} {b : Prim B} (ha : a.Ok) (hb : b.Ok) (hl : a.slots.length = b.slots.length)
    (op : A → B → A) :
    ∃ c, binaryMut false a b op = .ok (.done c) ∧ c.Ok ∧ c.slots = List.zipWith (strict op) a.slots b.slots := by
  have hl' : a.values.length = b.values.length := (slots_length ha).symm.trans (hl.trans (slots_length hb))
  obtain ⟨c, h1, h2, h3⟩ := binary_ok ha hb hl' op
  refine ⟨c, ?_, h2, h3⟩
  unfold binary at h1
  unfold binaryMut
  rw [if_neg (by simpa using hl')] at h1 ⊢
  by_cases h0 : a.values.length = 0
  · rw [if_pos h0] at h1 ⊢
    injection h1 with h1
    injection h1 with h1
    rw [← h1]
  · rw [if_neg h0] at h1 ⊢
    rw [if_neg (by simp)]
    obtain ⟨u, hu, hf, -⟩ := prim_union_ok ha hb hl'
    rw [hu] at h1 ⊢
    simp only at h1 ⊢
    rw [prim_new_ok (fits_of hf (by rw [List.length_zipWith]; omega))] at h1
    injection h1 with h1
    injection h1 with h1
    rw [← h1]

example := C100_binary_mut (demo_ok [some 3, none]) (demo_ok [some 1, some 2]) rfl (· - ·)

/-- C100: in place, an operation that can fail. -/
theorem C100_try_binary_mut [Inhabited T] {a b : Prim T} (ha : a.Ok) (hb : b.Ok)
    (hl : a.slots.length = b.slots.length) (op : T → T → Except ArrowErr T) :
    (∃ e, tryBinaryMut false a b op = .ok (.failed e) ∧
      collect (List.zipWith (strictTry₂ op) a.slots b.slots) = .error e) ∨
    ∃ c, tryBinaryMut false a b op = .ok (.done c) ∧ c.Ok ∧
      collect (List.zipWith (strictTry₂ op) a.slots b.slots) = .ok c.slots :=
  tryBinaryMut_ok ha hb ((slots_length ha).symm.trans (hl.trans (slots_length hb))) op

example : ∃ c, tryBinaryMut false (demo [some 3, none, some 5]) (demo [some 1, some 2, none])
    (fun x y => if x = 77 ∨ y = 77 then .error .overflow else .ok (x - y)) = .ok (.done c) ∧
    c.slots = [some 2, none, none] := ⟨_, rfl, by decide⟩

/-- C100: if the buffers are shared, the array comes back as it was. -/
theorem C100_shared [Inhabited T] {a b : Prim T} (ha : a.Ok) (hb : b.Ok) (hl : a.slots.length = b.slots.length)
    (h0 : a.slots ≠ []) (op : T → T → T) (tr : T → T → Except ArrowErr T) :
    binaryMut true a b op = .ok (.shared a) ∧ tryBinaryMut true a b tr = .ok (.shared a) := by
  have hl' : a.values.length = b.values.length := (slots_length ha).symm.trans (hl.trans (slots_length hb))
  have h0' : a.values.length ≠ 0 := by
    rw [← slots_length ha]
    exact fun h => h0 (List.length_eq_zero_iff.1 h)
  refine ⟨by simp [binaryMut, hl', hl' ▸ h0'], ?_⟩
  unfold tryBinaryMut
  rw [if_neg (by simpa using hl'), if_neg h0']
  by_cases hc : nullCount a.nulls = 0 ∧ nullCount b.nulls = 0
  · rw [if_pos hc, if_pos rfl]
  · rw [if_neg hc]
    obtain ⟨u, h1, h2, h3, -⟩ := create_ok ha hb hl'
    rw [h1]
    cases u with
    | none =>
      obtain ⟨h5, h6⟩ := h3.1 rfl
      exact absurd ⟨by rw [h5]; rfl, by rw [h6]; rfl⟩ hc
    | some n => rfl

example : (demo [some 3, none]).slots ≠ [] := by decide

/-- A dictionary whose only value is null, and one whose second value no key stands for. -/
def nullDict : Dict Int := ⟨⟨[0], none⟩, ⟨[5], some ⟨[false], 0, 1⟩⟩⟩
def spareDict : Dict Int := ⟨⟨[0, 0], none⟩, ⟨[5, 9], none⟩⟩

/-- C100, what `try_binary` promises of nulls is false of dictionaries: a slot that is null, because its key stands
for a value that is null, has a result if no key is null, and the operation is applied to what lies there; if another
key is null, it has none. -/
theorem C100_violated_dictionary :
    nullDict.slots = [none] ∧ nullDict.access.slots = [none] ∧ nullDict.access.Ok ∧
    (∃ c, tryBinary 0 nullDict.access (demo [some 1]).access (fun x y => .ok (x + y)) = .ok (.ok c) ∧
      c.slots = [some 6]) ∧
    tryBinary (0 : Int) nullDict.access (demo [some 1]).access (fun x _ => if x = 5 then .error .overflow else .ok x) =
      .ok (.error .overflow) ∧
    ∃ c, tryBinary 0 (⟨⟨[0, 0], some ⟨[true, false], 0, 2⟩⟩, ⟨[5], some ⟨[false], 0, 1⟩⟩⟩ : Dict Int).access
      (demo [some 1, some 1]).access (fun x y => .ok (x + y)) = .ok (.ok c) ∧ c.slots = [none, none] := by
  refine ⟨by decide, by decide, ⟨fun n (hn : none = some n) => (by cases hn), fun n hn => ?_⟩, ⟨_, rfl, by decide⟩, rfl, ⟨_, rfl, by decide⟩⟩
  injection hn with hn
  subst hn
  exact ⟨by simp [nullDict], by simp [nullDict, Dict.access]⟩

/-- C100: read slot by slot, a dictionary has what its keys stand for, null if the key or the value is. -/
theorem C100_dict_access [Inhabited T] {d : Dict T} (hk : d.keys.Ok) (hv : d.values.Ok)
    (hr : ∀ k, some k ∈ d.keys.slots → k < d.values.slots.length) : d.access.Ok ∧ d.access.slots = d.slots :=
  dict_access_slots hk hv hr

example : (⟨⟨[1, 0, 7], some ⟨[true, true, false], 0, 3⟩⟩, ⟨[5, 6], some ⟨[false, true], 0, 2⟩⟩⟩ : Dict Int).access.slots =
    [some 6, none, none] := by decide

/-- C100: over a dictionary, an operation that cannot fail is applied to what each slot stands for. -/
theorem C100_dict {d : Dict T} (h : d.values.Ok) (op : T → T) :
    ∃ d', unaryDict d op = .ok d' ∧ d'.slots = d.slots.map (Option.map op) := by
  obtain ⟨b, h1, -, h3⟩ := unary_ok h op
  refine ⟨⟨d.keys, b⟩, by simp only [unaryDict, h1]; rfl, ?_⟩
  unfold Dict.slots
  simp only [h3]
  exact dict_map op

example : (unaryDict spareDict (· + 1)).map' Dict.slots = .ok [some 6, some 6] := by decide

/-- C100: so is one that can fail, if it fails of no value of the dictionary. -/
theorem C100_try_dict_partial [Inhabited T] (zero : T) {d : Dict T} (h : d.values.Ok) (op : T → Except ArrowErr T)
    (f : T → T) (hf : ∀ v, some v ∈ d.values.slots → op v = .ok (f v)) :
    ∃ d', tryUnaryDict zero d op = .ok (.ok d') ∧ d'.slots = d.slots.map (Option.map f) := by
  have h1 := tryUnary_ok zero h op
  rw [collect_ok (h := Option.map f) (by
    intro v hv
    cases v with
    | none => rfl
    | some v => simp [strictTry, hf v hv, Except.map])] at h1
  unfold tryUnaryDict
  cases hr : tryUnary zero d.values op with
  | panic => rw [hr] at h1; cases h1
  | ok r =>
    cases r with
    | error e => rw [hr] at h1; cases h1
    | ok b =>
      rw [hr] at h1
      injection h1 with h1
      injection h1 with h1
      refine ⟨_, rfl, ?_⟩
      unfold Dict.slots
      simp only [h1]
      exact dict_map f

example := C100_try_dict_partial 0 (d := spareDict) (fun n (hn : none = some n) => by cases hn)
  (fun x => if x = 4 then .error .overflow else .ok (x + 1)) (· + 1) (by
    intro v hv
    have h : v = 5 ∨ v = 9 := by simpa [spareDict, Prim.slots, slots] using hv
    rcases h with rfl | rfl <;> rfl)

/-- C100, over a dictionary an operation can fail although it fails of no slot: it is applied to values no slot
stands for. -/
theorem C100_violated_dict :
    spareDict.slots = [some 5, some 5] ∧
      tryUnaryDict 0 spareDict (fun x => if x = 9 then .error .overflow else .ok x) = .ok (.error .overflow) :=
  ⟨by decide, rfl⟩

/-- C100: in place, on one array: an operation that cannot fail, and one that can; if the buffers are shared the array
comes back as it was. -/
theorem C100_unary_mut [Inhabited T] {a : Prim T} (h : a.Ok) (op : T → T) (tr : T → Except ArrowErr T) :
    (∃ c, unaryMut false a op = .done c ∧ c.Ok ∧ c.slots = a.slots.map (Option.map op)) ∧
    ((∃ e, tryUnaryMut false a tr = .failed e ∧ collect (a.slots.map (strictTry tr)) = .error e) ∨
      ∃ c, tryUnaryMut false a tr = .done c ∧ c.Ok ∧ collect (a.slots.map (strictTry tr)) = .ok c.slots) ∧
    unaryMut true a op = .shared a ∧ tryUnaryMut true a tr = .shared a :=
  ⟨⟨_, rfl, fits_of h (by simp), slots_map op⟩, tryUnaryMut_ok h tr, rfl, rfl⟩

example : ∃ c, tryUnaryMut false (demo [some 3, none, some 5]) (fun x => if x = 77 then .error .overflow else .ok (x + 1)) =
    .done c ∧ c.slots = [some 4, none, some 6] := ⟨_, rfl, by decide⟩
example : tryUnaryMut false (demo [some 3, some 4, none])
    (fun x => if x = 4 then .error .divZero else if x = 3 then .ok 4 else .error .overflow) = .failed .divZero := rfl

/-- C100 (restricted to arrays and dictionaries of the type asked for): the kernel that finds the type of the array out
applies the operation to each slot.  Missing: it panics on other dictionaries, see `C100_violated_dyn`. -/
theorem C100_dyn_partial {a : AnyArray T} (h : a.Ok) (op : T → T) {l : List (Option T)} (hl : a.slots = some l) :
    ∃ b, unaryDyn a op = .ok (.ok b) ∧ b.slots = some (l.map (Option.map op)) := by
  cases a with
  | prim same a =>
    injection hl with hl
    obtain ⟨b, h1, -, h3⟩ := unary_ok h op
    exact ⟨.prim true b, by simp only [unaryDyn, h1]; rfl, by rw [← hl, ← h3]; rfl⟩
  | dict same d =>
    injection hl with hl
    obtain ⟨b, h1, h3⟩ := C100_dict h op
    exact ⟨.dict true b, by simp only [unaryDyn, h1]; rfl, by rw [← hl, ← h3]; rfl⟩
  | otherDict => cases hl
  | other => cases hl

/-- C100 (restricted to arrays of the type asked for, and dictionaries of the data type it has by default): so does the
one for operations that can fail, if the operation fails of nothing that the array holds. -/
theorem C100_try_dyn_partial [Inhabited T] (zero : T) {a : AnyArray T} (h : a.Ok) (op : T → Except ArrowErr T)
    (f : T → T) (hf : ∀ v, some v ∈ a.held → op v = .ok (f v)) (hd : ∀ d, a ≠ .dict false d)
    {l : List (Option T)} (hl : a.slots = some l) :
    ∃ b, tryUnaryDyn zero a op = .ok (.ok b) ∧ b.slots = some (l.map (Option.map f)) := by
  cases a with
  | prim same a =>
    injection hl with hl
    have h1 := tryUnary_ok zero h op
    rw [collect_ok (h := Option.map f) (by
      intro v hv
      cases v with
      | none => rfl
      | some v => simp [strictTry, hf v hv, Except.map])] at h1
    unfold tryUnaryDyn
    cases hr : tryUnary zero a op with
    | panic => rw [hr] at h1; cases h1
    | ok r =>
      cases r with
      | error e => rw [hr] at h1; cases h1
      | ok b =>
        rw [hr] at h1
        injection h1 with h1
        injection h1 with h1
        exact ⟨.prim true b, by simp only [hr]; rfl, by rw [← hl, ← h1]; rfl⟩
  | dict same d =>
    injection hl with hl
    cases same with
    | false => exact absurd rfl (hd d)
    | true =>
      obtain ⟨b, h1, h3⟩ := C100_try_dict_partial zero h op f hf
      exact ⟨.dict true b, by simp only [tryUnaryDyn, if_true, h1]; rfl, by rw [← hl, ← h3]; rfl⟩
  | otherDict => cases hl
  | other => cases hl

/-- C100: of an array it gives the first error of a slot.  What is neither an array nor a dictionary of the type is
refused by both, and a dictionary of another type by the one for operations that can fail. -/
theorem C100_dyn_error [Inhabited T] (zero : T) {same : Bool} {a : Prim T} (h : a.Ok) (op : T → T)
    (tr : T → Except ArrowErr T) {e : ArrowErr} (he : collect (a.slots.map (strictTry tr)) = .error e) :
    tryUnaryDyn zero (.prim same a) tr = .ok (.error e) ∧
    unaryDyn (.other : AnyArray T) op = .ok (.error .notYet) ∧
    tryUnaryDyn zero (.other : AnyArray T) tr = .ok (.error .notYet) ∧
    tryUnaryDyn zero (.otherDict : AnyArray T) tr = .ok (.error .notYet) := by
  refine ⟨?_, rfl, rfl, rfl⟩
  have h1 := tryUnary_ok zero h tr
  rw [he] at h1
  unfold tryUnaryDyn
  cases hr : tryUnary zero a tr with
  | panic => rw [hr] at h1; cases h1
  | ok r =>
    rw [hr] at h1
    cases r with
    | ok b => cases h1
    | error e' =>
      injection h1 with h1
      injection h1 with h1
      simp only [hr]
      rw [h1]
      rfl

example := C100_dyn_error 0 (same := true) (demo_ok [some 3, some 4]) (· + 1)
  (fun x => if x = 4 then .error .divZero else .ok x) (e := .divZero) rfl

/-- C100: the two kernels differ on dictionaries.  Where one reports an error, of a dictionary of another type, the
other panics; a dictionary of the type asked for whose data type is not the one it has by default, as of timestamps
with a zone, one takes and the other refuses.  The data type of an array that they take is not kept. -/
theorem C100_violated_dyn [Inhabited T] (zero : T) (op : T → T) {d : Dict T} (hd : d.values.Ok) {a : Prim T}
    (ha : a.Ok) :
    unaryDyn (.otherDict : AnyArray T) op = .panic ∧
    tryUnaryDyn zero (.otherDict : AnyArray T) (fun v => .ok (op v)) = .ok (.error .notYet) ∧
    (∃ d', unaryDyn (.dict false d) op = .ok (.ok (.dict true d'))) ∧
    tryUnaryDyn zero (.dict false d) (fun v => .ok (op v)) = .ok (.error .notYet) ∧
    ∃ a', unaryDyn (.prim false a) op = .ok (.ok (.prim true a')) := by
  obtain ⟨d', h1, -⟩ := C100_dict hd op
  obtain ⟨b, h2, -, -⟩ := unary_ok ha op
  exact ⟨rfl, rfl, ⟨d', by simp only [unaryDyn, h1]; rfl⟩, rfl, ⟨b, by simp only [unaryDyn, h2]; rfl⟩⟩

example : ∃ b, tryUnaryDyn 0 (.dict true spareDict) (fun x => if x = 77 then .error .overflow else .ok (x + 1)) =
    .ok (.ok b) ∧ b.slots = some [some 6, some 6] := ⟨_, rfl, by decide⟩
example : ∃ b, unaryDyn (.prim true (demo [some 3, none])) (· + 1) = .ok (.ok b) ∧ b.slots = some [some 4, none] :=
  ⟨_, rfl, by decide⟩
example : spareDict.values.Ok ∧ (demo [some 3, none]).Ok := ⟨fun n (hn : none = some n) => (by cases hn), demo_ok _⟩

/-- C100: arithmetic on integers: each slot of the result is the exact result of the operands, wrapped around for the
operations that wrap, or null if one of the operands is; the first slot in which there is none makes it an error.  A
single value stands for as many as the other operand has. -/
theorem C100_integer {N : Native} (hb : 0 < N.bits) (op : Op) :
    ∃ f : Int → Int → Except ArrowErr Int, (∀ a b, N.Holds a → N.Holds b → Right N op a b (f a b)) ∧
      ∀ l r : Datum Int, l.Ok → r.Ok → Match l r → result (integerOp N op l r) =
        .ok (collect (List.zipWith (strictTry₂ f) (l.spread (lengthOf l r)) (r.spread (lengthOf l r)))) :=
  integer_right hb op

/-- C100: two arrays of different lengths are refused. -/
theorem C100_integer_lengths (N : Native) (op : Op) {l r : Datum Int} (hl : l.Ok) (hr : r.Ok) (hs : l.scalar = r.scalar)
    (h : l.array.slots.length ≠ r.array.slots.length) : integerOp N op l r = .ok (.error .compute) := by
  have e : l.array.values.length ≠ r.array.values.length := by
    rw [← slots_length hl.1, ← slots_length hr.1]; exact h
  have b : ∀ f : Int → Int → Int, opMacro 0 l r f = .ok (.error .compute) := fun f => by
    unfold opMacro
    rw [← hs]
    cases l.scalar <;> exact if_pos e
  have t : ∀ f : Int → Int → Except ArrowErr Int, tryOpMacro 0 l r f = .ok (.error .compute) := fun f => by
    unfold tryOpMacro
    rw [← hs]
    cases l.scalar <;> exact if_pos e
  cases op <;> first | exact b _ | exact t _

example : ∃ c, integerOp ⟨true, 8⟩ .add ⟨demo [some 100, none, some (-100)], false⟩ ⟨demo [some 27], true⟩ =
    .ok (.ok c) ∧ c.slots = [some 127, none, some (-73)] := ⟨_, rfl, by decide⟩
example : integerOp ⟨true, 8⟩ .add ⟨demo [some 100, none, some (-100)], false⟩ ⟨demo [some 28], true⟩ =
    .ok (.error .overflow) := rfl
example : integerOp ⟨true, 8⟩ .rem ⟨demo [some (-128)], false⟩ ⟨demo [some (-1)], false⟩ =
    .ok (.error .overflow) := rfl
example : ∃ c, integerOp ⟨false, 8⟩ .subWrapping ⟨demo [some 100], true⟩ ⟨demo [some 101, none], false⟩ =
    .ok (.ok c) ∧ c.slots = [some 255, none] := ⟨_, rfl, by decide⟩

/-- C100: `neg` of a signed type is exact or an error, and refuses an unsigned one; `neg_wrapping` wraps around. -/
theorem C100_neg {N : Native} (hb : 0 < N.bits) {a : Prim Int} (h : a.Ok) :
    (∃ f : Int → Except ArrowErr Int, (∀ v, N.Holds v → RightNeg N v (f v)) ∧
      result (neg N a) = if N.signed then .ok (collect (a.slots.map (strictTry f))) else .ok (.error .invalid)) ∧
    ∃ g : Int → Int, (∀ v, N.Holds (g v) ∧ (2 : Int) ^ N.bits ∣ g v - -v) ∧
      result (negWrapping N a) = .ok (.ok (a.slots.map (Option.map g))) := by
  constructor
  · refine ⟨fun v => N.check (-v), fun v _ => ?_, ?_⟩
    · rcases check_ok hb (-v) with ⟨h, e⟩ | ⟨h, e⟩
      · simp only [e]
        exact ⟨h, rfl⟩
      · simp only [e]
        exact ⟨rfl, h⟩
    · unfold neg
      cases N.signed with
      | true =>
        rw [if_pos rfl, if_pos rfl]
        exact tryUnary_ok 0 h _
      | false => rfl
  · exact ⟨fun v => N.wrap (-v), fun v => wrap_ok hb (-v), result_unary h _⟩

example : neg ⟨true, 8⟩ (demo [some 5, some (-128)]) = .ok (.error .overflow) := rfl

/-- C100: the bitwise kernels compute bit by bit, slot by slot. -/
theorem C100_bitwise {w : Nat} {l r : Prim (BitVec w)} (hl : l.Ok) (hr : r.Ok) (h : l.slots.length = r.slots.length) :
    result (bitwiseAnd l r) = .ok (.ok (List.zipWith (strict fun x y => x &&& y) l.slots r.slots)) ∧
    result (bitwiseOr l r) = .ok (.ok (List.zipWith (strict fun x y => x ||| y) l.slots r.slots)) ∧
    result (bitwiseXor l r) = .ok (.ok (List.zipWith (strict fun x y => x ^^^ y) l.slots r.slots)) ∧
    result (bitwiseAndNot l r) = .ok (.ok (List.zipWith (strict fun x y => x &&& ~~~ y) l.slots r.slots)) ∧
    (bitwiseNot l).map' Prim.slots = .ok (l.slots.map (Option.map fun x => ~~~ x)) := by
  refine ⟨result_binary hl hr h _, result_binary hl hr h _, result_binary hl hr h _, result_binary hl hr h _, ?_⟩
  obtain ⟨b, h1, -, h3⟩ := unary_ok hl fun x : BitVec w => ~~~ x
  rw [bitwiseNot, h1, ← h3]
  rfl

example := C100_bitwise (l := ⟨[1#8, 3#8], none⟩) (r := ⟨[255#8, 9#8], none⟩) (fun n (hn : none = some n) => by cases hn)
  (fun n (hn : none = some n) => by cases hn) rfl

/-- C100: with one value for all slots. -/
theorem C100_bitwise_scalar {w : Nat} {a : Prim (BitVec w)} (h : a.Ok) (s : BitVec w) :
    (bitwiseAndScalar a s).map' Prim.slots = .ok (a.slots.map (Option.map fun x => x &&& s)) ∧
    (bitwiseOrScalar a s).map' Prim.slots = .ok (a.slots.map (Option.map fun x => x ||| s)) ∧
    (bitwiseXorScalar a s).map' Prim.slots = .ok (a.slots.map (Option.map fun x => x ^^^ s)) := by
  have key : ∀ f : BitVec w → BitVec w, (unary a f).map' Prim.slots = .ok (a.slots.map (Option.map f)) := by
    intro f
    obtain ⟨b, h1, -, h3⟩ := unary_ok h f
    rw [h1, ← h3]
    rfl
  exact ⟨key _, key _, key _⟩

example := C100_bitwise_scalar (a := ⟨[1#8, 3#8], none⟩) (fun n (hn : none = some n) => by cases hn) 9#8

/-- C100: a shift is by the amount modulo the width, a negative amount included: by -1 it is by one less than the
width. -/
theorem C100_shift {w : Nat} (hw : w = 8 ∨ w = 16 ∨ w = 32 ∨ w = 64) {l r : Prim (BitVec w)} (hl : l.Ok) (hr : r.Ok)
    (h : l.slots.length = r.slots.length) :
    result (shiftLeft true l r) =
      .ok (.ok (List.zipWith (strict fun (x y : BitVec w) => x <<< (y.toInt % (w : Int)).toNat) l.slots r.slots)) ∧
    result (shiftLeft false l r) = .ok (.ok (List.zipWith (strict fun (x y : BitVec w) => x <<< (y.toNat % w)) l.slots r.slots)) ∧
    result (shiftRight true l r) =
      .ok (.ok (List.zipWith (strict fun (x y : BitVec w) => x.sshiftRight (y.toInt % (w : Int)).toNat) l.slots r.slots)) ∧
    result (shiftRight false l r) =
      .ok (.ok (List.zipWith (strict fun (x y : BitVec w) => x >>> (y.toNat % w)) l.slots r.slots)) := by
  have e : ∀ y : BitVec w, shiftAmount true y = (y.toInt % (w : Int)).toNat := fun y => by
    have := shift_signed hw y
    omega
  refine ⟨?_, ?_, ?_, ?_⟩
  · exact (result_binary hl hr h _).trans (by simp only [e])
  · exact (result_binary hl hr h _).trans (by simp only [shift_unsigned hw])
  · exact (result_binary hl hr h _).trans (by simp only [e, if_true])
  · exact (result_binary hl hr h _).trans (by simp only [shift_unsigned hw, Bool.false_eq_true, if_false])

example : ∃ c, shiftLeft true ⟨[1#8, 3#8], none⟩ ⟨[255#8, 9#8], none⟩ = .ok (.ok c) ∧
    c.slots = [some 128#8, some 6#8] := ⟨_, rfl, by decide⟩

/-- C100: with one amount for all slots. -/
theorem C100_shift_scalar {w : Nat} (hw : w = 8 ∨ w = 16 ∨ w = 32 ∨ w = 64) {a : Prim (BitVec w)} (h : a.Ok)
    (s : BitVec w) :
    (shiftLeftScalar true a s).map' Prim.slots =
      .ok (a.slots.map (Option.map fun x : BitVec w => x <<< (s.toInt % (w : Int)).toNat)) ∧
    (shiftLeftScalar false a s).map' Prim.slots = .ok (a.slots.map (Option.map fun x : BitVec w => x <<< (s.toNat % w))) ∧
    (shiftRightScalar true a s).map' Prim.slots =
      .ok (a.slots.map (Option.map fun x : BitVec w => x.sshiftRight (s.toInt % (w : Int)).toNat)) ∧
    (shiftRightScalar false a s).map' Prim.slots =
      .ok (a.slots.map (Option.map fun x : BitVec w => x >>> (s.toNat % w))) := by
  have key : ∀ f : BitVec w → BitVec w, (unary a f).map' Prim.slots = .ok (a.slots.map (Option.map f)) := by
    intro f
    obtain ⟨b, h1, -, h3⟩ := unary_ok h f
    rw [h1, ← h3]
    rfl
  have e : shiftAmount true s = (s.toInt % (w : Int)).toNat := by
    have := shift_signed hw s
    omega
  refine ⟨?_, ?_, ?_, ?_⟩
  · exact (key _).trans (by simp only [e])
  · exact (key _).trans (by simp only [shift_unsigned hw])
  · exact (key _).trans (by simp only [e, if_true])
  · exact (key _).trans (by simp only [shift_unsigned hw, Bool.false_eq_true, if_false])

example : (shiftRightScalar true ⟨[128#8, 3#8], none⟩ 9#8).map' Prim.slots = .ok [some 192#8, some 1#8] := by decide

end Arrow
end Verif
