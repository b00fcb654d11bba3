import Verif.Model.Bincode
/-! Helper lemmas on the bincode wire format. -/
namespace Verif
namespace Dec
variable {α β : Type}

@[simp] theorem pure_apply (a : α) (bs : Bytes) : (pure a : Dec α) bs = .ok (a, bs) := rfl
@[simp] theorem fail_apply (e : DecodeError) (bs : Bytes) : (Dec.fail e : Dec α) bs = .error e := rfl

theorem bind_apply (d : Dec α) (f : α → Dec β) (bs : Bytes) :
    (d >>= f) bs = match d bs with
      | .error e => .error e
      | .ok (a, r) => f a r := rfl

theorem bind_ok {d : Dec α} {f : α → Dec β} {bs r : Bytes} {a : α} (h : d bs = .ok (a, r)) :
    (d >>= f) bs = f a r := by simp [bind_apply, h]

theorem bind_err {d : Dec α} {f : α → Dec β} {bs : Bytes} {e : DecodeError}
    (h : d bs = .error e) : (d >>= f) bs = .error e := by simp [bind_apply, h]

theorem ite_apply (c : Prop) [Decidable c] (a b : Dec α) (bs : Bytes) :
    (if c then a else b) bs = if c then a bs else b bs := by split <;> rfl

instance : LawfulMonad Dec := LawfulMonad.mk'
  (id_map := by
    intro α x; funext bs
    show (match x bs with | .error e => _ | .ok (a, r) => _) = _
    cases h : x bs with
    | error e => rfl
    | ok p => rfl)
  (pure_bind := by intros; rfl)
  (bind_assoc := by
    intro α β γ x f g; funext bs
    simp only [bind_apply]
    cases h : x bs with
    | error e => rfl
    | ok p => rfl)
end Dec

namespace Bincode

@[simp] theorem leBytes_length (k n : Nat) : (leBytes k n).length = k := by
  induction k generalizing n with
  | zero => rfl
  | succ k ih => simp [leBytes, ih]

theorem leVal_leBytes (k n : Nat) (h : n < 256 ^ k) : leVal (leBytes k n) = n := by
  induction k generalizing n with
  | zero => simp [leBytes, leVal]; simp at h; omega
  | succ k ih =>
    have h2 : n / 256 < 256 ^ k := by
      apply Nat.div_lt_of_lt_mul
      have : (256:Nat) ^ (k+1) = 256 * 256 ^ k := by rw [Nat.pow_succ, Nat.mul_comm]
      omega
    simp only [leBytes, leVal, ih _ h2, UInt8.toNat_ofNat']
    omega

theorem leVal_lt (bs : Bytes) : leVal bs < 256 ^ bs.length := by
  induction bs with
  | nil => simp [leVal]
  | cons b bs ih =>
    have := b.toNat_lt
    simp only [leVal, List.length_cons, Nat.pow_succ]
    omega

theorem takeBytes_append (a rest : Bytes) : takeBytes a.length (a ++ rest) = .ok (a, rest) := by
  simp [takeBytes]

theorem takeBytes_append' {k : Nat} (a rest : Bytes) (h : a.length = k) :
    takeBytes k (a ++ rest) = .ok (a, rest) := by
  subst h; exact takeBytes_append a rest

@[simp] theorem byte_cons (b : UInt8) (bs : Bytes) : byte (b :: bs) = .ok (b, bs) := rfl
@[simp] theorem byte_nil : byte [] = .error .unexpectedEnd := rfl

theorem fixed_leBytes (k n : Nat) (h : n < 256 ^ k) (rest : Bytes) :
    fixed k (leBytes k n ++ rest) = .ok (n, rest) := by
  unfold fixed
  rw [Dec.bind_ok (takeBytes_append' _ _ (leBytes_length k n))]
  simp [leVal_leBytes k n h]

theorem encVar_length (n : Nat) :
    (encVar n).length = if n < 251 then 1 else if n < 65536 then 3
      else if n < 4294967296 then 5 else 9 := by
  unfold encVar
  repeat' split
  all_goals simp

theorem encVar_length_le (n : Nat) : (encVar n).length ≤ 9 := by
  rw [encVar_length]; repeat' split
  all_goals omega

theorem encVar_length_pos (n : Nat) : 0 < (encVar n).length := by
  rw [encVar_length]; repeat' split
  all_goals omega

theorem decVar_encVar2 (n : Nat) (h : n < 65536) (rest : Bytes) :
    decVar 2 (encVar n ++ rest) = .ok (n, rest) := by
  unfold decVar encVar
  by_cases h1 : n < 251
  · have : n % 256 = n := by omega
    simp [h1, Dec.bind_apply, this]
  · simp only [h1, h, if_true, if_false, List.cons_append]
    simp only [Dec.bind_apply, byte_cons, Dec.ite_apply]
    simp [fixed_leBytes 2 n (by omega)]

theorem decVar_encVar4 (n : Nat) (h : n < 4294967296) (rest : Bytes) :
    decVar 4 (encVar n ++ rest) = .ok (n, rest) := by
  unfold decVar encVar
  by_cases h1 : n < 251
  · have : n % 256 = n := by omega
    simp [h1, Dec.bind_apply, this]
  · by_cases h2 : n < 65536
    · simp only [h1, h2, if_true, if_false, List.cons_append]
      simp only [Dec.bind_apply, byte_cons, Dec.ite_apply]
      simp [fixed_leBytes 2 n (by omega)]
    · simp only [h1, h2, h, if_true, if_false, List.cons_append]
      simp only [Dec.bind_apply, byte_cons, Dec.ite_apply]
      simp [fixed_leBytes 4 n (by omega)]

theorem decVar_encVar8 (n : Nat) (h : n < 18446744073709551616) (rest : Bytes) :
    decVar 8 (encVar n ++ rest) = .ok (n, rest) := by
  unfold decVar encVar
  by_cases h1 : n < 251
  · have : n % 256 = n := by omega
    simp [h1, Dec.bind_apply, this]
  · by_cases h2 : n < 65536
    · simp only [h1, h2, if_true, if_false, List.cons_append]
      simp only [Dec.bind_apply, byte_cons, Dec.ite_apply]
      simp [fixed_leBytes 2 n (by omega)]
    · by_cases h3 : n < 4294967296
      · simp only [h1, h2, h3, if_true, if_false, List.cons_append]
        simp only [Dec.bind_apply, byte_cons, Dec.ite_apply]
        simp [fixed_leBytes 4 n (by omega)]
      · simp only [h1, h2, h3, if_false, List.cons_append]
        simp only [Dec.bind_apply, byte_cons, Dec.ite_apply]
        simp [fixed_leBytes 8 n (by omega)]

theorem unzigzag_zigzag (i : Int) : unzigzag (zigzag i) = i := by
  unfold zigzag unzigzag
  split <;> split <;> omega

@[simp] theorem rt_u8 (x : UInt8) : RoundTrips x := fun _ => rfl

@[simp] theorem rt_u16 (x : UInt16) : RoundTrips x := by
  intro rest
  show (decVar 2 >>= fun n => pure (UInt16.ofNat n)) (encVar x.toNat ++ rest) = _
  rw [Dec.bind_ok (decVar_encVar2 _ x.toNat_lt rest)]
  simp

@[simp] theorem rt_u32 (x : UInt32) : RoundTrips x := by
  intro rest
  show (decVar 4 >>= fun n => pure (UInt32.ofNat n)) (encVar x.toNat ++ rest) = _
  rw [Dec.bind_ok (decVar_encVar4 _ x.toNat_lt rest)]
  simp

@[simp] theorem rt_u64 (x : UInt64) : RoundTrips x := by
  intro rest
  show (decVar 8 >>= fun n => pure (UInt64.ofNat n)) (encVar x.toNat ++ rest) = _
  rw [Dec.bind_ok (decVar_encVar8 _ x.toNat_lt rest)]
  simp

@[simp] theorem rt_i8 (x : Int8) : RoundTrips x := by
  intro rest; rfl

theorem zigzag_lt {i : Int} {k : Nat} (h1 : -(k:Int) ≤ i) (h2 : i < k) : zigzag i < 2 * k := by
  unfold zigzag; split <;> omega

@[simp] theorem rt_i16 (x : Int16) : RoundTrips x := by
  intro rest
  show (decVar 2 >>= fun n => pure (Int16.ofInt (unzigzag n))) (encVar (zigzag x.toInt) ++ rest) = _
  have h := zigzag_lt (k := 32768) x.le_toInt x.toInt_lt
  rw [Dec.bind_ok (decVar_encVar2 _ (by omega) rest), unzigzag_zigzag]
  simp

@[simp] theorem rt_i32 (x : Int32) : RoundTrips x := by
  intro rest
  show (decVar 4 >>= fun n => pure (Int32.ofInt (unzigzag n))) (encVar (zigzag x.toInt) ++ rest) = _
  have h := zigzag_lt (k := 2147483648) x.le_toInt x.toInt_lt
  rw [Dec.bind_ok (decVar_encVar4 _ (by omega) rest), unzigzag_zigzag]
  simp

@[simp] theorem rt_i64 (x : Int64) : RoundTrips x := by
  intro rest
  show (decVar 8 >>= fun n => pure (Int64.ofInt (unzigzag n))) (encVar (zigzag x.toInt) ++ rest) = _
  have h := zigzag_lt (k := 9223372036854775808) x.le_toInt x.toInt_lt
  rw [Dec.bind_ok (decVar_encVar8 _ (by omega) rest), unzigzag_zigzag]
  simp

@[simp] theorem rt_bool (x : Bool) : RoundTrips x := by
  intro rest; cases x <;> rfl

@[simp] theorem rt_unit (x : Unit) : RoundTrips x := by
  intro rest; rfl

@[simp] theorem rt_f32 (x : F32) : RoundTrips x := by
  intro rest
  show (fixed 4 >>= fun n => pure (⟨UInt32.ofNat n⟩ : F32)) (leBytes 4 x.bits.toNat ++ rest) = _
  rw [Dec.bind_ok (fixed_leBytes 4 _ x.bits.toNat_lt rest)]
  simp

@[simp] theorem rt_f64 (x : F64) : RoundTrips x := by
  intro rest
  show (fixed 8 >>= fun n => pure (⟨UInt64.ofNat n⟩ : F64)) (leBytes 8 x.bits.toNat ++ rest) = _
  rw [Dec.bind_ok (fixed_leBytes 8 _ x.bits.toNat_lt rest)]
  simp

section
variable {α β : Type} [Codec α] [Codec β]

theorem RoundTrips.apply {x : α} (h : RoundTrips x) (rest : Bytes) :
    (dec : Dec α) (enc x ++ rest) = .ok (x, rest) := h rest

omit [Codec β] in
theorem RoundTrips.bind {x : α} (h : RoundTrips x) (rest : Bytes) (f : α → Dec β) :
    ((dec : Dec α) >>= f) (enc x ++ rest) = f x rest := Dec.bind_ok (h rest)

theorem rt_pair {a : α} {b : β} (ha : RoundTrips a) (hb : RoundTrips b) : RoundTrips (a, b) := by
  intro rest
  show ((dec : Dec α) >>= fun a => (dec : Dec β) >>= fun b => pure (a, b))
    ((enc a ++ enc b) ++ rest) = _
  rw [List.append_assoc, Dec.bind_ok (ha _), Dec.bind_ok (hb _)]
  rfl

theorem rt_none : RoundTrips (none : Option α) := by intro rest; rfl

theorem rt_some {a : α} (ha : RoundTrips a) : RoundTrips (some a) := by
  intro rest
  show ((dec : Dec α) >>= fun a => pure (some a)) (enc a ++ rest) = _
  rw [Dec.bind_ok (ha _)]; rfl

theorem rt_option {o : Option α} (h : ∀ a, o = some a → RoundTrips a) : RoundTrips o := by
  cases o with
  | none => exact rt_none
  | some a => exact rt_some (h a rfl)

theorem decN_encAll (l : List α) (h : ∀ a ∈ l, RoundTrips a) (rest : Bytes) :
    decN (dec (α := α)) l.length (encAll l ++ rest) = .ok (l, rest) := by
  induction l with
  | nil => rfl
  | cons a l ih =>
    simp only [List.length_cons, decN, encAll, List.append_assoc]
    rw [Dec.bind_ok (h a (by simp) _), Dec.bind_ok (ih (fun b hb => h b (by simp [hb])))]
    rfl

theorem rt_list {l : List α} (hl : l.length < 18446744073709551616)
    (h : ∀ a ∈ l, RoundTrips a) : RoundTrips l := by
  intro rest
  show (decVar 8 >>= fun n => decN (dec (α := α)) n) ((encVar l.length ++ encAll l) ++ rest) = _
  rw [List.append_assoc, Dec.bind_ok (decVar_encVar8 _ hl _), decN_encAll l h]
end

theorem encAll_u8 (l : List UInt8) : encAll l = l := by
  induction l with
  | nil => rfl
  | cons a l ih => simp [encAll, ih, enc]

theorem encAll_append {α : Type} [Codec α] (l l' : List α) :
    encAll (l ++ l') = encAll l ++ encAll l' := by
  induction l with
  | nil => rfl
  | cons a l ih => simp [encAll, ih]

end Bincode
end Verif
