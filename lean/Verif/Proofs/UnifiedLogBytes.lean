import Verif.Model.UnifiedLog
import Verif.Proofs.Bincode
/-! Byte-level lemmas for the unified log: slices, overwriting, headers. -/
namespace Verif
namespace ULog
open Bincode

/-- `n` bytes at position `a`. -/
def slice (bs : Bytes) (a n : Nat) : Bytes := (bs.drop a).take n

theorem length_writeAt {bs d : Bytes} {off : Nat} (h : off + d.length ≤ bs.length) :
    (writeAt bs off d).length = bs.length := by
  simp [writeAt]; omega

theorem slice_writeAt_self {bs d : Bytes} {off : Nat} (h : off ≤ bs.length) :
    slice (writeAt bs off d) off d.length = d := by
  unfold slice writeAt
  rw [List.append_assoc, List.drop_append_of_le_length (by simp; omega)]
  rw [List.drop_eq_nil_of_le (by simp; omega)]
  simp

theorem slice_writeAt_before {bs d : Bytes} {off a n : Nat} (h : off ≤ bs.length)
    (hb : a + n ≤ off) : slice (writeAt bs off d) a n = slice bs a n := by
  unfold slice writeAt
  rw [List.append_assoc, List.drop_append_of_le_length (by simp; omega)]
  rw [List.take_append_of_le_length (by simp; omega), List.drop_take, List.take_take]
  congr 1; omega

theorem slice_writeAt_after {bs d : Bytes} {off a n : Nat} (h : off + d.length ≤ bs.length)
    (hb : off + d.length ≤ a) : slice (writeAt bs off d) a n = slice bs a n := by
  unfold slice writeAt
  rw [List.drop_append, List.drop_eq_nil_of_le (by simp; omega)]
  simp only [List.length_append, List.length_take, List.nil_append, List.drop_drop]
  congr 2
  omega

theorem length_setLen (bs : Bytes) (n : Nat) : (setLen bs n).length = n := by
  simp [setLen]; omega

theorem slice_setLen {bs : Bytes} {m a n : Nat} (h : a + n ≤ m) (hb : a + n ≤ bs.length) :
    slice (setLen bs m) a n = slice bs a n := by
  unfold slice setLen
  rw [List.drop_append_of_le_length (by simp; omega)]
  rw [List.take_append_of_le_length (by simp; omega), List.drop_take, List.take_take]
  congr 1; omega

theorem slice_add (bs : Bytes) (a n m : Nat) :
    slice bs a (n + m) = slice bs a n ++ slice bs (a + n) m := by
  simp [slice, List.take_add, List.drop_drop]

theorem slice_replicate {m a n : Nat} (h : a + n ≤ (List.replicate m (0 : UInt8)).length) :
    slice (List.replicate m (0 : UInt8)) a n = List.replicate n 0 := by
  simp only [List.length_replicate] at h
  simp only [slice, List.drop_replicate, List.take_replicate]
  congr 1; omega

theorem slice_prefix {bs : Bytes} {a : Nat} {d : Bytes} (h : slice bs a d.length = d) :
    ∃ rest, bs.drop a = d ++ rest := by
  refine ⟨(bs.drop a).drop d.length, ?_⟩
  conv => lhs; rw [← List.take_append_drop d.length (bs.drop a)]
  rw [show (bs.drop a).take d.length = d from h]

theorem rt_entryType (t : EntryType) : RoundTrips t := by
  intro rest
  cases t <;> rfl

theorem enc_mainHeader (h : MainHeader) : enc h = enc h.m0 ++ (enc h.m1 ++ (enc h.m2 ++
    (enc h.m3 ++ (enc h.firstSectionOffset ++ enc h.pageSize)))) := rfl

theorem rt_mainHeader (h : MainHeader) : RoundTrips h := by
  intro rest
  show (dec >>= fun a => dec >>= fun b => dec >>= fun c => dec >>= fun d => dec >>= fun f =>
    dec >>= fun p => pure (⟨a, b, c, d, f, p⟩ : MainHeader)) (_ ++ rest) = _
  rw [enc_mainHeader]
  simp only [List.append_assoc]
  rw [Dec.bind_ok (rt_u8 h.m0 _), Dec.bind_ok (rt_u8 h.m1 _), Dec.bind_ok (rt_u8 h.m2 _),
    Dec.bind_ok (rt_u8 h.m3 _)]
  rw [Dec.bind_ok (rt_u16 h.firstSectionOffset _), Dec.bind_ok (rt_u16 h.pageSize _)]
  rfl

theorem enc_header (h : SectionHeader) : enc h =
    enc h.m0 ++ (enc h.m1 ++ (enc h.entryType ++ (enc h.sectionSize ++ enc h.filledSize))) := rfl

theorem rt_header (h : SectionHeader) : RoundTrips h := by
  intro rest
  show (dec >>= fun a => dec >>= fun b => dec >>= fun t => dec >>= fun s => dec >>= fun f =>
    pure (⟨a, b, t, s, f⟩ : SectionHeader)) (_ ++ rest) = _
  rw [enc_header]
  simp only [List.append_assoc]
  rw [Dec.bind_ok (rt_u8 h.m0 _), Dec.bind_ok (rt_u8 h.m1 _), Dec.bind_ok (rt_entryType _ _),
    Dec.bind_ok (rt_u32 _ _), Dec.bind_ok (rt_u32 _ _)]
  rfl

theorem enc_u32_le (x : UInt32) : (enc x).length ≤ 5 := by
  show (encVar x.toNat).length ≤ 5
  have := x.toNat_lt
  rw [encVar_length]; repeat' split
  all_goals omega

theorem enc_u16_le (x : UInt16) : (enc x).length ≤ 3 := by
  show (encVar x.toNat).length ≤ 3
  have := x.toNat_lt
  rw [encVar_length]; repeat' split
  all_goals omega

theorem enc_header_le (h : SectionHeader) : (enc h).length ≤ 13 := by
  have h1 := enc_u32_le h.sectionSize
  have h2 := enc_u32_le h.filledSize
  have h3 : (enc h.entryType).length = 1 := by cases h.entryType <;> rfl
  have h4 : (enc h.m0).length = 1 := rfl
  have h5 : (enc h.m1).length = 1 := rfl
  rw [enc_header]
  simp only [List.length_append]
  omega

theorem enc_mainHeader_le (h : MainHeader) : (enc h).length ≤ 10 := by
  have h1 := enc_u16_le h.firstSectionOffset
  have h2 := enc_u16_le h.pageSize
  show (enc h.m0 ++ (enc h.m1 ++ (enc h.m2 ++ (enc h.m3 ++
    (enc h.firstSectionOffset ++ enc h.pageSize))))).length ≤ 10
  have e (x : UInt8) : (enc x).length = 1 := rfl
  simp only [List.length_append, e]
  omega

theorem align_le {page : Nat} (hp : 0 < page) (x : Nat) : x ≤ align page x := by
  unfold align
  have := Nat.div_add_mod (x + page - 1) page
  have := Nat.mod_lt (x + page - 1) hp
  rw [Nat.mul_comm]
  omega

theorem align_mul {page : Nat} (hp : 0 < page) (k : Nat) : align page (k * page) = k * page := by
  unfold align
  rw [show k * page + page - 1 = (page - 1) + k * page by omega, Nat.add_mul_div_right _ _ hp,
    Nat.div_eq_of_lt (by omega)]
  simp

theorem align_dvd (page x : Nat) : page ∣ align page x := ⟨_, Nat.mul_comm _ _⟩

theorem align_align {page : Nat} (hp : 0 < page) (x : Nat) :
    align page (align page x) = align page x := by
  obtain ⟨k, hk⟩ := align_dvd page x
  rw [hk, Nat.mul_comm, align_mul hp]

theorem align_add {page : Nat} (hp : 0 < page) {a : Nat} (ha : page ∣ a) (x : Nat) :
    align page (a + x) = a + align page x := by
  obtain ⟨k, rfl⟩ := ha
  unfold align
  rw [show page * k + x + page - 1 = (x + page - 1) + k * page by rw [Nat.mul_comm]; omega,
    Nat.add_mul_div_right _ _ hp, Nat.add_mul, Nat.add_comm, Nat.mul_comm page k]

theorem align_pos {page x : Nat} (hp : 0 < page) (hx : 0 < x) : 0 < align page x :=
  Nat.lt_of_lt_of_le hx (align_le hp x)

/-- What the `SliceWriter` writes fits. -/
theorem fitChunks_length (room : Nat) (cs : List Bytes) : (fitChunks room cs).1.length ≤ room := by
  induction cs generalizing room with
  | nil => simp [fitChunks]
  | cons c cs ih =>
    unfold fitChunks
    split
    · have := ih (room - c.length)
      simp only [List.length_append]; omega
    · simp

theorem fitChunks_ok {room : Nat} {cs : List Bytes} (h : (fitChunks room cs).2 = true) :
    (fitChunks room cs).1 = cs.flatten := by
  induction cs generalizing room with
  | nil => rfl
  | cons c cs ih =>
    unfold fitChunks at h ⊢
    split at h
    · rename_i hc
      simp only at h
      simp only [hc, if_true, List.flatten_cons, ih h]
    · exact absurd h (by simp)

/-- An object that fits is written entirely. -/
theorem fitChunks_fits {room : Nat} {cs : List Bytes} (h : cs.flatten.length ≤ room) :
    (fitChunks room cs).2 = true := by
  induction cs generalizing room with
  | nil => rfl
  | cons c cs ih =>
    simp only [List.flatten_cons, List.length_append] at h
    unfold fitChunks
    rw [if_pos (by omega)]
    exact ih (by omega)

end ULog
end Verif
