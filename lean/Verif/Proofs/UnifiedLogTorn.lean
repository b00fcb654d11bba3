import Verif.Model.UnifiedLogCrash
import Verif.Proofs.UnifiedLogTornRead
/-! What a reader finds in the files of a process that stopped in the middle of an operation. -/
namespace Verif
namespace ULog
open Bincode

/-! ### Bytes -/

theorem slice_congr {f f' : Bytes} {a n : Nat} (h : ∀ i, a ≤ i → i < a + n → f'[i]? = f[i]?) :
    slice f' a n = slice f a n := by
  apply List.ext_getElem?
  intro i
  unfold slice
  rw [List.getElem?_take, List.getElem?_take]
  split
  · rw [List.getElem?_drop, List.getElem?_drop]
    exact h _ (by omega) (by omega)
  · rfl

theorem getElem?_writeAt_out {f d : Bytes} {o i : Nat} (h : o + d.length ≤ f.length)
    (hi : i < o ∨ o + d.length ≤ i) : (writeAt f o d)[i]? = f[i]? := by
  unfold writeAt
  have hl : (f.take o).length = o := by simp; omega
  rcases hi with hi | hi
  · rw [List.append_assoc, List.getElem?_append_left (by omega), List.getElem?_take, if_pos hi]
  · rw [List.getElem?_append_right (by rw [List.length_append]; omega), List.length_append, hl,
      List.getElem?_drop]
    congr 1; omega

theorem getElem?_writeAt_in {f d : Bytes} {o i : Nat} (h : o + d.length ≤ f.length)
    (hi : i < d.length) : (writeAt f o d)[o + i]? = d[i]? := by
  unfold writeAt
  have hl : (f.take o).length = o := by simp; omega
  rw [List.append_assoc, List.getElem?_append_right (by omega), hl, Nat.add_sub_cancel_left,
    List.getElem?_append_left hi]

/-- Outside of the store nothing changes. -/
theorem TornBytes.out {f f' d : Bytes} {o : Nat} (h : TornBytes f (writeAt f o d) f')
    (hl : o + d.length ≤ f.length) {i : Nat} (hi : i < o ∨ o + d.length ≤ i) : f'[i]? = f[i]? := by
  rcases h.2 i with e | e
  · exact e
  · rw [e]; exact getElem?_writeAt_out hl hi

theorem TornBytes.slice {f f' d : Bytes} {o : Nat} (h : TornBytes f (writeAt f o d) f')
    (hl : o + d.length ≤ f.length) {a n : Nat} (hi : a + n ≤ o ∨ o + d.length ≤ a) :
    slice f' a n = slice f a n :=
  slice_congr (fun i h1 h2 => h.out hl (by omega))

theorem tornBytes_self (a b : Bytes) : TornBytes a b a := ⟨rfl, fun _ => .inl rfl⟩

theorem tornBytes_done {a b : Bytes} (h : b.length = a.length) : TornBytes a b b :=
  ⟨h, fun _ => .inr rfl⟩

theorem getElem?_slice {f : Bytes} {a n i : Nat} (h : i < n) : (slice f a n)[i]? = f[a + i]? := by
  unfold slice
  rw [List.getElem?_take, if_pos h, List.getElem?_drop]

/-! ### Torn headers -/

theorem u8_ofNat_toNat (n : Nat) : (UInt8.ofNat n).toNat = n % 256 := by
  rw [UInt8.toNat_ofNat']

/-- A variable length integer of which only some bytes were written over zeros decodes to something
smaller. -/
theorem decVar_torn {u : Nat} (hu : u < 4294967296) {x : Bytes} (hx : 5 ≤ x.length)
    (h : ∀ i, i < (encVar u).length → x[i]? = some 0 ∨ x[i]? = (encVar u)[i]?) :
    ∃ g rest, decVar 4 x = .ok (g, rest) ∧ g ≤ u := by
  match x, hx with
  | b0 :: b1 :: b2 :: b3 :: b4 :: r, _ =>
  have dv : decVar 4 (b0 :: b1 :: b2 :: b3 :: b4 :: r) =
      (if b0.toNat < 251 then (pure b0.toNat : Dec Nat)
        else if b0 = 251 then fixed 2
        else if b0 = 252 ∧ 4 ≤ 4 then fixed 4
        else if b0 = 253 ∧ 8 ≤ 4 then fixed 8
        else Dec.fail .invalidIntegerType) (b1 :: b2 :: b3 :: b4 :: r) := rfl
  by_cases hz : b0 = 0
  · subst hz
    exact ⟨0, _, by rw [dv]; rfl, Nat.zero_le _⟩
  unfold encVar at h
  split at h
  · rename_i hlt
    have h0 := h 0 (by simp)
    simp [hz] at h0
    have hb : b0.toNat = u := by
      rw [h0, u8_ofNat_toNat]; omega
    refine ⟨u, b1 :: b2 :: b3 :: b4 :: r, ?_, Nat.le_refl _⟩
    rw [dv, hb, if_pos (by omega)]
    rfl
  · split at h
    · have h0 := h 0 (by simp [leBytes])
      simp [hz] at h0
      subst h0
      have h1 := h 1 (by simp [leBytes])
      have h2 := h 2 (by simp [leBytes])
      simp [leBytes] at h1 h2
      refine ⟨leVal [b1, b2], b3 :: b4 :: r, ?_, ?_⟩
      · rw [dv]; rfl
      · have e1 : b1.toNat ≤ u % 256 := by
          rcases h1 with h | h <;> rw [h]
          · simp
          · rw [u8_ofNat_toNat]; exact Nat.le_refl _
        have e2 : b2.toNat ≤ u / 256 % 256 := by
          rcases h2 with h | h <;> rw [h]
          · simp
          · rw [u8_ofNat_toNat]; exact Nat.le_refl _
        simp only [leVal]
        omega
    · have h0 := h 0 (by simp [leBytes])
      simp [hz] at h0
      subst h0
      have h1 := h 1 (by simp [leBytes])
      have h2 := h 2 (by simp [leBytes])
      have h3 := h 3 (by simp [leBytes])
      have h4 := h 4 (by simp [leBytes])
      simp [leBytes] at h1 h2 h3 h4
      refine ⟨leVal [b1, b2, b3, b4], r, ?_, ?_⟩
      · rw [dv]; rfl
      · have e1 : b1.toNat ≤ u % 256 := by
          rcases h1 with h | h <;> rw [h]
          · simp
          · rw [u8_ofNat_toNat]; exact Nat.le_refl _
        have e2 : b2.toNat ≤ u / 256 % 256 := by
          rcases h2 with h | h <;> rw [h]
          · simp
          · rw [u8_ofNat_toNat]; exact Nat.le_refl _
        have e3 : b3.toNat ≤ u / 256 / 256 % 256 := by
          rcases h3 with h | h <;> rw [h]
          · simp
          · rw [u8_ofNat_toNat]; exact Nat.le_refl _
        have e4 : b4.toNat ≤ u / 256 / 256 / 256 % 256 := by
          rcases h4 with h | h <;> rw [h]
          · simp
          · rw [u8_ofNat_toNat]; exact Nat.le_refl _
        simp only [leVal]
        omega

/-- The header without its last field. -/
def headPart (t : EntryType) (size : UInt32) : Bytes :=
  enc (0xFA : UInt8) ++ (enc (0x57 : UInt8) ++ (enc t ++ enc size))

theorem enc_mkHeader (t : EntryType) (size f : UInt32) :
    enc (mkHeader t size f) = headPart t size ++ encVar f.toNat := by
  simp only [headPart, List.append_assoc]; rfl

theorem headPart_le (t : EntryType) (size : UInt32) : (headPart t size).length ≤ 8 := by
  have h1 := enc_u32_le size
  have h3 : (enc t).length = 1 := by cases t <;> rfl
  unfold headPart
  simp only [List.length_append, h3]
  show 1 + (1 + _) ≤ 8
  omega

theorem dec_headPart {t : EntryType} {size : UInt32} {x rest : Bytes} {g : Nat}
    (h : decVar 4 x = .ok (g, rest)) :
    (dec : Dec SectionHeader) (headPart t size ++ x) = .ok (mkHeader t size (UInt32.ofNat g), rest) := by
  have h' : (dec : Dec UInt32) x = .ok (UInt32.ofNat g, rest) := by
    show (decVar 4 >>= fun n => pure (UInt32.ofNat n)) x = _
    rw [Dec.bind_ok h]; rfl
  show (dec >>= fun a => dec >>= fun b => dec >>= fun t => dec >>= fun s => dec >>= fun f =>
    pure (⟨a, b, t, s, f⟩ : SectionHeader)) (_ ++ x) = _
  unfold headPart
  simp only [List.append_assoc]
  rw [Dec.bind_ok (rt_u8 _ _), Dec.bind_ok (rt_u8 _ _), Dec.bind_ok (rt_entryType _ _),
    Dec.bind_ok (rt_u32 _ _), Dec.bind_ok h']
  rfl

/-! ### Sections -/

/-- `s'` is what a reader may find for `s`: a part of its data, all of it once it is closed. -/
def RelSec (s s' : Sec) : Prop :=
  s'.req = s.req ∧ s'.et = s.et ∧ s'.data <+: s.data ∧
    (s.owner = none → s.et ≠ .empty → s'.data = s.data)

/-- A file in which a reader finds such sections. -/
def Similar (page off : Nat) (secs : List Sec) (f : Bytes) : Prop :=
  ∃ secs', SecsR page f off secs' ∧ Pointwise RelSec secs secs'

theorem secR_of_ok {page : Nat} (hp : 0 < page) {f : Bytes} {off : Nat} {s : Sec}
    (h : SecOk page f off s) :
    SecR page f off ⟨s.req, s.et, s.content, none⟩ ∧ RelSec s ⟨s.req, s.et, s.content, none⟩ := by
  have h1 := h.req
  have h2 := h.inside
  have h3 := h.room
  have h4 := h.size
  have h5 := align_le hp s.req
  have hfl : (s.header page).filledSize.toNat = s.filled := by
    show (UInt32.ofNat s.filled).toNat = _
    rw [UInt32.toNat_ofNat']
    apply Nat.mod_eq_of_lt
    unfold Sec.filled; split <;> omega
  have hfd : s.filled ≤ s.data.length := by unfold Sec.filled; split <;> omega
  obtain ⟨rest, hr⟩ := slice_prefix h.header
  refine ⟨⟨h1, h2, s.header page, rest, ?_, rfl, rfl, ?_, ?_, ?_⟩, rfl, rfl, ?_, ?_⟩
  · rw [hr]; exact rt_header _ _
  · show (UInt32.ofNat (align page s.req)).toNat = _
    rw [UInt32.toNat_ofNat']
    exact Nat.mod_eq_of_lt h4
  · rw [hfl]; omega
  · rw [hfl]
    show slice f (off + 15) s.filled = s.content
    unfold Sec.filled Sec.content
    split
    · simp [slice]
    · exact h.data
  · show s.content <+: s.data
    unfold Sec.content
    split
    · exact List.nil_prefix
    · exact List.prefix_refl _
  · intro ho he
    show s.content = s.data
    unfold Sec.content
    rw [if_neg]
    simp [ho, he]

theorem similar_of_ok {page : Nat} (hp : 0 < page) {f : Bytes} {off : Nat} {l : List Sec}
    (h : SecsOk page f off l) : Similar page off l f := by
  induction l generalizing off with
  | nil => exact ⟨[], trivial, .nil⟩
  | cons s l ih =>
    obtain ⟨l', h1, h2⟩ := ih h.2
    obtain ⟨h3, h4⟩ := secR_of_ok hp h.1
    exact ⟨_ :: l', ⟨h3, h1⟩, .cons h4 h2⟩

theorem pointwise_append {α β : Type} {R : α → β → Prop} {a c : List α} {b d : List β}
    (h1 : Pointwise R a b) (h2 : Pointwise R c d) : Pointwise R (a ++ c) (b ++ d) := by
  induction h1 with
  | nil => exact h2
  | cons h _ ih => exact .cons h ih

theorem endOf_rel {page off : Nat} {l l' : List Sec} (h : Pointwise RelSec l l') :
    endOf page off l' = endOf page off l := by
  induction h generalizing off with
  | nil => rfl
  | cons h _ ih => simp only [endOf, h.1, ih]

/-- Bytes outside of a section being the same, the other sections are fine. -/
theorem secsOk_around {page : Nat} (hp : 0 < page) {f f' : Bytes} {off : Nat} {pre post : List Sec}
    {s : Sec} (h : SecsOk page f off (pre ++ s :: post)) (hl : f'.length = f.length)
    (hs : ∀ a n, a + n ≤ endOf page off pre ∨ endOf page off pre + s.req ≤ a →
      slice f' a n = slice f a n) :
    SecsOk page f' off pre ∧
      SecsOk page f' (endOf page off pre + align page s.req) post := by
  rw [secsOk_append] at h
  refine ⟨h.1.congr hp (fun a n _ hn => hs a n (.inl ?_)) (fun hne => by
    rw [hl]; exact h.1.lastEnd_le hne), ?_⟩
  · have := lastEnd_le_endOf hp off pre
    omega
  · refine h.2.2.congr hp (fun a n ha _ => hs a n (.inr ?_)) (fun hne => by
      rw [hl]; exact h.2.2.lastEnd_le hne)
    have := align_le hp s.req
    omega

theorem similar_around {page : Nat} (hp : 0 < page) {f f' : Bytes} {off : Nat} {pre post : List Sec}
    {s s' : Sec} (h : SecsOk page f off (pre ++ s :: post)) (hl : f'.length = f.length)
    (hs : ∀ a n, a + n ≤ endOf page off pre ∨ endOf page off pre + s.req ≤ a →
      slice f' a n = slice f a n)
    (h1 : SecR page f' (endOf page off pre) s') (h2 : RelSec s s') :
    Similar page off (pre ++ s :: post) f' := by
  obtain ⟨ha, hb⟩ := secsOk_around hp h hl hs
  obtain ⟨pre', a1, a2⟩ := similar_of_ok hp ha
  obtain ⟨post', b1, b2⟩ := similar_of_ok hp hb
  refine ⟨pre' ++ s' :: post', ?_, pointwise_append a2 (.cons h2 b2)⟩
  rw [secsR_append]
  refine ⟨a1, ?_, ?_⟩
  · rw [endOf_rel a2]; exact h1
  · rw [endOf_rel a2, h2.1]; exact b1

/-- A store in the free part of an open section. -/
theorem similar_write {page : Nat} (hp : 0 < page) {f f' d : Bytes} {off o : Nat}
    {pre post : List Sec} {s : Sec} (h : SecsOk page f off (pre ++ s :: post))
    (ho : o = endOf page off pre + 15 + s.data.length)
    (hd : o + d.length ≤ endOf page off pre + s.req)
    (ht : TornBytes f (writeAt f o d) f') : Similar page off (pre ++ s :: post) f' := by
  have hso := ((secsOk_append _ _ _ _ _).1 h).2.1
  have hin := hso.inside
  have hhl := enc_header_le (s.header page)
  have hfit : o + d.length ≤ f.length := by omega
  have hs : SecOk page f' (endOf page off pre) s := by
    refine ⟨hso.req, hso.size, by rw [ht.1]; exact hin, hso.room, ?_, ?_, fun ho' => ?_⟩
    · rw [ht.slice hfit (.inl (by omega))]; exact hso.header
    · rw [ht.slice hfit (.inl (by omega))]; exact hso.data
    · rw [ht.slice hfit (.inl (by omega))]; exact hso.gap ho'
  obtain ⟨h1, h2⟩ := secR_of_ok hp hs
  exact similar_around hp h ht.1 (fun a n ha => ht.slice hfit (by omega)) h1 h2

/-- A store behind the sections. -/
theorem similar_behind {page : Nat} (hp : 0 < page) {f f' d : Bytes} {off o : Nat}
    {l : List Sec} (h : SecsOk page f off l) (ho : endOf page off l ≤ o)
    (hd : o + d.length ≤ f.length)
    (ht : TornBytes f (writeAt f o d) f') : Similar page off l f' := by
  refine similar_of_ok hp (h.congr hp (fun a n _ hn => ht.slice hd (.inl ?_)) (fun hne => by
    rw [ht.1]; exact h.lastEnd_le hne))
  have := lastEnd_le_endOf hp off l
  omega

/-- Storing the header of a section that is being closed. -/
theorem similar_close {page : Nat} (hp : 0 < page) {f f' : Bytes} {off : Nat}
    {pre post : List Sec} {s : Sec} (h : SecsOk page f off (pre ++ s :: post))
    (howner : s.owner.isSome)
    (ht : TornBytes f (writeAt f (endOf page off pre)
      (enc (Sec.header page { s with owner := none }))) f') :
    Similar page off (pre ++ s :: post) f' := by
  have hso := ((secsOk_append _ _ _ _ _).1 h).2.1
  have hin := hso.inside
  have hreq := hso.req
  have hroom := hso.room
  have hsize := hso.size
  have hal := align_le hp s.req
  have hgap := hso.gap howner
  have hhead := hso.header
  have hle := enc_header_le (Sec.header page { s with owner := none })
  generalize hoff : endOf page off pre = o at *
  have hfit : o + (enc (Sec.header page { s with owner := none })).length ≤ f.length := by omega
  let u := Sec.filled { s with owner := none }
  have hu : u ≤ s.data.length := by
    show Sec.filled _ ≤ _
    unfold Sec.filled; split
    · exact Nat.zero_le _
    · exact Nat.le_refl _
  have hu32 : u < 4294967296 := by omega
  have huN : (UInt32.ofNat u).toNat = u := by
    rw [UInt32.toNat_ofNat']; exact Nat.mod_eq_of_lt hu32
  -- the two headers
  have hnew : enc (Sec.header page { s with owner := none }) =
      headPart s.et (UInt32.ofNat (align page s.req)) ++ encVar u := by
    show enc (mkHeader s.et _ (UInt32.ofNat u)) = _
    rw [enc_mkHeader, huN]
  have hold : enc (s.header page) = headPart s.et (UInt32.ofNat (align page s.req)) ++ [0] := by
    have : s.filled = 0 := by unfold Sec.filled; rw [if_pos (.inl howner)]
    unfold Sec.header
    rw [this, enc_mkHeader]
    rfl
  generalize hP : headPart s.et (UInt32.ofNat (align page s.req)) = P at *
  have hPle : P.length ≤ 8 := by rw [← hP]; exact headPart_le _ _
  rw [hnew] at ht hfit hle
  rw [hold] at hhead hgap
  simp only [List.length_append, List.length_singleton] at hhead hgap hfit hle
  -- bytes of the old file
  have old_P : ∀ i, i < P.length → f[o + i]? = P[i]? := by
    intro i hi
    have := congrArg (fun l : Bytes => l[i]?) hhead
    rw [getElem?_slice (by omega), List.getElem?_append_left hi] at this
    exact this
  have old_0 : ∀ i, P.length ≤ i → i < 15 → f[o + i]? = some 0 := by
    intro i h1 h2
    by_cases hi : i = P.length
    · have := congrArg (fun l : Bytes => l[i]?) hhead
      rw [getElem?_slice (by omega), List.getElem?_append_right (by omega), hi, Nat.sub_self] at this
      rw [hi]; exact this
    · have := congrArg (fun l : Bytes => l[i - (P.length + 1)]?) hgap
      rw [getElem?_slice (by omega), List.getElem?_replicate, if_pos (by omega)] at this
      rw [← this]
      congr 1; omega
  have hfit' : o + (P ++ encVar u).length ≤ f.length := by rw [List.length_append]; exact hfit
  -- bytes of the torn file
  have new_P : ∀ i, i < P.length → f'[o + i]? = P[i]? := by
    intro i hi
    rcases ht.2 (o + i) with e | e
    · rw [e]; exact old_P i hi
    · rw [e, getElem?_writeAt_in hfit' (by rw [List.length_append]; omega),
        List.getElem?_append_left hi]
  have new_x : ∀ i, i < (encVar u).length →
      f'[o + (P.length + i)]? = some 0 ∨ f'[o + (P.length + i)]? = (encVar u)[i]? := by
    intro i hi
    rcases ht.2 (o + (P.length + i)) with e | e
    · left; rw [e]; exact old_0 _ (by omega) (by omega)
    · right
      rw [e, getElem?_writeAt_in hfit' (by rw [List.length_append]; omega),
        List.getElem?_append_right (by omega)]
      congr 1; omega
  have hlen' : f'.length = f.length := ht.1
  obtain ⟨rest, hr⟩ : ∃ rest, f'.drop o = P ++ rest ∧ 5 ≤ rest.length ∧
      ∀ i : Nat, rest[i]? = f'[o + (P.length + i)]? := by
    refine ⟨f'.drop (o + P.length), ?_, ?_, ?_⟩
    · apply List.ext_getElem?
      intro i
      rw [List.getElem?_drop]
      by_cases hi : i < P.length
      · rw [List.getElem?_append_left hi]; exact new_P i hi
      · rw [List.getElem?_append_right (by omega), List.getElem?_drop]
        congr 1; omega
    · rw [List.length_drop]; omega
    · intro i
      rw [List.getElem?_drop]
      congr 1; omega
  obtain ⟨hr1, hr2, hr3⟩ := hr
  obtain ⟨g, rest', hg, hgu⟩ := decVar_torn hu32 hr2 (fun i hi => by
    rw [hr3]; exact new_x i hi)
  have hgN : (UInt32.ofNat g).toNat = g := by
    rw [UInt32.toNat_ofNat']; exact Nat.mod_eq_of_lt (by omega)
  have hdata : slice f' (o + 15) g = s.data.take g := by
    rw [ht.slice hfit' (.inr (by rw [List.length_append]; omega))]
    have := congrArg (List.take g) hso.data
    rw [← this]
    unfold slice
    rw [List.take_take]
    congr 1; omega
  refine similar_around hp (s' := ⟨s.req, s.et, s.data.take g, none⟩) h ht.1
    (fun a n ha => ht.slice hfit' (by rw [List.length_append]; omega)) ?_ ?_
  · rw [hoff]
    refine ⟨hreq, by rw [hlen']; exact hin, _, rest', by
      rw [hr1, ← hP]; exact dec_headPart hg, rfl, rfl, ?_, ?_, ?_⟩
    · show (UInt32.ofNat (align page s.req)).toNat = _
      rw [UInt32.toNat_ofNat']; exact Nat.mod_eq_of_lt hsize
    · show o + 15 + (UInt32.ofNat g).toNat ≤ _
      rw [hgN, hlen']; omega
    · show slice f' (o + 15) (UInt32.ofNat g).toNat = _
      rw [hgN]; exact hdata
  · refine ⟨rfl, rfl, List.take_prefix _ _, fun ho => ?_⟩
    rw [ho] at howner; exact absurd howner (by simp)

end ULog
end Verif
