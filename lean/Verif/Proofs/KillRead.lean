import Verif.Proofs.KillFiles
import Verif.Proofs.Sequential
/-! What a reader of the files of a process killed in the middle of an operation delivers. -/
namespace Verif
namespace ULog
open Bincode

/-! ### A part of a header -/

theorem dec_head_bytes {t : EntryType} {size fill : Nat} {b0 b1 : UInt8} {x y : Bytes} {rest : Bytes}
    {h : SectionHeader} (h1 : decVar 4 x = .ok (size, y)) (h2 : decVar 4 y = .ok (fill, rest))
    {rest' : Bytes} (hd : (dec : Dec SectionHeader) (b0 :: b1 :: (enc t ++ x)) = .ok (h, rest')) :
    h.sectionSize = UInt32.ofNat size ∧ h.filledSize = UInt32.ofNat fill := by
  have h1' : (dec : Dec UInt32) x = .ok (UInt32.ofNat size, y) := by
    show (decVar 4 >>= fun n => pure (UInt32.ofNat n)) x = _
    rw [Dec.bind_ok h1]; rfl
  have h2' : (dec : Dec UInt32) y = .ok (UInt32.ofNat fill, rest) := by
    show (decVar 4 >>= fun n => pure (UInt32.ofNat n)) y = _
    rw [Dec.bind_ok h2]; rfl
  have hb0 : (dec : Dec UInt8) (b0 :: b1 :: (enc t ++ x)) = .ok (b0, b1 :: (enc t ++ x)) := rfl
  have hb1 : (dec : Dec UInt8) (b1 :: (enc t ++ x)) = .ok (b1, enc t ++ x) := rfl
  have : (dec : Dec SectionHeader) (b0 :: b1 :: (enc t ++ x)) =
      .ok (⟨b0, b1, t, UInt32.ofNat size, UInt32.ofNat fill⟩, rest) := by
    show (dec >>= fun a => dec >>= fun b => dec >>= fun t => dec >>= fun s => dec >>= fun f =>
      pure (⟨a, b, t, s, f⟩ : SectionHeader)) _ = _
    rw [Dec.bind_ok hb0, Dec.bind_ok hb1, Dec.bind_ok (rt_entryType t x), Dec.bind_ok h1', Dec.bind_ok h2']
    rfl
  rw [this] at hd
  cases hd
  exact ⟨rfl, rfl⟩

/-- A part of a header, followed by zeros: the content is empty, the size is 0 or at least that of a
page. -/
theorem dec_part {t : EntryType} {size : UInt32} {j n : Nat} (h256 : 256 ∣ size.toNat)
    (hpos : 0 < size.toNat) {h : SectionHeader} {rest : Bytes}
    (hd : (dec : Dec SectionHeader) ((enc (mkHeader t size 0)).take j ++ List.replicate n 0) = .ok (h, rest)) :
    h.filledSize.toNat = 0 ∧ (h.sectionSize.toNat = 0 ∨ 256 ≤ h.sectionSize.toNat) := by
  have hd := Dec.Sequential.header _ (List.replicate 20 0) _ _ hd
  rw [List.append_assoc, List.replicate_append_replicate] at hd
  have hz : ∀ m, List.replicate (m + 20) (0 : UInt8) = 0 :: 0 :: 0 :: 0 :: 0 :: 0 :: 0 :: 0 :: 0 :: 0 :: 0 :: 0 ::
      List.replicate (m + 8) 0 := fun m => rfl
  rw [hz] at hd
  generalize List.replicate (n + 8) (0 : UInt8) = Z at hd
  generalize rest ++ List.replicate 20 (0 : UInt8) = R at hd
  have hlt := size.toNat_lt
  have dz : ∀ y, decVar 4 (0 :: y) = .ok (0, y) := fun y => rfl
  have d2 : ∀ a b y, decVar 4 (251 :: a :: b :: y) = .ok (a.toNat + 256 * (b.toNat + 256 * 0), y) := fun a b y => rfl
  have d4 : ∀ a b c d y, decVar 4 (252 :: a :: b :: c :: d :: y) =
      .ok (a.toNat + 256 * (b.toNat + 256 * (c.toNat + 256 * (d.toNat + 256 * 0))), y) := fun a b c d y => rfl
  have fin : ∀ {s f : Nat}, h.sectionSize = UInt32.ofNat s ∧ h.filledSize = UInt32.ofNat f →
      f = 0 → (∃ m, s = 256 * m ∧ m < 16777216) →
      h.filledSize.toNat = 0 ∧ (h.sectionSize.toNat = 0 ∨ 256 ≤ h.sectionSize.toNat) := by
    rintro s f ⟨e1, e2⟩ rfl ⟨m, rfl, hm⟩
    have : (UInt32.ofNat (256 * m)).toNat = 256 * m := by
      rw [UInt32.toNat_ofNat', Nat.mod_eq_of_lt (by omega)]
    rw [e1, e2, this]
    refine ⟨rfl, by omega⟩
  have first : UInt8.ofNat size.toNat = 0 := by
    apply UInt8.toNat_inj.1
    rw [u8_ofNat_toNat]
    simp; omega
  have bl : ∀ b : UInt8, b.toNat < 256 := fun b => b.toNat_lt
  obtain ⟨tb, ht, htn⟩ : ∃ tb, enc t = [tb] ∧ tb.toNat < 4 := by cases t <;> exact ⟨_, rfl, by decide⟩
  have hE : (enc (mkHeader t size 0)) = 0xFA :: 0x57 :: (enc t ++ (encVar size.toNat ++ [0])) := by
    rw [enc_mkHeader]
    simp only [headPart, List.append_assoc]; rfl
  rw [hE] at hd
  match j with
  | 0 =>
    exact fin (dec_head_bytes (t := .empty) (dz _) (dz _) hd) rfl ⟨0, rfl, by omega⟩
  | 1 => exact fin (dec_head_bytes (t := .empty) (dz _) (dz _) hd) rfl ⟨0, rfl, by omega⟩
  | 2 => exact fin (dec_head_bytes (t := .empty) (dz _) (dz _) hd) rfl ⟨0, rfl, by omega⟩
  | j + 3 =>
    have hd' : (dec : Dec SectionHeader) (0xFA :: 0x57 :: (enc t ++ ((encVar size.toNat ++ [0]).take j ++
        0 :: 0 :: 0 :: 0 :: 0 :: 0 :: 0 :: 0 :: 0 :: 0 :: 0 :: 0 :: Z))) = .ok (h, R) := by
      rw [← hd, ht]; rfl
    unfold encVar at hd'
    rw [if_neg (by omega)] at hd'
    split at hd'
    · simp only [leBytes, first] at hd'
      generalize UInt8.ofNat (size.toNat / 256) = b at hd'
      have hb := bl b
      match j with
      | 0 => exact fin (dec_head_bytes (dz _) (dz _) hd') rfl ⟨0, rfl, by omega⟩
      | 1 => exact fin (dec_head_bytes (d2 _ _ _) (dz _) hd') rfl ⟨0, rfl, by omega⟩
      | 2 => exact fin (dec_head_bytes (d2 _ _ _) (dz _) hd') rfl ⟨0, rfl, by omega⟩
      | 3 => exact fin (dec_head_bytes (d2 _ _ _) (dz _) hd') rfl ⟨b.toNat, by simp, by omega⟩
      | j + 4 =>
        have : ([251, 0, b] ++ [0] : Bytes).take (j + 4) = [251, 0, b, 0] := by simp
        simp only [List.cons_append, List.nil_append] at hd' this
        rw [this] at hd'
        exact fin (dec_head_bytes (d2 _ _ _) (dz _) hd') rfl ⟨b.toNat, by simp, by omega⟩
    · simp only [leBytes, first] at hd'
      generalize UInt8.ofNat (size.toNat / 256) = b at hd'
      generalize UInt8.ofNat (size.toNat / 256 / 256) = c at hd'
      generalize UInt8.ofNat (size.toNat / 256 / 256 / 256) = e at hd'
      have hb := bl b
      have hc := bl c
      have he := bl e
      match j with
      | 0 => exact fin (dec_head_bytes (dz _) (dz _) hd') rfl ⟨0, rfl, by omega⟩
      | 1 => exact fin (dec_head_bytes (d4 _ _ _ _ _) (dz _) hd') rfl ⟨0, rfl, by omega⟩
      | 2 => exact fin (dec_head_bytes (d4 _ _ _ _ _) (dz _) hd') rfl ⟨0, rfl, by omega⟩
      | 3 => exact fin (dec_head_bytes (d4 _ _ _ _ _) (dz _) hd') rfl ⟨b.toNat, by simp, by omega⟩
      | 4 =>
        exact fin (dec_head_bytes (d4 _ _ _ _ _) (dz _) hd') rfl
          ⟨b.toNat + 256 * c.toNat, by simp, by omega⟩
      | 5 =>
        exact fin (dec_head_bytes (d4 _ _ _ _ _) (dz _) hd') rfl
          ⟨b.toNat + 256 * (c.toNat + 256 * e.toNat), by simp, by omega⟩
      | j + 6 =>
        have : ([252, 0, b, c, e] ++ [0] : Bytes).take (j + 6) = [252, 0, b, c, e, 0] := by simp
        simp only [List.cons_append, List.nil_append] at hd' this
        rw [this] at hd'
        exact fin (dec_head_bytes (d4 _ _ _ _ _) (dz _) hd') rfl
          ⟨b.toNat + 256 * (c.toNat + 256 * e.toNat), by simp, by omega⟩

/-! ### Where a reader gets nothing more -/

/-- A reader at `r` gets nothing more: nothing, or an empty section. -/
def Dead (files : List Bytes) (t : EntryType) (r : Reader) : Prop :=
  ∀ fuel x, readNext files t fuel r = .ok x → x.1 = none ∨ x.1 = some []

theorem dead_zeros {files : List Bytes} {k pos n : Nat} {f : Bytes} (hf : files[k]? = some f)
    (hlt : pos < f.length) (hz : f.drop pos = List.replicate n 0) (t : EntryType) (fuel : Nat) :
    ∀ x, readNext files t fuel ⟨k, pos⟩ ≠ .ok x := by
  intro x hx
  cases fuel with
  | zero => simp [readNext] at hx
  | succ fuel =>
    unfold readNext Reader.advance at hx
    simp only [hf] at hx
    rw [if_neg (by omega)] at hx
    unfold readHeader at hx
    simp only [hf] at hx
    rw [if_neg (by omega), hz] at hx
    cases hd : (dec : Dec SectionHeader) (List.replicate n 0) with
    | error e => rw [hd] at hx; simp at hx
    | ok p =>
      obtain ⟨h, rest⟩ := p
      rw [hd] at hx
      simp [dec_zeros hd] at hx

theorem dead_end {files : List Bytes} {k pos : Nat} {f : Bytes} (hf : files[k]? = some f)
    (hle : f.length ≤ pos) (hn : files[k + 1]? = none) (t : EntryType) (fuel : Nat) :
    ∀ x, readNext files t fuel ⟨k, pos⟩ ≠ .ok x := by
  intro x hx
  cases fuel with
  | zero => simp [readNext] at hx
  | succ fuel =>
    unfold readNext Reader.advance at hx
    simp only [hf] at hx
    rw [if_pos hle] at hx
    simp [openSlab, hn] at hx

theorem dead_head {files : List Bytes} {k pos : Nat} {f : Bytes} (hf : files[k]? = some f)
    (hlt : pos < f.length) (hp : PartHead (f.drop pos)) (hlen : files.length = k + 1) (t : EntryType) :
    Dead files t ⟨k, pos⟩ := by
  obtain ⟨t', size, j, n, hx, h256, hpos⟩ := hp
  intro fuel
  induction fuel with
  | zero => intro x h; simp [readNext] at h
  | succ fuel ih =>
    intro x h
    unfold readNext Reader.advance at h
    simp only [hf] at h
    rw [if_neg (by omega)] at h
    simp only at h
    have hh : ∀ hd, readHeader files ⟨k, pos⟩ = .ok hd →
        hd.filledSize.toNat = 0 ∧ (hd.sectionSize.toNat = 0 ∨ 256 ≤ hd.sectionSize.toNat) := by
      intro hd hr
      unfold readHeader at hr
      simp only [hf] at hr
      rw [if_neg (by omega), hx] at hr
      cases hd' : (dec : Dec SectionHeader) ((enc (mkHeader t' size 0)).take j ++ List.replicate n 0) with
      | error e => rw [hd'] at hr; simp at hr
      | ok p =>
        obtain ⟨h0, rest⟩ := p
        rw [hd'] at hr
        simp only at hr
        split at hr
        · cases hr; exact dec_part h256 hpos hd'
        · simp at hr
    cases hr : readHeader files ⟨k, pos⟩ with
    | err => rw [hr] at h; simp at h
    | panic => rw [hr] at h; simp at h
    | diverges => rw [hr] at h; simp at h
    | ok hd =>
      obtain ⟨h1, h2⟩ := hh hd hr
      rw [hr] at h
      simp only at h
      split at h
      · cases h; exact .inl rfl
      · split at h
        · unfold readContent at h
          simp only [hf, h1, List.take_zero] at h
          split at h
          · rename_i heq
            split at heq
            · simp at heq
            · cases heq; cases h; exact .inr rfl
          · simp at h
          · simp at h
          · simp at h
        · rcases h2 with h2 | h2
          · rw [h2] at h; exact ih x h
          · by_cases hb : f.length ≤ pos + hd.sectionSize.toNat
            · exact absurd h (dead_end hf hb (by rw [List.getElem?_eq_none_iff]; omega) t fuel x)
            · refine absurd h (dead_zeros hf (n := n - (hd.sectionSize.toNat -
                ((enc (mkHeader t' size 0)).take j).length)) (by omega) ?_ t fuel x)
              have hle := enc_header_le (mkHeader t' size 0)
              have htl : ((enc (mkHeader t' size 0)).take j).length ≤ 13 := by
                rw [List.length_take]; omega
              rw [← List.drop_drop, hx, List.drop_append, List.drop_of_length_le (by omega),
                List.nil_append, List.drop_replicate]

theorem dead_new {files : List Bytes} {k pos : Nat} {f g : Bytes} (hf : files[k]? = some f)
    (hle : f.length ≤ pos) (hg : files[k + 1]? = some g) (hp : PartHead g)
    (hlen : files.length = k + 2) (t : EntryType) : Dead files t ⟨k, pos⟩ := by
  intro fuel x h
  cases fuel with
  | zero => simp [readNext] at h
  | succ fuel =>
    have ho : openSlab files (k + 1) = .ok 0 := by simp [openSlab, hg]
    have ha : Reader.advance files ⟨k, pos⟩ = .ok ⟨k + 1, 0⟩ := by
      unfold Reader.advance
      simp only [hf]
      rw [if_pos hle, ho]
    by_cases hz : g = []
    · subst hz
      unfold readNext at h
      rw [ha] at h
      have : readHeader files ⟨k + 1, 0⟩ = .panic := by
        unfold readHeader; simp only [hg]; rfl
      simp only [this] at h
      cases h
    · have hgp : 0 < g.length := List.length_pos_iff.2 hz
      have ha' : Reader.advance files ⟨k + 1, 0⟩ = .ok ⟨k + 1, 0⟩ := by
        unfold Reader.advance
        simp only [hg]
        rw [if_neg (by omega)]
      have : readNext files t (fuel + 1) ⟨k, pos⟩ = readNext files t (fuel + 1) ⟨k + 1, 0⟩ := by
        unfold readNext
        rw [ha, ha']
      rw [this] at h
      exact dead_head hg hgp (by rw [List.drop_zero]; exact hp) hlen t (fuel + 1) x h

/-! ### Reading to the end -/

variable {page : Nat} {files : List Bytes} {lay : List (List Sec)}

/-- In front of sections none of which is of the type. -/
theorem dead_others (hh : HoldsR page files lay) {t : EntryType} (hd : ∀ r, At page lay r [] → Dead files t r)
    {A : List Sec} (hA : ∀ a ∈ A, a.et ≠ t ∧ a.et ≠ .lastEntry) {r : Reader} (ha : At page lay r A) :
    Dead files t r := by
  induction A generalizing r with
  | nil => exact hd r ha
  | cons a A ih =>
    intro fuel x hx
    cases fuel with
    | zero => simp [readNext] at hx
    | succ fuel =>
      obtain ⟨r', h, h1, h2, h3, h4, h5⟩ := at_stepR hh ha
      have hA' := hA a (by simp)
      unfold readNext at hx
      simp only [h1, h2, h4] at hx
      rw [if_neg hA'.2, if_neg hA'.1] at hx
      exact ih (fun x hx => hA x (by simp [hx])) h5 fuel x hx

theorem drain_specR (hh : HoldsR page files lay) {t : EntryType}
    (hdead : ∀ r, At page lay r [] → Dead files t r)
    (ht : t ≠ .lastEntry) (hfuel : lay.flatten.length < readFuel files) {ns : List Nat} :
    ∀ {io : IOReader} {todo : List Sec}, At page lay io.reader todo → todo.length ≤ lay.flatten.length →
    (∀ a ∈ todo, a.et ≠ .lastEntry) → (∀ n ∈ ns, 0 < n) →
    let all := io.buffer.drop io.bufferPos ++ (upTo ((todo.filter (·.et == t)).map Sec.data)).1.flatten
    let r := io.drain files t ns
    r.1 <+: all ∧ (r.2 ≠ .more → r.1 = all) ∧ (all.length < ns.length → r.2 ≠ .more) := by
  induction ns with
  | nil => intro io todo _ _ _ _; simp [IOReader.drain]
  | cons n ns ih =>
    intro io todo ha hlen hlast hn
    have hn0 : 0 < n := hn n (by simp)
    have hn' : ∀ m ∈ ns, 0 < m := fun m hm => hn m (by simp [hm])
    by_cases hb : io.buffer.length ≤ io.bufferPos
    · have hd : io.buffer.drop io.bufferPos = [] := List.drop_eq_nil_of_le hb
      rcases split_type t todo with hno | ⟨A, s, B, rfl, hA, hst⟩
      · -- no section left
        have hf : todo.filter (·.et == t) = [] := by
          rw [List.filter_eq_nil_iff]; intro a ha; simpa using hno a ha
        have hst := dead_others hh hdead (fun a ha => ⟨hno a ha, hlast a ha⟩) ha (readFuel files)
        have hr : (io.drain files t (n :: ns)).1 = [] ∧ (io.drain files t (n :: ns)).2 ≠ .more := by
          unfold IOReader.drain IOReader.read
          simp only [hb, if_true]
          cases hx : readNext files t (readFuel files) io.reader with
          | ok x =>
            obtain ⟨d, r'⟩ := x
            rcases hst _ hx with h | h
            · simp only at h; subst h
              simp [hb]
            · simp only at h; subst h
              simp
          | err => simp
          | panic => simp
          | diverges => simp
        simp only [hr.1, hd, hf]
        simp [upTo, hr.2]
      · obtain ⟨r', h1, h2⟩ := readNext_someR hh ht (fun a ha => ⟨hA a ha, hlast a (by simp [ha])⟩) hst ha
          (fuel := readFuel files) (by simp only [List.length_append, List.length_cons] at hlen; omega)
        have hfA : A.filter (·.et == t) = [] := by
          rw [List.filter_eq_nil_iff]; intro a ha; simpa using hA a ha
        have hf : ((A ++ s :: B).filter (·.et == t)).map Sec.data =
            s.data :: (B.filter (·.et == t)).map Sec.data := by
          rw [List.filter_append, hfA, List.filter_cons_of_pos (by simp [hst])]; rfl
        simp only [hd, hf, upTo, List.nil_append]
        by_cases hc : s.data = []
        · have hr : io.drain files t (n :: ns) = ([], .eof) := by
            unfold IOReader.drain IOReader.read
            simp only [hb, if_true, h1, hc]
            rfl
          simp [hr, hc]
        · have hpos : 0 < s.data.length := List.length_pos_iff.2 hc
          obtain ⟨x, xs, hxs⟩ : ∃ x xs, s.data.take (min n s.data.length) = x :: xs := by
            cases hx : s.data.take (min n s.data.length) with
            | nil =>
              have := congrArg List.length hx
              simp only [List.length_take, List.length_nil] at this
              omega
            | cons x xs => exact ⟨x, xs, rfl⟩
          have hread : io.read files t n = .ok (x :: xs, ⟨r', s.data, min n s.data.length⟩) := by
            unfold IOReader.read
            simp only [hb, if_true, h1]
            rw [if_neg (by simp; omega)]
            simp [hxs]
          have hr : io.drain files t (n :: ns) = (x :: xs ++
              (IOReader.drain files t ⟨r', s.data, min n s.data.length⟩ ns).1,
              (IOReader.drain files t ⟨r', s.data, min n s.data.length⟩ ns).2) := by
            rw [IOReader.drain, hread]
          obtain ⟨i1, i2, i3⟩ := ih (io := ⟨r', s.data, min n s.data.length⟩) (todo := B) h2
            (by simp only [List.length_append, List.length_cons] at hlen; omega) (fun a ha => hlast a (by simp [ha])) hn'
          simp only at i1 i2 i3
          have hsplit : s.data = (x :: xs) ++ s.data.drop (min n s.data.length) := by
            rw [← hxs, List.take_append_drop]
          generalize IOReader.drain files t ⟨r', s.data, min n s.data.length⟩ ns = q at *
          rw [hr, if_neg hc]
          simp only [List.flatten_cons]
          generalize hrest : s.data.drop (min n s.data.length) = rest at *
          rw [hsplit]
          refine ⟨?_, ?_, ?_⟩
          · rw [List.append_assoc]
            exact (List.prefix_append_right_inj _).2 i1
          · intro h; rw [i2 h, List.append_assoc]
          · intro h
            refine i3 ?_
            simp only [List.length_append, List.length_cons] at h ⊢
            omega
    · -- something left in the buffer
      have hlen2 : 0 < min n (io.buffer.length - io.bufferPos) := by omega
      generalize hm : min n (io.buffer.length - io.bufferPos) = m at *
      obtain ⟨x, xs, hxs⟩ : ∃ x xs, (io.buffer.drop io.bufferPos).take m = x :: xs := by
        cases hx : (io.buffer.drop io.bufferPos).take m with
        | nil =>
          have := congrArg List.length hx
          simp only [List.length_take, List.length_drop, List.length_nil] at this
          omega
        | cons x xs => exact ⟨x, xs, rfl⟩
      have hread : io.read files t n = .ok (x :: xs, { io with bufferPos := io.bufferPos + m }) := by
        unfold IOReader.read
        simp only [hb, if_false, hm, hxs]
      have hr : io.drain files t (n :: ns) = (x :: xs ++
          (IOReader.drain files t { io with bufferPos := io.bufferPos + m } ns).1,
          (IOReader.drain files t { io with bufferPos := io.bufferPos + m } ns).2) := by
        rw [IOReader.drain, hread]
      obtain ⟨i1, i2, i3⟩ := ih (io := { io with bufferPos := io.bufferPos + m }) (todo := todo) ha
        hlen hlast hn'
      simp only at i1 i2 i3
      have hsplit : io.buffer.drop io.bufferPos = (x :: xs) ++ io.buffer.drop (io.bufferPos + m) := by
        rw [← hxs, ← List.drop_drop, List.take_append_drop]
      generalize IOReader.drain files t { io with bufferPos := io.bufferPos + m } ns = q at *
      rw [hr]
      simp only
      rw [hsplit]
      refine ⟨?_, ?_, ?_⟩
      · rw [List.append_assoc]
        exact (List.prefix_append_right_inj _).2 i1
      · intro h; rw [i2 h, List.append_assoc]
      · intro h
        refine i3 ?_
        simp only [List.length_append, List.length_cons] at h ⊢
        omega

end ULog
end Verif
