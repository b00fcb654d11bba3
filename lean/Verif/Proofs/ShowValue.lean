import Verif.Model.ShowValue
import Verif.Spec.ShowValue
import Verif.Proofs.LogLine
import Verif.Proofs.ShowTime
/-! The texts of values. -/
namespace Verif
open Bincode

theorem digits_text (n : Nat) : Nat.toDigits 10 n ≠ [] ∧ ∀ c ∈ Nat.toDigits 10 n, c.isDigit = true :=
  ⟨Nat.toDigits_ne_nil, fun _ hc => Nat.isDigit_of_mem_toDigits (by decide) (by decide) hc⟩

theorem digits_inj {n m : Nat} (h : Nat.toDigits 10 n = Nat.toDigits 10 m) : n = m := by
  rw [← Nat.ofDigitChars_ten_toDigits (n := n), h, Nat.ofDigitChars_ten_toDigits]

/-- What may follow a value. -/
def Delim (r : Text) : Prop := ∀ c r', r = c :: r' → c = ',' ∨ c = ')' ∨ c = ']' ∨ c = '}' ∨ c = ':'

theorem delim_cons {c : Char} {r : Text} (h : c = ',' ∨ c = ')' ∨ c = ']' ∨ c = '}' ∨ c = ':') : Delim (c :: r) := by
  intro d r' e; rw [← (List.cons.inj e).1]; exact h

theorem takeWhile_delim (n : Nat) {r : Text} (h : Delim r) :
    (Nat.toDigits 10 n ++ r).takeWhile Char.isDigit = Nat.toDigits 10 n := by
  cases r with
  | nil =>
    rw [List.append_nil]
    have := List.takeWhile_append_of_pos (l₂ := []) (digits_text n).2
    simpa using this
  | cons c r =>
    refine (ShowTime.takeWhile_digits n ?_ r).1
    rcases h c r rfl with rfl | rfl | rfl | rfl | rfl <;> decide

theorem digits_cut {n m : Nat} {r r' : Text} (h : Delim r) (h' : Delim r')
    (e : Nat.toDigits 10 n ++ r = Nat.toDigits 10 m ++ r') : n = m ∧ r = r' := by
  have e' := congrArg (List.takeWhile Char.isDigit) e
  rw [takeWhile_delim n h, takeWhile_delim m h'] at e'
  rw [e'] at e
  exact ⟨digits_inj e', List.append_cancel_left e⟩

theorem head_digit (n : Nat) (r : Text) : ∃ c t, Nat.toDigits 10 n ++ r = c :: t ∧ c.isDigit = true := by
  obtain ⟨h1, h2⟩ := digits_text n
  cases hd : Nat.toDigits 10 n with
  | nil => exact absurd hd h1
  | cons c t => exact ⟨c, t ++ r, rfl, h2 c (by rw [hd]; simp)⟩

theorem int_cut {n m : Int} {r r' : Text} (h : Delim r) (h' : Delim r')
    (e : showInt n ++ r = showInt m ++ r') : n = m ∧ r = r' := by
  unfold showInt at e
  obtain ⟨c, t, hc, hd⟩ := head_digit n.natAbs r
  obtain ⟨c', t', hc', hd'⟩ := head_digit m.natAbs r'
  split at e <;> split at e
  · simp only [List.cons_append, List.cons.injEq, true_and] at e
    obtain ⟨h1, h2⟩ := digits_cut h h' e
    exact ⟨by omega, h2⟩
  · rw [hc', List.cons_append] at e
    rw [← (List.cons.inj e).1] at hd'
    exact absurd hd' (by decide)
  · rw [hc, List.cons_append] at e
    rw [(List.cons.inj e).1] at hd
    exact absurd hd (by decide)
  · obtain ⟨h1, h2⟩ := digits_cut h h' e
    exact ⟨by omega, h2⟩

theorem hex_inj {a b : UInt8} (h : showHex a = showHex b) : a = b := by
  have key : ∀ x y : Fin 16, Nat.digitChar x.val = Nat.digitChar y.val → x = y := by decide
  unfold showHex at h
  simp only [List.cons.injEq, and_true] at h
  have ha := a.toNat_lt
  have hb := b.toNat_lt
  have h1 := key ⟨a.toNat / 16, by omega⟩ ⟨b.toNat / 16, by omega⟩ h.1
  have h2 := key ⟨a.toNat % 16, Nat.mod_lt _ (by decide)⟩ ⟨b.toNat % 16, Nat.mod_lt _ (by decide)⟩ h.2
  simp only [Fin.mk.injEq] at h1 h2
  exact UInt8.toNat_inj.1 (by omega)

theorem hex_head (b : UInt8) : ∃ c d, showHex b = [c, d] ∧ c ≠ ']' := by
  refine ⟨_, _, rfl, ?_⟩
  have key : ∀ x : Fin 16, Nat.digitChar x.val ≠ ']' := by decide
  have hb := b.toNat_lt
  exact key ⟨b.toNat / 16, by omega⟩

/-- The rest of a list behind its first element. -/
def restOf (sep : Text) : List Text → Text
  | [] => []
  | t :: ts => sep ++ t ++ restOf sep ts

theorem separated_cons (sep t : Text) (ts : List Text) : separated sep (t :: ts) = t ++ restOf sep ts := by
  induction ts generalizing t with
  | nil => simp [separated, restOf]
  | cons u ts ih => rw [separated, ih, restOf]; simp; simp

theorem bytes_rest {l m : List UInt8} {r r' : Text}
    (e : restOf [' '] (l.map showHex) ++ ']' :: r = restOf [' '] (m.map showHex) ++ ']' :: r') : l = m ∧ r = r' := by
  induction l generalizing m with
  | nil =>
    cases m with
    | nil => simpa [restOf] using e
    | cons b m => simp [restOf] at e
  | cons a l ih =>
    cases m with
    | nil => simp [restOf] at e
    | cons b m =>
      obtain ⟨c, d, h1, _⟩ := hex_head a
      obtain ⟨c', d', h1', _⟩ := hex_head b
      simp only [List.map_cons, restOf, h1, h1', List.cons_append, List.nil_append, List.cons.injEq, true_and] at e
      obtain ⟨e1, e2, e3⟩ := e
      obtain ⟨h2, h3⟩ := ih e3
      exact ⟨by rw [h2, hex_inj (a := a) (b := b) (by rw [h1, h1', e1, e2])], h3⟩

theorem bytes_cut {l m : List UInt8} {r r' : Text}
    (e : separated [' '] (l.map showHex) ++ ']' :: r = separated [' '] (m.map showHex) ++ ']' :: r') :
    l = m ∧ r = r' := by
  cases l with
  | nil =>
    cases m with
    | nil => simpa [separated] using e
    | cons b m =>
      obtain ⟨c', d', h1', h2'⟩ := hex_head b
      simp only [List.map_cons, List.map_nil, separated_cons, h1', separated, List.nil_append, List.cons_append,
        List.cons.injEq] at e
      exact absurd e.1.symm h2'
  | cons a l =>
    cases m with
    | nil =>
      obtain ⟨c', d', h1', h2'⟩ := hex_head a
      simp only [List.map_cons, List.map_nil, separated_cons, h1', separated, List.nil_append, List.cons_append,
        List.cons.injEq] at e
      exact absurd e.1 h2'
    | cons b m =>
      have := bytes_rest (l := a :: l) (m := b :: m) (r := r) (r' := r') (by
        simp only [List.map_cons, separated_cons] at e
        simp only [List.map_cons, restOf, List.append_assoc] at e ⊢
        rw [e])
      exact this

/-- Neither braces nor a closing bracket. -/
def NoBrace (c : Char) : Prop := c ≠ '{' ∧ c ≠ '}' ∧ c ≠ ']'

theorem noBrace_digit {c : Char} (h : c.isDigit = true) : NoBrace c := by
  refine ⟨?_, ?_, ?_⟩ <;> (rintro rfl; exact absurd h (by decide))

theorem digits_noBrace (n : Nat) : ∀ c ∈ Nat.toDigits 10 n, NoBrace c := fun c hc => noBrace_digit ((digits_text n).2 c hc)

theorem int_text (n : Int) : showInt n ≠ [] ∧ ∀ c ∈ showInt n, NoBrace c := by
  unfold showInt
  split
  · refine ⟨by simp, fun c hc => ?_⟩
    rcases List.mem_cons.1 hc with rfl | hc
    · exact ⟨by decide, by decide, by decide⟩
    · exact digits_noBrace _ c hc
  · exact ⟨(digits_text _).1, digits_noBrace _⟩

theorem digitChar_noBrace {n : Nat} (h : n < 16) : NoBrace (Nat.digitChar n) := by
  have key : ∀ x : Fin 16, Nat.digitChar x.val ≠ '{' ∧ Nat.digitChar x.val ≠ '}' ∧ Nat.digitChar x.val ≠ ']' := by decide
  exact key ⟨n, h⟩

theorem fixed3_text (x : Fp.Num) : ShowTime.fixed3 x ≠ [] ∧ ∀ c ∈ ShowTime.fixed3 x, NoBrace c := by
  have lit : ∀ t ∈ ["NaN".toList, "inf".toList], t ≠ [] ∧ ∀ c ∈ t, c ≠ '{' ∧ c ≠ '}' ∧ c ≠ ']' := by decide
  cases x with
  | nan => exact lit _ (by simp [ShowTime.fixed3])
  | inf b => exact lit _ (by simp [ShowTime.fixed3])
  | fin q =>
    simp only [ShowTime.fixed3]
    refine ⟨by simp, fun c hc => ?_⟩
    rcases List.mem_append.1 hc with h | h
    · exact digits_noBrace _ c h
    · rcases List.mem_cons.1 h with rfl | h
      · exact ⟨by decide, by decide, by decide⟩
      · simp only [ShowTime.pad3, List.mem_cons, List.not_mem_nil, or_false] at h
        rcases h with rfl | rfl | rfl <;> exact digitChar_noBrace (by omega)

theorem showDiv_text (n : Nat) (d : Rat) {u : Text} (hu : ∀ c ∈ u, NoBrace c) :
    ShowTime.showDiv n d u ≠ [] ∧ ∀ c ∈ ShowTime.showDiv n d u, NoBrace c := by
  unfold ShowTime.showDiv
  refine ⟨by simp, fun c hc => ?_⟩
  rcases List.mem_append.1 hc with h | h
  · exact (fixed3_text _).2 c h
  · rcases List.mem_cons.1 h with rfl | h
    · exact ⟨by decide, by decide, by decide⟩
    · exact hu c h

theorem time_text (t : UInt64) : showTime t ≠ [] ∧ ∀ c ∈ showTime t, NoBrace c := by
  have lit : ∀ u ∈ [['d'], ['h'], ['m'], ['s'], ['m', 's'], ['µ', 's'], ['n', 's']],
      ∀ c ∈ u, c ≠ '{' ∧ c ≠ '}' ∧ c ≠ ']' := by decide
  unfold showTime ShowTime.text
  simp only
  iterate 6
    split
    · exact showDiv_text _ _ (lit _ (by simp))
  refine ⟨by simp, fun c hc => ?_⟩
  rcases List.mem_append.1 hc with h | h
  · exact digits_noBrace _ c h
  · rcases List.mem_cons.1 h with rfl | h
    · exact ⟨by decide, by decide, by decide⟩
    · exact lit ['n', 's'] (by simp) c h

namespace Value
variable (fl : Floats)

/-- The text of a value that is not a text begins with neither `]` nor `}`. -/
theorem display_head : ∀ v : Value, ¬ v.IsText → ∃ c t, display fl v = c :: t ∧ c ≠ ']' ∧ c ≠ '}' := by
  have of : ∀ {t : Text}, (t ≠ [] ∧ ∀ c ∈ t, NoBrace c) → ∃ c u, t = c :: u ∧ c ≠ ']' ∧ c ≠ '}' := by
    intro t ⟨h1, h2⟩
    cases t with
    | nil => exact absurd rfl h1
    | cons c u => exact ⟨c, u, rfl, (h2 c (by simp)).2.2, (h2 c (by simp)).2.1⟩
  intro v
  induction v using Value.rec (motive_2 := fun _ => True) (motive_3 := fun _ => True) (motive_4 := fun _ => True)
    (motive_5 := fun _ => True) with
  | newtype v ih => intro h; simp only [IsText] at h; simpa only [display] using ih h
  | char c => intro h; simp [IsText] at h
  | str c => intro h; simp [IsText] at h
  | bool b => intro _; cases b <;> exact ⟨_, _, rfl, by decide, by decide⟩
  | u8 n => intro _; simp only [display]; exact of ⟨(digits_text _).1, digits_noBrace _⟩
  | u16 n => intro _; simp only [display]; exact of ⟨(digits_text _).1, digits_noBrace _⟩
  | u32 n => intro _; simp only [display]; exact of ⟨(digits_text _).1, digits_noBrace _⟩
  | u64 n => intro _; simp only [display]; exact of ⟨(digits_text _).1, digits_noBrace _⟩
  | i8 n => intro _; simp only [display]; exact of (int_text _)
  | i16 n => intro _; simp only [display]; exact of (int_text _)
  | i32 n => intro _; simp only [display]; exact of (int_text _)
  | i64 n => intro _; simp only [display]; exact of (int_text _)
  | f32 x => intro _; simp only [display]; exact of (fl.f32_text x)
  | f64 x => intro _; simp only [display]; exact of (fl.f64_text x)
  | time x => intro _; simp only [display]; exact of (time_text x)
  | unit => intro _; exact ⟨_, _, rfl, by decide, by decide⟩
  | seq l => intro _; simp only [display]; exact ⟨_, _, rfl, by decide, by decide⟩
  | map l => intro _; simp only [display]; exact ⟨_, _, rfl, by decide, by decide⟩
  | bytes l => intro _; simp only [display]; exact ⟨_, _, rfl, by decide, by decide⟩
  | opt o =>
    intro _
    cases o with
    | none => exact ⟨_, _, rfl, by decide, by decide⟩
    | some v => simp only [display, displayOpt]; exact ⟨'S', _, rfl, by decide, by decide⟩
  | _ => trivial

mutual
theorem display_cut : ∀ (v w : Value) {r r' : Text}, Alike v w → Delim r → Delim r' →
    display fl v ++ r = display fl w ++ r' → v = w ∧ r = r'
  | .bool a, w, r, r' => by
    intro h _ _ e; cases w <;> simp only [Alike] at h
    rename_i b
    cases a <;> cases b <;> simp [display] at e ⊢ <;> exact e
  | .u8 a, w, r, r' => by
    intro h hr hr' e; cases w <;> simp only [Alike] at h
    simp only [display] at e
    obtain ⟨h1, h2⟩ := digits_cut hr hr' e
    exact ⟨by rw [UInt8.toNat_inj.1 h1], h2⟩
  | .u16 a, w, r, r' => by
    intro h hr hr' e; cases w <;> simp only [Alike] at h
    simp only [display] at e
    obtain ⟨h1, h2⟩ := digits_cut hr hr' e
    exact ⟨by rw [UInt16.toNat_inj.1 h1], h2⟩
  | .u32 a, w, r, r' => by
    intro h hr hr' e; cases w <;> simp only [Alike] at h
    simp only [display] at e
    obtain ⟨h1, h2⟩ := digits_cut hr hr' e
    exact ⟨by rw [UInt32.toNat_inj.1 h1], h2⟩
  | .u64 a, w, r, r' => by
    intro h hr hr' e; cases w <;> simp only [Alike] at h
    simp only [display] at e
    obtain ⟨h1, h2⟩ := digits_cut hr hr' e
    exact ⟨by rw [UInt64.toNat_inj.1 h1], h2⟩
  | .i8 a, w, r, r' => by
    intro h hr hr' e; cases w <;> simp only [Alike] at h
    simp only [display] at e
    obtain ⟨h1, h2⟩ := int_cut hr hr' e
    exact ⟨by rw [Int8.toInt_inj.1 h1], h2⟩
  | .i16 a, w, r, r' => by
    intro h hr hr' e; cases w <;> simp only [Alike] at h
    simp only [display] at e
    obtain ⟨h1, h2⟩ := int_cut hr hr' e
    exact ⟨by rw [Int16.toInt_inj.1 h1], h2⟩
  | .i32 a, w, r, r' => by
    intro h hr hr' e; cases w <;> simp only [Alike] at h
    simp only [display] at e
    obtain ⟨h1, h2⟩ := int_cut hr hr' e
    exact ⟨by rw [Int32.toInt_inj.1 h1], h2⟩
  | .i64 a, w, r, r' => by
    intro h hr hr' e; cases w <;> simp only [Alike] at h
    simp only [display] at e
    obtain ⟨h1, h2⟩ := int_cut hr hr' e
    exact ⟨by rw [Int64.toInt_inj.1 h1], h2⟩
  | .f32 a, w, r, r' => by
    intro h _ _ e; cases w <;> simp only [Alike] at h
    subst h; exact ⟨rfl, List.append_cancel_left e⟩
  | .f64 a, w, r, r' => by
    intro h _ _ e; cases w <;> simp only [Alike] at h
    subst h; exact ⟨rfl, List.append_cancel_left e⟩
  | .char a, w, r, r' => by
    intro h _ _ e; cases w <;> simp only [Alike] at h
    subst h; exact ⟨rfl, List.append_cancel_left e⟩
  | .str a, w, r, r' => by
    intro h _ _ e; cases w <;> simp only [Alike] at h
    subst h; exact ⟨rfl, List.append_cancel_left e⟩
  | .time a, w, r, r' => by
    intro h _ _ e; cases w <;> simp only [Alike] at h
    subst h; exact ⟨rfl, List.append_cancel_left e⟩
  | .unit, w, r, r' => by
    intro h _ _ e; cases w <;> simp only [Alike] at h
    exact ⟨rfl, List.append_cancel_left e⟩
  | .opt a, w, r, r' => by
    intro h _ _ e; cases w <;> simp only [Alike] at h
    rename_i b
    simp only [display] at e
    obtain ⟨h1, h2⟩ := displayOpt_cut a b h e
    exact ⟨by rw [h1], h2⟩
  | .newtype a, w, r, r' => by
    intro h hr hr' e; cases w <;> simp only [Alike] at h
    rename_i b
    simp only [display] at e
    obtain ⟨h1, h2⟩ := display_cut a b h hr hr' e
    exact ⟨by rw [h1], h2⟩
  | .seq a, w, r, r' => by
    intro h _ _ e; cases w <;> simp only [Alike] at h
    rename_i b
    simp only [display, List.cons_append, List.append_assoc, List.cons.injEq, true_and, List.nil_append] at e
    obtain ⟨h1, h2⟩ := displaySeq_cut a b h e
    exact ⟨by rw [h1], h2⟩
  | .map a, w, r, r' => by
    intro h _ _ e; cases w <;> simp only [Alike] at h
    rename_i b
    simp only [display, List.cons_append, List.append_assoc, List.cons.injEq, true_and, List.nil_append] at e
    obtain ⟨h1, h2⟩ := displayMap_cut a b h e
    exact ⟨by rw [h1], h2⟩
  | .bytes a, w, r, r' => by
    intro h _ _ e; cases w <;> simp only [Alike] at h
    simp only [display, List.cons_append, List.append_assoc, List.cons.injEq, true_and, List.nil_append] at e
    obtain ⟨h1, h2⟩ := bytes_cut e
    exact ⟨by rw [h1], h2⟩

theorem displayOpt_cut : ∀ (v w : Option Value) {r r' : Text}, AlikeOpt v w →
    displayOpt fl v ++ r = displayOpt fl w ++ r' → v = w ∧ r = r'
  | none, none, r, r' => fun _ e => ⟨rfl, List.append_cancel_left e⟩
  | none, some w, r, r' => by intro _ e; simp [displayOpt] at e
  | some v, none, r, r' => by intro _ e; simp [displayOpt] at e
  | some v, some w, r, r' => by
    intro h e
    simp only [AlikeOpt] at h
    simp only [displayOpt, List.append_assoc, List.append_cancel_left_eq, List.cons_append, List.nil_append] at e
    obtain ⟨h1, h2⟩ := display_cut v w h (delim_cons (by simp)) (delim_cons (by simp)) e
    exact ⟨by rw [h1], by simpa using h2⟩

theorem displaySeq_cut : ∀ (l m : List Value) {r r' : Text}, AlikeSeq l m →
    separated [',', ' '] (displaySeq fl l) ++ ']' :: r = separated [',', ' '] (displaySeq fl m) ++ ']' :: r' →
    l = m ∧ r = r'
  | [], [], r, r' => by intro _ e; simpa [displaySeq, separated] using e
  | [], w :: m, r, r' => by
    intro h e
    simp only [AlikeSeq] at h
    obtain ⟨c, t, h1, h2, _⟩ := display_head fl w h
    simp only [displaySeq, separated_cons, h1, separated, List.nil_append, List.cons_append, List.cons.injEq] at e
    exact absurd e.1.symm h2
  | v :: l, [], r, r' => by
    intro h e
    simp only [AlikeSeq] at h
    obtain ⟨c, t, h1, h2, _⟩ := display_head fl v h
    simp only [displaySeq, separated_cons, h1, separated, List.nil_append, List.cons_append, List.cons.injEq] at e
    exact absurd e.1 h2
  | v :: l, w :: m, r, r' => by
    intro h e
    simp only [AlikeSeq] at h
    have hd : ∀ (l : List Value) (r : Text), Delim (restOf [',', ' '] (displaySeq fl l) ++ ']' :: r) := by
      intro l r
      cases l <;> exact delim_cons (by simp)
    simp only [displaySeq, separated_cons, List.append_assoc] at e
    obtain ⟨h1, h2⟩ := display_cut v w h.1 (hd l r) (hd m r') e
    cases l with
    | nil =>
      cases m with
      | nil => exact ⟨by rw [h1], by simpa [displaySeq, restOf] using h2⟩
      | cons b m => simp [displaySeq, restOf] at h2
    | cons a l =>
      cases m with
      | nil => simp [displaySeq, restOf] at h2
      | cons b m =>
        obtain ⟨h3, h4⟩ := displaySeq_cut (a :: l) (b :: m) (r := r) (r' := r') h.2 (by
          simp only [displaySeq, restOf, List.append_assoc, List.append_cancel_left_eq] at h2
          simp only [displaySeq, separated_cons, List.append_assoc]
          exact h2)
        exact ⟨by rw [h1, h3], h4⟩

theorem displayMap_cut : ∀ (l m : List (Value × Value)) {r r' : Text}, AlikeMap l m →
    separated [',', ' '] (displayMap fl l) ++ '}' :: r = separated [',', ' '] (displayMap fl m) ++ '}' :: r' →
    l = m ∧ r = r'
  | [], [], r, r' => by intro _ e; simpa [displayMap, separated] using e
  | [], (k, w) :: m, r, r' => by
    intro h e
    simp only [AlikeMap] at h
    obtain ⟨c, t, h1, _, h2⟩ := display_head fl k h
    simp only [displayMap, separated_cons, h1, separated, List.nil_append, List.cons_append, List.cons.injEq] at e
    exact absurd e.1.symm h2
  | (k, v) :: l, [], r, r' => by
    intro h e
    simp only [AlikeMap] at h
    obtain ⟨c, t, h1, _, h2⟩ := display_head fl k h
    simp only [displayMap, separated_cons, h1, separated, List.nil_append, List.cons_append, List.cons.injEq] at e
    exact absurd e.1 h2
  | (k, v) :: l, (k', w) :: m, r, r' => by
    intro h e
    simp only [AlikeMap] at h
    have hd : ∀ (l : List (Value × Value)) (r : Text),
        Delim (restOf [',', ' '] (displayMap fl l) ++ '}' :: r) := by
      intro l r
      cases l <;> exact delim_cons (by simp)
    simp only [displayMap, separated_cons, List.append_assoc, List.cons_append, List.nil_append] at e
    obtain ⟨h0, e1⟩ := display_cut k k' h.1 (delim_cons (by simp)) (delim_cons (by simp)) e
    simp only [List.cons.injEq, true_and] at e1
    obtain ⟨h1, h2⟩ := display_cut v w h.2.1 (hd l r) (hd m r') e1
    cases l with
    | nil =>
      cases m with
      | nil => exact ⟨by rw [h0, h1], by simpa [displayMap, restOf] using h2⟩
      | cons b m => simp [displayMap, restOf] at h2
    | cons a l =>
      cases m with
      | nil => simp [displayMap, restOf] at h2
      | cons b m =>
        obtain ⟨h3, h4⟩ := displayMap_cut (a :: l) (b :: m) (r := r) (r' := r') h.2.2 (by
          simp only [displayMap, restOf, List.append_assoc, List.append_cancel_left_eq] at h2
          simp only [displayMap, separated_cons, List.append_assoc]
          exact h2)
        exact ⟨by rw [h0, h1, h3], h4⟩
end

/-- A text in which no hole can be found. -/
def Closed (t : Text) : Prop := Shut t ∧ t.head? ≠ some '}'

theorem closed_of {t : Text} (h : ∀ c ∈ t, NoBrace c) : Closed t := by
  refine ⟨Shut.of_not_mem fun hc => (h _ hc).1 rfl, ?_⟩
  cases t with
  | nil => simp
  | cons c t => simpa using (h c (by simp)).2.1

theorem shut_sep (c : Char) (h : c ≠ '{') {t : Text} (ht : Shut t) : Shut (c :: t) :=
  ⟨fun e => absurd e h, ht⟩

theorem shut_separated {ts : List Text} (h : ∀ t ∈ ts, Shut t) : Shut (separated [',', ' '] ts) := by
  cases ts with
  | nil => trivial
  | cons t ts =>
    rw [separated_cons]
    refine (h t (by simp)).append ?_
    have : ∀ ts : List Text, (∀ t ∈ ts, Shut t) → Shut (restOf [',', ' '] ts) := by
      intro ts
      induction ts with
      | nil => intro _; trivial
      | cons u ts ih =>
        intro h
        simp only [restOf, List.append_assoc]
        exact shut_sep _ (by decide) (shut_sep _ (by decide) ((h u (by simp)).append (ih fun t ht => h t (by simp [ht]))))
    exact this ts fun t ht => h t (by simp [ht])

theorem bytes_noBracket (l : List UInt8) : ∀ c ∈ separated [' '] (l.map showHex), NoBrace c := by
  have hex : ∀ b, ∀ c ∈ showHex b, NoBrace c := by
    intro b c hc
    have hb := b.toNat_lt
    simp only [showHex, List.mem_cons, List.not_mem_nil, or_false] at hc
    rcases hc with rfl | rfl <;> exact digitChar_noBrace (by omega)
  cases l with
  | nil => simp [separated]
  | cons b l =>
    rw [List.map_cons, separated_cons]
    intro c hc
    rcases List.mem_append.1 hc with h | h
    · exact hex b c h
    · clear hc
      induction l with
      | nil => simp [restOf] at h
      | cons d l ih =>
        simp only [List.map_cons, restOf, List.cons_append, List.nil_append, List.mem_cons, List.mem_append] at h
        rcases h with rfl | h | h
        · exact ⟨by decide, by decide, by decide⟩
        · exact hex d c h
        · exact ih h

mutual
theorem display_closed : ∀ v : Value, Clear v → Closed (display fl v)
  | .bool b, _ => by cases b <;> simp only [display] <;> exact ⟨Shut.of_not_mem (by decide), by decide⟩
  | .u8 _, _ => by simp only [display]; exact closed_of (digits_noBrace _)
  | .u16 _, _ => by simp only [display]; exact closed_of (digits_noBrace _)
  | .u32 _, _ => by simp only [display]; exact closed_of (digits_noBrace _)
  | .u64 _, _ => by simp only [display]; exact closed_of (digits_noBrace _)
  | .i8 _, _ => by simp only [display]; exact closed_of (int_text _).2
  | .i16 _, _ => by simp only [display]; exact closed_of (int_text _).2
  | .i32 _, _ => by simp only [display]; exact closed_of (int_text _).2
  | .i64 _, _ => by simp only [display]; exact closed_of (int_text _).2
  | .f32 x, _ => by simp only [display]; exact closed_of (fl.f32_text x).2
  | .f64 x, _ => by simp only [display]; exact closed_of (fl.f64_text x).2
  | .time x, _ => by simp only [display]; exact closed_of (time_text x).2
  | .char c, h => by
    simp only [Clear] at h
    simp only [display]
    exact ⟨Shut.of_not_mem (by simpa using h.1.symm), by simpa using h.2⟩
  | .str s, h => by
    simp only [Clear] at h
    simp only [display]
    refine ⟨Shut.of_not_mem h.1, fun he => h.2 ?_⟩
    exact List.mem_of_head? he
  | .unit, _ => by simp only [display]; exact ⟨Shut.of_not_mem (by decide), by decide⟩
  | .opt o, h => by simp only [Clear] at h; simp only [display]; exact displayOpt_closed o h
  | .newtype v, h => by simp only [Clear] at h; simp only [display]; exact display_closed v h
  | .seq l, h => by
    simp only [Clear] at h
    simp only [display]
    refine ⟨?_, by simp⟩
    rw [List.cons_append]
    exact shut_sep _ (by decide) ((shut_separated (displaySeq_shut l h)).append (Shut.of_not_mem (by decide)))
  | .map l, h => by
    simp only [Clear] at h
    simp only [display]
    refine ⟨?_, by simp⟩
    rw [List.cons_append]
    refine ⟨fun _ => ?_, (shut_separated (displayMap_shut l h.2)).append (Shut.of_not_mem (by decide))⟩
    cases l with
    | nil => exact absurd rfl h.1
    | cons p l =>
      obtain ⟨k, v⟩ := p
      simp only [ClearMap] at h
      have hk := (display_closed k h.2.1).2
      simp only [displayMap, separated_cons, List.append_assoc]
      generalize display fl k = t at hk ⊢
      cases t with
      | nil => exact ⟨':', _, rfl, by decide⟩
      | cons c t => exact ⟨c, _, rfl, by simpa using hk⟩
  | .bytes l, _ => by
    simp only [display]
    refine ⟨?_, by simp⟩
    rw [List.cons_append]
    exact shut_sep _ (by decide) ((closed_of (bytes_noBracket l)).1.append (Shut.of_not_mem (by decide)))

theorem displayOpt_closed : ∀ o : Option Value, ClearOpt o → Closed (displayOpt fl o)
  | none, _ => by simp only [displayOpt]; exact ⟨Shut.of_not_mem (by decide), by decide⟩
  | some v, h => by
    simp only [ClearOpt] at h
    simp only [displayOpt, List.append_assoc]
    exact ⟨(Shut.of_not_mem (by decide)).append ((display_closed v h).1.append (Shut.of_not_mem (by decide))), by simp⟩

theorem displaySeq_shut : ∀ l : List Value, ClearSeq l → ∀ t ∈ displaySeq fl l, Shut t
  | [], _ => by simp [displaySeq]
  | v :: l, h => by
    simp only [ClearSeq] at h
    intro t ht
    simp only [displaySeq, List.mem_cons] at ht
    rcases ht with rfl | ht
    · exact (display_closed v h.1).1
    · exact displaySeq_shut l h.2 t ht

theorem displayMap_shut : ∀ l : List (Value × Value), ClearMap l → ∀ t ∈ displayMap fl l, Shut t
  | [], _ => by simp [displayMap]
  | (k, v) :: l, h => by
    simp only [ClearMap] at h
    intro t ht
    simp only [displayMap, List.mem_cons] at ht
    rcases ht with rfl | ht
    · exact ((display_closed k h.1).1.append (Shut.of_not_mem (by decide))).append (display_closed v h.2.1).1
    · exact displayMap_shut l h.2.2 t ht
end

theorem braceless_of {t : Text} (h : ∀ c ∈ t, NoBrace c) : Braceless t :=
  ⟨fun hc => (h _ hc).1 rfl, fun hc => (h _ hc).2.1 rfl⟩

theorem Braceless.append {t u : Text} (h : Braceless t) (k : Braceless u) : Braceless (t ++ u) := by
  simp only [Braceless, List.mem_append, not_or] at *
  exact ⟨⟨h.1, k.1⟩, h.2, k.2⟩

theorem braceless_separated {ts : List Text} (h : ∀ t ∈ ts, Braceless t) :
    Braceless (separated [',', ' '] ts) := by
  cases ts with
  | nil => exact ⟨by simp [separated], by simp [separated]⟩
  | cons t ts =>
    rw [separated_cons]
    refine Braceless.append (h t (by simp)) ?_
    have : ∀ ts : List Text, (∀ t ∈ ts, Braceless t) → Braceless (restOf [',', ' '] ts) := by
      intro ts
      induction ts with
      | nil => intro _; exact ⟨by simp [restOf], by simp [restOf]⟩
      | cons u ts ih =>
        intro h
        simp only [restOf]
        exact Braceless.append (Braceless.append ⟨by decide, by decide⟩ (h u (by simp))) (ih fun t ht => h t (by simp [ht]))
    exact this ts fun t ht => h t (by simp [ht])

mutual
theorem display_bare : ∀ v : Value, Bare v → Braceless (display fl v)
  | .bool b, _ => by cases b <;> simp only [display] <;> exact ⟨by decide, by decide⟩
  | .u8 _, _ => by simp only [display]; exact braceless_of (digits_noBrace _)
  | .u16 _, _ => by simp only [display]; exact braceless_of (digits_noBrace _)
  | .u32 _, _ => by simp only [display]; exact braceless_of (digits_noBrace _)
  | .u64 _, _ => by simp only [display]; exact braceless_of (digits_noBrace _)
  | .i8 _, _ => by simp only [display]; exact braceless_of (int_text _).2
  | .i16 _, _ => by simp only [display]; exact braceless_of (int_text _).2
  | .i32 _, _ => by simp only [display]; exact braceless_of (int_text _).2
  | .i64 _, _ => by simp only [display]; exact braceless_of (int_text _).2
  | .f32 x, _ => by simp only [display]; exact braceless_of (fl.f32_text x).2
  | .f64 x, _ => by simp only [display]; exact braceless_of (fl.f64_text x).2
  | .time x, _ => by simp only [display]; exact braceless_of (time_text x).2
  | .char c, h => by
    simp only [Bare] at h
    simp only [display]
    exact ⟨by simpa using h.1.symm, by simpa using h.2.symm⟩
  | .str s, h => by simp only [Bare] at h; simpa only [display] using h
  | .unit, _ => by simp only [display]; exact ⟨by decide, by decide⟩
  | .opt o, h => by simp only [Bare] at h; simp only [display]; exact displayOpt_bare o h
  | .newtype v, h => by simp only [Bare] at h; simp only [display]; exact display_bare v h
  | .seq l, h => by
    simp only [Bare] at h
    simp only [display]
    exact Braceless.append (t := '[' :: _)
      (Braceless.append (t := ['[']) ⟨by decide, by decide⟩ (braceless_separated (displaySeq_bare l h)))
      ⟨by decide, by decide⟩
  | .map l, h => by simp [Bare] at h
  | .bytes l, _ => by
    simp only [display]
    exact Braceless.append (t := '[' :: _)
      (Braceless.append (t := ['[']) ⟨by decide, by decide⟩ (braceless_of (bytes_noBracket l))) ⟨by decide, by decide⟩

theorem displayOpt_bare : ∀ o : Option Value, BareOpt o → Braceless (displayOpt fl o)
  | none, _ => by simp only [displayOpt]; exact ⟨by decide, by decide⟩
  | some v, h => by
    simp only [BareOpt] at h
    simp only [displayOpt]
    exact Braceless.append (Braceless.append ⟨by decide, by decide⟩ (display_bare v h)) ⟨by decide, by decide⟩

theorem displaySeq_bare : ∀ l : List Value, BareSeq l → ∀ t ∈ displaySeq fl l, Braceless t
  | [], _ => by simp [displaySeq]
  | v :: l, h => by
    simp only [BareSeq] at h
    intro t ht
    simp only [displaySeq, List.mem_cons] at ht
    rcases ht with rfl | ht
    · exact display_bare v h.1
    · exact displaySeq_bare l h.2 t ht
end

end Value

theorem readInt_digits (n : Nat) : readInt (Nat.toDigits 10 n) = some (n : Int) := by
  obtain ⟨h1, h2⟩ := digits_text n
  have h3 : (Nat.toDigits 10 n).all Char.isDigit = true := List.all_eq_true.2 h2
  have h4 := Nat.ofDigitChars_ten_toDigits (n := n)
  generalize Nat.toDigits 10 n = t at *
  unfold readInt
  cases t with
  | nil => exact absurd rfl h1
  | cons c t =>
    have hc : c ≠ '-' := by rintro rfl; exact absurd (h2 '-' (by simp)) (by decide)
    split
    · rename_i d heq
      exact absurd (List.cons.inj heq).1 hc
    · simp [h3, h4]

theorem readInt_show (n : Int) : readInt (showInt n) = some n := by
  unfold showInt
  split
  · obtain ⟨h1, h2⟩ := digits_text n.natAbs
    have h3 : (Nat.toDigits 10 n.natAbs).all Char.isDigit = true := List.all_eq_true.2 h2
    have key : ∀ d : Text, d ≠ [] → d.all Char.isDigit = true →
        readInt ('-' :: d) = some (-(Nat.ofDigitChars 10 d 0 : Int)) := by
      intro d h h'; simp [readInt, h, h']
    rw [key _ h1 h3, Nat.ofDigitChars_ten_toDigits]
    congr 1; omega
  · rw [readInt_digits]; congr 1; omega

end Verif
