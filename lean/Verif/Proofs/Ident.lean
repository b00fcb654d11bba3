import Verif.Model.Ident
import Verif.Spec.Ident
/-! Lemmas on generated identifiers. -/
namespace Verif
namespace Ident

/-! ### Characters -/
theorem lower_not_upper {c : Char} (h : c.isLower = true) : c.isUpper = false := by
  simp [Char.isLower, Char.isUpper, UInt32.le_iff_toNat_le, UInt32.lt_iff_toNat_lt] at *
  omega
theorem lower_not_digit {c : Char} (h : c.isLower = true) : c.isDigit = false := by
  simp [Char.isLower, Char.isDigit, UInt32.le_iff_toNat_le, UInt32.lt_iff_toNat_lt] at *
  omega
theorem digit_not_lower {c : Char} (h : c.isDigit = true) : c.isLower = false := by
  simp [Char.isLower, Char.isDigit, UInt32.le_iff_toNat_le, UInt32.lt_iff_toNat_lt] at *
  omega
theorem digit_not_upper {c : Char} (h : c.isDigit = true) : c.isUpper = false := by
  simp [Char.isUpper, Char.isDigit, UInt32.le_iff_toNat_le, UInt32.lt_iff_toNat_lt] at *
  omega
theorem toLower_of_not_upper {c : Char} (h : c.isUpper = false) : c.toLower = c := by
  unfold Char.toLower
  rw [dif_neg]
  rintro ⟨h1, h2⟩
  have : c.isUpper = true := by simp [Char.isUpper]; exact ⟨h1, h2⟩
  simp [this] at h
theorem toUpper_of_not_lower {c : Char} (h : c.isLower = false) : c.toUpper = c := by
  unfold Char.toUpper
  rw [dif_neg]
  rintro ⟨h1, h2⟩
  have : c.isLower = true := by simp [Char.isLower]; exact ⟨h1, h2⟩
  simp [this] at h
theorem toUpper_val {c : Char} (h : c.isLower = true) : c.toUpper.val.toNat + 32 = c.val.toNat := by
  have h' : 'a'.val ≤ c.val ∧ c.val ≤ 'z'.val := by simpa [Char.isLower] using h
  unfold Char.toUpper
  rw [dif_pos h']
  have h1 : 97 ≤ c.val.toNat := UInt32.le_iff_toNat_le.mp h'.1
  have h2 : c.val.toNat ≤ 122 := UInt32.le_iff_toNat_le.mp h'.2
  have e : ('A'.val - 'a'.val).toNat = 4294967264 := by decide
  show (c.val + ('A'.val - 'a'.val)).toNat + 32 = _
  rw [UInt32.toNat_add, e]
  omega
theorem toLower_val {c : Char} (h : c.isUpper = true) : c.toLower.val.toNat = c.val.toNat + 32 := by
  have h' : c.val ≥ 'A'.val ∧ c.val ≤ 'Z'.val := by simpa [Char.isUpper] using h
  unfold Char.toLower
  rw [dif_pos h']
  have h2 : c.val.toNat ≤ 90 := UInt32.le_iff_toNat_le.mp h'.2
  have e : ('a'.val - 'A'.val).toNat = 32 := by decide
  show (c.val + ('a'.val - 'A'.val)).toNat = _
  rw [UInt32.toNat_add, e]
  omega
theorem toUpper_upper {c : Char} (h : c.isLower = true) : c.toUpper.isUpper = true := by
  have := toUpper_val h
  simp [Char.isLower, Char.isUpper, UInt32.le_iff_toNat_le] at *
  omega
theorem toUpper_inj {c d : Char} (hc : c.isLower = true) (hd : d.isLower = true)
    (h : c.toUpper = d.toUpper) : c = d := by
  have h1 := toUpper_val hc
  have h2 := toUpper_val hd
  rw [h] at h1
  apply Char.ext
  apply UInt32.toNat_inj.mp
  omega
theorem toLower_ne_underscore {c : Char} (h : c ≠ '_') : c.toLower ≠ '_' := by
  cases hu : c.isUpper with
  | false => rwa [toLower_of_not_upper hu]
  | true =>
    have := toLower_val hu
    intro he
    rw [he] at this
    simp [Char.isUpper, UInt32.le_iff_toNat_le] at hu
    simp at this
    omega

/-! ### Words -/
theorem flush_eq {w : List Char} (h : w ≠ []) : flush w = [w.reverse] := by
  cases w with
  | nil => exact absurd rfl h
  | cons => rfl

theorem wordsFrom_spec (digits : Bool) (s w : List Char) (hw : ∀ c ∈ w, isDelim c = false) :
    ∀ v ∈ wordsFrom digits w s, v ≠ [] ∧ ∀ c ∈ v, isDelim c = false := by
  have hf : ∀ w : List Char, (∀ c ∈ w, isDelim c = false) →
      ∀ v ∈ flush w, v ≠ [] ∧ ∀ c ∈ v, isDelim c = false := by
    intro w hw v hv
    cases w with
    | nil => simp [flush] at hv
    | cons a w =>
      rw [flush_eq (by simp)] at hv
      simp only [List.mem_singleton] at hv
      subst hv
      exact ⟨by simp, fun c hc => hw c (List.mem_reverse.mp hc)⟩
  induction s generalizing w with
  | nil => exact hf w hw
  | cons c cs ih =>
    intro v hv
    simp only [wordsFrom] at hv
    split at hv
    · rcases List.mem_append.mp hv with hv | hv
      · exact hf w hw v hv
      · exact ih [] (by simp) v hv
    · rename_i hd
      have hd : isDelim c = false := by simpa using hd
      cases w with
      | nil => exact ih [c] (by simpa using hd) v hv
      | cons p w =>
        simp only at hv
        split at hv
        · rcases List.mem_append.mp hv with hv | hv
          · exact hf _ hw v hv
          · exact ih [c] (by simpa using hd) v hv
        · refine ih (c :: p :: w) ?_ v hv
          intro d hd'
          rcases List.mem_cons.mp hd' with rfl | hd'
          · exact hd
          · exact hw d hd'

/-- Two splits of a list at the first character that is not `P`. -/
theorem append_inj_of_head {P : Char → Prop} {a b x y : List Char} (ha : ∀ c ∈ a, P c) (hb : ∀ c ∈ b, P c)
    (hx : ∀ c ∈ x.head?, ¬ P c) (hy : ∀ c ∈ y.head?, ¬ P c) (h : a ++ x = b ++ y) : a = b ∧ x = y := by
  induction a generalizing b with
  | nil =>
    cases b with
    | nil => exact ⟨rfl, h⟩
    | cons c b =>
      simp at h
      exact absurd (hb c (by simp)) (hx c (by simp [h]))
  | cons c a ih =>
    cases b with
    | nil =>
      simp at h
      exact absurd (ha c (by simp)) (hy c (by simp [← h]))
    | cons d b =>
      simp only [List.cons_append, List.cons.injEq] at h
      obtain ⟨rfl, h⟩ := h
      obtain ⟨rfl, rfl⟩ := ih (fun c hc => ha c (by simp [hc])) (fun c hc => hb c (by simp [hc])) h
      exact ⟨rfl, rfl⟩

theorem intercalate_cons_cons (a b : List Char) (l : List (List Char)) :
    List.intercalate ['_'] (a :: b :: l) = a ++ '_' :: List.intercalate ['_'] (b :: l) := by
  simp [List.intercalate]

theorem intercalate_inj {l m : List (List Char)} (hl : ∀ w ∈ l, w ≠ [] ∧ ∀ c ∈ w, c ≠ '_')
    (hm : ∀ w ∈ m, w ≠ [] ∧ ∀ c ∈ w, c ≠ '_')
    (h : List.intercalate ['_'] l = List.intercalate ['_'] m) : l = m := by
  induction l generalizing m with
  | nil =>
    cases m with
    | nil => rfl
    | cons b m =>
      exfalso
      have := (hm b (by simp)).1
      cases m with
      | nil => simp [List.intercalate] at h; exact this h
      | cons c m => rw [intercalate_cons_cons] at h; simp [List.intercalate] at h
  | cons a l ih =>
    have ha := hl a (by simp)
    cases m with
    | nil =>
      exfalso
      cases l with
      | nil => simp [List.intercalate] at h; exact ha.1 h
      | cons c l => rw [intercalate_cons_cons] at h; simp [List.intercalate] at h
    | cons b m =>
      have hb := hm b (by simp)
      have hl' : ∀ w ∈ l, w ≠ [] ∧ ∀ c ∈ w, c ≠ '_' := fun w hw => hl w (by simp [hw])
      have hm' : ∀ w ∈ m, w ≠ [] ∧ ∀ c ∈ w, c ≠ '_' := fun w hw => hm w (by simp [hw])
      cases l with
      | nil =>
        cases m with
        | nil => simpa [List.intercalate] using h
        | cons d m =>
          rw [intercalate_cons_cons] at h
          have : a ++ [] = b ++ '_' :: List.intercalate ['_'] (d :: m) := by
            simpa [List.intercalate] using h
          have := append_inj_of_head (P := fun c => c ≠ '_') ha.2 hb.2 (by simp) (by simp) this
          simp at this
      | cons c l =>
        cases m with
        | nil =>
          rw [intercalate_cons_cons] at h
          have : a ++ '_' :: List.intercalate ['_'] (c :: l) = b ++ [] := by
            simpa [List.intercalate] using h
          have := append_inj_of_head (P := fun c => c ≠ '_') ha.2 hb.2 (by simp) (by simp) this
          simp at this
        | cons d m =>
          rw [intercalate_cons_cons, intercalate_cons_cons] at h
          have := append_inj_of_head (P := fun c => c ≠ '_') ha.2 hb.2 (by simp) (by simp) h
          obtain ⟨rfl, h'⟩ := this
          injection h' with _ h'
          rw [ih hl' hm' h']

/-- Lists that do not start with an underscore keep apart. -/
theorem guardDigit_inj {s t : List Char} (hs : s.head? ≠ some '_') (ht : t.head? ≠ some '_')
    (h : guardDigit s = guardDigit t) : s = t := by
  unfold guardDigit at h
  split at h <;> split at h
  · simpa using h
  · rw [← h] at ht; simp at ht
  · rw [h] at hs; simp at hs
  · exact h

theorem intercalate_head {l : List (List Char)} (hl : ∀ w ∈ l, w ≠ [] ∧ ∀ c ∈ w, c ≠ '_') :
    (List.intercalate ['_'] l).head? ≠ some '_' := by
  cases l with
  | nil => simp [List.intercalate]
  | cons a l =>
    obtain ⟨h1, h2⟩ := hl a (by simp)
    cases a with
    | nil => exact absurd rfl h1
    | cons x a =>
      have := h2 x (by simp)
      cases l with
      | nil => simpa [List.intercalate] using this
      | cons b l => rw [intercalate_cons_cons]; simpa using this

theorem lower_words (digits : Bool) (s : List Char) :
    ∀ w ∈ (wordsFrom digits [] s).map (·.map Char.toLower), w ≠ [] ∧ ∀ c ∈ w, c ≠ '_' := by
  intro w hw
  obtain ⟨v, hv, rfl⟩ := List.mem_map.mp hw
  obtain ⟨h1, h2⟩ := wordsFrom_spec digits s [] (by simp) v hv
  refine ⟨by simpa using h1, fun c hc => ?_⟩
  obtain ⟨d, hd, rfl⟩ := List.mem_map.mp hc
  have := h2 d hd
  exact toLower_ne_underscore (by intro he; subst he; simp [isDelim] at this)

/-! ### Names in the usual style -/

/-- A run of characters without any boundary inside. -/
def Run (P : Char → Bool) : Prop :=
  (∀ c, P c = true → isDelim c = false ∧ c.isAlphanum = true) ∧
  ∀ (digits : Bool) (p c : Char) (n : Option Char), P p = true → P c = true → cut digits p c n = false

theorem run_lower : Run Char.isLower := by
  refine ⟨fun c h => ⟨?_, by simp [Char.isAlphanum, Char.isAlpha, h]⟩, fun d p c n hp hc => ?_⟩
  · unfold isDelim
    simp only [Bool.or_eq_false_iff, beq_eq_false_iff_ne]
    refine ⟨⟨?_, ?_⟩, ?_⟩ <;> (rintro rfl; revert h; decide)
  · simp [cut, lower_not_upper hc, lower_not_digit hc, lower_not_digit hp]

theorem run_digit : Run Char.isDigit := by
  refine ⟨fun c h => ⟨?_, by simp [Char.isAlphanum, h]⟩, fun d p c n hp hc => ?_⟩
  · unfold isDelim
    simp only [Bool.or_eq_false_iff, beq_eq_false_iff_ne]
    refine ⟨⟨?_, ?_⟩, ?_⟩ <;> (rintro rfl; revert h; decide)
  · simp [cut, digit_not_lower hp, digit_not_upper hp, digit_not_lower hc, digit_not_upper hc, Char.isAlpha]

theorem wordsFrom_run {P : Char → Bool} (hP : Run P) (digits : Bool) (l w rest : List Char)
    (hl : ∀ c ∈ l, P c = true) (hw : ∀ c ∈ w, P c = true) :
    wordsFrom digits w (l ++ rest) = wordsFrom digits (l.reverse ++ w) rest := by
  induction l generalizing w with
  | nil => rfl
  | cons c l ih =>
    have hc := hl c (by simp)
    rw [List.cons_append, wordsFrom.eq_def]
    simp only
    rw [if_neg (by simp [(hP.1 c hc).1])]
    have step : wordsFrom digits (c :: w) (l ++ rest) = wordsFrom digits ((c :: l).reverse ++ w) rest := by
      rw [ih (c :: w) (fun d hd => hl d (by simp [hd]))
        (fun d hd => (List.mem_cons.mp hd).elim (fun e => e ▸ hc) (hw d))]
      simp
    cases w with
    | nil => exact step
    | cons p w =>
      simp only
      rw [hP.2 digits p c _ (hw p (by simp)) hc]
      exact step

theorem Plain.tail {w : List Char} {ws : List (List Char)} (h : Plain (w :: ws)) : Plain ws := by
  cases h <;> assumption

theorem Plain.head {w : List Char} {ws : List (List Char)} (h : Plain (w :: ws)) :
    w ≠ [] ∧ ∃ P : Char → Bool, Run P ∧ (∀ c ∈ w, P c = true) ∧ ∀ c, P c = true → c.isUpper = false := by
  cases h with
  | letters hw _ => exact ⟨hw.1, _, run_lower, hw.2, fun _ => lower_not_upper⟩
  | digits hw _ _ => exact ⟨hw.1, _, run_digit, hw.2, fun _ => digit_not_upper⟩

theorem clean_run {P : Char → Bool} (hP : Run P) {w : List Char} (hw : ∀ c ∈ w, P c = true) : clean w = w := by
  unfold clean
  rw [List.map_congr_left (g := id) (by intro c hc; simp [(hP.1 c (hw c hc)).2])]
  simp

theorem clean_append (a b : List Char) : clean (a ++ b) = clean a ++ clean b := by simp [clean]

theorem name_cons_cons (a b : List Char) (l : List (List Char)) :
    name (a :: b :: l) = a ++ '_' :: name (b :: l) := intercalate_cons_cons a b l

theorem words_plain (digits : Bool) {ws : List (List Char)} (h : Plain ws) :
    wordsFrom digits [] (clean (name ws)) = ws := by
  induction ws with
  | nil => rfl
  | cons w ws ih =>
    obtain ⟨hne, P, hP, hw, _⟩ := h.head
    cases ws with
    | nil =>
      have : name [w] = w := by simp [name, List.intercalate]
      rw [this, clean_run hP hw, ← List.append_nil w, wordsFrom_run hP digits w [] [] hw (by simp)]
      simp [wordsFrom, flush_eq, hne]
    | cons v ws =>
      rw [name_cons_cons, clean_append, clean_run hP hw, wordsFrom_run hP digits w [] _ hw (by simp)]
      have : clean ('_' :: name (v :: ws)) = '_' :: clean (name (v :: ws)) := by simp [clean]
      rw [this, wordsFrom.eq_def]
      simp only
      rw [if_pos (by decide), ih h.tail]
      simp [flush_eq, hne]

theorem capital_lower {w : List Char} (h : ∀ c ∈ w, c.isUpper = false) :
    capital w = match w with | [] => [] | c :: cs => c.toUpper :: cs := by
  cases w with
  | nil => rfl
  | cons c cs =>
    simp only [capital, List.cons.injEq, true_and]
    have : cs.map Char.toLower = cs.map id :=
      List.map_congr_left (fun d hd => toLower_of_not_upper (h d (by simp [hd])))
    simpa using this

theorem capital_digits {w : List Char} (h : DigitWord w) : capital w = w := by
  rw [capital_lower (fun c hc => digit_not_upper (h.2 c hc))]
  cases w with
  | nil => rfl
  | cons c cs =>
    have := digit_not_lower (h.2 c (by simp))
    simp [toUpper_of_not_lower this]

/-- What the capitalised words start with. -/
theorem pascal_head {ws : List (List Char)} (h : Plain ws) :
    ∀ c ∈ ((ws.map capital).flatten).head?,
      (c.isUpper = true ∧ ∃ w ∈ ws.head?, LetterWord w) ∨ (c.isDigit = true ∧ ∃ w ∈ ws.head?, DigitWord w) := by
  cases h with
  | nil => simp
  | @letters w ws hw _ =>
    obtain ⟨hne, hl⟩ := hw
    cases w with
    | nil => exact absurd rfl hne
    | cons c cs =>
      simp [capital]
      exact .inl ⟨toUpper_upper (hl c (by simp)), hne, hl⟩
  | @digits w ws hw _ _ =>
    have hc := capital_digits hw
    rw [List.map_cons, hc]
    obtain ⟨hne, hl⟩ := hw
    cases w with
    | nil => exact absurd rfl hne
    | cons c cs =>
      simp
      exact .inr ⟨hl c (by simp), hne, hl⟩

theorem letter_not_digit {w : List Char} (h : LetterWord w) (h' : DigitWord w) : False := by
  obtain ⟨hne, hl⟩ := h
  cases w with
  | nil => exact hne rfl
  | cons c cs =>
    have a := hl c (by simp)
    have b := h'.2 c (by simp)
    rw [lower_not_digit a] at b
    simp at b

theorem pascal_inj {ws vs : List (List Char)} (hw : Plain ws) (hv : Plain vs)
    (h : (ws.map capital).flatten = (vs.map capital).flatten) : ws = vs := by
  induction ws generalizing vs with
  | nil =>
    cases vs with
    | nil => rfl
    | cons v vs =>
      exfalso
      obtain ⟨hne, -⟩ := hv.head
      cases v with
      | nil => exact hne rfl
      | cons => simp [capital] at h
  | cons w ws ih =>
    cases vs with
    | nil =>
      exfalso
      obtain ⟨hne, -⟩ := hw.head
      cases w with
      | nil => exact hne rfl
      | cons => simp [capital] at h
    | cons v vs =>
      have tw := pascal_head hw.tail
      have tv := pascal_head hv.tail
      have hnl : ∀ {us : List (List Char)}, Plain us → ∀ c ∈ ((us.map capital).flatten).head?, ¬ c.isLower = true := by
        intro us hu c hc hcl
        rcases pascal_head hu c hc with ⟨h1, _⟩ | ⟨h1, _⟩
        · rw [lower_not_upper hcl] at h1; simp at h1
        · rw [lower_not_digit hcl] at h1; simp at h1
      have hnd : ∀ {us : List (List Char)}, Plain us → (∀ x ∈ us.head?, LetterWord x) →
          ∀ c ∈ ((us.map capital).flatten).head?, ¬ c.isDigit = true := by
        intro us hu hl c hc hcd
        rcases pascal_head hu c hc with ⟨h1, _⟩ | ⟨_, x, hx, hd⟩
        · rw [digit_not_upper hcd] at h1; simp at h1
        · exact letter_not_digit (hl x hx) hd
      rw [List.map_cons, List.map_cons, List.flatten_cons, List.flatten_cons] at h
      cases hw with
      | letters lw pw =>
        cases hv with
        | letters lv pv =>
          rw [capital_lower (fun c hc => lower_not_upper (lw.2 c hc)),
            capital_lower (fun c hc => lower_not_upper (lv.2 c hc))] at h
          obtain ⟨hne, hl⟩ := lw
          obtain ⟨hne', hl'⟩ := lv
          cases w with
          | nil => exact absurd rfl hne
          | cons c w =>
            cases v with
            | nil => exact absurd rfl hne'
            | cons d v =>
              simp only [List.cons_append, List.cons.injEq] at h
              have := append_inj_of_head (P := fun c => c.isLower = true) (fun c hc => hl c (by simp [hc]))
                (fun c hc => hl' c (by simp [hc])) (hnl pw) (hnl pv) h.2
              obtain ⟨rfl, h2⟩ := this
              rw [toUpper_inj (hl c (by simp)) (hl' d (by simp)) h.1, ih pw pv h2]
        | digits dv pv hn =>
          exfalso
          rw [capital_lower (fun c hc => lower_not_upper (lw.2 c hc)), capital_digits dv] at h
          obtain ⟨hne, hl⟩ := lw
          obtain ⟨hne', hl'⟩ := dv
          cases w with
          | nil => exact absurd rfl hne
          | cons c w =>
            cases v with
            | nil => exact absurd rfl hne'
            | cons d v =>
              simp only [List.cons_append, List.cons.injEq] at h
              have h1 := toUpper_upper (hl c (by simp))
              rw [h.1, digit_not_upper (hl' d (by simp))] at h1
              simp at h1
      | digits dw pw hn =>
        cases hv with
        | letters lv pv =>
          exfalso
          rw [capital_lower (fun c hc => lower_not_upper (lv.2 c hc)), capital_digits dw] at h
          obtain ⟨hne, hl⟩ := lv
          obtain ⟨hne', hl'⟩ := dw
          cases v with
          | nil => exact absurd rfl hne
          | cons c v =>
            cases w with
            | nil => exact absurd rfl hne'
            | cons d w =>
              simp only [List.cons_append, List.cons.injEq] at h
              have h1 := toUpper_upper (hl c (by simp))
              rw [← h.1, digit_not_upper (hl' d (by simp))] at h1
              simp at h1
        | digits dv pv hn' =>
          rw [capital_digits dw, capital_digits dv] at h
          have := append_inj_of_head (P := fun c => c.isDigit = true) dw.2 dv.2 (hnd pw hn) (hnd pv hn') h
          obtain ⟨rfl, h2⟩ := this
          rw [ih pw pv h2]

theorem pascal_head_ne {ws : List (List Char)} (h : Plain ws) :
    ((ws.map capital).flatten).head? ≠ some '_' := by
  intro he
  rcases pascal_head h '_' (by simpa using he) with ⟨h1, _⟩ | ⟨h1, _⟩ <;> revert h1 <;> decide

end Ident
end Verif
