import Verif.Model.Render
import Verif.Spec.Render
/-! Lemmas about the drawing of a configuration. -/
namespace Verif
namespace Render
open Config

/-- A piece of text inside a label that does not change the nesting. -/
def Bal (x : List Char) : Prop :=
  ∀ d rest, htmlEnd d (x ++ rest) = (htmlEnd d rest).map fun r => (x ++ r.1, r.2)

/-- What a piece of text shows. -/
def Out (x y : List Char) : Prop := ∀ rest, outside false (x ++ rest) = y ++ outside false rest

theorem Bal.nil : Bal [] := by
  intro d rest
  simp

theorem Bal.append {x y : List Char} (hx : Bal x) (hy : Bal y) : Bal (x ++ y) := by
  intro d rest
  rw [List.append_assoc, hx, hy, Option.map_map]
  congr 1
  funext r
  simp

theorem Bal.plain {x : List Char} (h : ∀ ch ∈ x, ch ≠ '<' ∧ ch ≠ '>') : Bal x := by
  induction x with
  | nil => exact Bal.nil
  | cons c x ih =>
    intro d rest
    have hc := h c (by simp)
    have := ih (fun ch hch => h ch (by simp [hch])) d rest
    rw [List.cons_append, htmlEnd.eq_def]
    simp only [if_neg hc.1, if_neg hc.2, this, Option.map_map]
    rfl

/-- A tag. -/
theorem Bal.tag {x : List Char} (h : ∀ ch ∈ x, ch ≠ '<' ∧ ch ≠ '>') : Bal ('<' :: (x ++ ['>'])) := by
  intro d rest
  have h1 : htmlEnd (d + 1) ('>' :: rest) = (htmlEnd d rest).map fun r => ('>' :: r.1, r.2) := by
    rw [htmlEnd.eq_def]
    simp only [if_neg (show ¬ '>' = '<' by decide), if_true]
  rw [List.cons_append, htmlEnd.eq_def]
  simp only [if_true]
  rw [List.append_assoc, Bal.plain h, List.singleton_append, h1]
  simp only [Option.map_map]
  congr 1
  funext r
  simp

theorem Out.nil : Out [] [] := by intro rest; rfl

theorem Out.append {x y a b : List Char} (hx : Out x a) (hy : Out y b) : Out (x ++ y) (a ++ b) := by
  intro rest
  rw [List.append_assoc, hx, hy, List.append_assoc]

theorem Out.plain {x : List Char} (h : ∀ ch ∈ x, ch ≠ '<') : Out x x := by
  induction x with
  | nil => exact Out.nil
  | cons c x ih =>
    intro rest
    rw [List.cons_append, outside, if_neg (h c (by simp)), ih (fun ch hch => h ch (by simp [hch])),
      List.cons_append]

theorem outside_true {x : List Char} (h : ∀ ch ∈ x, ch ≠ '>') (rest : List Char) :
    outside true (x ++ '>' :: rest) = outside false rest := by
  induction x with
  | nil => simp [outside]
  | cons c x ih =>
    rw [List.cons_append, outside, if_neg (h c (by simp)), ih (fun ch hch => h ch (by simp [hch]))]

theorem Out.tag {x : List Char} (h : ∀ ch ∈ x, ch ≠ '>') : Out ('<' :: (x ++ ['>'])) [] := by
  intro rest
  rw [List.cons_append, outside, if_pos rfl, List.append_assoc, List.singleton_append, outside_true h]
  rfl

/-- Both at once. -/
structure Piece (x y : List Char) : Prop where
  bal : Bal x
  out : Out x y

theorem Piece.nil : Piece [] [] := ⟨Bal.nil, Out.nil⟩

theorem Piece.append {x y a b : List Char} (hx : Piece x a) (hy : Piece y b) : Piece (x ++ y) (a ++ b) :=
  ⟨hx.bal.append hy.bal, hx.out.append hy.out⟩

theorem Piece.plain {x : List Char} (h : ∀ ch ∈ x, ch ≠ '<' ∧ ch ≠ '>') : Piece x x :=
  ⟨Bal.plain h, Out.plain (fun ch hch => (h ch hch).1)⟩

theorem Piece.tag {x : List Char} (h : ∀ ch ∈ x, ch ≠ '<' ∧ ch ≠ '>') : Piece ('<' :: (x ++ ['>'])) [] :=
  ⟨Bal.tag h, Out.tag (fun ch hch => (h ch hch).2)⟩

/-- The pieces of a literal: texts and tags alternating. -/
inductive Lit : List Char → List Char → Prop
  | nil : Lit [] []
  | plain {c : Char} {x y : List Char} (h1 : c ≠ '<') (h2 : c ≠ '>') (h : Lit x y) : Lit (c :: x) (c :: y)
  | tag {t x y : List Char} (ht : ∀ ch ∈ t, ch ≠ '<' ∧ ch ≠ '>') (h : Lit x y) : Lit ('<' :: (t ++ '>' :: x)) y

theorem Lit.piece {x y : List Char} (h : Lit x y) : Piece x y := by
  induction h with
  | nil => exact Piece.nil
  | @plain c x y h1 h2 _ ih => exact (Piece.plain (x := [c]) (by simp [h1, h2])).append ih
  | @tag t x y ht _ ih =>
    have := (Piece.tag ht).append ih
    simpa using this

/-- A check that a literal has the given text. -/
def litGo : Bool → List Char → List Char → Bool
  | false, [], [] => true
  | false, c :: x, y =>
    if c = '<' then litGo true x y
    else if c = '>' then false
    else match y with
      | [] => false
      | d :: y => c == d && litGo false x y
  | true, c :: x, y => if c = '>' then litGo false x y else if c = '<' then false else litGo true x y
  | _, _, _ => false

theorem litGo_sound {x y : List Char} : (litGo false x y = true → Lit x y) ∧
    (litGo true x y = true → ∃ t x', x = t ++ '>' :: x' ∧ (∀ ch ∈ t, ch ≠ '<' ∧ ch ≠ '>') ∧ Lit x' y) := by
  induction x generalizing y with
  | nil =>
    refine ⟨?_, ?_⟩
    · intro h
      cases y with
      | nil => exact .nil
      | cons _ _ => simp [litGo] at h
    · intro h; simp [litGo] at h
  | cons c x ih =>
    refine ⟨?_, ?_⟩
    · intro h
      unfold litGo at h
      split at h
      · rename_i hc
        obtain ⟨t, x', rfl, h1, h2⟩ := ih.2 h
        rw [hc]
        exact .tag h1 h2
      · rename_i hc
        split at h
        · cases h
        · rename_i hc'
          cases y with
          | nil => simp at h
          | cons d y =>
            simp only [Bool.and_eq_true, beq_iff_eq] at h
            rw [← h.1]
            exact .plain hc hc' (ih.1 h.2)
    · intro h
      unfold litGo at h
      split at h
      · rename_i hc
        exact ⟨[], x, by rw [hc]; rfl, by simp, ih.1 h⟩
      · rename_i hc
        split at h
        · cases h
        · rename_i hc'
          obtain ⟨t, x', rfl, h1, h2⟩ := ih.2 h
          refine ⟨c :: t, x', rfl, ?_, h2⟩
          intro ch hch
          rcases List.mem_cons.1 hch with rfl | hch
          · exact ⟨hc', hc⟩
          · exact h1 ch hch

theorem piece_lit {x y : List Char} (h : litGo false x y = true) : Piece x y := (litGo_sound.1 h).piece

theorem unescape_plain {x : List Char} (h : ∀ ch ∈ x, ch ≠ '&') : unescape x = x := by
  induction x with
  | nil => rfl
  | cons c x ih =>
    have hc := h c (by simp)
    have ih' := ih (fun ch hch => h ch (by simp [hch]))
    unfold unescape
    split <;> simp_all

theorem unescape_cons {c : Char} (hc : c ≠ '&') (x : List Char) : unescape (c :: x) = c :: unescape x := by
  conv => lhs; unfold unescape
  split <;> simp_all

theorem unescape_encode (m rest : List Char) : unescape (encodeText m ++ rest) = m ++ unescape rest := by
  induction m with
  | nil => rfl
  | cons c m ih =>
    rw [encodeText]
    split
    · rename_i h; subst h
      show unescape ('&' :: 'a' :: 'm' :: 'p' :: ';' :: (encodeText m ++ rest)) = _
      rw [unescape, ih]; rfl
    · split
      · rename_i h; subst h
        show unescape ('&' :: 'l' :: 't' :: ';' :: (encodeText m ++ rest)) = _
        rw [unescape, ih]; rfl
      · split
        · rename_i h; subst h
          show unescape ('&' :: 'g' :: 't' :: ';' :: (encodeText m ++ rest)) = _
          rw [unescape, ih]; rfl
        · rename_i h _ _
          show unescape (c :: (encodeText m ++ rest)) = _
          rw [unescape_cons h, ih]; rfl

theorem encode_plain (m : List Char) : ∀ ch ∈ encodeText m, ch ≠ '<' ∧ ch ≠ '>' := by
  induction m with
  | nil => simp [encodeText]
  | cons c m ih =>
    intro ch h
    rw [encodeText, List.mem_append] at h
    rcases h with h | h
    · split at h
      · revert ch; decide
      · split at h
        · revert ch; decide
        · split at h
          · revert ch; decide
          · rename_i h2 h3
            simp only [List.mem_singleton] at h
            subst h
            exact ⟨h2, h3⟩
    · exact ih ch h

theorem lit_append (p s : List Char) : lit p (p ++ s) = some s := by
  induction p with
  | nil => rfl
  | cons c p ih => simp [lit, ih]

theorem takeWhile_append_stop {p : Char → Bool} {x rest : List Char} {c : Char} (h : ∀ ch ∈ x, p ch = true)
    (hc : p c = false) : (x ++ c :: rest).takeWhile p = x ∧ (x ++ c :: rest).dropWhile p = c :: rest := by
  induction x with
  | nil => simp [List.takeWhile_cons, List.dropWhile_cons, hc]
  | cons a x ih =>
    have ha := h a (by simp)
    have := ih (fun ch hch => h ch (by simp [hch]))
    simp [List.takeWhile_cons, List.dropWhile_cons, ha, this]

theorem number_digits (i : Nat) {c : Char} (hc : c.isDigit = false) (rest : List Char) :
    number (Nat.toDigits 10 i ++ c :: rest) = (i, c :: rest) := by
  have := takeWhile_append_stop (p := Char.isDigit) (x := Nat.toDigits 10 i) (rest := rest)
    (fun ch hch => Nat.isDigit_of_mem_toDigits (by decide) (by decide) hch) hc
  simp [number, this.1, this.2, Nat.ofDigitChars_ten_toDigits]

/-- A label made of pieces. -/
theorem label_piece {x y : List Char} (h : Piece x y) (rest : List Char) :
    label ('<' :: (x ++ '>' :: rest)) = some (unescape y, rest) := by
  have h1 : htmlEnd 0 (x ++ '>' :: rest) = some (x, rest) := by
    rw [h.bal]
    simp [htmlEnd]
  have h2 : outside false x = y := by
    have := h.out []
    simpa [outside] using this
  simp [label, h1, h2]

theorem params_piece (c : List (String × String)) (hc : ∀ e ∈ c, Plain e.1 ∧ Plain e.2) :
    Piece (joinLines (c.map fun e =>
        "<B>".toList ++ e.1.toList ++ "</B> = ".toList ++ e.2.toList ++ "<BR ALIGN=\"LEFT\"/>".toList))
      (paramLines c) := by
  have one : ∀ e : String × String, Plain e.1 ∧ Plain e.2 →
      Piece ("<B>".toList ++ e.1.toList ++ "</B> = ".toList ++ e.2.toList ++ "<BR ALIGN=\"LEFT\"/>".toList)
        (e.1.toList ++ " = ".toList ++ e.2.toList) := by
    intro e he
    have h1 : Piece e.1.toList e.1.toList := Piece.plain (fun ch h => ⟨(he.1 ch h).1, (he.1 ch h).2.1⟩)
    have h2 : Piece e.2.toList e.2.toList := Piece.plain (fun ch h => ⟨(he.2 ch h).1, (he.2 ch h).2.1⟩)
    have := ((((piece_lit (x := "<B>".toList) (y := []) (by decide)).append h1).append
      (piece_lit (x := "</B> = ".toList) (y := " = ".toList) (by decide))).append h2).append
      (piece_lit (x := "<BR ALIGN=\"LEFT\"/>".toList) (y := []) (by decide))
    simpa only [List.append_nil, List.nil_append] using this
  induction c with
  | nil => exact Piece.nil
  | cons e c ih =>
    have he := one e (hc e (by simp))
    have ih' := ih (fun x hx => hc x (by simp [hx]))
    cases c with
    | nil => simpa [joinLines, paramLines] using he
    | cons f c =>
      have := (he.append (piece_lit (x := "\n".toList) (y := "\n".toList) (by decide))).append ih'
      exact this

theorem config_piece (o : Option Shown) (h : ∀ c, o = some c → ∀ e ∈ c, Plain e.1 ∧ Plain e.2) :
    Piece (configText o) (paramText o) := by
  cases o with
  | none => exact Piece.nil
  | some c =>
    exact (piece_lit (x := "____________<BR/><BR ALIGN=\"LEFT\"/>".toList) (y := "____________".toList)
      (by decide)).append (params_piece c (h c rfl))

theorem plain_params {c : List (String × String)} (hc : ∀ e ∈ c, Plain e.1 ∧ Plain e.2) :
    ∀ ch ∈ paramLines c, ch ≠ '&' := by
  have one : ∀ e : String × String, Plain e.1 ∧ Plain e.2 →
      ∀ ch ∈ e.1.toList ++ " = ".toList ++ e.2.toList, ch ≠ '&' := by
    intro e he ch h
    simp only [List.mem_append] at h
    rcases h with (h | h) | h
    · exact (he.1 ch h).2.2
    · revert ch; decide
    · exact (he.2 ch h).2.2
  induction c with
  | nil => simp [paramLines]
  | cons e c ih =>
    have he := one e (hc e (by simp))
    cases c with
    | nil => exact he
    | cons f c =>
      intro ch h
      simp only [paramLines] at h
      rw [List.mem_append, List.mem_append] at h
      rcases h with (h | h) | h
      · exact he ch h
      · revert ch; decide
      · exact ih (fun x hx => hc x (by simp [hx])) ch h

theorem taskText_amp {id t : String} {o : Option (List (String × String))} (h1 : Plain id) (h2 : Plain t)
    (h3 : ∀ c, o = some c → ∀ e ∈ c, Plain e.1 ∧ Plain e.2) : ∀ ch ∈ taskText id t o, ch ≠ '&' := by
  intro ch h
  simp only [taskText, List.mem_append] at h
  rcases h with (((((h | h) | h) | h) | h) | h) | h
  · revert ch; decide
  · exact (h1 ch h).2.2
  · revert ch; decide
  · exact (h2 ch h).2.2
  · revert ch; decide
  · cases o with
    | none => exact absurd (show ch ∈ [] from h) List.not_mem_nil
    | some c =>
      rw [show paramText (some c) = "____________".toList ++ paramLines c from rfl, List.mem_append] at h
      rcases h with h | h
      · revert ch; decide
      · exact plain_params (h3 c rfl) ch h
  · revert ch; decide

theorem colour_ok (c : CuConfig Shown) (i : Nat) : IsColour c i (colourOf c i) ∧
    ∀ ch ∈ colourOf c i, (ch != ',') = true := by
  unfold colourOf noInput noOutput
  split
  · rename_i h
    refine ⟨.inl ⟨?_, rfl⟩, by decide⟩
    intro e he hd
    rw [List.isEmpty_iff, List.filter_eq_nil_iff] at h
    exact h e he (by simpa using hd)
  · rename_i h
    have h1 : ∃ e ∈ c.edges, e.dst = i := by
      rw [List.isEmpty_iff, List.filter_eq_nil_iff] at h
      simpa using h
    split
    · rename_i h2
      refine ⟨.inr (.inl ⟨h1, ?_, rfl⟩), by decide⟩
      intro e he hd
      rw [List.isEmpty_iff, List.filter_eq_nil_iff] at h2
      exact h2 e he (by simpa using hd)
    · rename_i h2
      refine ⟨.inr (.inr ⟨h1, ?_, rfl⟩), by decide⟩
      rw [List.isEmpty_iff, List.filter_eq_nil_iff] at h2
      simpa using h2

theorem read_node {c : CuConfig Shown} {i : Nat} {n : Node Shown} {t : String} (ht : n.type_ = some t)
    (hp : PlainNode n) (rest : List Char) : ∃ s, nodeText c i n = .ok s ∧
      ∃ c0 s0, s = Nat.toDigits 10 i ++ c0 :: s0 ∧ c0.isDigit = false ∧
      readBox i (c0 :: s0 ++ rest) = some (.box i (colourOf c i) (taskText n.id t n.config), rest) := by
  have e0 : ∀ x : List Char, " [\nshape=box,\nstyle=\"rounded, filled\",\nfontname=\"Noto Sans\"\n".toList ++ x =
      ' ' :: ("[\nshape=box,\nstyle=\"rounded, filled\",\nfontname=\"Noto Sans\"\n".toList ++ x) := fun x => rfl
  have e1 : ∀ x : List Char, ' ' :: ("[\nshape=box,\nstyle=\"rounded, filled\",\nfontname=\"Noto Sans\"\n".toList ++
      ("fillcolor=".toList ++ x)) =
      " [\nshape=box,\nstyle=\"rounded, filled\",\nfontname=\"Noto Sans\"\nfillcolor=".toList ++ x := fun x => rfl
  have e2 : ∀ x : List Char, ",\ncolor=grey,\nlabeljust=l,\n".toList ++
      ("label=< <FONT COLOR=\"red\"><B>".toList ++ x) =
      ',' :: ("\ncolor=grey,\nlabeljust=l,\nlabel=".toList ++ '<' :: (" <FONT COLOR=\"red\"><B>".toList ++ x)) := fun x => rfl
  have e3 : ∀ x : List Char, " >\n];\n".toList ++ x = " ".toList ++ '>' :: ("\n];\n".toList ++ x) := fun x => rfl
  refine ⟨_, by rw [nodeText, ht], ' ',
    ("[\nshape=box,\nstyle=\"rounded, filled\",\nfontname=\"Noto Sans\"\n".toList ++
      "fillcolor=".toList ++ colourOf c i ++ ",\ncolor=grey,\nlabeljust=l,\n".toList ++
      "label=< <FONT COLOR=\"red\"><B>".toList ++ n.id.toList ++
      "</B></FONT> <FONT COLOR=\"dimgray\">[".toList ++ t.toList ++
      "]</FONT><BR ALIGN=\"LEFT\"/>".toList ++ configText n.config ++ " >\n];\n".toList), ?_, by decide, ?_⟩
  · simp only [List.append_assoc, List.cons_append, e0]
  · have hlit1 : ∀ x : List Char, lit " [\nshape=box,\nstyle=\"rounded, filled\",\nfontname=\"Noto Sans\"\nfillcolor=".toList
        (" [\nshape=box,\nstyle=\"rounded, filled\",\nfontname=\"Noto Sans\"\nfillcolor=".toList ++ x) = some x :=
      lit_append _
    have hid : Piece n.id.toList n.id.toList := Piece.plain (fun ch h => ⟨(hp.1 ch h).1, (hp.1 ch h).2.1⟩)
    have htp := hp.2.1 t ht
    have hty : Piece t.toList t.toList := Piece.plain (fun ch h => ⟨(htp ch h).1, (htp ch h).2.1⟩)
    have hpiece := ((((((piece_lit (x := " <FONT COLOR=\"red\"><B>".toList) (y := " ".toList) (by decide)).append hid).append
      (piece_lit (x := "</B></FONT> <FONT COLOR=\"dimgray\">[".toList) (y := " [".toList) (by decide))).append hty).append
      (piece_lit (x := "]</FONT><BR ALIGN=\"LEFT\"/>".toList) (y := "]".toList) (by decide))).append
      (config_piece n.config hp.2.2)).append (piece_lit (x := " ".toList) (y := " ".toList) (by decide))
    have hlab := label_piece hpiece ("\n];\n".toList ++ rest)
    have hamp : unescape (taskText n.id t n.config) = taskText n.id t n.config :=
      unescape_plain (taskText_amp hp.1 htp hp.2.2)
    change _ = some (unescape (taskText n.id t n.config), _) at hlab
    rw [hamp] at hlab
    have hcol := takeWhile_append_stop (p := (· != ',')) (x := colourOf c i) (c := ',')
      (rest := "\ncolor=grey,\nlabeljust=l,\nlabel=".toList ++ ('<' :: ((" <FONT COLOR=\"red\"><B>".toList ++ n.id.toList ++ "</B></FONT> <FONT COLOR=\"dimgray\">[".toList ++
          t.toList ++ "]</FONT><BR ALIGN=\"LEFT\"/>".toList ++ configText n.config ++ " ".toList) ++
          '>' :: ("\n];\n".toList ++ rest))))
      (colour_ok c i).2 (by decide)
    have htext : (' ' :: ("[\nshape=box,\nstyle=\"rounded, filled\",\nfontname=\"Noto Sans\"\n".toList ++
      "fillcolor=".toList ++ colourOf c i ++ ",\ncolor=grey,\nlabeljust=l,\n".toList ++
      "label=< <FONT COLOR=\"red\"><B>".toList ++ n.id.toList ++
      "</B></FONT> <FONT COLOR=\"dimgray\">[".toList ++ t.toList ++
      "]</FONT><BR ALIGN=\"LEFT\"/>".toList ++ configText n.config ++ " >\n];\n".toList) ++ rest) =
      " [\nshape=box,\nstyle=\"rounded, filled\",\nfontname=\"Noto Sans\"\nfillcolor=".toList ++
        (colourOf c i ++ ',' :: ("\ncolor=grey,\nlabeljust=l,\nlabel=".toList ++ ('<' :: ((" <FONT COLOR=\"red\"><B>".toList ++ n.id.toList ++ "</B></FONT> <FONT COLOR=\"dimgray\">[".toList ++
          t.toList ++ "]</FONT><BR ALIGN=\"LEFT\"/>".toList ++ configText n.config ++ " ".toList) ++
          '>' :: ("\n];\n".toList ++ rest))))) := by
      simp only [List.append_assoc, List.cons_append]
      rw [e1, e2, e3]
    rw [htext]
    unfold readBox
    rw [hlit1]
    simp only [Option.bind_eq_bind, Option.bind_some]
    rw [hcol.1, hcol.2]
    have hlit2 := lit_append ",\ncolor=grey,\nlabeljust=l,\nlabel=".toList ('<' :: ((" <FONT COLOR=\"red\"><B>".toList ++ n.id.toList ++ "</B></FONT> <FONT COLOR=\"dimgray\">[".toList ++
          t.toList ++ "]</FONT><BR ALIGN=\"LEFT\"/>".toList ++ configText n.config ++ " ".toList) ++
          '>' :: ("\n];\n".toList ++ rest)))
    have hsame : ∀ x : List Char, ',' :: ("\ncolor=grey,\nlabeljust=l,\nlabel=".toList ++ x) =
        ",\ncolor=grey,\nlabeljust=l,\nlabel=".toList ++ x := fun x => rfl
    rw [hsame, hlit2]
    simp only [Option.bind_some]
    rw [hlab]
    simp only [Option.bind_some]
    rw [lit_append]
    rfl

theorem read_edge (e : Edge) (rest : List Char) :
    ∃ c0 s0, edgeText e = Nat.toDigits 10 e.src ++ c0 :: s0 ∧ c0.isDigit = false ∧
      readBox e.src (c0 :: s0 ++ rest) = none ∧
      readArrow e.src (c0 :: s0 ++ rest) =
        some (.arrow e.src e.dst (" ".toList ++ e.cnx.msg.toList ++ " ".toList), rest) := by
  have htext : (' ' :: ("-> ".toList ++ Nat.toDigits 10 e.dst ++
    " [label=< <B><FONT COLOR=\"gray\">".toList ++ encodeText e.cnx.msg.toList ++
    "</FONT></B> >];\n".toList) ++ rest) = " -> ".toList ++ (Nat.toDigits 10 e.dst ++ ' ' ::
      ("[label=".toList ++ ('<' :: ((" <B><FONT COLOR=\"gray\">".toList ++ encodeText e.cnx.msg.toList ++
        "</FONT></B> ".toList) ++ '>' :: ("];\n".toList ++ rest))))) := by
    simp
  refine ⟨' ', ("-> ".toList ++ Nat.toDigits 10 e.dst ++
    " [label=< <B><FONT COLOR=\"gray\">".toList ++ encodeText e.cnx.msg.toList ++
    "</FONT></B> >];\n".toList), ?_, by decide, ?_, ?_⟩
  · simp [edgeText]
  · rw [htext]
    unfold readBox
    have : ∀ x : List Char, lit " [\nshape=box,\nstyle=\"rounded, filled\",\nfontname=\"Noto Sans\"\nfillcolor=".toList
        (" -> ".toList ++ x) = none := by intro x; rfl
    rw [this]
    rfl
  · rw [htext]
    unfold readArrow
    rw [lit_append]
    simp only [Option.bind_eq_bind, Option.bind_some]
    rw [number_digits _ (by decide)]
    simp only
    have hsame : ∀ x : List Char, ' ' :: ("[label=".toList ++ x) = " [label=".toList ++ x := by intro x; simp
    rw [hsame, lit_append]
    simp only [Option.bind_some]
    have hpiece := ((piece_lit (x := " <B><FONT COLOR=\"gray\">".toList) (y := " ".toList) (by decide)).append
      (Piece.plain (encode_plain e.cnx.msg.toList))).append
      (piece_lit (x := "</FONT></B> ".toList) (y := " ".toList) (by decide))
    rw [label_piece hpiece]
    simp only [Option.bind_some]
    rw [lit_append]
    have hu : unescape (" ".toList ++ encodeText e.cnx.msg.toList ++ " ".toList) =
        " ".toList ++ e.cnx.msg.toList ++ " ".toList := by
      show unescape (' ' :: (encodeText e.cnx.msg.toList ++ " ".toList)) = _
      rw [unescape_cons (by decide), unescape_encode]
      rfl
    rw [hu]
    rfl

theorem digit_start (i : Nat) (c0 : Char) (s0 : List Char) :
    Nat.toDigits 10 i ++ c0 :: s0 ≠ "}\n".toList := by
  intro h
  cases hd : Nat.toDigits 10 i with
  | nil => exact Nat.toDigits_ne_nil hd
  | cons c cs =>
    rw [hd] at h
    have hc : c.isDigit = true := Nat.isDigit_of_mem_toDigits (b := 10) (n := i) (by decide) (by decide) (by rw [hd]; simp)
    have : c = '}' := by
      have := congrArg List.head? h
      simpa using this
    subst this
    exact absurd hc (by decide)

/-- Reading one item at the front. -/
theorem readItems_cons {k : Nat} {i : Nat} {c0 : Char} {s0 rest : List Char} (hc : c0.isDigit = false) {it : Item}
    (h : (readBox i (c0 :: s0 ++ rest)).or (readArrow i (c0 :: s0 ++ rest)) = some (it, rest)) :
    readItems (k + 1) ((Nat.toDigits 10 i ++ c0 :: s0) ++ rest) = (readItems k rest).map (it :: ·) := by
  rw [readItems.eq_def]
  have hne : (Nat.toDigits 10 i ++ c0 :: s0) ++ rest ≠ "}\n".toList := by
    rw [List.append_assoc, List.cons_append]
    exact digit_start i c0 _
  simp only [if_neg hne]
  rw [List.append_assoc, List.cons_append, number_digits _ hc]
  simp only
  rw [← List.cons_append, h]

theorem readItems_end (k : Nat) : readItems k "}\n".toList = some [] := by
  rw [readItems.eq_def]; simp

theorem read_edges (es : List Edge) {k : Nat} (hk : es.length ≤ k) :
    ∃ arrows, readItems k ((es.map edgeText).flatten ++ "}\n".toList) = some arrows ∧
      Pointwise IsArrow es arrows := by
  induction es generalizing k with
  | nil => exact ⟨[], readItems_end k, .nil⟩
  | cons e es ih =>
    obtain ⟨j, rfl⟩ : ∃ j, k = j + 1 := ⟨k - 1, by simp at hk; omega⟩
    obtain ⟨arrows, h1, h2⟩ := ih (k := j) (by simp at hk; omega)
    obtain ⟨c0, s0, h3, h4, h5, h6⟩ := read_edge e ((es.map edgeText).flatten ++ "}\n".toList)
    refine ⟨.arrow e.src e.dst (" ".toList ++ e.cnx.msg.toList ++ " ".toList) :: arrows, ?_,
      .cons ⟨rfl, rfl, rfl⟩ h2⟩
    rw [List.map_cons, List.flatten_cons, List.append_assoc, h3,
      readItems_cons h4 (it := .arrow e.src e.dst (" ".toList ++ e.cnx.msg.toList ++ " ".toList)) (by rw [h5, h6]; rfl), h1]
    rfl

theorem read_nodes {c : CuConfig Shown} (ns : List (Node Shown)) (hp : ∀ n ∈ ns, PlainNode n)
    (ht : ∀ n ∈ ns, n.type_ ≠ none) {i k : Nat} (hk : ns.length + c.edges.length ≤ k) :
    ∃ s items boxes arrows, nodesText c i ns = .ok s ∧
      readItems k (s ++ ((c.edges.map edgeText).flatten ++ "}\n".toList)) = some items ∧
      items = boxes ++ arrows ∧ Pointwise (fun n b => IsBox c n.2 n.1 b) (ns.zipIdx i) boxes ∧
      Pointwise IsArrow c.edges arrows ∧ ns.length ≤ s.length := by
  induction ns generalizing i k with
  | nil =>
    obtain ⟨arrows, h1, h2⟩ := read_edges c.edges (k := k) (by simpa using hk)
    exact ⟨[], arrows, [], arrows, rfl, h1, rfl, .nil, h2, by simp⟩
  | cons n ns ih =>
    obtain ⟨j, rfl⟩ : ∃ j, k = j + 1 := ⟨k - 1, by simp at hk; omega⟩
    obtain ⟨s, items, boxes, arrows, h1, h2, h3, h4, h5, h6⟩ := ih (fun n h => hp n (by simp [h]))
      (fun n h => ht n (by simp [h])) (i := i + 1) (k := j) (by simp at hk; omega)
    obtain ⟨t, hty⟩ := Option.ne_none_iff_exists'.1 (ht n (by simp))
    obtain ⟨s', h7, c0, s0, h8, h9, h10⟩ := read_node (c := c) (i := i) hty (hp n (by simp))
      (s ++ ((c.edges.map edgeText).flatten ++ "}\n".toList))
    refine ⟨s' ++ s, .box i (colourOf c i) (taskText n.id t n.config) :: items, 
      .box i (colourOf c i) (taskText n.id t n.config) :: boxes, arrows, ?_, ?_, by rw [h3]; rfl, ?_, h5, ?_⟩
    · simp [nodesText, h7, h1]
    · rw [List.append_assoc, h8, readItems_cons h9
        (it := .box i (colourOf c i) (taskText n.id t n.config)) (by rw [h10]; rfl), h2]
      rfl
    · rw [List.zipIdx_cons]
      exact .cons ⟨rfl, (colour_ok c i).1, t, hty, rfl⟩ h4
    · rw [h8]
      simp
      omega

theorem edges_length (es : List Edge) : es.length ≤ (es.map edgeText).flatten.length := by
  induction es with
  | nil => simp
  | cons e es ih =>
    rw [List.map_cons, List.flatten_cons, List.length_append, List.length_cons]
    have : 0 < (edgeText e).length := by simp [edgeText]; omega
    omega

end Render
end Verif
