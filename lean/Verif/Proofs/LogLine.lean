import Verif.Model.Export
import Verif.Spec.LogLine
import Verif.Proofs.ValueCodec
/-! Log entries: round trip, streams, rebuilding of lines. -/
namespace Verif
open Bincode

theorem rt_entry {e : LogEntry} (h : e.Legal) : RoundTrips e := by
  intro rest
  show LogEntry.decode (LogEntry.encode e ++ rest) = _
  unfold LogEntry.decode LogEntry.encode
  simp only [List.append_assoc]
  rw [Dec.bind_ok (rt_u64 _ _), Dec.bind_ok (rt_u32 _ _), Dec.bind_ok (decVar_encVar8 _ h.names _),
    Dec.bind_ok (decN_encAll _ (fun a _ => rt_u32 a) _),
    Dec.bind_ok (decVar_encVar8 _ h.params _),
    Dec.bind_ok (decN_encAll _ (fun v hv => Value.rt_value (h.values v hv)) _)]
  rfl

/-! ### Streams -/

theorem decodeStream_encAll {α : Type} [Codec α] {l : List α} (h : ∀ a ∈ l, RoundTrips a)
    (tail : Bytes) {e : DecodeError} (he : (dec : Dec α) tail = .error e) {fuel : Nat}
    (hf : l.length < fuel) : decodeStream (dec : Dec α) fuel (encAll l ++ tail) = (l, e) := by
  induction l generalizing fuel with
  | nil =>
    obtain ⟨f, rfl⟩ : ∃ f, fuel = f + 1 := ⟨fuel - 1, by simp at hf; omega⟩
    simp [decodeStream, encAll, he]
  | cons a l ih =>
    obtain ⟨f, rfl⟩ : ∃ f, fuel = f + 1 := ⟨fuel - 1, by simp at hf; omega⟩
    simp only [decodeStream, encAll, List.append_assoc]
    rw [h a (by simp) _]
    simp only
    rw [ih (fun b hb => h b (by simp [hb])) (by simp at hf; omega)]

theorem encAll_length_ge {α : Type} [Codec α] {l : List α} (h : ∀ a ∈ l, 0 < (enc a).length) :
    l.length ≤ (encAll l).length := by
  induction l with
  | nil => simp
  | cons a l ih =>
    have h1 := h a (by simp)
    have h2 := ih (fun b hb => h b (by simp [hb]))
    simp only [encAll, List.length_cons, List.length_append]
    omega

theorem entry_pos (e : LogEntry) : 0 < (enc e).length := by
  show 0 < (LogEntry.encode e).length
  unfold LogEntry.encode
  have : 0 < (enc e.time).length := encVar_length_pos _
  simp only [List.length_append]
  omega

theorem entry_end : (dec : Dec LogEntry) [] = .error .unexpectedEnd := rfl

/-! ### Filling holes -/

theorem replaceFirst_text {p t r : Text} (h : '{' ∉ t) :
    replaceFirst p (t ++ r) = t ++ replaceFirst p r := by
  induction t with
  | nil => rfl
  | cons c t ih =>
    simp only [List.mem_cons, not_or] at h
    rw [List.cons_append, replaceFirst, ih h.2, List.cons_append]
    intro r' hc _
    exact h.1 hc.symm

theorem replaceFirst_hole (p r : Text) : replaceFirst p ('{' :: '}' :: r) = p ++ r := by
  rw [replaceFirst]

/-- A brace that does not begin a hole. -/
theorem replaceFirst_cons {p r : Text} {c : Char} (h : ∀ r', c = '{' → r = '}' :: r' → False) :
    replaceFirst p (c :: r) = c :: replaceFirst p r := by
  rw [replaceFirst]
  exact h

theorem fillHoles_nil (t : Text) : fillHoles t [] = t := by
  rw [fillHoles]

theorem fillHoles_cons {r p : Text} {c : Char} {ps : List Text}
    (h : ∀ r', c = '{' → r = '}' :: r' → False) :
    fillHoles (c :: r) (p :: ps) = c :: fillHoles r (p :: ps) := by
  rw [fillHoles]
  exact h

theorem fillHoles_text {t r : Text} {ps : List Text} (h : '{' ∉ t) :
    fillHoles (t ++ r) ps = t ++ fillHoles r ps := by
  cases ps with
  | nil => simp [fillHoles_nil]
  | cons p ps =>
    induction t with
    | nil => rfl
    | cons c t ih =>
      simp only [List.mem_cons, not_or] at h
      rw [List.cons_append, fillHoles_cons (fun _ hc _ => h.1 hc.symm), ih h.2, List.cons_append]

theorem Shut.of_not_mem {t : Text} (h : '{' ∉ t) : Shut t := by
  induction t with
  | nil => trivial
  | cons c t ih =>
    simp only [List.mem_cons, not_or] at h
    exact ⟨fun hc => absurd hc.symm h.1, ih h.2⟩

theorem Shut.append {t u : Text} (h : Shut t) (k : Shut u) : Shut (t ++ u) := by
  induction t with
  | nil => exact k
  | cons c t ih =>
    refine ⟨fun hc => ?_, ih h.2⟩
    obtain ⟨d, r, rfl, hd⟩ := h.1 hc
    exact ⟨d, r ++ u, rfl, hd⟩

theorem fillHoles_shut {t r : Text} {ps : List Text} (h : Shut t) :
    fillHoles (t ++ r) ps = t ++ fillHoles r ps := by
  cases ps with
  | nil => simp [fillHoles_nil]
  | cons p ps =>
    induction t with
    | nil => rfl
    | cons c t ih =>
      rw [List.cons_append, fillHoles_cons, ih h.2, List.cons_append]
      intro r' hc he
      obtain ⟨d, u, rfl, hd⟩ := h.1 hc
      exact hd (List.cons.inj he).1

theorem fillHoles_skip {r : Text} {c : Char} {ps : List Text}
    (h : ∀ r', c = '{' → r = '}' :: r' → False) : fillHoles (c :: r) ps = c :: fillHoles r ps := by
  cases ps with
  | nil => simp [fillHoles_nil]
  | cons p ps => exact fillHoles_cons h

/-- A text that cannot form a hole with what is around it. -/
structure Harmless (p : Text) : Prop where
  open_brace : Shut p
  not_empty : p ≠ []
  start : p.head? ≠ some '}'

theorem replaceFirst_head {p : Text} (hp : Harmless p) {r r' : Text}
    (h : replaceFirst p r = '}' :: r') : ∃ r'', r = '}' :: r'' := by
  cases r with
  | nil => simp [replaceFirst] at h
  | cons c r =>
    by_cases hh : ∃ r', c = '{' ∧ r = '}' :: r'
    · obtain ⟨r', rfl, rfl⟩ := hh
      rw [replaceFirst_hole] at h
      have hs := hp.start
      cases p with
      | nil => exact absurd rfl hp.not_empty
      | cons d p =>
        simp only [List.cons_append, List.cons.injEq] at h
        simp [h.1] at hs
    · rw [replaceFirst_cons (fun r' h1 h2 => hh ⟨r', h1, h2⟩)] at h
      simp only [List.cons.injEq] at h
      exact ⟨r, by rw [h.1]⟩

theorem fillHoles_replaceFirst {p : Text} (hp : Harmless p) (ps : List Text) :
    ∀ (n : Nat) (fmt : Text), fmt.length ≤ n →
      fillHoles (replaceFirst p fmt) ps = fillHoles fmt (p :: ps) := by
  intro n
  induction n with
  | zero =>
    intro fmt hn
    have : fmt = [] := List.length_eq_zero_iff.1 (by omega)
    subst this
    cases ps <;> simp [replaceFirst, fillHoles]
  | succ n ih =>
    intro fmt hn
    cases fmt with
    | nil => cases ps <;> simp [replaceFirst, fillHoles]
    | cons c r =>
      by_cases hh : ∃ r', c = '{' ∧ r = '}' :: r'
      · obtain ⟨r', rfl, rfl⟩ := hh
        rw [replaceFirst_hole, fillHoles_shut hp.open_brace, fillHoles]
      · have h1 : ∀ r', c = '{' → r = '}' :: r' → False := fun r' h1 h2 => hh ⟨r', h1, h2⟩
        rw [replaceFirst_cons h1, fillHoles_cons h1, ← ih r (by simp at hn; omega)]
        apply fillHoles_skip
        intro r' hc he
        obtain ⟨r'', e⟩ := replaceFirst_head hp he
        exact h1 r'' hc e

theorem foldl_replaceFirst {ps : List Text} (hps : ∀ p ∈ ps, Harmless p) (fmt : Text) :
    ps.foldl (fun f p => replaceFirst p f) fmt = fillHoles fmt ps := by
  induction ps generalizing fmt with
  | nil => simp [fillHoles_nil]
  | cons p ps ih =>
    rw [List.foldl_cons, ih (fun q hq => hps q (by simp [hq])),
      fillHoles_replaceFirst (hps p (by simp)) ps _ fmt (Nat.le_refl _)]

/-! ### Format strings in pieces -/

/-- Put a text in the first hole. -/
def plug (p : Text) : List Piece → List Piece
  | [] => []
  | .hole :: ps => .text p :: ps
  | q :: ps => q :: plug p ps

theorem plain_plug {p : Text} (hp : Braceless p) {ps : List Piece} (h : ∀ q ∈ ps, q.Plain) :
    ∀ q ∈ plug p ps, q.Plain := by
  induction ps with
  | nil => simp [plug]
  | cons q ps ih =>
    have ih := ih (fun x hx => h x (by simp [hx]))
    have hq := h q (by simp)
    cases q with
    | text t =>
      simp only [plug, List.mem_cons]
      rintro x (rfl | hx)
      · exact hq
      · exact ih x hx
    | hole =>
      simp only [plug, List.mem_cons]
      rintro x (rfl | hx)
      · exact hp
      · exact h x (by simp [hx])
    | name n =>
      simp only [plug, List.mem_cons]
      rintro x (rfl | hx)
      · exact hq
      · exact ih x hx

theorem replaceFirst_render {p : Text} {ps : List Piece} (h : ∀ q ∈ ps, q.Plain) :
    replaceFirst p (Piece.render ps) = Piece.render (plug p ps) := by
  induction ps with
  | nil => rfl
  | cons q ps ih =>
    have ih := ih (fun x hx => h x (by simp [hx]))
    have hq := h q (by simp)
    cases q with
    | text t => simp only [plug, Piece.render]; rw [replaceFirst_text hq.1, ih]
    | hole => simp only [plug, Piece.render]; rw [replaceFirst_hole]
    | name n =>
      simp only [plug, Piece.render]
      obtain ⟨⟨h1, h2⟩, h3⟩ := hq
      cases n with
      | nil => exact absurd rfl h3
      | cons c n =>
        simp only [List.cons_append, List.mem_cons, not_or] at h1 h2 ⊢
        rw [replaceFirst_cons (fun r' _ he => h2.1 (List.cons.inj he).1.symm)]
        rw [replaceFirst_cons (fun r' hc _ => h1.1 hc.symm), replaceFirst_text h1.2]
        rw [replaceFirst_cons (fun r' hc _ => absurd hc (by decide)), ih]

/-- Text and names only. -/
def flatText (vars : Text → Option Text) : List Piece → Option Text
  | [] => some []
  | .text t :: ps => (flatText vars ps).map (t ++ ·)
  | .hole :: _ => none
  | .name n :: ps =>
    match vars n with
    | none => none
    | some v => (flatText vars ps).map (v ++ ·)

theorem strfmt_char {vars : Bindings} {c : Char} {r : Text} (h1 : c ≠ '{') (h2 : c ≠ '}') :
    strfmt vars none (c :: r) = (strfmt vars none r).map (c :: ·) := by
  rw [strfmt]
  · intro r' hc; exact absurd hc h1
  · exact h1
  · intro r' hc; exact absurd hc h2
  · exact h2

theorem strfmt_text {vars : Bindings} {t r : Text} (h : Braceless t) :
    strfmt vars none (t ++ r) = (strfmt vars none r).map (t ++ ·) := by
  induction t with
  | nil => cases hx : strfmt vars none r <;> simp [hx]
  | cons c t ih =>
    obtain ⟨h1, h2⟩ := h
    simp only [List.mem_cons, not_or] at h1 h2
    rw [List.cons_append, strfmt_char (Ne.symm h1.1) (Ne.symm h2.1), ih ⟨h1.2, h2.2⟩]
    cases strfmt vars none r <;> rfl

theorem strfmt_name {vars : Bindings} {m n r : Text} (h : Braceless n) :
    strfmt vars (some m) (n ++ '}' :: r) =
      match vars.get (m ++ n) with
      | none => none
      | some v => (strfmt vars none r).map (v ++ ·) := by
  induction n generalizing m with
  | nil => rw [List.nil_append, strfmt, List.append_nil]; rfl
  | cons c n ih =>
    obtain ⟨h1, h2⟩ := h
    simp only [List.mem_cons, not_or] at h1 h2
    rw [List.cons_append, strfmt]
    · rw [ih ⟨h1.2, h2.2⟩]; simp
    · exact Ne.symm h1.1
    · exact Ne.symm h2.1

theorem strfmt_open {vars : Bindings} {c : Char} {r : Text} (h : c ≠ '{') :
    strfmt vars none ('{' :: c :: r) = strfmt vars (some []) (c :: r) := by
  rw [strfmt]
  intro r' he
  exact h (List.cons.inj he).1

theorem strfmt_render {vars : Bindings} {ps : List Piece} (h : ∀ q ∈ ps, q.Plain)
    (hh : ∀ q ∈ ps, q ≠ .hole) :
    strfmt vars none (Piece.render ps) = flatText vars.get ps := by
  induction ps with
  | nil => rfl
  | cons q ps ih =>
    have ih := ih (fun x hx => h x (by simp [hx])) (fun x hx => hh x (by simp [hx]))
    have hq := h q (by simp)
    cases q with
    | text t => simp only [Piece.render, flatText]; rw [strfmt_text hq, ih]
    | hole => exact absurd rfl (hh .hole (by simp))
    | name n =>
      obtain ⟨⟨h1, h2⟩, h3⟩ := hq
      cases n with
      | nil => exact absurd rfl h3
      | cons c n =>
        have h1' := h1
        simp only [List.mem_cons, not_or] at h1'
        simp only [Piece.render, flatText, List.cons_append]
        rw [strfmt_open (Ne.symm h1'.1)]
        have := strfmt_name (vars := vars) (m := []) (n := c :: n) (r := Piece.render ps) ⟨h1, h2⟩
        simp only [List.cons_append, List.nil_append] at this
        rw [this, ih]

theorem render_texts {ps : List Piece} (h : ∀ q ∈ ps, ∃ t, q = .text t) (vars : Text → Option Text) :
    flatText vars ps = some (Piece.render ps) := by
  induction ps with
  | nil => rfl
  | cons q ps ih =>
    have ih := ih (fun x hx => h x (by simp [hx]))
    obtain ⟨t, rfl⟩ := h q (by simp)
    simp [flatText, Piece.render, ih]

/-- Put the texts in the holes, in order. -/
def plugAll (ps : List Piece) (as : List Text) : List Piece := as.foldl (fun ps a => plug a ps) ps

theorem foldl_render {as : List Text} (ha : ∀ a ∈ as, Braceless a) {ps : List Piece}
    (h : ∀ q ∈ ps, q.Plain) :
    as.foldl (fun f p => replaceFirst p f) (Piece.render ps) = Piece.render (plugAll ps as) ∧
      ∀ q ∈ plugAll ps as, q.Plain := by
  induction as generalizing ps with
  | nil => exact ⟨rfl, h⟩
  | cons a as ih =>
    rw [List.foldl_cons, replaceFirst_render h]
    exact ih (fun b hb => ha b (by simp [hb])) (plain_plug (ha a (by simp)) h)

theorem plugAll_cons {q : Piece} (hq : q ≠ .hole) (ps : List Piece) (as : List Text) :
    plugAll (q :: ps) as = q :: plugAll ps as := by
  induction as generalizing ps with
  | nil => rfl
  | cons a as ih =>
    have : plug a (q :: ps) = q :: plug a ps := by
      cases q with
      | hole => exact absurd rfl hq
      | _ => rfl
    show plugAll (plug a (q :: ps)) as = q :: plugAll (plug a ps) as
    rw [this, ih]

/-- With the right number of texts no hole is left, and the line is what it should be. -/
theorem plugAll_fill {vars : Text → Option Text} {ps : List Piece} {as : List Text} {line : Text}
    (h : Piece.fill vars ps as = some line) :
    (∀ q ∈ plugAll ps as, q ≠ .hole) ∧ flatText vars (plugAll ps as) = some line := by
  induction ps generalizing as line with
  | nil =>
    cases as with
    | nil => exact ⟨by simp [plugAll], h⟩
    | cons a as => simp [Piece.fill] at h
  | cons q ps ih =>
    cases q with
    | text t =>
      simp only [Piece.fill, Option.map_eq_some_iff] at h
      obtain ⟨l, h1, rfl⟩ := h
      obtain ⟨h2, h3⟩ := ih h1
      rw [plugAll_cons (by simp)]
      refine ⟨?_, by simp [flatText, h3]⟩
      intro x hx
      rcases List.mem_cons.1 hx with rfl | hx
      · simp
      · exact h2 x hx
    | hole =>
      cases as with
      | nil => simp [Piece.fill] at h
      | cons a as =>
        simp only [Piece.fill, Option.map_eq_some_iff] at h
        obtain ⟨l, h1, rfl⟩ := h
        obtain ⟨h2, h3⟩ := ih h1
        have e : plugAll (.hole :: ps) (a :: as) = .text a :: plugAll ps as := by
          show plugAll (.text a :: ps) as = _
          rw [plugAll_cons (by simp)]
        rw [e]
        refine ⟨?_, by simp [flatText, h3]⟩
        intro x hx
        rcases List.mem_cons.1 hx with rfl | hx
        · simp
        · exact h2 x hx
    | name n =>
      simp only [Piece.fill] at h
      rw [plugAll_cons (by simp)]
      split at h
      · exact absurd h (by simp)
      · rename_i v hv
        simp only [Option.map_eq_some_iff] at h
        obtain ⟨l, h1, rfl⟩ := h
        obtain ⟨h2, h3⟩ := ih h1
        refine ⟨?_, by simp [flatText, hv, h3]⟩
        intro x hx
        rcases List.mem_cons.1 hx with rfl | hx
        · simp
        · exact h2 x hx

/-- Without named arguments there are no placeholders left either: the line is the text. -/
theorem render_fill {ps : List Piece} {as : List Text} {line : Text}
    (h : Piece.fill (fun _ => none) ps as = some line) : Piece.render (plugAll ps as) = line := by
  have h1 := plugAll_fill h
  have h2 : ∀ {l : List Piece} {t : Text}, (∀ q ∈ l, q ≠ .hole) →
      flatText (fun _ => none) l = some t → Piece.render l = t := by
    intro l
    induction l with
    | nil => intro t _ h; simpa [flatText, Piece.render] using h
    | cons q l ih =>
      intro t hh h
      cases q with
      | text u =>
        simp only [flatText, Option.map_eq_some_iff] at h
        obtain ⟨v, hv, rfl⟩ := h
        simp only [Piece.render]
        rw [ih (fun x hx => hh x (by simp [hx])) hv]
      | hole => simp [flatText] at h
      | name n => simp [flatText] at h
  exact h2 h1.1 h1.2

/-! ### The entry built by `debug!` -/

def LogArg.index (intern : Text → UInt32) : LogArg → UInt32
  | .anon _ => 0
  | .named n _ => intern n

def LogArg.value : LogArg → Value
  | .anon v => v
  | .named _ v => v

/-- The named arguments, the last one first. -/
def namedBindings (shw : Value → Text) : List LogArg → Bindings → Bindings
  | [], b => b
  | .anon _ :: l, b => namedBindings shw l b
  | .named n v :: l, b => namedBindings shw l ((n, shw v) :: b)

theorem debugEntry_eq (intern : Text → UInt32) (time : UInt64) (fmt : Text) (args : List LogArg) :
    let l := (args.filter LogArg.isAnon) ++ (args.filter (fun a => !a.isAnon))
    debugEntry intern time fmt args
      = ⟨time, intern fmt, l.map (LogArg.index intern), l.map LogArg.value⟩ := by
  intro l
  have : ∀ (l : List LogArg) (e : LogEntry), l.foldl (fun e a => match a with
      | .anon v => e.addParam 0 v
      | .named n v => e.addParam (intern n) v) e =
      { e with names := e.names ++ l.map (LogArg.index intern),
               params := e.params ++ l.map LogArg.value } := by
    intro l
    induction l with
    | nil => intro e; simp
    | cons a l ih =>
      intro e
      rw [List.foldl_cons, ih]
      cases a <;> simp [LogEntry.addParam, LogArg.index, LogArg.value]
  have h := this l (.new time (intern fmt))
  simp only [LogEntry.new, List.nil_append] at h
  exact h

theorem splitParams_args {shw : Value → Text} {intern : Text → UInt32} {strings : List Text}
    {l : List LogArg}
    (h : ∀ n ∈ argNames l, intern n ≠ 0 ∧ strings[(intern n).toNat]? = some n)
    (anon : List Text) (named : Bindings) :
    splitParams shw strings (l.map (LogArg.index intern)) (l.map LogArg.value) anon named
      = .ok (anon ++ anonTexts shw l, namedBindings shw l named) := by
  induction l generalizing anon named with
  | nil => simp [splitParams, anonTexts, namedBindings]
  | cons a l ih =>
    cases a with
    | anon v =>
      simp only [List.map_cons, LogArg.index, LogArg.value, splitParams, if_pos]
      rw [ih (fun n hn => h n hn)]
      simp [anonTexts, namedBindings]
    | named n v =>
      obtain ⟨h1, h2⟩ := h n (by simp [argNames])
      simp only [List.map_cons, LogArg.index, LogArg.value, splitParams, if_neg h1, h2]
      rw [ih (fun m hm => h m (by simp [argNames, hm]))]
      simp [anonTexts, namedBindings]

theorem anonTexts_append (shw : Value → Text) (l m : List LogArg) :
    anonTexts shw (l ++ m) = anonTexts shw l ++ anonTexts shw m := by
  induction l with
  | nil => rfl
  | cons a l ih => cases a <;> simp [anonTexts, ih]

theorem isAnon_anon (v : Value) : (LogArg.anon v).isAnon = true := rfl
theorem isAnon_named (n : Text) (v : Value) : (LogArg.named n v).isAnon = false := rfl

theorem anonTexts_filter (shw : Value → Text) (args : List LogArg) :
    anonTexts shw (args.filter LogArg.isAnon) = anonTexts shw args ∧
      anonTexts shw (args.filter (fun a => !a.isAnon)) = [] := by
  induction args with
  | nil => exact ⟨rfl, rfl⟩
  | cons a l ih => cases a <;> simp [List.filter_cons, isAnon_anon, isAnon_named, anonTexts, ih]

theorem anonTexts_sorted (shw : Value → Text) (args : List LogArg) :
    anonTexts shw ((args.filter LogArg.isAnon) ++ (args.filter (fun a => !a.isAnon)))
      = anonTexts shw args := by
  obtain ⟨h1, h2⟩ := anonTexts_filter shw args
  rw [anonTexts_append, h1, h2, List.append_nil]

theorem namedBindings_append (shw : Value → Text) (l m : List LogArg) (b : Bindings) :
    namedBindings shw (l ++ m) b = namedBindings shw m (namedBindings shw l b) := by
  induction l generalizing b with
  | nil => rfl
  | cons a l ih => cases a <;> simp [namedBindings, ih]

theorem namedBindings_filter (shw : Value → Text) (args : List LogArg) (b : Bindings) :
    namedBindings shw (args.filter LogArg.isAnon) b = b ∧
      namedBindings shw (args.filter (fun a => !a.isAnon)) b = namedBindings shw args b := by
  induction args generalizing b with
  | nil => exact ⟨rfl, rfl⟩
  | cons a l ih => cases a <;> simp [List.filter_cons, isAnon_anon, isAnon_named, namedBindings, ih]

theorem namedBindings_sorted (shw : Value → Text) (args : List LogArg) (b : Bindings) :
    namedBindings shw ((args.filter LogArg.isAnon) ++ (args.filter (fun a => !a.isAnon))) b
      = namedBindings shw args b := by
  rw [namedBindings_append, (namedBindings_filter shw args b).1, (namedBindings_filter shw args b).2]

theorem argNames_sorted (args : List LogArg) (n : Text)
    (h : n ∈ argNames ((args.filter LogArg.isAnon) ++ (args.filter (fun a => !a.isAnon)))) :
    n ∈ argNames args := by
  have key : ∀ l : List LogArg, n ∈ argNames l ↔ ∃ v, .named n v ∈ l := by
    intro l
    induction l with
    | nil => simp [argNames]
    | cons a l ih =>
      cases a with
      | anon v => simp [argNames, ih]
      | named m v =>
        simp only [argNames, List.mem_cons, ih, LogArg.named.injEq]
        constructor
        · rintro (rfl | ⟨w, hw⟩)
          · exact ⟨v, .inl ⟨rfl, rfl⟩⟩
          · exact ⟨w, .inr hw⟩
        · rintro ⟨w, (⟨h1, _⟩ | hw)⟩
          · exact .inl h1
          · exact .inr ⟨w, hw⟩
  rw [key] at h ⊢
  obtain ⟨v, hv⟩ := h
  rcases List.mem_append.1 hv with h | h
  · exact ⟨v, (List.mem_filter.1 h).1⟩
  · exact ⟨v, (List.mem_filter.1 h).1⟩

theorem namedBindings_get {shw : Value → Text} {args : List LogArg} (hd : (argNames args).Nodup)
    (n : Text) (b : Bindings) :
    (namedBindings shw args b).get n =
      match namedText shw n args with
      | some v => some v
      | none => b.get n := by
  induction args generalizing b with
  | nil => rfl
  | cons a l ih =>
    cases a with
    | anon v => exact ih hd b
    | named m v =>
      simp only [argNames, List.nodup_cons] at hd
      simp only [namedBindings, namedText]
      rw [ih hd.2]
      have hnone : ∀ {l : List LogArg}, n ∉ argNames l → namedText shw n l = none := by
        intro l
        induction l with
        | nil => intro _; rfl
        | cons a l ih =>
          intro h
          cases a with
          | anon v => exact ih h
          | named k v =>
            simp only [argNames, List.mem_cons, not_or] at h
            simp only [namedText, if_neg (Ne.symm h.1)]
            exact ih h.2
      by_cases hmn : m = n
      · subst hmn
        rw [hnone hd.1, if_pos rfl]
        simp [Bindings.get]
      · simp only [if_neg hmn, Bindings.get]

theorem namedBindings_isEmpty {shw : Value → Text} {args : List LogArg} {b : Bindings} :
    (namedBindings shw args b).isEmpty = ((argNames args).isEmpty && b.isEmpty) := by
  induction args generalizing b with
  | nil => simp [namedBindings, argNames]
  | cons a l ih => cases a <;> simp [namedBindings, argNames, ih]

theorem rebuild_args {shw : Value → Text} {showTime : UInt64 → Text} {intern : Text → UInt32}
    {strings : List Text} {time : UInt64} {fmt : Text} {args : List LogArg}
    (ht : TableOk intern strings fmt args) :
    rebuildLogline shw showTime strings (debugEntry intern time fmt args)
      = .ok (formatLogline (showTime time) fmt (anonTexts shw args) (namedBindings shw args [])) := by
  rw [debugEntry_eq]
  simp only [rebuildLogline, ht.fmt]
  rw [splitParams_args (fun n hn => ht.names n (argNames_sorted args n hn)), anonTexts_sorted,
    namedBindings_sorted]
  rfl

end Verif
