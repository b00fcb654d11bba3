import Verif.Model.ShowParam
import Verif.Spec.ShowParam
import Verif.Props.Render
import Verif.Props.Params
import Verif.Proofs.ShowValue
/-!
C78, with the parameters as they were read.
-/
namespace Verif
namespace Params
open Config Bincode Render

theorem plain_digit {ch : Char} (h : ch.isDigit = true) : ch ≠ '<' ∧ ch ≠ '>' ∧ ch ≠ '&' := by
  refine ⟨?_, ?_, ?_⟩ <;> rintro rfl <;> exact absurd h (by decide)

theorem plain_digits (n : Nat) : ∀ ch ∈ Nat.toDigits 10 n, ch ≠ '<' ∧ ch ≠ '>' ∧ ch ≠ '&' :=
  fun ch h => plain_digit ((digits_text n).2 ch h)

theorem plain_int (n : Int) : ∀ ch ∈ showInt n, ch ≠ '<' ∧ ch ≠ '>' ∧ ch ≠ '&' := by
  intro ch h
  unfold showInt at h
  split at h
  · rcases List.mem_cons.1 h with rfl | h
    · decide
    · exact plain_digits _ ch h
  · exact plain_digits _ ch h

theorem plain_display {fl : Floats} (hf : PlainFloats fl) {v : RonValue} (hv : PlainValue v) :
    Plain (String.ofList (v.display fl)) := by
  intro ch h
  rw [String.toList_ofList] at h
  cases v with
  | bool b =>
    cases b
    · exact (show ∀ ch ∈ "false".toList, ch ≠ '<' ∧ ch ≠ '>' ∧ ch ≠ '&' by decide) ch h
    · exact (show ∀ ch ∈ "true".toList, ch ≠ '<' ∧ ch ≠ '>' ∧ ch ≠ '&' by decide) ch h
  | str s => exact hv ch h
  | other s => exact hv ch h
  | number n => cases n with
    | f32 b => exact hf.1 _ ch h
    | f64 b => exact hf.2 _ ch h
    | u8 n | u16 n | u32 n | u64 n => exact plain_digits _ ch h
    | i8 n | i16 n | i32 n | i64 n => exact plain_int _ ch h

theorem says_display (fl : Floats) (v : RonValue) : Says fl v (v.display fl) := by
  cases v with
  | bool b => cases b <;> rfl
  | str s => rfl
  | other s => rfl
  | number n => cases n with
    | f32 b => rfl
    | f64 b => rfl
    | u8 n | u16 n | u32 n | u64 n =>
      simp only [Says, RonValue.display, readInt_digits, RonValue.integer?, Number.integer?]
      exact ⟨rfl, trivial⟩
    | i8 n | i16 n | i32 n | i64 n =>
      simp only [Says, RonValue.display, readInt_show, RonValue.integer?, Number.integer?]
      exact ⟨rfl, trivial⟩

theorem says_shown (fl : Floats) (c : ComponentConfig) :
    Pointwise (SaysParam fl) c (c.map fun e => (e.1, String.ofList (e.2.display fl))) := by
  induction c with
  | nil => exact .nil
  | cons e c ih =>
    refine .cons ⟨rfl, ?_⟩ ih
    simp only [String.toList_ofList]
    exact says_display fl e.2

/-- A configuration whose names, types, keys and texts have none of the characters `<`, `>` and `&`, and whose tasks have
types: the text written parses, and the picture has a box for each task, in order, with its number, its name, its type
and a line for each of its parameters that says what the parameter is, and an arrow for each connection.

Missing: these characters (`C78_type_violated`, `C78_param_violated`, `C78_name_violated`). -/
theorem C78_params_partial {fl : Floats} (hf : PlainFloats fl) (c : CuConfig ComponentConfig)
    (hp : ∀ n ∈ c.nodes, PlainTask n) (ht : ∀ n ∈ c.nodes, n.type_ ≠ none) :
    ∃ text items boxes arrows, draw fl c = .ok text ∧ readDot text = some items ∧ items = boxes ++ arrows ∧
      Pointwise (fun n b => ShowsTask fl n.2 n.1 b) c.nodes.zipIdx boxes ∧ Pointwise IsArrow c.edges arrows := by
  obtain ⟨text, items, h1, h2, boxes, arrows, h3, h4, h5⟩ := C78_drawing_partial
    ⟨c.nodes.map (shownNode fl), c.edges, none, c.logging⟩ (by
      intro n hn
      obtain ⟨m, hm, rfl⟩ := List.mem_map.1 hn
      obtain ⟨p1, p2, p3⟩ := hp m hm
      refine ⟨p1, p2, fun l hl e he => ?_⟩
      cases hc : m.config with
      | none => rw [shownNode, hc] at hl; cases hl
      | some cc =>
        rw [shownNode, hc] at hl
        cases hl
        obtain ⟨e', he', rfl⟩ := List.mem_map.1 he
        obtain ⟨q1, q2⟩ := p3 cc hc e' he'
        exact ⟨q1, plain_display hf q2⟩) (by
      intro n hn
      obtain ⟨m, hm, rfl⟩ := List.mem_map.1 hn
      exact ht m hm)
  refine ⟨text, items, boxes, arrows, h1, h2, h3, ?_, h5⟩
  simp only at h4
  generalize (⟨c.nodes.map (shownNode fl), c.edges, none, c.logging⟩ : CuConfig Shown) = d at h4
  have key : ∀ (ns : List (Node ComponentConfig)) (k : Nat) (boxes : List Item),
      Pointwise (fun n b => IsBox d n.2 n.1 b) ((ns.map (shownNode fl)).zipIdx k) boxes →
      Pointwise (fun n b => ShowsTask fl n.2 n.1 b) (ns.zipIdx k) boxes := by
    intro ns
    induction ns with
    | nil => intro k boxes h; cases h; exact .nil
    | cons n ns ih =>
      intro k boxes h
      rw [List.map_cons, List.zipIdx_cons] at h
      rw [List.zipIdx_cons]
      cases h with
      | cons hb hr =>
        refine .cons ?_ (ih _ _ hr)
        rename_i b bs
        cases b with
        | arrow => exact hb
        | box j colour shown =>
          obtain ⟨b1, -, t, b3, b4⟩ := hb
          refine ⟨b1, t, _, b3, ?_, b4⟩
          simp only [shownNode]
          cases n.config with
          | none => trivial
          | some cc => exact says_shown fl cc
  exact key c.nodes 0 boxes h4

/-- What the drawing shows of a parameter is what the component gets: two integers, two texts or two truth values that
are drawn alike are read alike, as any type.

Missing: values of different kinds (`C78_kind_violated`), and floats, whose texts are a parameter of the model. -/
theorem C78_gets_partial (fl : Floats) {v w : RonValue} (h : v.display fl = w.display fl)
    (hk : (v.integer?.isSome ∧ w.integer?.isSome) ∨ (∃ s s', v = .str s ∧ w = .str s') ∨
      ∃ b b', v = .bool b ∧ w = .bool b') (t : IntTy) (fc : Fpu) :
    asInt t v = asInt t w ∧ asF64 fc v = asF64 fc w ∧ asBool v = asBool w ∧ asString v = asString w := by
  apply C63_text
  rcases hk with ⟨h1, h2⟩ | ⟨s, s', rfl, rfl⟩ | ⟨b, b', rfl, rfl⟩
  · obtain ⟨i, hi⟩ := Option.isSome_iff_exists.1 h1
    obtain ⟨j, hj⟩ := Option.isSome_iff_exists.1 h2
    have read : ∀ (u : RonValue) k, u.integer? = some k → readInt (u.display fl) = some k := by
      intro u k hu
      have := says_display fl u
      cases u with
      | bool | str | other => cases hu
      | number n =>
        cases n with
        | f32 | f64 => cases hu
        | _ => rw [← hu]; exact this.2
    have := read v i hi
    rw [h, read w j hj] at this
    exact .inr ⟨i, hi, by rw [hj, this]⟩
  · exact .inl (congrArg _ (String.toList_inj.1 h))
  · refine .inl (congrArg _ ?_)
    have h' : (if b then "true".toList else "false".toList) = (if b' then "true".toList else "false".toList) := h
    revert h'
    clear h
    revert b b'
    decide

/-- Texts are drawn without quotes: `"5"` is drawn like `5` and `"true"` like `true`, which components read otherwise. -/
theorem C78_kind_violated (fl : Floats) :
    (RonValue.str "5").display fl = (RonValue.number (.u8 5)).display fl ∧
    asInt .u8 (.number (.u8 5)) = .ok 5 ∧ asInt .u8 (.str "5") = .panic ∧
    (RonValue.str "true").display fl = (RonValue.bool true).display fl ∧
    asBool (.bool true) = .ok true ∧ asBool (.str "true") = .panic := by
  refine ⟨rfl, by decide, rfl, rfl, rfl, rfl⟩

/-! ### A camera and its log -/

def demoParams : CuConfig ComponentConfig :=
  ⟨[⟨"cam", some "Camera", some [("fps", .number (.u8 30)), ("dev", .str "/dev/video0"), ("gain", .number (.i8 (-2))),
      ("flip", .bool false)]⟩, ⟨"log", some "Sink", none⟩],
   [⟨0, 1, ⟨"cam", "log", "Vec<u8>", none, none⟩⟩], none, none⟩

theorem demoParams_plain : ∀ n ∈ demoParams.nodes, PlainTask n := by
  intro n hn
  simp only [demoParams, List.mem_cons, List.not_mem_nil, or_false] at hn
  rcases hn with rfl | rfl
  · refine ⟨by decide, fun t h => ?_, fun c h => ?_⟩
    · obtain rfl := Option.some.inj h; decide
    · obtain rfl := Option.some.inj h
      intro e he
      simp only [List.mem_cons, List.not_mem_nil, or_false] at he
      rcases he with rfl | rfl | rfl | rfl
      · exact ⟨by decide, trivial⟩
      · exact ⟨by decide, show Plain "/dev/video0" by decide⟩
      · exact ⟨by decide, trivial⟩
      · exact ⟨by decide, trivial⟩
  · refine ⟨by decide, fun t h => ?_, fun c h => ?_⟩
    · obtain rfl := Option.some.inj h; decide
    · cases h

example {fl : Floats} (hf : PlainFloats fl) : ∃ text items boxes arrows, draw fl demoParams = .ok text ∧
    readDot text = some items ∧ items = boxes ++ arrows ∧
    Pointwise (fun n b => ShowsTask fl n.2 n.1 b) demoParams.nodes.zipIdx boxes ∧
    Pointwise IsArrow demoParams.edges arrows :=
  C78_params_partial hf demoParams demoParams_plain (by decide)

/-- Floats written in some way. -/
def someFloats : Floats := ⟨fun _ => ['0', '.', '5'], fun _ => ['0', '.', '5'], fun _ => by decide, fun _ => by decide⟩

theorem plain_half : ∀ ch ∈ ['0', '.', '5'], ch ≠ '<' ∧ ch ≠ '>' ∧ ch ≠ '&' := by decide

example : PlainFloats someFloats := ⟨fun _ => plain_half, fun _ => plain_half⟩

/-- What is drawn. -/
example : (match draw someFloats demoParams with | .ok t => readDot t | .panic => none) = some [
    .box 0 "lightgreen".toList
      " cam [Camera]____________fps = 30\ndev = /dev/video0\ngain = -2\nflip = false ".toList,
    .box 1 "lightblue".toList " log [Sink] ".toList, .arrow 0 1 " Vec<u8> ".toList] := by decide +kernel

end Params
end Verif
