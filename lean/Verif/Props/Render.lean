import Verif.Proofs.Render
/-!
Property C78: the drawing of a configuration.  The reader of drawings and the drawing a configuration
should have are in `Verif/Spec/Render.lean`.
-/
namespace Verif
namespace Render
open Config

/-! ### C78 The drawing of a configuration -/

/-- For a configuration whose tasks have types, and names, types and parameters without `<`, `>` and
`&`: the text written can be read, and it draws a box for each task, with its number, colour, name, type
and parameters, and an arrow for each connection, with its message type, whatever characters that has.
Missing: names, types and parameters with these characters, see the violations below. -/
theorem C78_drawing_partial (c : CuConfig Shown) (hp : ∀ n ∈ c.nodes, PlainNode n)
    (ht : ∀ n ∈ c.nodes, n.type_ ≠ none) :
    ∃ text items, render c = .ok text ∧ readDot text = some items ∧ Draws c items := by
  obtain ⟨s0, _, _, _, h0, _, _, _, _, hlen⟩ := read_nodes (c := c) c.nodes hp ht (i := 0)
    (k := c.nodes.length + c.edges.length) (Nat.le_refl _)
  have he := edges_length c.edges
  obtain ⟨s, items, boxes, arrows, h1, h2, h3, h4, h5, _⟩ := read_nodes (c := c) c.nodes hp ht (i := 0)
    (k := (s0 ++ ((c.edges.map edgeText).flatten ++ "}\n".toList)).length) (by
      rw [List.length_append, List.length_append]; omega)
  have hs : s0 = s := by rw [h0] at h1; simpa using h1
  subst hs
  refine ⟨"digraph G {\n".toList ++ s0 ++ (c.edges.map edgeText).flatten ++ "}\n".toList, items, ?_, ?_,
    boxes, arrows, h3, h4, h5⟩
  · rw [render, h1]
  · rw [List.append_assoc, List.append_assoc, readDot, lit_append]
    exact h2

/-- A task without a type cannot be drawn. -/
theorem C78_no_type (c : CuConfig Shown) (h : ∃ n ∈ c.nodes, n.type_ = none) : render c = .panic := by
  have key : ∀ (ns : List (Node Shown)) (i : Nat), (∃ n ∈ ns, n.type_ = none) → nodesText c i ns = .panic := by
    intro ns
    induction ns with
    | nil => simp
    | cons n ns ih =>
      intro i h
      rw [nodesText]
      by_cases hn : n.type_ = none
      · simp [nodeText, hn]
      · obtain ⟨m, hm, hm'⟩ := h
        have : nodesText c (i + 1) ns = .panic := ih (i + 1) (by
          rcases List.mem_cons.1 hm with rfl | hm
          · exact absurd hm' hn
          · exact ⟨m, hm, hm'⟩)
        rw [this]
        split <;> rfl
  rw [render, key c.nodes 0 h]

/-- Two tasks; the message type has the characters of labels. -/
def demo : CuConfig Shown :=
  ⟨[⟨"cam", some "Camera", some [("fps", "30"), ("dev", "/dev/video0")]⟩, ⟨"log", some "Sink", none⟩],
   [⟨0, 1, ⟨"cam", "log", "Vec<(u8, &'static str)>", none, none⟩⟩], none, none⟩

instance (s : String) : Decidable (Plain s) := inferInstanceAs (Decidable (∀ ch ∈ s.toList, _))

example : (∀ n ∈ demo.nodes, PlainNode n) ∧ (∀ n ∈ demo.nodes, n.type_ ≠ none) := by
  refine ⟨?_, by decide⟩
  intro n hn
  simp only [demo, List.mem_cons, List.not_mem_nil, or_false] at hn
  rcases hn with rfl | rfl
  · refine ⟨by decide, fun t h => ?_, fun c h => ?_⟩
    · obtain rfl := Option.some.inj h; decide
    · obtain rfl := Option.some.inj h; decide
  · refine ⟨by decide, fun t h => ?_, fun c h => ?_⟩
    · obtain rfl := Option.some.inj h; decide
    · cases h

/-- What is read from the drawing. -/
def drawn (c : CuConfig Shown) : Option (List Item) :=
  match render c with
  | .ok t => readDot t
  | .panic => none

example : drawn demo = some [
    .box 0 "lightgreen".toList " cam [Camera]____________fps = 30\ndev = /dev/video0 ".toList,
    .box 1 "lightblue".toList " log [Sink] ".toList,
    .arrow 0 1 " Vec<(u8, &'static str)> ".toList] := by decide +kernel

/-- A task with type parameters, which is not unusual: the type parameters are taken for a tag, and not
shown.  (The dot program rejects the tag.) -/
theorem C78_type_violated : drawn ⟨[⟨"a", some "Resampler<Pcm>", none⟩], [], none, none⟩ =
    some [.box 0 "lightgreen".toList " a [Resampler] ".toList] := by decide +kernel

/-- A parameter with an unmatched bracket: the label ends there, and the text is no drawing any more. -/
theorem C78_param_violated :
    (∃ t, render ⟨[⟨"a", some "T", some [("rule", "x > 5")]⟩], [], none, none⟩ = .ok t) ∧
    drawn ⟨[⟨"a", some "T", some [("rule", "x > 5")]⟩], [], none, none⟩ = none := by
  refine ⟨⟨_, rfl⟩, by decide +kernel⟩

/-- A reference in a name is replaced. -/
theorem C78_name_violated : drawn ⟨[⟨"a&lt;b", some "T", none⟩], [], none, none⟩ =
    some [.box 0 "lightgreen".toList " a<b [T] ".toList] := by decide +kernel

end Render
end Verif
