import Verif.Spec.Config
/-! Lemmas on configurations. -/
namespace Verif
namespace Config
variable {C : Type}

theorem allOf_map {α : Type} {d : Tree C → Option α} {f : α → Tree C} (h : ∀ a, d (f a) = some a)
    (l : List α) : allOf d (l.map f) = some l := by
  induction l with
  | nil => rfl
  | cons a l ih => simp [allOf, h, ih]

theorem nodeOf_nodeTree (n : Node C) : nodeOf (nodeTree n) = some n := by
  obtain ⟨id, t, c⟩ := n
  cases t <;> cases c <;>
    simp [nodeOf, nodeTree, structOf, required, optional, field, skipNone, strOf, compOf]

theorem u64Of_num (n : UInt64) : u64Of (.num n.toNat : Tree C) = some n := by
  have := n.toNat_lt
  simp [u64Of, (by simpa using this : n.toNat < 18446744073709551616)]

theorem u32Of_num' (n : UInt32) : u32Of (.num n.toNat : Tree C) = some n := by
  have := n.toNat_lt
  simp [u32Of, (by simpa using this : n.toNat < 4294967296)]

theorem cnxOf_cnxTree (n : Cnx) : cnxOf (cnxTree n : Tree C) = some n := by
  obtain ⟨src, dst, msg, b, s⟩ := n
  cases b <;> cases s <;>
    simp [cnxOf, cnxTree, structOf, required, optional, field, optTree, strOf, boolOf, u32Of_num']

theorem monitorOf_monitorTree (m : MonitorConfig C) : monitorOf (monitorTree m) = some m := by
  obtain ⟨t, c⟩ := m
  cases c <;> simp [monitorOf, monitorTree, structOf, required, optional, field, skipNone, strOf, compOf]

theorem loggingOf_loggingTree (l : LoggingConfig) : loggingOf (loggingTree l : Tree C) = some l := by
  obtain ⟨a, b, e⟩ := l
  cases a <;> cases b <;> cases e <;>
    simp [loggingOf, loggingTree, structOf, optional, field, skipNone, boolOf, u64Of_num]

theorem repOf_toTree (c : CuConfig C) :
    repOf c.toTree = some ⟨c.nodes, c.edges.map (·.cnx), c.monitor, c.logging⟩ := by
  obtain ⟨n, e, m, l⟩ := c
  have h1 := allOf_map nodeOf_nodeTree n
  have h2 : allOf cnxOf (e.map (fun e => cnxTree e.cnx : Edge → Tree C)) = some (e.map (·.cnx)) := by
    have := allOf_map (C := C) cnxOf_cnxTree (e.map (·.cnx))
    rwa [List.map_map] at this
  have h3 : optional "monitor" monitorOf
      ([("tasks", .seq (n.map nodeTree)), ("cnx", .seq (e.map (fun e => cnxTree e.cnx))),
        ("monitor", optTree monitorTree m), ("logging", optTree loggingTree l)] : List (String × Tree C))
      = some m := by
    cases m with
    | none => simp [optional, field, optTree]
    | some m =>
      have := monitorOf_monitorTree m
      simp [optional, field, optTree]
      unfold monitorTree at this ⊢
      simp [this]
  have h4 : optional "logging" loggingOf
      ([("tasks", .seq (n.map nodeTree)), ("cnx", .seq (e.map (fun e => cnxTree e.cnx))),
        ("monitor", optTree monitorTree m), ("logging", optTree loggingTree l)] : List (String × Tree C))
      = some l := by
    cases l with
    | none => simp [optional, field, optTree]
    | some l =>
      have := loggingOf_loggingTree (C := C) l
      simp [optional, field, optTree]
      unfold loggingTree at this ⊢
      simp [this]
  unfold repOf CuConfig.toTree structOf
  simp only [h3, h4]
  simp [required, field, seqOf, h1, h2]

theorem foldl_addNode (l : List (Node C)) (c : CuConfig C) :
    l.foldl CuConfig.addNode c = { c with nodes := c.nodes ++ l } := by
  induction l generalizing c with
  | nil => simp
  | cons a l ih => simp [ih, CuConfig.addNode]

/-- The edge carries the names of its end points. -/
def Named (nodes : List (Node C)) (e : Edge) : Prop :=
  nodes[e.src]?.map (·.id) = some e.cnx.src ∧ nodes[e.dst]?.map (·.id) = some e.cnx.dst

theorem findNode_named {nodes : List (Node C)} (hd : (nodes.map (·.id)).Nodup) {i : Nat} {id : String}
    (h : nodes[i]?.map (·.id) = some id) : findNode nodes id = some i := by
  unfold findNode
  rw [List.findIdx?_eq_some_iff_getElem]
  rw [← List.getElem?_map, List.getElem?_eq_some_iff] at h
  obtain ⟨hi, h⟩ := h
  have hi' : i < nodes.length := by simpa using hi
  refine ⟨hi', by simpa using h, fun j hj => ?_⟩
  intro he
  have hj' : j < (nodes.map (·.id)).length := by omega
  have := (List.pairwise_iff_getElem.mp hd) j i hj' hi hj
  simp at this h he
  exact this (he.trans h.symm)

theorem connectAll_named (es : List Edge) (c : CuConfig C) (hd : (c.nodes.map (·.id)).Nodup)
    (h : ∀ e ∈ es, Named c.nodes e) :
    connectAll c (es.map (·.cnx)) = .ok { c with edges := c.edges ++ es } := by
  induction es generalizing c with
  | nil => simp [connectAll]
  | cons e es ih =>
    obtain ⟨hs, ht⟩ := h e (by simp)
    simp only [List.map_cons, connectAll]
    rw [findNode_named hd hs, findNode_named hd ht]
    simp only
    cases h1 : c.nodes[e.src]? with
    | none => rw [h1] at hs; simp at hs
    | some ns =>
      cases h2 : c.nodes[e.dst]? with
      | none => rw [h2] at ht; simp at ht
      | some nt =>
        rw [h1] at hs
        rw [h2] at ht
        simp at hs ht
        simp only [CuConfig.connectExt, h1, h2]
        refine (ih _ ?_ ?_).trans ?_
        · exact hd
        · exact fun e' he' => h e' (by simp [he'])
        · simp [hs, ht]

theorem Built.named {c : CuConfig C} (h : Built c) : ∀ e ∈ c.edges, Named c.nodes e := by
  induction h with
  | default => intro e he; simp [CuConfig.default] at he
  | @node c n _ ih =>
    intro e he
    obtain ⟨hs, ht⟩ := ih e he
    have grow : ∀ {i : Nat} {x : String}, c.nodes[i]?.map (·.id) = some x →
        (c.nodes ++ [n])[i]?.map (·.id) = some x := by
      intro i x hx
      cases hi : c.nodes[i]? with
      | none => rw [hi] at hx; simp at hx
      | some a =>
        rw [List.getElem?_append_left (by rw [List.getElem?_eq_some_iff] at hi; exact hi.1)]
        exact hx
    exact ⟨grow hs, grow ht⟩
  | @connect c c' s t msg batch store _ hc ih =>
    unfold CuConfig.connectExt at hc
    split at hc
    · rename_i ns nt h1 h2
      injection hc with hc
      subst hc
      intro e he
      simp at he
      rcases he with he | he
      · exact ih e he
      · subst he
        simp [Named, h1, h2]
    · simp at hc
  | @edit c c' i n n' _ hi hid hc ih =>
    unfold CuConfig.setNode at hc
    split at hc
    · injection hc with hc
      subst hc
      intro e he
      obtain ⟨hs, ht⟩ := ih e he
      have keep : ∀ {j : Nat}, (c.nodes.set i n')[j]?.map (·.id) = c.nodes[j]?.map (·.id) := by
        intro j
        rw [List.getElem?_set]
        split
        · subst i
          rw [hi]
          rename_i hl
          simp [hl, hid]
        · rfl
      exact ⟨keep.trans hs, keep.trans ht⟩
    · simp at hc
  | monitor m _ ih => exact ih
  | logging l _ ih => exact ih

theorem round_trip {c : CuConfig C} (h : ∀ e ∈ c.edges, Named c.nodes e) (hd : DistinctNames c) :
    deserializeRon c.toTree = .ok c := by
  unfold deserializeRon
  rw [repOf_toTree]
  simp only [ofRep, foldl_addNode]
  rw [connectAll_named _ _ (by simpa [CuConfig.default, DistinctNames] using hd)
    (by intro e he; simpa [CuConfig.default] using h e he)]
  simp [CuConfig.default]

end Config
end Verif
