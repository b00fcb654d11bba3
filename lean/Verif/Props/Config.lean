import Verif.Proofs.Config
/-! C39: a configuration survives being written and read back.  C40: logging settings are validated. -/
namespace Verif
namespace Config
variable {C : Type}

/-- Whatever a program builds with distinct task names reads back the same: the same tasks in the same
order, the same connections between the same tasks, the same monitor and logging settings. -/
theorem C39_round_trip_partial {c : CuConfig C} (h : Built c) (hd : DistinctNames c) :
    deserializeRon c.toTree = .ok c := round_trip h.named hd

/-- What is read back can be built with the operations of the API. -/
theorem C39_reads_built {t : Tree C} {c : CuConfig C} (h : deserializeRon t = .ok c) : Built c := by
  unfold deserializeRon at h
  split at h
  · simp at h
  · rename_i r _
    unfold ofRep at h
    split at h
    · simp at h
    · rename_i c' hc
      injection h with h
      subst h
      have hnodes : ∀ (l : List (Node C)) (c : CuConfig C), Built c → Built (l.foldl CuConfig.addNode c) := by
        intro l
        induction l with
        | nil => intro c hb; exact hb
        | cons a l ih => intro c hb; exact ih _ (.node a hb)
      have hcon : ∀ (l : List Cnx) (c c' : CuConfig C), Built c → connectAll c l = .ok c' → Built c' := by
        intro l
        induction l with
        | nil => intro c c' hb h; simp [connectAll] at h; exact h ▸ hb
        | cons a l ih =>
          intro c c' hb h
          simp only [connectAll] at h
          split at h
          · split at h
            · simp at h
            · rename_i c1 h1
              exact ih _ _ (.connect _ _ _ _ _ hb h1) h
          · simp at h
      exact .logging r.logging (.monitor r.monitor (hcon _ _ _ (hnodes _ _ .default) hc))

/-- Hence writing and reading again a configuration that was read changes nothing. -/
theorem C39_stable {t : Tree C} {c : CuConfig C} (h : deserializeRon t = .ok c) (hd : DistinctNames c) :
    deserializeRon c.toTree = .ok c := C39_round_trip_partial (C39_reads_built h) hd

/-- A three task configuration with a loop, options present and absent. -/
def sample : CuConfig Nat :=
  ⟨[⟨"a", some "A", some 3⟩, ⟨"b", some "B", none⟩, ⟨"c", none, none⟩],
   [⟨0, 1, ⟨"a", "b", "m", some 4, none⟩⟩, ⟨1, 2, ⟨"b", "c", "n", none, some false⟩⟩,
    ⟨0, 2, ⟨"a", "c", "m", none, none⟩⟩],
   some ⟨"M", none⟩, some ⟨some 1024, none, false⟩⟩

example := C39_reads_built (t := sample.toTree) (c := sample) (by rfl)

example : Built sample ∧ DistinctNames sample ∧ deserializeRon sample.toTree = .ok sample := by
  have hb : Built sample :=
    .logging (some ⟨some 1024, none, false⟩) (.monitor (some ⟨"M", none⟩)
      (.connect 0 2 "m" none none (.connect 1 2 "n" none (some false) (.connect 0 1 "m" (some 4) none
        (.node ⟨"c", none, none⟩ (.node ⟨"b", some "B", none⟩ (.node ⟨"a", some "A", some 3⟩ .default)))
        rfl) rfl) rfl))
  have hd : DistinctNames sample := by unfold DistinctNames sample; decide
  exact ⟨hb, hd, C39_round_trip_partial hb hd⟩

/-- The full statement fails for programs that also replace a task by one with another name: the
connections keep the old name, and what was written cannot be read. -/
theorem C39_violated_renamed :
    ∃ c c' : CuConfig Nat, Built c ∧ c.setNode 1 ⟨"z", some "B", none⟩ = .ok c' ∧ DistinctNames c' ∧
      deserializeRon c'.toTree = .panic := by
  have hb : Built sample :=
    .logging (some ⟨some 1024, none, false⟩) (.monitor (some ⟨"M", none⟩)
      (.connect 0 2 "m" none none (.connect 1 2 "n" none (some false) (.connect 0 1 "m" (some 4) none
        (.node ⟨"c", none, none⟩ (.node ⟨"b", some "B", none⟩ (.node ⟨"a", some "A", some 3⟩ .default)))
        rfl) rfl) rfl))
  exact ⟨sample, _, hb, rfl, by unfold DistinctNames sample; decide, by rfl⟩

/-- Without distinct names a connection moves to the first task with the name. -/
theorem C39_violated_same_name :
    ∃ c c' : CuConfig Nat, Built c ∧ deserializeRon c.toTree = .ok c' ∧ c'.edges ≠ c.edges :=
  ⟨_, _, .connect 1 2 "m" none none (.node ⟨"b", none, none⟩ (.node ⟨"a", none, none⟩
    (.node ⟨"a", none, none⟩ .default))) rfl, rfl, by decide⟩

/-- Reading accepts exactly the logging settings whose section size, when both sizes are given, is at
most the slab size. -/
theorem C40_read {t : Tree C} {c : CuConfig C} (h : deserializeRon t = .ok c) :
    (readConfigurationStr t = .ok (some c) ↔ ∀ l, c.logging = some l → SectionFits l) ∧
    (readConfigurationStr t = .ok none ↔ ∃ l, c.logging = some l ∧ ¬ SectionFits l) := by
  have hv : c.validateLogging = true ↔ ∀ l, c.logging = some l → SectionFits l := by
    unfold CuConfig.validateLogging
    cases hl : c.logging with
    | none => simp
    | some l =>
      obtain ⟨slab, sec, en⟩ := l
      cases sec <;> cases slab <;> simp [LoggingConfig.validate, SectionFits, UInt64.le_iff_toNat_le]
  have hn : c.validateLogging = false ↔ ∃ l, c.logging = some l ∧ ¬ SectionFits l := by
    rw [← Bool.not_eq_true, hv]
    simp
  unfold readConfigurationStr
  rw [h]
  simpa using ⟨hv, hn⟩

example := C40_read (t := sample.toTree) (c := sample) (by rfl)

/-- An application that starts with the configuration of a file, or with the one it was compiled with,
never has a section size above the slab size. -/
theorem C40_started_partial {file : Option (Tree C)} {original : Tree C} {c : CuConfig C}
    (h : startConfig none file original = .ok (some c)) : ∀ l, c.logging = some l → SectionFits l := by
  have key : ∀ t : Tree C, readConfigurationStr t = .ok (some c) → ∀ l, c.logging = some l → SectionFits l := by
    intro t ht
    cases hd : deserializeRon t with
    | panic => simp [readConfigurationStr, hd] at ht
    | ok c' =>
      have : c' = c := by
        simp only [readConfigurationStr, hd] at ht
        split at ht
        · simpa using ht
        · simp at ht
      subst this
      exact (C40_read hd).1.mp ht
  unfold startConfig at h
  cases file with
  | some t => exact key t h
  | none => exact key original h

example := C40_started_partial (file := some sample.toTree) (original := (CuConfig.default : CuConfig Nat).toTree) (c := sample) (by rfl)

/-- A configuration given by the program is not validated. -/
theorem C40_violated_override :
    ∃ (c : CuConfig Nat) (l : LoggingConfig), Built c ∧ c.logging = some l ∧ ¬ SectionFits l ∧
      startConfig (some c) none c.toTree = .ok (some c) := by
  refine ⟨_, ⟨some 1, some 2, true⟩, .logging (some ⟨some 1, some 2, true⟩) .default, rfl, ?_, rfl⟩
  intro h
  exact absurd (h 2 1 rfl rfl) (by decide)

/-- Both outcomes of reading. -/
example : (∃ c, readConfigurationStr ({ CuConfig.default with logging := some ⟨some 8, some 8, true⟩ } : CuConfig Nat).toTree
      = .ok (some c) ∧ c.logging = some ⟨some 8, some 8, true⟩) ∧
    readConfigurationStr ({ CuConfig.default with logging := some ⟨some 8, some 9, true⟩ } : CuConfig Nat).toTree
      = .ok none := ⟨⟨_, by rfl, rfl⟩, by rfl⟩

end Config
end Verif
