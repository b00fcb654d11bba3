import Verif.Proofs.Ident
/-! C41: distinct task names get distinct generated identifiers. -/
namespace Verif
namespace Ident

/-- Tasks named with lower case words and numbers joined by underscores, no number after a number, keep
apart in both kinds of generated identifiers. -/
theorem C41_distinct_partial (digits : Bool) {ws vs : List (List Char)} (hw : Plain ws) (hv : Plain vs)
    (hne : name ws ≠ name vs) :
    configIdToEnum digits (name ws) ≠ configIdToEnum digits (name vs) ∧
    configIdToStructMember digits (name ws) ≠ configIdToStructMember digits (name vs) := by
  have hne' : ws ≠ vs := fun h => hne (by rw [h])
  refine ⟨fun h => hne' ?_, fun h => hne' ?_⟩
  · unfold configIdToEnum toPascal at h
    rw [words_plain digits hw, words_plain digits hv] at h
    exact pascal_inj hw hv (guardDigit_inj (pascal_head_ne hw) (pascal_head_ne hv) h)
  · have low : ∀ {us : List (List Char)}, Plain us → us.map (·.map Char.toLower) = us := by
      intro us hu
      induction us with
      | nil => rfl
      | cons u us ih =>
        obtain ⟨_, P, _, hl, hup⟩ := hu.head
        have : u.map Char.toLower = u.map id :=
          List.map_congr_left (fun c hc => toLower_of_not_upper (hup c (hl c hc)))
        rw [List.map_cons, ih hu.tail, this]
        simp
    have h1 := lower_words digits (clean (name ws))
    have h2 := lower_words digits (clean (name vs))
    unfold configIdToStructMember toSnake at h
    have := intercalate_inj h1 h2 (guardDigit_inj (intercalate_head h1) (intercalate_head h2) h)
    rwa [words_plain digits hw, words_plain digits hv, low hw, low hv] at this

/-- Exactly which names share a member name, whatever they are: those with the same words up to case. -/
theorem C41_member_collisions (digits : Bool) (a b : List Char) :
    configIdToStructMember digits a = configIdToStructMember digits b ↔
      (wordsFrom digits [] (clean a)).map (·.map Char.toLower) =
        (wordsFrom digits [] (clean b)).map (·.map Char.toLower) := by
  have h1 := lower_words digits (clean a)
  have h2 := lower_words digits (clean b)
  constructor
  · intro h
    unfold configIdToStructMember toSnake at h
    exact intercalate_inj h1 h2 (guardDigit_inj (intercalate_head h1) (intercalate_head h2) h)
  · intro h
    unfold configIdToStructMember toSnake
    rw [h]

/-- In general names collide: characters that cannot be in an identifier all become underscores, case
and the place of capitals are lost, and two numbers in a row merge in the enum. -/
theorem C41_violated (digits : Bool) :
    (configIdToStructMember digits "cam-left".toList = configIdToStructMember digits "cam_left".toList ∧
      configIdToEnum digits "cam-left".toList = configIdToEnum digits "cam_left".toList) ∧
    configIdToStructMember digits "camLeft".toList = configIdToStructMember digits "cam_left".toList ∧
    (configIdToEnum digits "v_1_2".toList = configIdToEnum digits "v_12".toList ∧
      configIdToStructMember digits "v_1_2".toList ≠ configIdToStructMember digits "v_12".toList) := by
  cases digits <;> decide

/-- Usual names. -/
example : Plain ["front".toList, "camera".toList, "2".toList] ∧ Plain ["front".toList, "camera".toList] ∧
    configIdToEnum true (name ["front".toList, "camera".toList, "2".toList]) = "FrontCamera2".toList ∧
    configIdToStructMember true (name ["front".toList, "camera".toList, "2".toList]) = "front_camera_2".toList := by
  refine ⟨.letters ⟨by decide, by decide⟩ (.letters ⟨by decide, by decide⟩
    (.digits ⟨by decide, by decide⟩ .nil (by simp))), .letters ⟨by decide, by decide⟩
    (.letters ⟨by decide, by decide⟩ .nil), by decide, by decide⟩

end Ident
end Verif
