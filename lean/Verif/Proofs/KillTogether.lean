import Verif.Model.UnifiedLogKillConc
import Verif.Proofs.KillExport
import Verif.Proofs.ConcCrash
/-! Effects of several threads: those without the lock can be moved before those of the thread that has it. -/
namespace Verif
namespace ULog
open Bincode

/-! ### Stores apart from each other -/

/-- An effect that leaves these bytes of a file of `size` bytes alone. -/
def Effect.Apart (size k off len : Nat) : Effect → Prop
  | .store k' off' d => k' = k → (off' + d.length ≤ off ∨ off + len ≤ off') ∧ off' + d.length ≤ size
  | .setLen k' _ => k' ≠ k
  | .create => True

/-- Bytes stored in a file. -/
def junk (files : List Bytes) (c : Nat × Nat × Bytes) : List Bytes :=
  files.modify c.1 (fun f => writeAt f c.2.1 c.2.2)

theorem ext_writeAt {f g d : Bytes} {o : Nat} (h : o + d.length ≤ f.length) (hl : g.length = f.length)
    (hin : ∀ i, i < d.length → g[o + i]? = d[i]?) (hout : ∀ i, i < o ∨ o + d.length ≤ i → g[i]? = f[i]?) :
    g = writeAt f o d := by
  apply List.ext_getElem?
  intro i
  by_cases hi : i < o ∨ o + d.length ≤ i
  · rw [getElem?_writeAt_out h hi, hout i hi]
  · obtain ⟨j, rfl⟩ : ∃ j, i = o + j := ⟨i - o, by omega⟩
    rw [getElem?_writeAt_in h (by omega), hin j (by omega)]

theorem writeAt_comm {f a b : Bytes} {o p : Nat} (ha : o + a.length ≤ f.length) (hb : p + b.length ≤ f.length)
    (h : o + a.length ≤ p ∨ p + b.length ≤ o) : writeAt (writeAt f o a) p b = writeAt (writeAt f p b) o a := by
  have hla := length_writeAt ha
  have hlb := length_writeAt hb
  refine ext_writeAt (by omega) (by rw [length_writeAt (by omega)]; omega) ?_ ?_
  · intro i hi
    rw [getElem?_writeAt_out (by omega) (by omega), getElem?_writeAt_in ha hi]
  · intro i hi
    by_cases hp : i < p ∨ p + b.length ≤ i
    · rw [getElem?_writeAt_out (by omega) hp, getElem?_writeAt_out ha hi, getElem?_writeAt_out hb hp]
    · obtain ⟨j, rfl⟩ : ∃ j, i = p + j := ⟨i - p, by omega⟩
      rw [getElem?_writeAt_in (by omega) (by omega), getElem?_writeAt_in hb (by omega)]

/-- A store repeated from its beginning. -/
theorem writeAt_take {f d : Bytes} {o i j : Nat} (hd : o + d.length ≤ f.length) :
    writeAt (writeAt f o (d.take i)) o (d.take j) = writeAt f o (d.take (max i j)) := by
  have h1 : (d.take i).length ≤ d.length := by simp [List.length_take]; omega
  have h2 : (d.take j).length ≤ d.length := by simp [List.length_take]; omega
  have h3 : (d.take (max i j)).length ≤ d.length := by simp [List.length_take]; omega
  have hl := length_writeAt (bs := f) (off := o) (d := d.take i) (by omega)
  refine ext_writeAt (by omega) (by rw [length_writeAt (by omega)]; omega) ?_ ?_
  · intro k hk
    by_cases hkj : k < (d.take j).length
    · rw [getElem?_writeAt_in (by omega) hkj]
      rw [List.length_take] at hk hkj
      rw [List.getElem?_take, List.getElem?_take, if_pos (by omega), if_pos (by omega)]
    · rw [getElem?_writeAt_out (by omega) (by omega), getElem?_writeAt_in (by omega) (by
        rw [List.length_take] at hk hkj ⊢; omega)]
      rw [List.length_take] at hk hkj
      rw [List.getElem?_take, List.getElem?_take, if_pos (by omega), if_pos (by omega)]
  · intro k hk
    rw [List.length_take] at hk h1 h2
    rw [getElem?_writeAt_out (by rw [List.length_take]; omega) (by rw [List.length_take]; omega),
      getElem?_writeAt_out (by rw [List.length_take]; omega) (by rw [List.length_take]; omega)]

theorem modify_modify {α : Type} (l : List α) (k : Nat) (f g : α → α) :
    (l.modify k f).modify k g = l.modify k (g ∘ f) := by
  apply List.ext_getElem?
  intro i
  simp only [List.getElem?_modify]
  cases l[i]? <;> simp <;> split <;> simp

theorem modify_congr {α : Type} {l : List α} {k : Nat} {f g : α → α} (h : ∀ a, l[k]? = some a → f a = g a) :
    l.modify k f = l.modify k g := by
  apply List.ext_getElem?
  intro i
  simp only [List.getElem?_modify]
  by_cases hk : k = i
  · subst hk
    cases hl : l[k]? with
    | none => rfl
    | some a => simp [h a hl]
  · cases l[i]? <;> simp [hk]

theorem modify_modify_ne {α : Type} (l : List α) {k j : Nat} (f g : α → α) (h : k ≠ j) :
    (l.modify k f).modify j g = (l.modify j g).modify k f := by
  apply List.ext_getElem?
  intro i
  simp only [List.getElem?_modify]
  cases l[i]? with
  | none => simp
  | some a =>
    by_cases h1 : k = i <;> by_cases h2 : j = i <;> simp [h1, h2]
    omega

/-- The file of a store is there, and of this size. -/
def Sized (size k : Nat) (files : List Bytes) : Prop := ∃ f, files[k]? = some f ∧ f.length = size

theorem Sized.modify {size k : Nat} {files : List Bytes} (h : Sized size k files) {j : Nat} {g : Bytes → Bytes}
    (hg : j = k → ∀ f, f.length = size → (g f).length = size) : Sized size k (files.modify j g) := by
  obtain ⟨f, hf, hl⟩ := h
  unfold Sized
  rw [List.getElem?_modify, hf]
  by_cases hj : j = k
  · exact ⟨g f, by simp [hj], hg hj f hl⟩
  · exact ⟨f, by simp [hj], hl⟩

section
variable {size k off : Nat} {d d0 : Bytes} {e : Effect} {files files₁ : List Bytes}

theorem take_apart {size k off len len' : Nat} {k' off' j : Nat} {d : Bytes} (hl : len' ≤ len)
    (h : (Effect.store k' off' d).Apart size k off len) : (Effect.store k' off' (d.take j)).Apart size k off len' := by
  intro hk
  have := h hk
  rw [List.length_take]
  omega

theorem apart_le {len len' : Nat} (hl : len' ≤ len) (h : e.Apart size k off len) : e.Apart size k off len' := by
  cases e with
  | store k' off' d => intro hk; have := h hk; omega
  | setLen k' n => exact h
  | create => trivial

theorem sized_apply (h : Sized size k files) {len : Nat} (ha : e.Apart size k off len) :
    Sized size k (e.apply files) := by
  cases e with
  | store k' off' d =>
    exact h.modify fun hk f hf => by rw [length_writeAt (by have := ha hk; omega), hf]
  | setLen k' n => exact h.modify fun hk => absurd hk ha
  | create =>
    obtain ⟨f, hf, hl⟩ := h
    exact ⟨f, by simp only [Effect.apply]; rw [List.getElem?_append_left (List.getElem?_eq_some_iff.1 hf).1, hf], hl⟩

theorem sized_cut (h : Sized size k files) {len : Nat} (ha : e.Apart size k off len) (hc : e.Cut files files₁) :
    Sized size k files₁ := by
  cases e with
  | store k' off' d =>
    obtain ⟨j, rfl⟩ := hc
    exact sized_apply (e := .store k' off' (d.take j)) h (take_apart (Nat.le_refl _) ha)
  | setLen k' n => rw [hc]; exact h
  | create => rw [hc]; exact h

theorem sized_junk {c : Nat × Nat × Bytes} (h : Sized size k files) (hc : c.2.1 + c.2.2.length ≤ size) :
    Sized size k (junk files c) :=
  h.modify fun _ f hf => by rw [length_writeAt (by omega), hf]

theorem apply_junk (h : Sized size k files) (hd : off + d.length ≤ size) (ha : e.Apart size k off d.length) :
    e.apply (junk files (k, off, d)) = junk (e.apply files) (k, off, d) := by
  cases e with
  | store k' off' d' =>
    simp only [Effect.apply, junk]
    by_cases hk : k' = k
    · subst hk
      obtain ⟨f, hf, hl⟩ := h
      have := ha rfl
      rw [modify_modify, modify_modify]
      refine modify_congr fun a h1 => ?_
      obtain rfl := Option.some.inj (hf.symm.trans h1)
      exact writeAt_comm (by omega) (by omega) (by omega)
    · exact modify_modify_ne _ _ _ fun h => hk h.symm
  | setLen k' n => exact modify_modify_ne _ _ _ fun h => ha h.symm
  | create =>
    obtain ⟨f, hf, hl⟩ := h
    have hk := (List.getElem?_eq_some_iff.1 hf).1
    simp only [Effect.apply, junk]
    apply List.ext_getElem?
    intro i
    simp only [List.getElem?_modify, List.getElem?_append, List.length_modify]
    by_cases hi : i < files.length
    · simp [hi]
    · have : k ≠ i := by omega
      simp [hi, this]

theorem cut_junk (h : Sized size k files) (hd : off + d.length ≤ size) (ha : e.Apart size k off d.length)
    (hc : e.Cut files files₁) : e.Cut (junk files (k, off, d)) (junk files₁ (k, off, d)) := by
  cases e with
  | store k' off' d' =>
    obtain ⟨j, rfl⟩ := hc
    exact ⟨j, (apply_junk (e := .store k' off' (d'.take j)) h hd (take_apart (Nat.le_refl _) ha)).symm⟩
  | setLen k' n => exact congrArg (junk · (k, off, d)) (hc : files₁ = files)
  | create => exact congrArg (junk · (k, off, d)) (hc : files₁ = files)

end

/-! ### A thread with the lock and others without -/

theorem killed_none (files : List Bytes) (es : List Effect) : KilledDuring files es files := by
  cases es with
  | nil => exact .done
  | cons e es =>
    refine .cut ?_
    cases e with
    | store k off d =>
      refine ⟨0, ?_⟩
      have : (fun f => writeAt f off (d.take 0)) = id := by
        funext f
        simp [writeAt]
      rw [this]
      apply List.ext_getElem?
      intro i
      simp [List.getElem?_modify]
    | setLen k n => rfl
    | create => rfl

/-- A store begun is begun again. -/
theorem killed_again {files files₁ files' : List Bytes} {e : Effect} {es : List Effect}
    (hr : ∀ k off d, e = .store k off d → ∀ f, files[k]? = some f → off + d.length ≤ f.length)
    (hc : e.Cut files files₁) (h : KilledDuring files₁ (e :: es) files') : KilledDuring files (e :: es) files' := by
  cases e with
  | store k off d =>
    obtain ⟨i, rfl⟩ := hc
    have hr := hr k off d rfl
    cases h with
    | cut h =>
      obtain ⟨j, rfl⟩ := h
      refine .cut ⟨max i j, ?_⟩
      rw [modify_modify]
      exact modify_congr fun a ha => writeAt_take (hr a ha)
    | next h =>
      refine .next ?_
      have : (Effect.store k off d).apply (files.modify k fun f => writeAt f off (d.take i)) =
          (Effect.store k off d).apply files := by
        simp only [Effect.apply]
        rw [modify_modify]
        refine modify_congr fun a ha => ?_
        have h1 := writeAt_take (i := i) (j := d.length) (hr a ha)
        rw [List.take_length, List.take_of_length_le (Nat.le_max_right _ _)] at h1
        exact h1
      rw [this] at h
      exact h
  | setLen k n => rw [(hc : files₁ = files)] at h; exact h
  | create => rw [(hc : files₁ = files)] at h; exact h

/-- The stores of the effects stay within the files. -/
def Within : List Bytes → List Effect → Prop
  | _, [] => True
  | files, e :: es =>
    (∀ k off d, e = .store k off d → ∀ f, files[k]? = some f → off + d.length ≤ f.length) ∧
      Within (e.apply files) es

/-! ### What depends on the lengths of the files only -/

def lens (files : List Bytes) : List Nat := files.map List.length

theorem lens_get {files files₁ : List Bytes} (h : lens files₁ = lens files) {k : Nat} {f : Bytes}
    (hf : files[k]? = some f) : ∃ g, files₁[k]? = some g ∧ g.length = f.length := by
  have h1 : (lens files₁)[k]? = (lens files)[k]? := by rw [h]
  simp only [lens, List.getElem?_map, hf, Option.map_some] at h1
  obtain ⟨g, hg, hl⟩ := Option.map_eq_some_iff.1 h1
  exact ⟨g, hg, hl⟩

theorem lens_set (files : List Bytes) (k : Nat) (f : Bytes) : lens (files.set k f) = (lens files).set k f.length := by
  simp [lens]

theorem lens_modify {files files₁ : List Bytes} (h : lens files₁ = lens files) (k : Nat) {p : Bytes → Bytes}
    (hp : ∀ f g, g.length = f.length → (p g).length = (p f).length) :
    lens (files₁.modify k p) = lens (files.modify k p) := by
  apply List.ext_getElem?
  intro i
  have h1 : (lens files₁)[i]? = (lens files)[i]? := by rw [h]
  simp only [lens, List.getElem?_map, List.getElem?_modify] at h1 ⊢
  cases hf : files[i]? with
  | none =>
    rw [hf] at h1
    cases hg : files₁[i]? with
    | none => rfl
    | some g => simp [hg] at h1
  | some f =>
    rw [hf] at h1
    cases hg : files₁[i]? with
    | none => simp [hg] at h1
    | some g =>
      simp only [hg, Option.map_some, Option.some.injEq] at h1
      by_cases hk : k = i
      · simp [hk, hp f g h1]
      · simp [hk, h1]

theorem length_writeAt_congr {f g d : Bytes} {o : Nat} (h : g.length = f.length) :
    (writeAt g o d).length = (writeAt f o d).length := by
  simp [writeAt, h]

theorem length_setLen_congr {f g : Bytes} {n : Nat} (h : g.length = f.length) :
    (setLen g n).length = (setLen f n).length := by
  simp [setLen, h]

theorem lens_apply {files files₁ : List Bytes} (h : lens files₁ = lens files) (e : Effect) :
    lens (e.apply files₁) = lens (e.apply files) := by
  cases e with
  | store k off d => exact lens_modify h k fun f g => length_writeAt_congr
  | setLen k n => exact lens_modify h k fun f g => length_setLen_congr
  | create =>
    have := congrArg (· ++ [0]) h
    simpa [lens, Effect.apply] using this

theorem Within.congr {es : List Effect} : ∀ {files files₁ : List Bytes}, lens files₁ = lens files →
    Within files es → Within files₁ es := by
  induction es with
  | nil => intros; trivial
  | cons e es ih =>
    intro files files₁ h hw
    refine ⟨fun k off d he f hf => ?_, ih (lens_apply h e) hw.2⟩
    obtain ⟨g, hg, hl⟩ := lens_get h.symm hf
    have := hw.1 k off d he g hg
    omega

theorem Within.append {a b : List Effect} : ∀ {files : List Bytes}, Within files a →
    Within (a.foldl Effect.apply files) b → Within files (a ++ b) := by
  induction a with
  | nil => intro files _ h; exact h
  | cons e a ih => intro files h h'; exact ⟨h.1, ih h.2 h'⟩

theorem lens_cut {files files₁ : List Bytes} {e : Effect}
    (hr : ∀ k off d, e = .store k off d → ∀ f, files[k]? = some f → off + d.length ≤ f.length)
    (hc : e.Cut files files₁) : lens files₁ = lens files := by
  cases e with
  | store k off d =>
    obtain ⟨j, rfl⟩ := hc
    have hr := hr k off d rfl
    apply List.ext_getElem?
    intro i
    simp only [lens, List.getElem?_map, List.getElem?_modify]
    by_cases hk : k = i
    · subst hk
      cases hf : files[k]? with
      | none => rfl
      | some f =>
        have h1 := hr f hf
        have h2 : (d.take j).length ≤ d.length := by rw [List.length_take]; omega
        simp [length_writeAt (bs := f) (off := off) (d := d.take j) (by omega)]
    · cases files[i]? <;> simp [hk]
  | setLen k n => rw [(hc : files₁ = files)]
  | create => rw [(hc : files₁ = files)]

theorem lens_junk {files : List Bytes} {size : Nat} {c : Nat × Nat × Bytes} (h : Sized size c.1 files)
    (hd : c.2.1 + c.2.2.length ≤ size) : lens (junk files c) = lens files := by
  obtain ⟨f, hf, hl⟩ := h
  refine lens_cut (e := .store c.1 c.2.1 c.2.2) ?_ ⟨c.2.2.length, by rw [List.take_length]; rfl⟩
  intro k off d he g hg
  cases he
  obtain rfl := Option.some.inj (hf.symm.trans hg)
  omega

/-! ### The reduction -/

/-- Threads of which the first has these effects and the others make stores apart from them: everything
they store can be stored before the first one begins. -/
theorem together_first {size : Nat} {Other : Effect → Prop} {files files' : List Bytes} {ths : List (List Effect)}
    (h : KilledTogether files ths files') : ∀ {es : List Effect}, ths[0]? = some es →
    (∀ (i : Nat) (r : List Effect), 0 < i → ths[i]? = some r → ∀ e ∈ r, Other e) →
    (∀ e, Other e → ∃ k off d, e = .store k off d ∧ off + d.length ≤ size ∧ Sized size k files ∧
      ∀ e' ∈ es, e'.Apart size k off d.length) →
    Within files es →
    ∃ cs : List (Nat × Nat × Bytes), (∀ c ∈ cs, ∃ d, Other (.store c.1 c.2.1 d) ∧ c.2.2 <+: d) ∧
      KilledDuring (cs.foldl junk files) es files' := by
  -- what the others store commutes with the effects of the first thread
  have comm : ∀ (cs : List (Nat × Nat × Bytes)) (files : List Bytes) (e : Effect),
      (∀ c ∈ cs, ∃ d, Other (.store c.1 c.2.1 d) ∧ c.2.2 <+: d) →
      (∀ e', Other e' → ∃ k off d, e' = .store k off d ∧ off + d.length ≤ size ∧ Sized size k files ∧
        e.Apart size k off d.length) →
      e.apply (cs.foldl junk files) = cs.foldl junk (e.apply files) ∧
        ∀ files₁, e.Cut files files₁ → e.Cut (cs.foldl junk files) (cs.foldl junk files₁) := by
    intro cs
    induction cs with
    | nil => intro files e _ _; exact ⟨rfl, fun _ h => h⟩
    | cons c cs ih =>
      intro files e hcs hO
      obtain ⟨d0, ho, hp⟩ := hcs c (by simp)
      obtain ⟨k, off, d, he, hd, hsz, hap⟩ := hO _ ho
      cases he
      have hpl := hp.length_le
      have hap' := apart_le hpl hap
      have hstep := ih (junk files c) e (fun c hc => hcs c (by simp [hc])) (fun e' he' => by
        obtain ⟨k2, off2, d2, e2, h2, s2, a2⟩ := hO e' he'
        exact ⟨k2, off2, d2, e2, h2, sized_junk s2 (by omega), a2⟩)
      have h1 := apply_junk (e := e) hsz (d := c.2.2) (by omega) hap'
      refine ⟨?_, fun files₁ hc => ?_⟩
      · simp only [List.foldl_cons]
        rw [hstep.1]
        exact congrArg (List.foldl junk · cs) h1
      · simp only [List.foldl_cons]
        exact hstep.2 _ (cut_junk (off := c.2.1) (d := c.2.2) hsz (by omega) hap' hc)
  have lensJ : ∀ (cs : List (Nat × Nat × Bytes)) (files : List Bytes),
      (∀ c ∈ cs, ∃ d, Other (.store c.1 c.2.1 d) ∧ c.2.2 <+: d) →
      (∀ e', Other e' → ∃ k off d, e' = .store k off d ∧ off + d.length ≤ size ∧ Sized size k files) →
      lens (cs.foldl junk files) = lens files := by
    intro cs
    induction cs with
    | nil => intros; rfl
    | cons c cs ih =>
      intro files hcs hO
      obtain ⟨d0, ho, hp⟩ := hcs c (by simp)
      obtain ⟨k, off, d, he, hd, hsz⟩ := hO _ ho
      cases he
      have hpl := hp.length_le
      simp only [List.foldl_cons]
      rw [ih (junk files c) (fun c hc => hcs c (by simp [hc])) (fun e' he' => by
        obtain ⟨k2, off2, d2, e2, h2, s2⟩ := hO e' he'
        exact ⟨k2, off2, d2, e2, h2, sized_junk s2 (by omega)⟩)]
      exact lens_junk hsz (by omega)
  induction h with
  | kill =>
    intro es _ _ _ _
    exact ⟨[], by simp, killed_none _ _⟩
  | @part files files₁ files' ths i e r hi hc h ih =>
    intro es h0 hrest hO hw
    by_cases hi0 : i = 0
    · subst hi0
      obtain rfl : e :: r = es := Option.some.inj (hi.symm.trans h0)
      have hl := lens_cut hw.1 hc
      obtain ⟨cs, hcs, hk⟩ := ih h0 hrest (fun e' he' => by
        obtain ⟨k, off, d, e1, h1, s1, a1⟩ := hO e' he'
        exact ⟨k, off, d, e1, h1, sized_cut s1 (a1 e (by simp)) hc, a1⟩) (hw.congr hl)
      refine ⟨cs, hcs, ?_⟩
      have hcm := (comm cs files e hcs (fun e' he' => by
        obtain ⟨k, off, d, e1, h1, s1, a1⟩ := hO e' he'
        exact ⟨k, off, d, e1, h1, s1, a1 e (by simp)⟩)).2 _ hc
      have hlj := lensJ cs files hcs (fun e' he' => by
        obtain ⟨k, off, d, e1, h1, s1, a1⟩ := hO e' he'
        exact ⟨k, off, d, e1, h1, s1⟩)
      exact killed_again (hw.congr hlj).1 hcm hk
    · have ho := hrest i _ (by omega) hi e (by simp)
      obtain ⟨k, off, d, rfl, hd, hsz, hap⟩ := hO e ho
      obtain ⟨j, rfl⟩ := hc
      have hlen : (d.take j).length ≤ d.length := by rw [List.length_take]; omega
      have hl : lens (junk files (k, off, d.take j)) = lens files := lens_junk hsz (by show off + (d.take j).length ≤ size; omega)
      obtain ⟨cs, hcs, hk⟩ := ih h0 hrest (fun e' he' => by
        obtain ⟨k2, off2, d2, e1, h1, s1, a1⟩ := hO e' he'
        exact ⟨k2, off2, d2, e1, h1, sized_junk (c := (k, off, d.take j)) s1 (by show off + (d.take j).length ≤ size; omega), a1⟩) (hw.congr hl)
      refine ⟨(k, off, d.take j) :: cs, ?_, hk⟩
      intro c hc
      rcases List.mem_cons.1 hc with rfl | hc
      · exact ⟨d, ho, List.take_prefix _ _⟩
      · exact hcs c hc
  | @next files files' ths i e r hi h ih =>
    intro es h0 hrest hO hw
    have hilt := (List.getElem?_eq_some_iff.1 hi).1
    by_cases hi0 : i = 0
    · subst hi0
      obtain rfl : e :: r = es := Option.some.inj (hi.symm.trans h0)
      obtain ⟨cs, hcs, hk⟩ := ih (es := r) (by rw [List.getElem?_set_self hilt]) (fun i r' hi' hr' => by
          rw [List.getElem?_set_ne (by omega)] at hr'
          exact hrest i r' hi' hr') (fun e' he' => by
        obtain ⟨k, off, d, e1, h1, s1, a1⟩ := hO e' he'
        exact ⟨k, off, d, e1, h1, sized_apply s1 (a1 e (by simp)), fun e2 h2 => a1 e2 (by simp [h2])⟩) hw.2
      refine ⟨cs, hcs, .next ?_⟩
      rw [(comm cs files e hcs (fun e' he' => by
        obtain ⟨k, off, d, e1, h1, s1, a1⟩ := hO e' he'
        exact ⟨k, off, d, e1, h1, s1, a1 e (by simp)⟩)).1]
      exact hk
    · have ho := hrest i _ (by omega) hi e (by simp)
      obtain ⟨k, off, d, rfl, hd, hsz, hap⟩ := hO e ho
      have hl : lens (junk files (k, off, d)) = lens files := lens_junk hsz hd
      obtain ⟨cs, hcs, hk⟩ := ih (es := es) (by rw [List.getElem?_set_ne hi0]; exact h0) (fun i' r' hi' hr' e' he' => by
          by_cases hii : i = i'
          · subst hii
            rw [List.getElem?_set_self hilt] at hr'
            cases hr'
            exact hrest i _ hi' hi e' (by simp [he'])
          · rw [List.getElem?_set_ne hii] at hr'
            exact hrest i' r' hi' hr' e' he') (fun e' he' => by
        obtain ⟨k2, off2, d2, e1, h1, s1, a1⟩ := hO e' he'
        exact ⟨k2, off2, d2, e1, h1, sized_junk (c := (k, off, d)) s1 hd, a1⟩) (hw.congr hl)
      refine ⟨(k, off, d) :: cs, ?_, hk⟩
      intro c hc
      rcases List.mem_cons.1 hc with rfl | hc
      · exact ⟨d, ho, List.prefix_refl _⟩
      · exact hcs c hc

end ULog
end Verif
