import Verif.Spec.PointCloud
/-! Correctness of the sort of point clouds. -/
namespace Verif
namespace PointCloud
open Bincode

section
variable {α : Type}

/-- Exchange two elements. -/
def sw (l : List α) (a b : Nat) : List α :=
  match l[a]?, l[b]? with
  | some va, some vb => (l.set a vb).set b va
  | _, _ => l

theorem sw_eq {l : List α} {a b : Nat} (ha : a < l.length) (hb : b < l.length) :
    sw l a b = (l.set a l[b]).set b l[a] := by
  unfold sw
  rw [List.getElem?_eq_getElem ha, List.getElem?_eq_getElem hb]

@[simp] theorem sw_length (l : List α) (a b : Nat) : (sw l a b).length = l.length := by
  unfold sw; split <;> simp

theorem sw_perm {l : List α} {a b : Nat} (ha : a < l.length) (hb : b < l.length) :
    (sw l a b).Perm l := by
  rw [sw_eq ha hb]
  exact List.set_set_perm ha hb

theorem sw_get {l : List α} {a b : Nat} (ha : a < l.length) (hb : b < l.length) (m : Nat) :
    (sw l a b)[m]? = if m = b then l[a]? else if m = a then l[b]? else l[m]? := by
  rw [sw_eq ha hb]
  by_cases h1 : m = b
  · subst h1
    rw [if_pos rfl, List.getElem?_set_self (by simpa using hb), List.getElem?_eq_getElem ha]
  · rw [if_neg h1, List.getElem?_set_ne (Ne.symm h1)]
    by_cases h2 : m = a
    · subst h2; rw [if_pos rfl, List.getElem?_set_self ha, List.getElem?_eq_getElem hb]
    · rw [if_neg h2, List.getElem?_set_ne (Ne.symm h2)]

theorem swapAt_map {β : Type} (f : α → β) {l : List α} {a b : Nat} (ha : a < l.length)
    (hb : b < l.length) : swapAt (l.map f) a b = .ok ((sw l a b).map f) := by
  unfold swapAt
  rw [List.getElem?_map, List.getElem?_map, List.getElem?_eq_getElem ha, List.getElem?_eq_getElem hb,
    sw_eq ha hb]
  simp [List.map_set]

end

/-- The cloud with these rows. -/
def ofRows (len : Nat) (ret : List UInt8) (l : List Row) : Cloud :=
  ⟨len, l.map (·.1), l.map (·.2.1), l.map (·.2.2.1), l.map (·.2.2.2.1), l.map (·.2.2.2.2), ret⟩

theorem swap_ofRows {len : Nat} {ret : List UInt8} {l : List Row} {a b : Nat} (ha : a < l.length)
    (hb : b < l.length) : (ofRows len ret l).swap a b = .ok (ofRows len ret (sw l a b)) := by
  unfold Cloud.swap ofRows
  simp only [swapAt_map _ ha hb]
  rfl

theorem tov_ofRows {len : Nat} {ret : List UInt8} {l : List Row} (m : Nat) :
    (ofRows len ret l).tov[m]? = l[m]?.map (·.1) := by
  simp [ofRows]

/-- `l'` differs from `l` only by a rearrangement of the elements from `low` to below `high`. -/
structure Rearranged (low high : Nat) (l l' : List Row) : Prop where
  perm : l'.Perm l
  length : l'.length = l.length
  outside : ∀ m, m < low ∨ high ≤ m → l'[m]? = l[m]?
  inside : ∀ m r, low ≤ m → m < high → l'[m]? = some r → ∃ k, low ≤ k ∧ k < high ∧ l[k]? = some r

theorem Rearranged.refl (low high : Nat) (l : List Row) : Rearranged low high l l :=
  ⟨List.Perm.refl l, rfl, fun _ _ => rfl, fun m r h1 h2 h3 => ⟨m, h1, h2, h3⟩⟩

theorem Rearranged.trans {low high : Nat} {l l' l'' : List Row} (h : Rearranged low high l l')
    (h' : Rearranged low high l' l'') : Rearranged low high l l'' := by
  refine ⟨h'.perm.trans h.perm, h'.length.trans h.length,
    fun m hm => (h'.outside m hm).trans (h.outside m hm), ?_⟩
  intro m r h1 h2 h3
  obtain ⟨k, h4, h5, h6⟩ := h'.inside m r h1 h2 h3
  exact h.inside k r h4 h5 h6

theorem Rearranged.mono {low high low' high' : Nat} {l l' : List Row} (h : Rearranged low high l l')
    (h1 : low' ≤ low) (h2 : high ≤ high') : Rearranged low' high' l l' := by
  refine ⟨h.perm, h.length, fun m hm => h.outside m (by omega), ?_⟩
  intro m r h3 h4 h5
  by_cases hm : low ≤ m ∧ m < high
  · obtain ⟨k, h6, h7, h8⟩ := h.inside m r hm.1 hm.2 h5
    exact ⟨k, by omega, by omega, h8⟩
  · rw [h.outside m (by omega)] at h5
    exact ⟨m, h3, h4, h5⟩

theorem rearranged_sw {low high a b : Nat} {l : List Row} (ha : low ≤ a) (hb : low ≤ b) (ha' : a < high)
    (hb' : b < high) (hl : high ≤ l.length) : Rearranged low high l (sw l a b) := by
  have h1 : a < l.length := by omega
  have h2 : b < l.length := by omega
  refine ⟨sw_perm h1 h2, sw_length l a b, ?_, ?_⟩
  · intro m hm
    rw [sw_get h1 h2, if_neg (by omega), if_neg (by omega)]
  · intro m r h3 h4 h5
    rw [sw_get h1 h2] at h5
    split at h5
    · exact ⟨a, ha, ha', h5⟩
    · split at h5
      · exact ⟨b, hb, hb', h5⟩
      · exact ⟨m, h3, h4, h5⟩

theorem partLoop_spec {len : Nat} {ret : List UInt8} {pivot : UInt64} {low high : Nat} (k : Nat) :
    ∀ {j i : Nat} {l : List Row}, j + k = high → low ≤ i → i ≤ j → high ≤ l.length →
    (∀ m r, low ≤ m → m < i → l[m]? = some r → r.1 ≤ pivot) →
    (∀ m r, i ≤ m → m < j → l[m]? = some r → pivot < r.1) →
    ∃ l' i', partLoop pivot k j i (ofRows len ret l) = .ok (ofRows len ret l', i') ∧
      low ≤ i' ∧ i' ≤ high ∧ Rearranged low high l l' ∧
      (∀ m r, low ≤ m → m < i' → l'[m]? = some r → r.1 ≤ pivot) ∧
      (∀ m r, i' ≤ m → m < high → l'[m]? = some r → pivot < r.1) := by
  induction k with
  | zero =>
    intro j i l h1 h2 h3 h4 h5 h6
    exact ⟨l, i, rfl, h2, by omega, .refl _ _ _, h5, fun m r a b c => h6 m r a (by omega) c⟩
  | succ k ih =>
    intro j i l h1 h2 h3 h4 h5 h6
    have hj : j < l.length := by omega
    unfold partLoop
    rw [tov_ofRows, List.getElem?_eq_getElem hj]
    simp only [Option.map_some]
    by_cases hle : l[j].1 ≤ pivot
    · rw [if_pos hle, swap_ofRows (by omega) hj]
      simp only
      have hil : i < l.length := by omega
      obtain ⟨l', i', g1, g2, g3, g4, g5, g6⟩ := ih (j := j + 1) (i := i + 1) (l := sw l i j) (by omega)
        (by omega) (by omega) (by simpa using h4)
        (by
          intro m r a b c
          rw [sw_get hil hj] at c
          by_cases hmi : m = i
          · have : r = l[j] := by
              split at c
              · rename_i hmj
                have : i = j := by omega
                subst this
                rw [List.getElem?_eq_getElem hil] at c
                injection c with c; exact c.symm
              · rw [List.getElem?_eq_getElem hj] at c
                injection c with c; exact c.symm
            rw [this]; exact hle
          · rw [if_neg (by omega), if_neg hmi] at c
            exact h5 m r a (by omega) c)
        (by
          intro m r a b c
          rw [sw_get hil hj] at c
          split at c
          · rename_i hmj
            exact h6 i r (Nat.le_refl _) (by omega) c
          · rw [if_neg (by omega)] at c
            exact h6 m r (by omega) (by omega) c)
      exact ⟨l', i', g1, g2, g3, (rearranged_sw (by omega) (by omega) (by omega) (by omega) h4).trans g4,
        g5, g6⟩
    · rw [if_neg hle]
      refine ih (by omega) h2 (by omega) h4 h5 ?_
      intro m r a b c
      by_cases hmj : m = j
      · subst hmj
        rw [List.getElem?_eq_getElem hj] at c
        injection c with c
        rw [← c]
        exact UInt64.not_le.1 hle
      · exact h6 m r a (by omega) c

theorem partition_spec {len : Nat} {ret : List UInt8} {low high : Nat} {l : List Row} (hlh : low < high)
    (hl : high < l.length) :
    ∃ l' p, (ofRows len ret l).partition low high = .ok (ofRows len ret l', p) ∧
      low ≤ p ∧ p ≤ high ∧ Rearranged low (high + 1) l l' ∧
      ∃ pivot : UInt64, (∀ r, l'[p]? = some r → r.1 = pivot) ∧
        (∀ m r, low ≤ m → m < p → l'[m]? = some r → r.1 ≤ pivot) ∧
        (∀ m r, p < m → m ≤ high → l'[m]? = some r → pivot < r.1) := by
  unfold Cloud.partition
  rw [tov_ofRows, List.getElem?_eq_getElem hl]
  simp only [Option.map_some]
  obtain ⟨l1, i, h1, h2, h3, h4, h5, h6⟩ := partLoop_spec (len := len) (ret := ret) (pivot := l[high].1)
    (low := low) (high := high) (high - low) (j := low) (i := low) (l := l) (by omega) (Nat.le_refl _)
    (Nat.le_refl _) (by omega) (fun m r a b => by omega) (fun m r a b => by omega)
  rw [h1]
  simp only
  have hl1 := h4.length
  have hi : i < l1.length := by omega
  have hh : high < l1.length := by omega
  rw [swap_ofRows hi hh]
  refine ⟨_, i, rfl, h2, h3, (h4.mono (Nat.le_refl _) (Nat.le_succ _)).trans
    (rearranged_sw h2 (by omega) (by omega) (by omega) (by omega)), l[high].1, ?_, ?_, ?_⟩
  · intro r hr
    have hlast : l1[high]? = some l[high] := by
      rw [h4.outside high (by omega), List.getElem?_eq_getElem hl]
    rw [sw_get hi hh] at hr
    split at hr
    · rename_i he
      rw [he, hlast] at hr
      injection hr with hr; rw [← hr]
    · rw [if_pos rfl, hlast] at hr
      injection hr with hr; rw [← hr]
  · intro m r a b c
    rw [sw_get hi hh, if_neg (by omega), if_neg (by omega)] at c
    exact h5 m r a b c
  · intro m r a b c
    rw [sw_get hi hh] at c
    split at c
    · exact h6 i r (Nat.le_refl _) (by omega) c
    · rw [if_neg (by omega)] at c
      exact h6 m r (by omega) (by omega) c

theorem quicksort_spec {len : Nat} {ret : List UInt8} (fuel : Nat) :
    ∀ {low high : Nat} {l : List Row}, high < l.length → high - low < fuel →
    ∃ l', quicksort fuel low high (ofRows len ret l) = .ok (ofRows len ret l') ∧
      Rearranged low (high + 1) l l' ∧
      ∀ a b ra rb, low ≤ a → a ≤ b → b ≤ high → l'[a]? = some ra → l'[b]? = some rb → ra.1 ≤ rb.1 := by
  induction fuel with
  | zero => intro low high l _ h; omega
  | succ fuel ih =>
    intro low high l hl hf
    unfold quicksort
    by_cases hlh : low < high
    · rw [if_pos hlh]
      obtain ⟨l1, p, h1, h2, h3, h4, pivot, h5, h6, h7⟩ := partition_spec (len := len) (ret := ret) hlh hl
      rw [h1]
      simp only
      have hl1 := h4.length
      -- the left part
      have left : ∃ l2, (if p > 0 then quicksort fuel low (p - 1) (ofRows len ret l1)
            else .ok (ofRows len ret l1)) = .ok (ofRows len ret l2) ∧
          Rearranged low p l1 l2 ∧
          ∀ a b ra rb, low ≤ a → a ≤ b → b < p → l2[a]? = some ra → l2[b]? = some rb → ra.1 ≤ rb.1 := by
        by_cases hp : p > 0
        · rw [if_pos hp]
          obtain ⟨l2, g1, g2, g3⟩ := ih (low := low) (high := p - 1) (l := l1) (by omega) (by omega)
          rw [Nat.sub_add_cancel hp] at g2
          exact ⟨l2, g1, g2, fun a b ra rb c d e => g3 a b ra rb c d (by omega)⟩
        · rw [if_neg hp]
          exact ⟨l1, rfl, .refl _ _ _, fun a b ra rb c d e => by omega⟩
      obtain ⟨l2, g1, g2, g3⟩ := left
      rw [g1]
      simp only
      have hl2 := g2.length
      obtain ⟨l3, e1, e2, e3⟩ := ih (low := p + 1) (high := high) (l := l2) (by omega) (by omega)
      refine ⟨l3, e1, (h4.trans (g2.mono (Nat.le_refl _) (by omega))).trans
        (e2.mono (by omega) (Nat.le_refl _)), ?_⟩
      have kp : ∀ r, l3[p]? = some r → r.1 = pivot := by
        intro r hr
        rw [e2.outside p (by omega), g2.outside p (by omega)] at hr
        exact h5 r hr
      have kl : ∀ m r, low ≤ m → m < p → l3[m]? = some r → r.1 ≤ pivot := by
        intro m r a b hr
        rw [e2.outside m (by omega)] at hr
        obtain ⟨k, c1, c2, c3⟩ := g2.inside m r a b hr
        exact h6 k r c1 c2 c3
      have kr : ∀ m r, p < m → m ≤ high → l3[m]? = some r → pivot < r.1 := by
        intro m r a b hr
        obtain ⟨k, c1, c2, c3⟩ := e2.inside m r (by omega) (by omega) hr
        rw [g2.outside k (by omega)] at c3
        exact h7 k r (by omega) (by omega) c3
      intro a b ra rb c1 c2 c3 ha hb
      rcases Nat.lt_trichotomy a p with hap | hap | hap
      · rcases Nat.lt_trichotomy b p with hbp | hbp | hbp
        · rw [e2.outside a (by omega)] at ha
          rw [e2.outside b (by omega)] at hb
          exact g3 a b ra rb c1 c2 hbp ha hb
        · subst hbp
          rw [kp rb hb]; exact kl a ra c1 hap ha
        · exact UInt64.le_trans (kl a ra c1 hap ha) (UInt64.le_of_lt (kr b rb hbp c3 hb))
      · subst hap
        rcases Nat.lt_or_ge a b with hbp | hbp
        · rw [kp ra ha]; exact UInt64.le_of_lt (kr b rb hbp c3 hb)
        · have : a = b := by omega
          subst this
          rw [ha] at hb; injection hb with hb; rw [hb]; exact UInt64.le_refl _
      · exact e3 a b ra rb (by omega) c2 c3 ha hb
    · rw [if_neg hlh]
      refine ⟨l, rfl, .refl _ _ _, ?_⟩
      intro a b ra rb c1 c2 c3 ha hb
      have : a = b := by omega
      subst this
      rw [ha] at hb; injection hb with hb; rw [hb]; exact UInt64.le_refl _

theorem rows_ofRows (len : Nat) (ret : List UInt8) (l : List Row) : (ofRows len ret l).rows = l := by
  unfold Cloud.rows ofRows
  simp only [List.zip_map']
  simp

theorem ofRows_rows {n : Nat} {c : Cloud} (h : c.Sized n) : ofRows c.len c.returnOrder c.rows = c := by
  obtain ⟨len, tov, x, y, z, i, ret⟩ := c
  obtain ⟨h1, h2, h3, h4, h5, h6⟩ := h
  simp only at h1 h2 h3 h4 h5 h6
  unfold Cloud.rows ofRows
  simp only [Cloud.mk.injEq, true_and, and_true]
  have e4 : (z.zip i).map Prod.fst = z := List.map_fst_zip (by omega)
  have e5 : (z.zip i).map Prod.snd = i := List.map_snd_zip (by omega)
  have l4 : (z.zip i).length = n := by simp [h4, h5]
  have e3 : (y.zip (z.zip i)).map Prod.fst = y := List.map_fst_zip (by omega)
  have e3' : (y.zip (z.zip i)).map Prod.snd = z.zip i := List.map_snd_zip (by omega)
  have l3 : (y.zip (z.zip i)).length = n := by simp [h3, h4, h5]
  have e2 : (x.zip (y.zip (z.zip i))).map Prod.fst = x := List.map_fst_zip (by omega)
  have e2' : (x.zip (y.zip (z.zip i))).map Prod.snd = y.zip (z.zip i) := List.map_snd_zip (by omega)
  have l2 : (x.zip (y.zip (z.zip i))).length = n := by simp [h2, h3, h4, h5]
  have e1 : (tov.zip (x.zip (y.zip (z.zip i)))).map Prod.fst = tov := List.map_fst_zip (by omega)
  have e1' : (tov.zip (x.zip (y.zip (z.zip i)))).map Prod.snd = x.zip (y.zip (z.zip i)) :=
    List.map_snd_zip (by omega)
  have comp : ∀ {α β γ : Type} (l : List α) (f : α → β) (g : β → γ),
      l.map (fun a => g (f a)) = (l.map f).map g := by intros; simp
  refine ⟨e1, ?_, ?_, ?_, ?_⟩
  · exact (comp _ Prod.snd Prod.fst).trans (by rw [e1', e2])
  · refine (comp _ Prod.snd (fun q : F32 × F32 × F32 × F32 => q.2.1)).trans ?_
    rw [e1']
    exact (comp _ Prod.snd Prod.fst).trans (by rw [e2', e3])
  · refine (comp _ Prod.snd (fun q : F32 × F32 × F32 × F32 => q.2.2.1)).trans ?_
    rw [e1']
    refine (comp _ Prod.snd (fun q : F32 × F32 × F32 => q.2.1)).trans ?_
    rw [e2']
    exact (comp _ Prod.snd Prod.fst).trans (by rw [e3', e4])
  · refine (comp _ Prod.snd (fun q : F32 × F32 × F32 × F32 => q.2.2.2)).trans ?_
    rw [e1']
    refine (comp _ Prod.snd (fun q : F32 × F32 × F32 => q.2.2)).trans ?_
    rw [e2']
    exact (comp _ Prod.snd Prod.snd).trans (by rw [e3', e5])

end PointCloud
end Verif
