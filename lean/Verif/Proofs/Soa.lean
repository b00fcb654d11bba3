import Verif.Spec.Soa
import Verif.Proofs.Bincode
/-! The structure-of-arrays container refines a bounded list of records. -/
namespace Verif
namespace Soa
open Bincode
variable {V σ : Type}

/-- The arrays hold these records. -/
structure Holds (n k : Nat) (s : Soa V) (rows : List (List V)) : Prop where
  len : s.len = rows.length
  fits : rows.length ≤ n
  fields : s.cols.length = k
  caps : ∀ c ∈ s.cols, c.length = n
  width : ∀ r ∈ rows, r.length = k
  cell : ∀ (i : Nat) r, rows[i]? = some r → ∀ (f : Nat) c, s.cols[f]? = some c → c[i]? = r[f]?

theorem readRow_spec {i : Nat} {cols : List (List V)} (h : ∀ c ∈ cols, i < c.length) :
    ∃ r, readRow i cols = .ok r ∧ r.length = cols.length ∧
      ∀ (f : Nat) c, cols[f]? = some c → c[i]? = r[f]? := by
  induction cols with
  | nil => exact ⟨[], rfl, rfl, by simp⟩
  | cons c cs ih =>
    obtain ⟨r, h1, h2, h3⟩ := ih (fun c hc => h c (by simp [hc]))
    have hc := h c (by simp)
    refine ⟨c[i] :: r, ?_, by simp [h2], ?_⟩
    · unfold readRow; rw [List.getElem?_eq_getElem hc, h1]
    · intro f d hd
      cases f with
      | zero => simp at hd; subst hd; simp [hc]
      | succ f => simp at hd; simpa using h3 f d hd

theorem writeRow_spec {i : Nat} {cols : List (List V)} {vs : List V} (h : ∀ c ∈ cols, i < c.length)
    (hl : vs.length = cols.length) :
    writeRow i cols vs = .ok (List.zipWith (fun c v => c.set i v) cols vs) := by
  induction cols generalizing vs with
  | nil =>
    cases vs with
    | nil => rfl
    | cons => simp at hl
  | cons c cs ih =>
    cases vs with
    | nil => simp at hl
    | cons v vs =>
      unfold writeRow
      rw [if_pos (h c (by simp)), ih (fun c hc => h c (by simp [hc])) (by simpa using hl)]
      rfl

theorem read_held {n k : Nat} {s : Soa V} {rows : List (List V)} (h : Holds n k s rows) {i : Nat}
    {r : List V} (hr : rows[i]? = some r) : readRow i s.cols = .ok r := by
  have hi : i < rows.length := (List.getElem?_eq_some_iff.1 hr).1
  obtain ⟨r', h1, h2, h3⟩ := readRow_spec (i := i) (cols := s.cols)
    (fun c hc => by rw [h.caps c hc]; have := h.fits; omega)
  have : r' = r := by
    apply List.ext_getElem?
    intro f
    cases hf : s.cols[f]? with
    | some c => rw [← h3 f c hf, h.cell i r hr f c hf]
    | none =>
      have h4 : s.cols.length ≤ f := by simpa using hf
      rw [List.getElem?_eq_none (by omega), List.getElem?_eq_none]
      rw [h.width r (List.mem_of_getElem? hr), ← h.fields]; exact h4
  rw [h1, this]

/-- Writing a record at a position of the list or just after it. -/
theorem write_held {n k : Nat} {s : Soa V} {rows : List (List V)} (h : Holds n k s rows) {i : Nat}
    {r : List V} (hi : i ≤ rows.length) (hn : i < n) (hr : r.length = k) :
    ∃ cols, writeRow i s.cols r = .ok cols ∧
      (i < rows.length → Holds n k ⟨s.len, cols⟩ (rows.set i r)) ∧
      (i = rows.length → Holds n k ⟨s.len + 1, cols⟩ (rows ++ [r])) := by
  refine ⟨_, writeRow_spec (fun c hc => by rw [h.caps c hc]; exact hn) (by rw [hr, h.fields]), ?_⟩
  have hcol : ∀ (f : Nat) c, (List.zipWith (fun c v => c.set i v) s.cols r)[f]? = some c →
      ∃ d v, s.cols[f]? = some d ∧ r[f]? = some v ∧ c = d.set i v := by
    intro f c hc
    rw [List.getElem?_zipWith] at hc
    cases h1 : s.cols[f]? with
    | none => rw [h1] at hc; cases hc
    | some d =>
      cases h2 : r[f]? with
      | none => rw [h1, h2] at hc; cases hc
      | some v => rw [h1, h2] at hc; simp at hc; exact ⟨d, v, rfl, rfl, hc.symm⟩
  have hlen : (List.zipWith (fun c v => List.set c i v) s.cols r).length = k := by
    rw [List.length_zipWith, h.fields, hr]; exact Nat.min_self k
  have hcaps : ∀ c ∈ List.zipWith (fun c v => List.set c i v) s.cols r, c.length = n := by
    intro c hc
    obtain ⟨f, hf⟩ := List.getElem?_of_mem hc
    obtain ⟨d, v, h1, _, rfl⟩ := hcol f c hf
    rw [List.length_set, h.caps d (List.mem_of_getElem? h1)]
  have hfit := h.fits
  constructor
  · intro hlt
    refine ⟨by simp [h.len], by simpa using h.fits, hlen, hcaps, ?_, ?_⟩
    · intro r' hr'
      rcases List.mem_or_eq_of_mem_set hr' with h1 | rfl
      · exact h.width r' h1
      · exact hr
    · intro j r' hj f c hc
      obtain ⟨d, v, h1, h2, rfl⟩ := hcol f c hc
      have hd := h.caps d (List.mem_of_getElem? h1)
      rw [List.getElem?_set] at hj ⊢
      split at hj
      · rename_i hij
        subst hij
        injection hj with hj
        rw [if_pos rfl, if_pos (by omega), ← hj, h2]
      · rename_i hij
        rw [if_neg hij]
        exact h.cell j r' hj f d h1
  · intro heq
    refine ⟨by simp [h.len], by simp; omega, hlen, hcaps, ?_, ?_⟩
    · intro r' hr'
      rcases List.mem_append.1 hr' with h1 | h1
      · exact h.width r' h1
      · simp at h1; rw [h1]; exact hr
    · intro j r' hj f c hc
      obtain ⟨d, v, h1, h2, rfl⟩ := hcol f c hc
      have hd := h.caps d (List.mem_of_getElem? h1)
      rw [List.getElem?_append] at hj
      rw [List.getElem?_set]
      split at hj
      · rename_i hj'
        rw [if_neg (by omega)]
        exact h.cell j r' hj f d h1
      · rename_i hj'
        have : j = i := by
          have := (List.getElem?_eq_some_iff.1 hj).1
          simp at this; omega
        subst this
        rw [if_pos rfl, if_pos (by omega)]
        have h0 : j - rows.length = 0 := by omega
        rw [h0] at hj
        simp at hj
        rw [← hj, h2]

theorem held_new (n : Nat) (dflt : List V) : Holds n dflt.length (Soa.new n dflt) [] := by
  refine ⟨rfl, by simp, by simp [Soa.new], ?_, by simp, by simp⟩
  intro c hc
  obtain ⟨v, _, rfl⟩ := List.mem_map.1 hc
  simp

theorem held_push {n k : Nat} {s : Soa V} {rows : List (List V)} (h : Holds n k s rows) {r : List V}
    (hr : r.length = k) (hn : rows.length < n) :
    ∃ s', s.push n r = .ok s' ∧ Holds n k s' (rows ++ [r]) := by
  obtain ⟨cols, h1, _, h2⟩ := write_held h (Nat.le_refl _) hn hr
  refine ⟨⟨s.len + 1, cols⟩, ?_, h2 rfl⟩
  unfold Soa.push
  rw [if_pos (by rw [h.len]; exact hn), h.len, h1]

theorem held_set {n k : Nat} {s : Soa V} {rows : List (List V)} (h : Holds n k s rows) {i : Nat}
    {r : List V} (hr : r.length = k) (hi : i < rows.length) :
    ∃ s', s.set i r = .ok s' ∧ Holds n k s' (rows.set i r) := by
  have := h.fits
  obtain ⟨cols, h1, h2, _⟩ := write_held h (Nat.le_of_lt hi) (by omega) hr
  refine ⟨⟨s.len, cols⟩, ?_, h2 hi⟩
  unfold Soa.set
  rw [if_pos (by rw [h.len]; exact hi), h1]

theorem held_dropLast {n k : Nat} {s : Soa V} {rows : List (List V)} (h : Holds n k s rows) :
    Holds n k ⟨s.len - 1, s.cols⟩ rows.dropLast := by
  have := h.fits
  refine ⟨by simp [h.len], by simp; omega, h.fields, h.caps,
    fun r hr => h.width r (List.dropLast_subset _ hr), ?_⟩
  intro i r hr f c hc
  rw [List.getElem?_dropLast] at hr
  split at hr
  · exact h.cell i r hr f c hc
  · cases hr

theorem held_setField {n k : Nat} {s : Soa V} {rows : List (List V)} (h : Holds n k s rows) {f i : Nat}
    (hf : f < k) (hi : i < n) (v : V) :
    ∃ s', s.setField f i v = .ok s' ∧ Holds n k s' (rows.modify i (fun r => r.set f v)) := by
  have hlt : f < s.cols.length := by rw [h.fields]; exact hf
  have hcn := h.caps _ (List.getElem_mem hlt)
  refine ⟨⟨s.len, s.cols.set f (s.cols[f].set i v)⟩, ?_, ?_⟩
  · unfold Soa.setField
    rw [List.getElem?_eq_getElem hlt]
    simp only
    rw [if_pos (by rw [hcn]; exact hi)]
  · refine ⟨by simp [h.len], by simpa using h.fits, by simp [h.fields], ?_, ?_, ?_⟩
    · intro c hc
      rcases List.mem_or_eq_of_mem_set hc with h1 | rfl
      · exact h.caps c h1
      · simp [hcn]
    · intro r hr
      obtain ⟨j, hj⟩ := List.getElem?_of_mem hr
      rw [List.getElem?_modify] at hj
      cases h1 : rows[j]? with
      | none => rw [h1] at hj; cases hj
      | some q =>
        rw [h1] at hj
        simp at hj
        have := h.width q (List.mem_of_getElem? h1)
        rw [← hj]
        split
        · simpa using this
        · exact this
    · intro j r hj g c hc
      rw [List.getElem?_modify] at hj
      cases h1 : rows[j]? with
      | none => rw [h1] at hj; cases hj
      | some q =>
        rw [h1] at hj
        simp at hj
        have hq := h.width q (List.mem_of_getElem? h1)
        have hcell := h.cell j q h1
        rw [List.getElem?_set] at hc
        by_cases hg : f = g
        · subst hg
          rw [if_pos rfl, if_pos hlt] at hc
          injection hc with hc
          rw [← hc, List.getElem?_set]
          have h2 := hcell f _ (List.getElem?_eq_getElem hlt)
          by_cases hij : i = j
          · subst hij
            rw [if_pos rfl] at hj
            rw [if_pos rfl, if_pos (by rw [hcn]; exact hi), ← hj, List.getElem?_set, if_pos rfl,
              if_pos (by rw [hq]; exact hf)]
          · rw [if_neg hij] at hj
            rw [if_neg hij, ← hj, h2]
        · rw [if_neg hg] at hc
          rw [hcell g c hc, ← hj]
          split
          · rw [List.getElem?_set, if_neg hg]
          · rfl

theorem iterFrom_spec {n k : Nat} {s : Soa V} {rows : List (List V)} (h : Holds n k s rows) (m i : Nat)
    (hm : rows.length < m + i) : iterFrom s m i = .ok (rows.drop i) := by
  induction m generalizing i with
  | zero => unfold iterFrom; rw [List.drop_eq_nil_of_le (by omega)]
  | succ m ih =>
    unfold iterFrom
    by_cases hi : i < rows.length
    · rw [if_pos (by rw [h.len]; exact hi)]
      have hr := List.getElem?_eq_getElem hi
      unfold Soa.get
      rw [if_pos (by rw [h.len]; exact hi), read_held h hr, ih (i + 1) (by omega)]
      simp only
      rw [List.drop_eq_getElem_cons hi]
    · rw [if_neg (by rw [h.len]; exact hi), List.drop_eq_nil_of_le (by omega)]

theorem held_apply {n k : Nat} {f : σ → List V → σ × List V}
    (hf : ∀ st r, r.length = k → (f st r).2.length = k) :
    ∀ (todo done : List (List V)) (st : σ) (s : Soa V), Holds n k s (done ++ todo) →
    ∃ cols, applyFrom f todo.length done.length st s.cols = .ok ((mapState f st todo).1, cols) ∧
      Holds n k ⟨s.len, cols⟩ (done ++ (mapState f st todo).2)
  | [], done, st, s, h => ⟨s.cols, rfl, h⟩
  | r :: todo, done, st, s, h => by
    have hr : (done ++ r :: todo)[done.length]? = some r := by simp
    have hrk : r.length = k := h.width r (by simp)
    obtain ⟨cols, h1, h2, _⟩ := write_held (i := done.length) (r := (f st r).2) h (by simp)
      (by have := h.fits; simp at this; omega) (hf st r hrk)
    have h3 := h2 (by simp)
    rw [List.set_append_right _ _ (Nat.le_refl _), Nat.sub_self, List.set_cons_zero] at h3
    obtain ⟨cols', h4, h5⟩ := held_apply hf todo (done ++ [(f st r).2]) (f st r).1 ⟨s.len, cols⟩
      (by simpa using h3)
    refine ⟨cols', ?_, by simpa [mapState] using h5⟩
    simp only [List.length_cons, applyFrom]
    rw [read_held h hr]
    simp only
    rw [h1]
    simp only [List.length_append, List.length_singleton] at h4
    simp only
    rw [h4]
    rfl

theorem step_refines {n k : Nat} {s : Soa V} {rows : List (List V)} (h : Holds n k s rows)
    {op : Op V σ} (ht : op.Typed k) :
    match listStep n k rows op with
    | .panic => s.step n op = .panic
    | .ok (rows', o) => ∃ s', s.step n op = .ok (s', o) ∧ Holds n k s' rows' := by
  cases op with
  | push r =>
    simp only [listStep]
    by_cases hn : rows.length < n
    · rw [if_pos hn]
      obtain ⟨s', h1, h2⟩ := held_push h ht hn
      exact ⟨s', by simp only [Soa.step, h1]; rfl, h2⟩
    · rw [if_neg hn]
      simp only [Soa.step, Soa.push]
      rw [if_neg (by rw [h.len]; exact hn)]
      rfl
  | pop =>
    simp only [listStep]
    cases hl : rows.getLast? with
    | none =>
      have : rows = [] := by simpa using hl
      subst this
      refine ⟨s, ?_, h⟩
      simp only [Soa.step, Soa.pop]
      rw [if_pos (by simpa using h.len)]
      rfl
    | some r =>
      refine ⟨⟨s.len - 1, s.cols⟩, ?_, held_dropLast h⟩
      rw [List.getLast?_eq_getElem?] at hl
      have hpos := (List.getElem?_eq_some_iff.1 hl).1
      simp only [Soa.step, Soa.pop]
      rw [if_neg (by rw [h.len]; omega), h.len, read_held h hl]
      rfl
  | get i =>
    simp only [listStep]
    cases hr : rows[i]? with
    | none =>
      have : rows.length ≤ i := by simpa using hr
      simp only [Soa.step, Soa.get]
      rw [if_neg (by rw [h.len]; omega)]
      rfl
    | some r =>
      have hi := (List.getElem?_eq_some_iff.1 hr).1
      refine ⟨s, ?_, h⟩
      simp only [Soa.step, Soa.get]
      rw [if_pos (by rw [h.len]; exact hi), read_held h hr]
      rfl
  | set i r =>
    simp only [listStep]
    by_cases hi : i < rows.length
    · rw [if_pos hi]
      obtain ⟨s', h1, h2⟩ := held_set h ht hi
      exact ⟨s', by simp only [Soa.step, h1]; rfl, h2⟩
    · rw [if_neg hi]
      simp only [Soa.step, Soa.set]
      rw [if_neg (by rw [h.len]; exact hi)]
      rfl
  | setField f i v =>
    simp only [listStep]
    by_cases hfi : f < k ∧ i < n
    · rw [if_pos hfi]
      obtain ⟨s', h1, h2⟩ := held_setField h hfi.1 hfi.2 v
      exact ⟨s', by simp only [Soa.step, h1]; rfl, h2⟩
    · rw [if_neg hfi]
      simp only [Soa.step, Soa.setField]
      cases hc : s.cols[f]? with
      | none => rfl
      | some c =>
        have h1 := (List.getElem?_eq_some_iff.1 hc).1
        rw [h.fields] at h1
        simp only
        rw [if_neg (by rw [h.caps c (List.mem_of_getElem? hc)]; omega)]
        rfl
  | apply f st =>
    simp only [listStep]
    obtain ⟨cols, h1, h2⟩ := held_apply (f := f) ht rows [] st s h
    refine ⟨⟨s.len, cols⟩, ?_, h2⟩
    simp only [Soa.step, Soa.apply, h.len]
    rw [List.length_nil] at h1
    rw [h1]
    rfl
  | iter =>
    refine ⟨s, ?_, h⟩
    simp only [Soa.step, Soa.iter]
    rw [iterFrom_spec h _ _ (by rw [h.len]; omega)]
    rfl

theorem decCol_col {k : Codec V} : ∀ (c pre post : List V), c.length ≤ post.length →
    (∀ v ∈ c, ∀ rest, k.dec (k.enc v ++ rest) = .ok (v, rest)) → ∀ rest,
    decCol k c.length pre.length (pre ++ post) ((c.map k.enc).flatten ++ rest) =
      .ok (.ok (pre ++ c ++ post.drop c.length), rest)
  | [], pre, post, _, _, rest => by simp [decCol]
  | v :: c, pre, post, h, hr, rest => by
    cases post with
    | nil => simp at h
    | cons p post =>
      simp only [List.map_cons, List.flatten_cons, List.append_assoc, List.length_cons, decCol]
      rw [Dec.bind_ok (hr v (by simp) _), if_pos (by simp)]
      have hs : (pre ++ p :: post).set pre.length v = (pre ++ [v]) ++ post := by
        rw [List.set_append_right _ _ (Nat.le_refl _)]; simp
      have := decCol_col c (pre ++ [v]) post (by simpa using h) (fun w hw => hr w (by simp [hw])) rest
      rw [hs, show pre.length + 1 = (pre ++ [v]).length by simp, this]
      simp

theorem decCols_cols {n len : Nat} (hn : len ≤ n) {ks : List (Codec V)} {cols : List (List V)}
    {dflt : List V} (hd : dflt.length = ks.length)
    (hc : Pointwise (fun (k : Codec V) (c : List V) => c.length = len ∧
      ∀ v ∈ c, ∀ rest, k.dec (k.enc v ++ rest) = .ok (v, rest)) ks cols) (rest : Bytes) :
    decCols len ks (dflt.map (List.replicate n))
        ((List.zipWith (fun (k : Codec V) c => (c.map k.enc).flatten) ks cols).flatten ++ rest) =
      .ok (.ok (List.zipWith (fun c v => c ++ List.replicate (n - len) v) cols dflt), rest) := by
  induction hc generalizing dflt with
  | nil => simp [decCols]
  | @cons k c ks cols h _ ih =>
    cases dflt with
    | nil => simp at hd
    | cons v dflt =>
      obtain ⟨rfl, hr⟩ := h
      simp only [List.zipWith_cons_cons, List.map_cons, List.flatten_cons, List.append_assoc, decCols]
      have h1 := decCol_col c [] (List.replicate n v) (by simpa using hn) hr
        ((List.zipWith (fun (k : Codec V) c => (c.map k.enc).flatten) ks cols).flatten ++ rest)
      simp only [List.nil_append, List.length_nil, List.drop_replicate] at h1
      rw [Dec.bind_ok h1]
      simp only
      rw [Dec.bind_ok (ih (by simpa using hd))]
      rfl

end Soa
end Verif
