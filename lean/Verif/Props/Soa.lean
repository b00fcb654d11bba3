import Verif.Proofs.Soa
/-!
C36: structure-of-arrays containers behave as bounded lists of records; they do not survive an
encode/decode round trip.
-/
namespace Verif
namespace Soa
open Bincode
variable {V σ : Type}

/-- Any sequence of operations on a new container of any capacity and any number of fields gives,
result by result and up to the first panic, what a list of at most `n` records gives. -/
theorem C36_operations_partial (n : Nat) (dflt : List V) (ops : List (Op V σ))
    (ht : ∀ op ∈ ops, op.Typed dflt.length) :
    runSoa n (Soa.new n dflt) ops = runList n dflt.length [] ops := by
  have key : ∀ (ops : List (Op V σ)) (s : Soa V) (rows : List (List V)), Holds n dflt.length s rows →
      (∀ op ∈ ops, op.Typed dflt.length) → runSoa n s ops = runList n dflt.length rows ops := by
    intro ops
    induction ops with
    | nil => intros; rfl
    | cons op ops ih =>
      intro s rows h ht
      have h1 := step_refines h (ht op (by simp))
      unfold runSoa runList
      cases hl : listStep n dflt.length rows op with
      | panic => rw [hl] at h1; rw [h1]
      | ok q =>
        obtain ⟨rows', o⟩ := q
        rw [hl] at h1
        obtain ⟨s', h2, h3⟩ := h1
        rw [h2]
        simp only
        rw [ih s' rows' h3 (fun op hop => ht op (by simp [hop]))]
  exact key ops _ _ (held_new n dflt) ht

/-- A container of capacity 2 of records of two fields. -/
example : runSoa 2 (Soa.new 2 [0, 0])
    [.push [1, 10], .push [2, 20], .apply (fun (st : Nat) r => (st + 1, r.map (· + st))) 100, .iter,
      .setField 1 0 7, .pop, .get 0, .push [3, 30], .set 1 [4, 40], .iter, .push [5, 50], .pop] =
    [.ok .done, .ok .done, .ok (.applied 102), .ok (.items [[101, 110], [103, 121]]), .ok .done,
      .ok (.popped (some [103, 121])), .ok (.got [101, 7]), .ok .done, .ok .done,
      .ok (.items [[101, 7], [4, 40]]), .panic] := by decide

/-- The encoder writes the length of each field array, the decoder does not expect it: after an
empty container of any capacity, with any field types, one zero byte per field is left in the
stream, where the next value is then decoded. -/
theorem C36_violated_empty (n : Nat) (ks : List (Codec V)) (dflt : List V)
    (hk : ks.length = dflt.length) (rest : Bytes) :
    ∃ bs, (Soa.new n dflt).encode ks = .ok bs ∧
      Soa.decode n ks dflt (bs ++ rest) =
        .ok (.ok (Soa.new n dflt), List.replicate ks.length 0 ++ rest) := by
  have h1 : ∀ (ks : List (Codec V)) (dflt : List V), ks.length = dflt.length →
      encCols 0 ks (dflt.map (List.replicate n)) = .ok (List.replicate ks.length 0) := by
    intro ks
    induction ks with
    | nil => intros; rfl
    | cons k ks ih =>
      intro dflt hk
      cases dflt with
      | nil => simp at hk
      | cons v vs =>
        simp only [List.map_cons, encCols, Nat.zero_le, if_true]
        rw [ih vs (by simpa using hk)]
        rfl
  have h2 : ∀ (ks : List (Codec V)) (dflt : List V) (bs : Bytes), ks.length = dflt.length →
      decCols 0 ks (dflt.map (List.replicate n)) bs = .ok (.ok (dflt.map (List.replicate n)), bs) := by
    intro ks
    induction ks with
    | nil =>
      intro dflt bs hk
      have : dflt = [] := by simpa using hk.symm
      subst this; rfl
    | cons k ks ih =>
      intro dflt bs hk
      cases dflt with
      | nil => simp at hk
      | cons v vs =>
        simp only [List.map_cons, decCols, decCol]
        rw [Dec.bind_ok rfl]
        simp only
        rw [Dec.bind_ok (ih vs bs (by simpa using hk))]
        rfl
  refine ⟨enc (UInt64.ofNat 0) ++ List.replicate ks.length 0, ?_, ?_⟩
  · unfold Soa.encode
    simp only [Soa.new]
    rw [h1 ks dflt hk]
  · unfold Soa.decode
    rw [List.append_assoc, Dec.bind_ok (rt_u64 _ _)]
    have h0 : (UInt64.ofNat 0).toNat = 0 := rfl
    rw [h0]
    simp only [Soa.new]
    rw [Dec.bind_ok (h2 ks dflt _ hk)]
    rfl

/-- What the decoder expects: the number of records, then the values of the first field, those of the
second one, and so on.  Any container that fits the capacity is then read back, and no byte more. -/
theorem C36_decode {n len : Nat} (hn : len ≤ n) (hl : len < 2 ^ 64) {ks : List (Codec V)} {cols : List (List V)}
    {dflt : List V} (hd : dflt.length = ks.length)
    (hc : Pointwise (fun (k : Codec V) (c : List V) => c.length = len ∧
      ∀ v ∈ c, ∀ rest, k.dec (k.enc v ++ rest) = .ok (v, rest)) ks cols) (rest : Bytes) :
    Soa.decode n ks dflt (enc (UInt64.ofNat len) ++
        ((List.zipWith (fun (k : Codec V) c => (c.map k.enc).flatten) ks cols).flatten ++ rest)) =
      .ok (.ok ⟨len, List.zipWith (fun c v => c ++ List.replicate (n - len) v) cols dflt⟩, rest) := by
  unfold Soa.decode
  rw [Dec.bind_ok (rt_u64 _ _)]
  have h0 : (UInt64.ofNat len).toNat = len := by
    rw [UInt64.toNat_ofNat']; exact Nat.mod_eq_of_lt hl
  rw [h0]
  simp only [Soa.new]
  rw [Dec.bind_ok (decCols_cols hn hd hc rest)]
  rfl

/-- Two records of two fields in a container of capacity three. -/
example : Pointwise (fun (k : Codec UInt64) (c : List UInt64) => c.length = 2 ∧
      ∀ v ∈ c, ∀ rest, k.dec (k.enc v ++ rest) = .ok (v, rest))
      [inferInstance, inferInstance] [[1, 2], [10, 20]] ∧
    Soa.decode (V := UInt64) 3 [inferInstance, inferInstance] [0, 7] [2, 1, 2, 10, 20, 99] =
      .ok (.ok ⟨2, [[1, 2, 0], [10, 20, 7]]⟩, [99]) :=
  ⟨.cons ⟨rfl, fun v _ rest => rt_u64 v rest⟩ (.cons ⟨rfl, fun v _ rest => rt_u64 v rest⟩ .nil), rfl⟩

/-- With one record of one field: the value read back is the length of the array. -/
theorem C36_violated_value :
    ∃ (s : Soa UInt64) (bs : Bytes), (Soa.new 2 [0]).push 2 [42] = .ok s ∧ s.encode [inferInstance] = .ok bs ∧
      Soa.decode (V := UInt64) 2 [inferInstance] [0] bs = .ok (.ok ⟨1, [[1, 0]]⟩, [42]) :=
  ⟨_, [1, 1, 42], rfl, rfl, rfl⟩

/-- The bytes of a container with more records than the capacity make the decoder panic. -/
theorem C36_violated_panic :
    ∃ (s : Soa UInt64) (bs : Bytes), ((Soa.new 2 [0]).push 2 [42]).bind (·.push 2 [43]) = .ok s ∧ s.encode [inferInstance] = .ok bs ∧
      Soa.decode (V := UInt64) 1 [inferInstance] [0] bs = .ok (.panic, [43]) :=
  ⟨_, [2, 2, 42, 43], rfl, rfl, rfl⟩

end Soa
end Verif
