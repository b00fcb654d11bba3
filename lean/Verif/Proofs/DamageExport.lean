import Verif.Proofs.DamageRead
/-! The bytes that the reader of a damaged log delivers. -/
namespace Verif
namespace ULog
open Bincode

/-- What the reader of a type delivers of damaged files begins with the values logged before those of the section the
damage begins in; it is all of them if the damage is within a section of another type. -/
theorem damage_bytes {α : Type} [Codec α] {page slabSize : Nat} (hz : SizesOk page slabSize) {ops : List LogOp}
    (hops : HistoryOk page slabSize [] ops) {t : EntryType} (ht : t ≠ .lastEntry) (hu : UsedFirst t false [] ops)
    {l : List α} (hobjs : objsOf t [] ops = l.map enc) :
    ∃ files spots last, writeLog slabSize page ops = .ok files ∧ (spots ++ [last]).Pairwise Spot.Before ∧
      encAll l = (contents files t spots).flatten ∧
      ∀ pre p post, spots ++ [last] = pre ++ p :: post → ∃ before rest, l = before ++ rest ∧
        encAll before = (contents files t pre).flatten ∧
        ∀ files', (p ∈ spots ∧ DamagedIn [p] files files') ∨ DamagedFrom p.file (p.pos - 15) files files' →
        ∀ ns : List Nat, (∀ n ∈ ns, 0 < n) →
          ((drainLog files' t ns).2 ≠ .more → encAll before <+: (drainLog files' t ns).1) ∧
            (p ∈ spots → DamagedIn [p] files files' →
              (p.type ≠ t → (drainLog files' t ns).2 ≠ .more → (drainLog files' t ns).1 = encAll l) ∧
                ((drainLog files' t ns).2 ≠ .more → (drainLog files' t ns).2 = .eof) ∧
                ((encAll l).length < ns.length → (drainLog files' t ns).2 ≠ .more)) := by
  obtain ⟨files, spots, last, h1, h2, h3, h4, h5, h6⟩ := log_damage hz hops
  obtain ⟨_, ⟨gs, hg1, hg2⟩, hel⟩ := h4 t
  replace hel := hel hu
  have encFlat : ∀ l : List α, (l.map enc).flatten = encAll l := by
    intro l
    induction l with
    | nil => rfl
    | cons a l ih => simp [encAll, ih]
  have hall : encAll l = (contents files t spots).flatten := by
    rw [← encFlat, ← hobjs, hg2, hg1]
    simp [List.flatten_flatten]
  refine ⟨files, spots, last, h1, h2, hall, ?_⟩
  intro pre p post hs
  -- the values in front
  have hpre : ∃ tail, spots = pre ++ tail := by
    rcases List.append_eq_append_iff.1 hs with ⟨c, hc1, hc2⟩ | ⟨c, hc1, hc2⟩
    · cases c with
      | nil => exact ⟨[], by simpa using hc1.symm⟩
      | cons y c => simp at hc2
    · exact ⟨c, hc1⟩
  obtain ⟨tail, htail⟩ := hpre
  have hcp : contents files t spots = contents files t pre ++ contents files t tail := by
    rw [htail, contents_append]
  obtain ⟨g1, g2, hgs, hga, hgb⟩ : ∃ g1 g2, gs = g1 ++ g2 ∧ contents files t pre = g1.map List.flatten ∧
      contents files t tail = g2.map List.flatten := by
    rw [hcp] at hg1
    obtain ⟨g1, g2, a, b, c⟩ := List.map_eq_append_iff.1 hg1.symm
    exact ⟨g1, g2, a, b.symm, c.symm⟩
  have hsplit : l.map enc = g1.flatten ++ g2.flatten := by
    rw [← hobjs, hg2, hgs, List.flatten_append]
  obtain ⟨before, rest, hl, hb1, hb2⟩ := List.map_eq_append_iff.1 hsplit
  have hbenc : encAll before = (contents files t pre).flatten := by
    rw [← encFlat, hb1, hga]; simp [List.flatten_flatten]
  refine ⟨before, rest, hl, hbenc, ?_⟩
  have hin : ∀ files', p ∈ spots → DamagedIn [p] files files' → DamagedIn spots files files' ∧
      (∀ q ∈ pre, q.content files' = q.content files) ∧ (∀ q ∈ spots, q ≠ p → q.content files' = q.content files) := by
    intro files' hp hd
    have hpw := h2
    rw [hs] at hpw
    obtain ⟨_, hq, hr'⟩ := List.pairwise_append.1 hpw
    have key : ∀ q ∈ pre ++ p :: post, q ≠ p → q.content files' = q.content files := by
      intro q hqm hne
      refine content_same hd fun x hx => ?_
      rw [List.mem_singleton.1 hx]
      rcases List.mem_append.1 hqm with h | h
      · exact .inr (hr' q h p (by simp))
      · rcases List.mem_cons.1 h with rfl | h
        · exact absurd rfl hne
        · exact .inl ((List.pairwise_cons.1 hq).1 q h)
    refine ⟨hd.mono fun q hqm => by rw [List.mem_singleton.1 hqm]; exact hp, ?_,
      fun q hqm hne => key q (by rw [← hs]; simp [hqm]) hne⟩
    intro q hqm
    refine content_same hd fun x hx => .inr ?_
    rw [List.mem_singleton.1 hx]
    exact hr' q hqm p (by simp)
  have hlen : ∀ a b : List Bytes, a.map List.length = b.map List.length → a.flatten.length = b.flatten.length := by
    intro a b h
    rw [List.length_flatten, List.length_flatten, h]
  intro files' hdam ns hns
  refine ⟨fun hmore => ?_, fun hp hd => ?_⟩
  · rcases hdam with ⟨hp, hd⟩ | hd
    · obtain ⟨hds, hsame, _⟩ := hin files' hp hd
      obtain ⟨hrd, hln⟩ := h5 files' hds t
      obtain ⟨_, hd2, _⟩ := drainLog_left hrd (emptyLast_lengths hln.symm hel) hns
      rw [(hd2 hmore).1, htail, contents_append, contents_congr hsame, List.flatten_append, ← hbenc]
      exact List.prefix_append _ _
    · obtain ⟨_, hdr⟩ := h6 pre p post hs files' hd t ht
      have hup : (upTo (contents files t pre)).1.flatten = encAll before := by
        rw [upTo_emptyLast (EmptyLast.front (hcp ▸ hel)), hbenc]
      rcases hdr ns hns with ⟨x, hx⟩ | ⟨_, hm, _⟩
      · rw [hup] at hx
        exact ⟨x, hx⟩
      · exact absurd hm hmore
  · obtain ⟨hds, hsame, hoth⟩ := hin files' hp hd
    obtain ⟨hrd, hln⟩ := h5 files' hds t
    obtain ⟨_, hd2, hd3⟩ := drainLog_left hrd (emptyLast_lengths hln.symm hel) hns
    refine ⟨fun hty hmore => ?_, fun hmore => (hd2 hmore).2, fun hl => hd3 (by rw [hlen _ _ hln, ← hall]; exact hl)⟩
    have hc : contents files' t spots = contents files t spots := by
      unfold contents
      refine List.map_congr_left fun q hqm => ?_
      obtain ⟨hq1, hq2⟩ := List.mem_filter.1 hqm
      refine hoth q hq1 fun hqp => hty ?_
      rw [← hqp]
      simpa using hq2
    rw [(hd2 hmore).1, hc, ← hall]

end ULog
end Verif
