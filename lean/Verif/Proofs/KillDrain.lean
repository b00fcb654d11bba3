import Verif.Proofs.KillRead
import Verif.Proofs.CrashExport
/-! The sections a reader finds in the files of a process killed in the middle of an operation. -/
namespace Verif
namespace ULog
open Bincode

/-- At the end of the sections the reader is behind those of the last slab. -/
theorem at_end {page : Nat} {lay : List (List Sec)} (hne : NonEmpty lay) {r : Reader} (ha : At page lay r []) :
    r.slab = lay.length - 1 ∧ ∃ secs, lay[r.slab]? = some secs ∧
      r.pos = endOf page (startOf page r.slab) secs := by
  obtain ⟨pre, rest, hl, hpos, htodo⟩ := ha
  have hrest : rest = [] := (List.append_eq_nil_iff.1 htodo.symm).1
  have hdrop : (lay.drop (r.slab + 1)).flatten = [] := (List.append_eq_nil_iff.1 htodo.symm).2
  subst hrest
  rw [List.append_nil] at hl
  have hlt := (List.getElem?_eq_some_iff.1 hl).1
  refine ⟨?_, pre, hl, hpos⟩
  apply Classical.byContradiction
  intro hn
  have hk : r.slab + 1 < lay.length := by omega
  obtain ⟨a, h1⟩ : ∃ a, lay[r.slab + 1]? = some a := ⟨_, List.getElem?_eq_getElem hk⟩
  have hmem : a ∈ lay.drop (r.slab + 1) := by
    refine List.mem_of_getElem? (i := 0) ?_
    rw [List.getElem?_drop]; exact h1
  have : a = [] := (List.flatten_eq_nil_iff.1 hdrop) a hmem
  subst this
  exact hne (r.slab + 1) (by omega) h1

/-- The files of a process killed at any instant of an operation on sections, read as a byte stream
of a type. -/
theorem drain_kill {page slabSize : Nat} (hz : SizesOk page slabSize) (hp256 : 256 ∣ page) {s : SecSys}
    (h : Reachable page slabSize s) (htypes : ∀ x ∈ s.issued, x.h.header.entryType ≠ .lastEntry)
    {op : SecOp} (hop : SecOpOk page slabSize op) {files' : List Bytes}
    (hc : KilledDuring s.lg.files (opEffects s op) files')
    {t : EntryType} (ht : t ≠ .lastEntry) (ht' : t ≠ .empty) :
    ∃ m ds, (∀ (n : Nat) (e : Issued), s.issued[n]? = some e → e.h.slab ≤ s.lg.oldestMapped → n < m) ∧
      Pointwise Issued.left ((s.issued.take m).filter (isOf t)) ds ∧
      ∀ ns : List Nat, (∀ n ∈ ns, 0 < n) →
        let r := drainLog files' t ns
        r.1 <+: (upTo ds).1.flatten ∧ (r.2 ≠ .more → r.1 = (upTo ds).1.flatten) ∧
          ((upTo ds).1.flatten.length < ns.length → r.2 ≠ .more) := by
  have hpm := hz.page_min
  have hpx := hz.page_max
  have hal := align_le (page := page) (by omega) 80
  have hps : page ≤ slabSize := by
    have h1 := hz.slab
    have h2 : page ≤ align page 80 := by
      unfold align
      have : 0 < (80 + page - 1) / page := Nat.div_pos (by omega) (by omega)
      exact Nat.le_mul_of_pos_left _ this
    omega
  obtain ⟨lay, hi⟩ := reachable_inv hz.page_min (by have := hz.slab; omega) h
  have hR := kill_step hpm hps hp256 hi hop hc
  obtain ⟨hold, hold2⟩ := oldest_le hi.inv
  have h0 : CutBefore page files' lay s.lg.oldestMapped := by
    intro k file secs hk hf hl
    obtain ⟨f, hf0⟩ := hi.inv.lookup hl
    obtain ⟨f', hf', ha, _⟩ := hR.file k f secs hf0 hl
    obtain rfl := Option.some.inj (hf'.symm.trans hf)
    rw [ha.whole hk]
    have := (hi.inv.trimmed k f secs hf0 hl (by
      intro sl hsl e
      have := hold2 sl hsl
      omega)).2
    rw [hi.pageEq] at this
    exact this
  obtain ⟨K, hK1, hK2, hK3, hK4⟩ := cut_max page files' lay h0 hold
  -- the sections found
  obtain ⟨lay', hlen', hlay'⟩ := list_of_forall
    (P := fun k secs' => ∀ f', files'[k]? = some f' → ∀ secs, lay[k]? = some secs →
      SecsR page f' (startOf page k) secs' ∧ Pointwise RelSec secs secs') (K + 1) (by
      intro k hk
      obtain ⟨secs, hl⟩ : ∃ secs, lay[k]? = some secs := ⟨_, List.getElem?_eq_getElem (by omega)⟩
      obtain ⟨f, hf⟩ := hi.inv.lookup hl
      obtain ⟨f', hf', ha, _⟩ := hR.file k f secs hf hl
      obtain ⟨secs', h1, h2⟩ := ha.similar
      refine ⟨secs', fun g hg secs2 hl2 => ?_⟩
      obtain rfl : f' = g := Option.some.inj (hf'.symm.trans hg)
      obtain rfl : secs = secs2 := Option.some.inj (hl.symm.trans hl2)
      exact ⟨h1, h2⟩)
  have get : ∀ (k : Nat) x, lay'[k]? = some x → ∃ f f' secs, s.lg.files[k]? = some f ∧
      files'[k]? = some f' ∧ lay[k]? = some secs ∧ k ≤ K ∧
      After page k secs f f' (k < s.lg.oldestMapped) ∧ SecsR page f' (startOf page k) x ∧
      Pointwise RelSec secs x := by
    intro k x hx
    have hk := (List.getElem?_eq_some_iff.1 hx).1
    obtain ⟨secs, hl⟩ : ∃ secs, lay[k]? = some secs := ⟨_, List.getElem?_eq_getElem (by omega)⟩
    obtain ⟨f, hf⟩ := hi.inv.lookup hl
    obtain ⟨f', hf', ha, _⟩ := hR.file k f secs hf hl
    obtain ⟨h1, h2⟩ := hlay' k x hx f' hf' secs hl
    exact ⟨f, f', secs, hf, hf', hl, by omega, ha, h1, h2⟩
  have hh : HoldsR page files' lay' := by
    refine ⟨by omega, hpx, ?_, by omega, ?_, ?_, ?_, ?_⟩
    · rcases hR.len with h | ⟨h, _⟩ <;> omega
    · intro k file x hf hx
      obtain ⟨f, f', secs, _, hf', _, _, _, h1, _⟩ := get k x hx
      obtain rfl : f' = file := Option.some.inj (hf'.symm.trans hf)
      exact h1
    · intro k file x hf hx hk
      obtain ⟨f, f', secs, hf0, hf', hl, _, ha, _, h2⟩ := get k x hx
      obtain rfl : f' = file := Option.some.inj (hf'.symm.trans hf)
      rw [endOf_rel h2]
      exact hK3 k f' secs (by omega) hf' hl
    · intro file hf
      obtain ⟨x, hx⟩ : ∃ x, lay'[0]? = some x := ⟨_, List.getElem?_eq_getElem (by omega)⟩
      obtain ⟨f, f', secs, hf0, hf', hl, _, ha, _, h2⟩ := get 0 x hx
      obtain rfl : f' = file := Option.some.inj (hf'.symm.trans hf)
      exact ha.main rfl
    · intro k hk hx
      obtain ⟨f, f', secs, hf0, hf', hl, _, ha, _, h2⟩ := get k [] hx
      cases h2
      exact hi.nonempty k hk hl
  -- the end
  have hdead : ∀ r, At page lay' r [] → Dead files' t r := by
    intro r ha
    obtain ⟨h1, x, hx, hpos⟩ := at_end hh.nonempty ha
    have hrK : r.slab = K := by omega
    obtain ⟨f, f', secs, hf0, hf', hl, _, _, _, h2⟩ := get r.slab x hx
    rw [endOf_rel h2] at hpos
    obtain ⟨f'', hf'', _, htail⟩ := hR.file r.slab f secs hf0 hl
    obtain rfl : f' = f'' := Option.some.inj (hf'.symm.trans hf'')
    have hr : r = ⟨r.slab, r.pos⟩ := rfl
    rw [← hpos] at htail
    rcases htail with (he | ⟨hlt, n, hzero⟩) | ⟨hlast, hlt, hpart⟩
    · -- the slab is full
      have hKlast : lay.length = K + 1 := by
        apply Classical.byContradiction
        intro hn
        refine hK4 (by omega) ?_
        intro k file' secs' hk hg hl2
        by_cases hkK : k = K
        · subst hkK
          rw [← hrK] at hg hl2 ⊢
          obtain rfl := Option.some.inj (hf'.symm.trans hg)
          obtain rfl := Option.some.inj (hl.symm.trans hl2)
          omega
        · exact hK3 k file' secs' (by omega) hg hl2
      rcases hR.len with hle | ⟨hle, g, hg, hpart⟩
      · intro fuel y hy
        exact absurd hy (dead_end hf' (by omega) (by rw [List.getElem?_eq_none_iff]; omega) t fuel y)
      · exact dead_new hf' (by omega) (g := g) (by rw [hrK, ← hKlast]; exact hg) hpart (by omega) t
    · intro fuel y hy
      exact absurd hy (dead_zeros hf' hlt hzero t fuel y)
    · exact dead_head hf' hlt hpart hlast t
  obtain ⟨r, hr, hat⟩ := reader_newR hh
  have hfuel := holdsR_fuel hh
  have hpre := take_flatten_prefix (lay := lay) (K + 1)
  rw [hi.flat] at hpre
  have hpw : Pointwise RelSec (lay.take (K + 1)).flatten lay'.flatten := by
    refine pointwise_flatten (by rw [List.length_take]; omega) ?_
    intro k x y hx hy
    obtain ⟨f, f', secs, hf0, hf', hl, _, ha, _, h2⟩ := get k y hy
    rw [List.getElem?_take, if_pos (by omega), hl] at hx
    obtain rfl := Option.some.inj hx
    exact h2
  have hF : (lay.take (K + 1)).flatten = (s.issued.take (lay.take (K + 1)).flatten.length).mapIdx secOf := by
    rw [mapIdx_take, ← hpre, List.take_left]
  have hidx : ∀ (n : Nat) (e : Issued), s.issued[n]? = some e → e.h.slab ≤ s.lg.oldestMapped →
      n < (lay.take (K + 1)).flatten.length := fun n e hn hslab =>
    take_index hi hn (Nat.le_trans hslab hK1) hK2
  generalize hm : (lay.take (K + 1)).flatten.length = m at *
  rw [hF] at hpw
  refine ⟨m, ((lay'.flatten.filter (fun a : Sec => a.et == t)).map Sec.data), hidx,
    left_filter (k := 0) ht' hpw, ?_⟩
  intro ns hns
  have hd := drain_specR hh hdead ht hfuel (ns := ns) (io := IOReader.new r) hat (Nat.le_refl _) (by
    intro a ha
    obtain ⟨i, hi'⟩ := List.getElem?_of_mem ha
    obtain ⟨y, hy, het⟩ := rel_type hpw hi'
    rw [List.getElem?_mapIdx] at hy
    obtain ⟨z, hz', rfl⟩ := Option.map_eq_some_iff.1 hy
    rw [het]
    exact htypes z (List.mem_of_mem_take (List.mem_of_getElem? hz'))) hns
  simp only [drainLog, hr]
  simpa [IOReader.new] using hd

end ULog
end Verif
