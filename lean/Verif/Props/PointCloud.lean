import Verif.Proofs.PointCloud
/-!
C37: sorting a point cloud orders the slots by time of validity.  Points are kept intact only when
the cloud is full and all its points have the same return order.
-/
namespace Verif
namespace PointCloud
open Bincode

/-- Sorting a cloud of any capacity but zero ends without panic, with all the slots in order of time
of validity.  Each slot keeps its own time, coordinates and intensity, but the column of return orders
and the number of points are left as they were. -/
theorem C37_sort_partial {n : Nat} {c : Cloud} (hn : 0 < n) (hc : c.Sized n) :
    ∃ c', c.sort n = .ok c' ∧ c'.Sized n ∧ c'.tov.Pairwise (· ≤ ·) ∧ c'.rows.Perm c.rows ∧
      c'.returnOrder = c.returnOrder ∧ c'.len = c.len := by
  have hlen : c.rows.length = n := by
    simp [Cloud.rows, hc.tov, hc.x, hc.y, hc.z, hc.i]
  obtain ⟨l', h1, h2, h3⟩ := quicksort_spec (len := c.len) (ret := c.returnOrder) (n + 1) (low := 0)
    (high := n - 1) (l := c.rows) (by omega) (by omega)
  rw [ofRows_rows hc] at h1
  have hl' : l'.length = n := h2.length.trans hlen
  refine ⟨ofRows c.len c.returnOrder l', ?_, ?_, ?_, ?_, rfl, rfl⟩
  · unfold Cloud.sort
    rw [if_neg (by omega), h1]
  · constructor <;> simp [ofRows, hl', hc.returnOrder]
  · rw [List.pairwise_iff_getElem]
    intro a b ha hb hab
    have ha' : a < l'.length := by simpa [ofRows] using ha
    have hb' : b < l'.length := by simpa [ofRows] using hb
    simp only [ofRows, List.getElem_map]
    exact h3 a b l'[a] l'[b] (Nat.zero_le _) (Nat.le_of_lt hab) (by omega)
      (List.getElem?_eq_getElem ha') (List.getElem?_eq_getElem hb')
  · rw [rows_ofRows]; exact h2.perm

/-- A full cloud whose points all have the same return order: after the sort it has exactly the same
points, in order of time of validity. -/
theorem C37_full_partial {n : Nat} {c : Cloud} {o : UInt8} (hn : 0 < n) (hc : c.Sized n)
    (hfull : c.len = n) (ho : c.returnOrder = List.replicate n o) :
    ∃ c', c.sort n = .ok c' ∧ c'.points.Perm c.points ∧
      c'.points.Pairwise (fun p q => p.1.1 ≤ q.1.1) := by
  obtain ⟨c', h1, h2, h3, h4, h5, h6⟩ := C37_sort_partial hn hc
  have all : ∀ {d : Cloud}, d.Sized n → d.len = n → d.returnOrder = List.replicate n o →
      d.points = d.rows.map (fun r => (r, o)) := by
    intro d hd hl hr
    have hlen : d.rows.length = n := by simp [Cloud.rows, hd.tov, hd.x, hd.y, hd.z, hd.i]
    unfold Cloud.points
    rw [List.take_of_length_le (by simp [hlen, hl]; omega), hr, ← hlen]
    generalize d.rows = l
    induction l with
    | nil => rfl
    | cons a l ih => simp [List.replicate_succ, ih]
  have e1 := all hc hfull ho
  have e2 := all h2 (h6.trans hfull) (h5.trans ho)
  refine ⟨c', h1, ?_, ?_⟩
  · rw [e1, e2]; exact h4.map _
  · rw [e2, List.pairwise_map]
    have htov : c'.tov = c'.rows.map (·.1) := by
      have := congrArg Cloud.tov (ofRows_rows h2)
      exact this.symm
    rw [htov, List.pairwise_map] at h3
    exact h3

/-- Three points given out of order. -/
def demoCloud : Cloud := ⟨3, [30, 10, 20], [⟨3⟩, ⟨1⟩, ⟨2⟩], [⟨33⟩, ⟨11⟩, ⟨22⟩], [⟨333⟩, ⟨111⟩, ⟨222⟩],
  [⟨7⟩, ⟨8⟩, ⟨9⟩], [0, 0, 0]⟩

example := C37_sort_partial (n := 3) (c := demoCloud) (by decide) ⟨rfl, rfl, rfl, rfl, rfl, rfl⟩

example : demoCloud.Sized 3 ∧ demoCloud.len = 3 ∧ demoCloud.returnOrder = List.replicate 3 0 ∧
    demoCloud.sort 3 =
      .ok ⟨3, [10, 20, 30], [⟨1⟩, ⟨2⟩, ⟨3⟩], [⟨11⟩, ⟨22⟩, ⟨33⟩], [⟨111⟩, ⟨222⟩, ⟨333⟩],
        [⟨8⟩, ⟨9⟩, ⟨7⟩], [0, 0, 0]⟩ :=
  ⟨⟨rfl, rfl, rfl, rfl, rfl, rfl⟩, rfl, rfl, by decide⟩

/-- Points do not keep their return order: in a full cloud, a second return at time 10 comes out of the
sort as a first return. -/
theorem C37_violated_return_order :
    ∃ (c c' : Cloud), c.Sized 2 ∧ c.len = 2 ∧ c.sort 2 = .ok c' ∧
      ¬ c'.points.Perm c.points := by
  refine ⟨⟨2, [20, 10], [⟨2⟩, ⟨1⟩], [⟨0⟩, ⟨0⟩], [⟨0⟩, ⟨0⟩], [⟨0⟩, ⟨0⟩], [0, 1]⟩,
    ⟨2, [10, 20], [⟨1⟩, ⟨2⟩], [⟨0⟩, ⟨0⟩], [⟨0⟩, ⟨0⟩], [⟨0⟩, ⟨0⟩], [0, 1]⟩, ⟨rfl, rfl, rfl, rfl, rfl, rfl⟩, rfl,
    by decide, ?_⟩
  intro h
  have hm := h.mem_iff (a := ((10, ⟨1⟩, ⟨0⟩, ⟨0⟩, ⟨0⟩), 0))
  revert hm
  decide

/-- Points are lost when the cloud is not full: the unused slots, whose time of validity is zero, are
sorted with the points and come first. -/
theorem C37_violated_short :
    ∃ (c c' : Cloud), c.Sized 2 ∧ c.len = 1 ∧ c.sort 2 = .ok c' ∧
      c.points = [((10, ⟨1⟩, ⟨0⟩, ⟨0⟩, ⟨0⟩), 0)] ∧ c'.points = [((0, ⟨0⟩, ⟨0⟩, ⟨0⟩, ⟨0⟩), 0)] :=
  ⟨⟨1, [10, 0], [⟨1⟩, ⟨0⟩], [⟨0⟩, ⟨0⟩], [⟨0⟩, ⟨0⟩], [⟨0⟩, ⟨0⟩], [0, 0]⟩,
    ⟨1, [0, 10], [⟨0⟩, ⟨1⟩], [⟨0⟩, ⟨0⟩], [⟨0⟩, ⟨0⟩], [⟨0⟩, ⟨0⟩], [0, 0]⟩, ⟨rfl, rfl, rfl, rfl, rfl, rfl⟩, rfl,
    by decide, by decide, by decide⟩

/-- Sorting a cloud of capacity zero panics. -/
theorem C37_violated_zero : (⟨0, [], [], [], [], [], []⟩ : Cloud).Sized 0 ∧
    (⟨0, [], [], [], [], [], []⟩ : Cloud).sort 0 = .panic :=
  ⟨⟨rfl, rfl, rfl, rfl, rfl, rfl⟩, by decide⟩

end PointCloud
end Verif
