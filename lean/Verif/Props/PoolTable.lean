import Verif.Proofs.PoolTable
/-! C127: the table of memory pools can be read. -/
namespace Verif
namespace ConsoleMon
open Fp

/-- For a pool of up to 2^53 bytes, the row can be read as its name, the megabytes in use and in total up to half of
the last digit, the share in use, the handles in use and their rate; and the size of a buffer when it is a multiple of
a kilobyte. -/
theorem C127_pools_partial (ps : List PoolStats) (i : Nat) (p : PoolStats) (hp : ps[i]? = some p) (hs : p.spaceLeft ≤ p.totalSize)
    (h0 : 0 < p.totalSize) (hb : p.totalSize * p.bufferSize ≤ 2 ^ 53) (hb' : p.bufferSize ≤ 2 ^ 53) (ht : 100 * p.totalSize ≤ 2 ^ 53) :
    ∃ (used total share : List Char) (size : Nat) (u t s : ℚ), (poolTable ps)[i]? = some
      [p.id.toList, used ++ " MB / ".toList ++ total ++ " MB (".toList ++ share ++ "%)".toList,
       Nat.toDigits 10 size ++ " KB".toList, Nat.toDigits 10 p.handlesInUse,
       Nat.toDigits 10 p.handlesPerSecond ++ "/s".toList] ∧
      decimal used = some u ∧ |u - (p.totalSize - p.spaceLeft : Nat) * p.bufferSize / 1048576| ≤ 1 / 200 ∧
      decimal total = some t ∧ |t - p.totalSize * p.bufferSize / 1048576| ≤ 1 / 200 ∧
      decimal share = some s ∧ |s - 100 * (p.totalSize - p.spaceLeft : Nat) / p.totalSize| ≤ 51 / 1000 ∧
      (1024 ∣ p.bufferSize → 1024 * size = p.bufferSize) := by
  have hu : (p.totalSize - p.spaceLeft) * p.bufferSize ≤ p.totalSize * p.bufferSize :=
    Nat.mul_le_mul_right _ (Nat.sub_le _ _)
  have e1 := megabytes_exact (n := p.totalSize - p.spaceLeft) (b := p.bufferSize) (by omega) hb' (by omega)
  have e2 := megabytes_exact (n := p.totalSize) (b := p.bufferSize) (by omega) hb' hb
  obtain ⟨q, e3, hq, hqe⟩ := percent_near (u := p.totalSize - p.spaceLeft) (t := p.totalSize) ht (Nat.sub_le _ _) h0
  obtain ⟨u, u1, u2⟩ := decimal_fixed 2 (q := ((p.totalSize - p.spaceLeft : Nat) : ℚ) * p.bufferSize / 1048576) (by positivity)
  obtain ⟨t, t1, t2⟩ := decimal_fixed 2 (q := (p.totalSize : ℚ) * p.bufferSize / 1048576) (by positivity)
  obtain ⟨s, s1, s2⟩ := decimal_fixed 1 hq
  rw [← e1] at u1
  rw [← e2] at t1
  rw [← e3] at s1
  refine ⟨_, _, _, p.bufferSize / 1024, u, t, s,
    by simp only [poolTable, List.getElem?_map, hp, Option.map_some]; rfl, u1, le_trans u2 (by norm_num), t1, le_trans t2 (by norm_num), s1, ?_, ?_⟩
  · have s2' : |s - q| ≤ 1 / 20 := le_trans s2 (by norm_num)
    rw [abs_le] at *
    constructor <;> linarith [s2'.1, s2'.2, hqe.1, hqe.2]
  · intro h
    omega

/-- A pool of ten images with three of them in use. -/
example : poolTable [⟨"camera", 7, 10, 6220800, 3, 12, 0, 0⟩] =
    [["camera", "17.80 MB / 59.33 MB (30.0%)", "6075 KB", "3", "12/s"].map String.toList] := by decide +kernel

/-- The buffers of a pool of small ones have no size, and they take no memory. -/
theorem C127_pools_violated : ∃ p : PoolStats, 0 < p.bufferSize ∧ 0 < p.totalSize - p.spaceLeft ∧
    poolRow p = ["points", "0.00 MB / 0.00 MB (50.0%)", "0 KB", "2", "0/s"].map String.toList :=
  ⟨⟨"points", 2, 4, 1000, 2, 0, 0, 0⟩, by decide, by decide, by decide +kernel⟩

end ConsoleMon
end Verif
