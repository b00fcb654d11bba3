import Verif.Proofs.ConsoleTables
import Verif.Props.ConsoleMon
/-! C127: the table of latencies can be read. -/
namespace Verif
namespace ConsoleMon
open Clock Verif.Runtime Monitoring ShowTime

/-- After any history, the table has a row for each task, which can be read as the name of the task and the
figures of its times since the last reset, and last a row of whole iterations, as long as the application did not
stop. -/
theorem C127_rows_partial {ids : List (List Char)} {m₀ m : Mon} (hn : Mon.new ids.length = .ok m₀) (o : Overflow)
    (es : List Event) (ht : ∀ md, Event.iteration md ∈ es → Timed md) {rs : List Reply}
    (h : m₀.run o es = .ok (m, rs)) :
    ∃ rows last, latencyTable ids m.stats = .ok (rows ++ [last]) ∧ rows.length = ids.length ∧
      (∀ i id cells, ids[i]? = some id → rows[i]? = some cells → ShowsRow id (latencies i es []) cells) ∧
      (Event.stop ∉ es → ShowsRow "End2End".toList (wholeLatencies es []) last) := by
  obtain ⟨m', h', hr, hw, -, -⟩ := new_ok ids.length
  rw [hn] at h'
  cases h'
  have hR := rows_run es hr ht h
  obtain ⟨rows, h1, h2, h3⟩ := rows_ok ids m.stats.stats 0 (by rw [hR.rows]; omega)
  refine ⟨rows, latencyRow "End2End".toList m.stats.end2end, by simp only [latencyTable, h1], by rw [h2, hR.rows], ?_, ?_⟩
  · intro i id cells hid hc
    obtain ⟨hlt, -⟩ := List.getElem?_eq_some_iff.1 hc
    have hs : m.stats.stats[i]? = some (m.stats.stats[i]'(by omega)) := List.getElem?_eq_getElem _
    have := h3 i _ id hs (by rw [Nat.zero_add]; exact hid)
    rw [hc] at this
    cases this
    exact row_shows id (hR.inv i _ hs)
  · exact fun hst => row_shows _ (whole_run es hw ht hst h)

/-- The table of two tasks after two iterations. -/
example : ∃ m₀ m rs, Mon.new 2 = .ok m₀ ∧ m₀.run .checked demoEvents = .ok (m, rs) ∧
    latencyTable ["motor".toList, "gps".toList] m.stats = .ok
      [["     motor", "     30 ns", "       50 ns", "       40 ns", "     10 ns", "       20 ns", "        20 ns"].map String.toList,
       ["       gps", "     50 ns", "       70 ns", "       60 ns", "     10 ns", "       20 ns", "        20 ns"].map String.toList,
       ["   End2End", "    100 ns", "      100 ns", "      100 ns", "      0 ns", "        0 ns", "         0 ns"].map String.toList] := by
  refine ⟨_, _, _, rfl, rfl, ?_⟩
  decide +kernel

/-- The name of a task may be any length, but its row shows the last ten characters of it: two tasks whose names
end alike cannot be told apart. -/
theorem C127_names_violated : ∃ (a b : List Char), a ≠ b ∧
    ∀ s, ∃ c r₁ r₂, latencyRow a s = c :: r₁ ∧ latencyRow b s = c :: r₂ ∧ written c = "el_encoder".toList :=
  ⟨"left_wheel_encoder".toList, "right_wheel_encoder".toList, by decide, fun _ => ⟨_, _, _, rfl, rfl, by decide⟩⟩

/-- Two iterations of one task, of 159 µs and of two seconds. -/
def unevenEvents : List Event :=
  [.iteration [demoMeta 0 158725 "ok"], .iteration [demoMeta 1000000000 3000158720 "ok"]]

theorem uneven_timed : ∀ md, Event.iteration md ∈ unevenEvents → Timed md := by
  intro md h
  simp only [unevenEvents, List.mem_cons, Event.iteration.injEq, List.not_mem_nil, or_false] at h
  rcases h with rfl | rfl <;> exact ⟨by simp, by decide, by decide, by decide⟩

/-- A deviation of almost a second is rounded to a thousand milliseconds, which takes one character more than its
column has: the table says that it is zero. -/
theorem C127_deviation_violated : ∃ m₀ m rs c₀ c₁ c₂ c₃ c₄ c₅ c₆ last, Mon.new 1 = .ok m₀ ∧
    m₀.run .checked unevenEvents = .ok (m, rs) ∧ latencies 0 unevenEvents [] = [158725, 2000158720] ∧
    latencyTable ["planner".toList] m.stats = .ok [[c₀, c₁, c₂, c₃, c₄, c₅, c₆], last] ∧
    c₄ = "000.000 ms".toList ∧ readTime (written c₄) = some 0 ∧
    (999 * 1000000 : ℝ) ≤ deviationOf (latencies 0 unevenEvents []) := by
  refine ⟨_, _, _, _, _, _, _, _, _, _, _, rfl, rfl, by decide +kernel, rfl, by decide +kernel, by decide +kernel, ?_⟩
  have e : latencies 0 unevenEvents [] = [158725, 2000158720] := by decide +kernel
  rw [e]
  unfold deviationOf meanOf
  apply Real.le_sqrt_of_sq_le
  norm_num

end ConsoleMon
end Verif
