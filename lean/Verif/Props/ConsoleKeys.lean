import Verif.Proofs.ConsoleKeys
/-! C128: the console does what its keys say. -/
namespace Verif
namespace ConsoleMon
open Clock Planner Verif.Runtime Monitoring
variable {n : Nat} {k₀ : Console} {pane : Bool}

theorem console_new (h : Console.new n pane = .ok k₀) :
    ∃ m₀, Mon.new n = .ok m₀ ∧ m₀.quitting = false ∧ k₀ = ⟨m₀, some .sysInfo, pane⟩ := by
  obtain ⟨m, hm, -, -, -, hq⟩ := new_ok n
  simp only [Console.new, hm, Rs.ok_bind, Rs.pure_eq, Rs.ok.injEq] at h
  exact ⟨m, hm, hq, h.symm⟩

/-- Whatever the application did and whatever was typed, in any order, before a drawing (and the user has not quit, and
the terminal works): the screen drawn is the one of the last key of the menu.  If it is the graph, it shows for each
task the last error since the graph was last drawn, or else the last status.  If it is the table of latencies, each row
is exact for the iterations since `r` was last typed while the table was on the screen, or the application stopped; so is
the last row as long as the application did not stop.  Missing: a terminal that fails, a stopped application, see the
violations. -/
theorem C128_screens_partial (o : Overflow) (hn : Console.new n pane = .ok k₀) (as : List Act) (hu : Up as)
    {k : Console} {vs : List Shown} {v : Shown} (h : k₀.run o (as ++ [.draw]) = .ok (k, vs ++ [v])) :
    (onScreen pane as = .dag → v = .graph ((List.range n).map (shouldShow (story pane as)))) ∧
    (onScreen pane as = .latency → ∃ t, v = .table t ∧
      ((∀ md, Act.iteration md ∈ as → Timed md) → t.stats.length = n ∧
        (∀ i row, t.stats[i]? = some row →
          Accurate (latencies i (story pane as) []) row.bare.len row.bare.min row.bare.mean row.bare.max) ∧
        (Act.stop ∉ as → Accurate (wholeLatencies (story pane as) []) t.end2end.bare.len t.end2end.bare.min
          t.end2end.bare.mean t.end2end.bare.max))) ∧
    (onScreen pane as ≠ .dag → onScreen pane as ≠ .latency → v = .other (onScreen pane as)) := by
  obtain ⟨m₀, hm, hq, rfl⟩ := console_new hn
  obtain ⟨k₁, vs₁, v', h1, h2, h3⟩ := crun_snoc.1 h
  obtain ⟨-, rfl⟩ : vs = vs₁ ∧ v = v' := by
    have := List.append_inj' h3 rfl
    exact ⟨this.1, by simpa using this.2⟩
  obtain ⟨hp, hs, rs, hr⟩ := console_story hm as hu h1
  simp only [Console.step, hs, Rs.ok.injEq] at h2
  have hin : ∀ e, e ∈ story pane as → (∀ md, e = .iteration md → Act.iteration md ∈ as) ∧ (e = .stop → Act.stop ∈ as) := by
    intro e he
    unfold story at he
    obtain ⟨⟨i, a⟩, hx, hy⟩ := List.mem_filterMap.1 he
    have ha := (List.of_mem_zip hx).2
    cases a with
    | iteration md => simp only [meaning, Option.some.injEq] at hy; subst hy; exact ⟨fun _ h => by cases h; exact ha, nofun⟩
    | failure t p x => simp only [meaning, Option.some.injEq] at hy; subst hy; exact ⟨nofun, nofun⟩
    | stop => simp only [meaning, Option.some.injEq] at hy; subst hy; exact ⟨nofun, fun _ => ha⟩
    | draw =>
      simp only [meaning] at hy
      split at hy
      · cases hy; exact ⟨nofun, nofun⟩
      · cases hy
    | key c x =>
      simp only [meaning] at hy
      split at hy
      · cases hy; exact ⟨nofun, nofun⟩
      · cases hy
    | fails => cases hy
  refine ⟨fun hd => ?_, fun hd => ?_, fun h3 h4 => ?_⟩
  · rw [hd] at h2
    simp only [Console.draw, Prod.mk.injEq] at h2
    rw [← h2.2]
    have h5 := C70_statuses hm o (story pane as) hr
    obtain ⟨m₂, rs₂, rs₃, h6, h7, h8⟩ := run_append.1 h5
    rw [hr] at h6
    cases h6
    have h9 := List.append_cancel_left h8
    rw [← h9] at h7
    obtain ⟨m₃, r, rs', h10, h11, h12⟩ := run_cons.1 h7
    simp only [Mon.step, Rs.ok.injEq, Prod.mk.injEq] at h10
    rw [← h10.2] at h12
    simp only [List.cons.injEq, Reply.lines.injEq] at h12
    rw [h12.1]
  · rw [hd] at h2
    simp only [Console.draw, Prod.mk.injEq] at h2
    refine ⟨_, h2.2.symm, fun ht => ?_⟩
    · obtain ⟨h4, h5, h6⟩ := C70_latencies_partial hm o (story pane as) (fun md hmd => ht md ((hin _ hmd).1 md rfl)) hr
      exact ⟨h4, fun i row hi => (h5 i row hi).1, fun hst => (h6 (fun hx => hst ((hin _ hx).2 rfl))).1⟩
  · cases hx : onScreen pane as <;> rw [hx] at h2 h3 h4 <;> simp [Console.draw] at h2 h3 h4 <;> exact h2.2.symm

/-- On a terminal that works, the run is ended by the first iteration after `q` was typed, and never without it; after
`q` nothing is drawn. -/
theorem C128_quit_partial (o : Overflow) (hn : Console.new n pane = .ok k₀) (as : List Act) (hf : Act.fails ∉ as)
    {k : Console} {vs : List Shown} {v : Shown} {a : Act} (h : k₀.run o (as ++ [a]) = .ok (k, vs ++ [v])) :
    (∀ md, a = .iteration md → ((∃ ctrl, Act.key 'q' ctrl ∈ as) → v = .reply (.result (some "Exiting..."))) ∧
      ((¬ ∃ ctrl, Act.key 'q' ctrl ∈ as) → v = .reply (.result none))) ∧
    (a = .draw → (v = .nothing ↔ ∃ ctrl, Act.key 'q' ctrl ∈ as)) := by
  obtain ⟨m₀, hm, hq, rfl⟩ := console_new hn
  obtain ⟨k₁, vs₁, v', h1, h2, h3⟩ := crun_snoc.1 h
  obtain ⟨-, rfl⟩ : vs = vs₁ ∧ v = v' := by
    have := List.append_inj' h3 rfl
    exact ⟨this.1, by simpa using this.2⟩
  obtain ⟨i1, i2⟩ := console_quit hq as hf h1
  refine ⟨?_, ?_⟩
  · rintro md rfl
    simp only [Console.step, Rs.bind_eq_ok, Rs.pure_eq, Rs.ok.injEq, Prod.mk.injEq, Prod.exists] at h2
    obtain ⟨m', r, h4, -, rfl⟩ := h2
    rw [(quitting_step h4).2.1 md rfl]
    refine ⟨fun hx => by rw [if_pos (i1.2 hx)], fun hx => by rw [if_neg (fun hy => hx (i1.1 hy))]⟩
  · rintro rfl
    rw [← i1, ← i2]
    cases hs : k₁.screen with
    | none => simp only [Console.step, hs, Rs.ok.injEq, Prod.mk.injEq] at h2; simp [h2.2.symm]
    | some s =>
      simp only [Console.step, hs, Rs.ok.injEq] at h2
      cases s <;> simp only [Console.draw, Prod.mk.injEq] at h2 <;> simp [← h2.2]

/-- The graph, then the table, a reset, and the end; with calls of the application in between. -/
def demoActs : List Act :=
  [.draw, .iteration [demoMeta 100 130 "ok"], .key '2' false, .key 'r' false, .failure 0 .process "bad", .draw, .draw,
   .key '3' false, .iteration [demoMeta 200 290 "ok"], .draw, .key 'r' false, .iteration [demoMeta 300 350 "ok"]]

example : Up demoActs ∧ onScreen false demoActs = .latency ∧ onScreen false (demoActs.take 5) = .dag ∧
    latencies 0 (story false demoActs) [] = [50] ∧ latencies 0 (story false (demoActs.take 10)) [] = [30, 90] ∧
    (List.range 1).map (shouldShow (story false (demoActs.take 5))) = [(true, "bad")] ∧
    (List.range 1).map (shouldShow (story false (demoActs.take 6))) = [(false, "ok")] := by
  refine ⟨?_, by decide +kernel, by decide +kernel, by decide +kernel, by decide +kernel, by decide +kernel,
    by decide +kernel⟩
  intro a ha
  simp only [demoActs, List.mem_cons, List.not_mem_nil, or_false] at ha
  rcases ha with rfl | rfl | rfl | rfl | rfl | rfl | rfl | rfl | rfl | rfl | rfl | rfl <;> simp

example : ∃ k₀ k vs, Console.new 1 false = .ok k₀ ∧
    k₀.run .checked (demoActs ++ [.key 'q' false, .draw, .iteration [demoMeta 400 410 "ok"]]) = .ok (k, vs) ∧
    vs.drop 12 = [.nothing, .nothing, .reply (.result (some "Exiting..."))] := by
  refine ⟨_, _, _, rfl, rfl, ?_⟩
  decide +kernel

/-! Negations -/

/-- When an operation on the terminal has failed, the console is gone but the application is not told, and cannot be
ended any more: whatever is typed, no iteration ends the run. -/
theorem C128_terminal_violated (o : Overflow) (hn : Console.new n pane = .ok k₀) (as : List Act) (md : List MsgMeta)
    {k : Console} {vs : List Shown} {v : Shown}
    (h : k₀.run o (.fails :: as ++ [.iteration md]) = .ok (k, vs ++ [v])) : v = .reply (.result none) := by
  obtain ⟨m₀, hm, hq, rfl⟩ := console_new hn
  obtain ⟨k₁, vs₁, v', h1, h2, h3⟩ := crun_snoc.1 h
  obtain ⟨-, rfl⟩ : vs = vs₁ ∧ v = v' := by
    have := List.append_inj' h3 rfl
    exact ⟨this.1, by simpa using this.2⟩
  simp only [Console.run, Console.step, Rs.ok_bind, Rs.bind_eq_ok, Rs.pure_eq, Rs.ok.injEq, Prod.mk.injEq,
    Prod.exists] at h1
  obtain ⟨k₂, vs₂, h4, rfl, -⟩ := h1
  obtain ⟨-, h5⟩ := console_dead as rfl h4
  simp only [Console.step, Rs.bind_eq_ok, Rs.pure_eq, Rs.ok.injEq, Prod.mk.injEq, Prod.exists] at h2
  obtain ⟨m', r, h6, -, rfl⟩ := h2
  rw [(quitting_step h6).2.1 md rfl, h5]
  simp [hq]

example : ∃ k₀ k vs, Console.new 1 false = .ok k₀ ∧
    k₀.run .checked [.fails, .key 'q' false, .iteration [demoMeta 100 130 "ok"]] = .ok (k, vs) ∧
    vs = [.nothing, .nothing, .reply (.result none)] := by
  refine ⟨_, _, _, rfl, rfl, ?_⟩
  decide +kernel

/-- Control-C, which the terminal hands to the console as a key, does nothing. -/
theorem C128_interrupt_violated (o : Overflow) (k : Console) : k.step o (.key 'c' true) = .ok (k, .nothing) := by
  cases k with
  | mk m s pane => cases s <;> simp [Console.step, Console.key]

/-- An application that has stopped leaves the console behind: it goes on drawing. -/
theorem C128_stop_violated (o : Overflow) (k : Console) (s : Screen) (hs : k.screen = some s) :
    ∃ k' v vs, k.run o [.stop, .draw] = .ok (k', vs ++ [v]) ∧ v ≠ .nothing := by
  cases k with
  | mk m sc pane =>
    simp only at hs
    subst hs
    cases s
    · exact ⟨_, .other .sysInfo, [.reply .nothing], rfl, nofun⟩
    · exact ⟨_, _, [.reply .nothing], rfl, nofun⟩
    · exact ⟨_, _, [.reply .nothing], rfl, nofun⟩
    · exact ⟨_, .other .debugOutput, [.reply .nothing], rfl, nofun⟩
    · exact ⟨_, .other .pools, [.reply .nothing], rfl, nofun⟩

end ConsoleMon
end Verif
