import Verif.Proofs.ConsoleMon
import Verif.Props.RuntimePool
/-! C70: the console monitor shows what the tasks did. -/
namespace Verif
namespace ConsoleMon
open Clock Planner Verif.Runtime Monitoring

/-! ### Latencies -/

/-- Row `i` of the table of latencies shows the figures of the times in the `i`-th messages since the last
reset, and its jitter is that of successive times; so does the last row for whole iterations, as long as
the application did not stop. -/
theorem C70_latencies_partial {n : Nat} {m₀ m : Mon} (hn : Mon.new n = .ok m₀) (o : Overflow) (es : List Event)
    (ht : ∀ md, Event.iteration md ∈ es → Timed md) {rs : List Reply} (h : m₀.run o es = .ok (m, rs)) :
    m.stats.stats.length = n ∧
    (∀ i row, m.stats.stats[i]? = some row →
      Accurate (latencies i es []) row.bare.len row.bare.min row.bare.mean row.bare.max ∧
      Accurate (differences (latencies i es [])) row.jitter.len row.jitter.min row.jitter.mean row.jitter.max) ∧
    (Event.stop ∉ es →
      Accurate (wholeLatencies es []) m.stats.end2end.bare.len m.stats.end2end.bare.min
        m.stats.end2end.bare.mean m.stats.end2end.bare.max ∧
      Accurate (differences (wholeLatencies es [])) m.stats.end2end.jitter.len m.stats.end2end.jitter.min
        m.stats.end2end.jitter.mean m.stats.end2end.jitter.max) := by
  obtain ⟨m', h', hr, hw, -, -⟩ := new_ok n
  rw [hn] at h'
  cases h'
  have hR := rows_run es hr ht h
  have acc : ∀ {l : List Nat} {s : DurStats}, Inv N l s →
      Accurate l s.bare.len s.bare.min s.bare.mean s.bare.max ∧
      Accurate (differences l) s.jitter.len s.jitter.min s.jitter.mean s.jitter.max := by
    intro l s hi
    have h1 := hist_accurate s.bare
    have h2 := hist_accurate s.jitter
    rw [show s.bare.seen = l by rw [hi.bare]] at h1
    rw [show s.jitter.seen = differences l by rw [hi.jitter]] at h2
    exact ⟨h1, h2⟩
  exact ⟨hR.rows, fun i row hrow => acc (hR.inv i row hrow), fun hs => acc (whole_run es hw ht hs h)⟩

/-- A message timed from `a` to `b`. -/
def demoMeta (a b : UInt64) (txt : String) : MsgMeta := ⟨⟨.ofTime ⟨a⟩, .ofTime ⟨b⟩⟩, .none, txt⟩

/-- Two iterations of two tasks. -/
def demoEvents : List Event :=
  [.iteration [demoMeta 100 130 "ok", demoMeta 130 200 "slow"], .failure 1 .process "bad",
   .iteration [demoMeta 300 350 "ok", demoMeta 350 400 "\x00"]]

theorem demo_timed : ∀ md, Event.iteration md ∈ demoEvents → Timed md := by
  intro md h
  simp only [demoEvents, List.mem_cons, Event.iteration.injEq, reduceCtorEq, List.not_mem_nil, or_false, false_or] at h
  rcases h with rfl | rfl <;> exact ⟨by simp, by decide, by decide, by decide⟩

example : latencies 0 demoEvents [] = [30, 50] ∧ latencies 1 demoEvents [] = [70, 50] ∧
    wholeLatencies demoEvents [] = [100, 100] := by decide

example : ∃ m₀ m rs, Mon.new 2 = .ok m₀ ∧ m₀.run .checked demoEvents = .ok (m, rs) ∧
    m.stats.stats.map (fun r => (r.bare.min, r.bare.max)) = [(30, 50), (50, 70)] := by
  refine ⟨_, _, _, rfl, rfl, ?_⟩
  decide +kernel

/-- Stopping the application resets the rows of the tasks and not that of whole iterations: after another
start it shows the figures of both runs. -/
theorem C70_stop_violated : ∃ m₀ m rs, Mon.new 2 = .ok m₀ ∧
    m₀.run .checked (demoEvents ++ [.stop]) = .ok (m, rs) ∧ wholeLatencies (demoEvents ++ [.stop]) [] = [] ∧
    m.stats.stats.map (fun r => r.bare.len) = [0, 0] ∧ m.stats.end2end.bare.len = 2 := by
  refine ⟨_, _, _, rfl, rfl, ?_, ?_, ?_⟩ <;> decide +kernel

/-- In an iteration without failures, row `v`, which bears the name of task `v`, gets the time of the
message of that task, when the order of the tasks in the configuration is the order of execution, or one
which is its own inverse. -/
theorem C70_names_partial {σ P : Type} (g : Graph) (hg : g.WF) (app : App σ P)
    (hp : computePlan g = .ok (some app.plan)) (hinv : SelfInverse (callOrder app.plan))
    (hlog : app.env.log.isSome = true) (rt rt' : Rt σ P)
    (hi : Idle app.plan.length rt.mgr) (h : runOneIteration app rt = .ok (rt', none)) :
    ∃ t, rt'.w.trace = rt.w.trace ++ t ∧
      ((∀ ev ∈ t, ev.stops = false) →
        ∃ md, shownMetadata t = [md] ∧
          ∀ v m, (v, m) ∈ lefts t → latencies v [.iteration md] [] = [took m.md]) := by
  obtain ⟨t, h1, h2⟩ := C24_accessors_partial g hg app hp hinv hlog rt rt' hi h
  refine ⟨t, h1, fun hs => ?_⟩
  obtain ⟨cl, md, -, h3, h4⟩ := h2 hs
  exact ⟨md, h3, fun v m hm => by simp [latencies, (h4 v m hm).2]⟩

/-- Otherwise the names are wrong: with the sink declared first, the row of task 1 is that of the message
of task 0. -/
theorem C70_names_violated :
    rotatedGraph.WF ∧ computePlan rotatedGraph = .ok (some rotatedPlan) ∧
    runOneIteration (rotatedApp .wrapping) demoStart = .ok (rotated1, none) ∧
    ∃ md m₀ m₁, shownMetadata rotated1.w.trace = [md] ∧ (0, m₀) ∈ lefts rotated1.w.trace ∧
      (1, m₁) ∈ lefts rotated1.w.trace ∧ md[1]? = some m₀.md ∧ m₀.md ≠ m₁.md := by
  refine ⟨by decide, by decide +kernel, by decide +kernel, ?_⟩
  have h : (shownMetadata rotated1.w.trace).map (fun md => md[1]?) =
      [((lefts rotated1.w.trace)[2]?.map (fun x => x.2.md))] := by decide +kernel
  have hl : (lefts rotated1.w.trace).map (fun x => x.1) = [1, 2, 0] := by decide +kernel
  have hd : (lefts rotated1.w.trace)[2]?.map (fun x => x.2.md) ≠
      (lefts rotated1.w.trace)[0]?.map (fun x => x.2.md) := by decide +kernel
  generalize shownMetadata rotated1.w.trace = sh at *
  generalize lefts rotated1.w.trace = l at *
  match sh, l, h, hl, hd with
  | [md], [(1, m₁), (2, m₂), (0, m₀)], h, _, hd =>
    exact ⟨md, m₀, m₁, rfl, by simp, by simp, by simpa using h, by simpa using hd⟩
  | _ :: _ :: _, _, h, _, _ => simp at h

/-- The monitor does not panic as long as every iteration has timed messages which took at most five
seconds, no more than the tasks it knows, and none has an empty status. -/
theorem C70_no_panic_partial {n : Nat} (o : Overflow) (es : List Event)
    (hi : ∀ md, Event.iteration md ∈ es → Timed md ∧ md.length ≤ n ∧ (∀ x ∈ md, took x ≤ 5000000000) ∧
      (∀ v ∈ tookAll md, v ≤ 5000000000) ∧ ∀ x ∈ md, x.statusTxt ≠ "")
    (hf : ∀ t p x, Event.failure t p x ∈ es → t < n) :
    ∃ m₀ r, Mon.new n = .ok m₀ ∧ m₀.run o es = .ok r := by
  obtain ⟨m₀, h, hr, hw, -, -⟩ := new_ok n
  obtain ⟨r, hr⟩ := run_ok (o := o) es hr hw hi hf
  exact ⟨m₀, r, h, hr⟩

/-- An empty status, such as a task may set, is a panic in the monitor, in any state. -/
theorem C70_empty_status_violated (o : Overflow) (m : Mon) (md : List MsgMeta) (x : MsgMeta) (hx : x ∈ md)
    (ht : x.statusTxt = "") : m.processCopperlist o md = .panic := by
  have key : ∀ (ss : List TaskStatus) (md : List MsgMeta), x ∈ md → updateTexts ss md = .panic := by
    intro ss md
    induction md generalizing ss with
    | nil => simp
    | cons y md ih =>
      intro hy
      cases ss with
      | nil => rfl
      | cons s ss =>
        rcases List.mem_cons.1 hy with rfl | hy
        · simp [updateTexts, keptText, ht]
        · simp only [updateTexts, ih ss hy]
          cases keptText y.statusTxt <;> rfl
  unfold Mon.processCopperlist
  rw [key m.statuses md hx]
  cases m.stats.update o md <;> rfl

/-- So is a task which took nine seconds. -/
theorem C70_slow_violated : ∃ m₀, Mon.new 1 = .ok m₀ ∧ Timed [demoMeta 0 9000000000 "ok"] ∧
    m₀.run .checked [.iteration [demoMeta 0 9000000000 "ok"]] = .panic := by
  exact ⟨_, rfl, ⟨by simp, by decide, by decide, by decide⟩, by decide +kernel⟩

/-! ### Statuses -/

/-- At any moment the graph shows, for each task, its last error if it was not shown yet, its last status
otherwise. -/
theorem C70_statuses {n : Nat} {m₀ m : Mon} (hn : Mon.new n = .ok m₀) (o : Overflow) (es : List Event)
    {rs : List Reply} (h : m₀.run o es = .ok (m, rs)) :
    m₀.run o (es ++ [.draw]) = .ok (m.draw.1, rs ++ [.lines ((List.range n).map (shouldShow es))]) := by
  obtain ⟨m', h', hr, -, hs, -⟩ := new_ok n
  rw [hn] at h'
  cases h'
  have h0 : Track [] m₀ := by
    intro i s hi
    rw [hs, List.getElem?_replicate] at hi
    split at hi
    · cases hi
      exact ⟨rfl, by simp [pendingError], rfl⟩
    · cases hi
  have ht := track_run es h0 h
  rw [List.append_nil] at ht
  have hlen : m.statuses.length = n := by
    have : ∀ (es : List Event) {m₁ m₂ : Mon} {rs : List Reply}, m₁.run o es = .ok (m₂, rs) →
        m₂.statuses.length = m₁.statuses.length := by
      intro es
      induction es with
      | nil =>
        intro m₁ m₂ rs h
        simp only [Mon.run, Rs.ok.injEq, Prod.mk.injEq] at h
        rw [h.1]
      | cons e es ih =>
        intro m₁ m₂ rs h
        obtain ⟨m₃, r, rs', h1, h2, -⟩ := run_cons.1 h
        exact (ih h2).trans (statuses_length h1)
    rw [this es h, hs, List.length_replicate]
  refine run_append.2 ⟨m, rs, [.lines ((List.range n).map (shouldShow es))], h, ?_, rfl⟩
  refine run_cons.2 ⟨m.draw.1, _, [], rfl, rfl, ?_⟩
  rw [← hlen, ← line_eq ht]
  rfl

example : (List.range 2).map (shouldShow demoEvents) = [(false, "ok"), (true, "bad")] ∧
    (List.range 2).map (shouldShow (demoEvents ++ [.draw])) = [(false, "ok"), (false, "")] := by decide

/-! ### Answers -/

/-- The monitor ends the run at the first iteration after the user asked to quit, and not before; it stops
the application on an error of `start` or `stop`, drops the iteration on one of `preprocess`, and ignores
those of `process` and `postprocess`. -/
theorem C70_answers {n : Nat} {m₀ m : Mon} (hn : Mon.new n = .ok m₀) (o : Overflow) (es : List Event) (e : Event)
    {rs : List Reply} {r : Reply} (h : m₀.run o (es ++ [e]) = .ok (m, rs ++ [r])) :
    (∀ md, e = .iteration md → (r = .result none ∧ Event.quit ∉ es) ∨ (r = .result (some "Exiting...") ∧ Event.quit ∈ es)) ∧
    (∀ t x, (e = .failure t .start x ∨ e = .failure t .stop x → r = .decision .shutdown) ∧
      (e = .failure t .preprocess x → r = .decision .abort) ∧
      (e = .failure t .process x ∨ e = .failure t .postprocess x → r = .decision .ignore)) := by
  obtain ⟨m', h', -, -, -, hq⟩ := new_ok n
  rw [hn] at h'
  cases h'
  obtain ⟨m₁, rs₁, rs₂, h1, h2, h3⟩ := run_append.1 h
  obtain ⟨m₂, r', rs₃, h4, h5, h6⟩ := run_cons.1 h2
  simp only [Mon.run, Rs.ok.injEq, Prod.mk.injEq] at h5
  obtain ⟨-, h5⟩ := h5
  subst h5 h6
  have hr : r = r' := by
    have := congrArg List.getLast? h3
    simpa using this
  subst hr
  obtain ⟨-, h7, h8⟩ := quitting_step h4
  have hq' := quitting_run es h1
  rw [hq] at hq'
  refine ⟨fun md hmd => ?_, fun t x => ⟨?_, fun h => h8 _ _ _ h, ?_⟩⟩
  · rw [h7 md hmd, hq']
    by_cases hm : Event.quit ∈ es <;> simp [hm]
  · rintro (h | h) <;> exact h8 _ _ _ h
  · rintro (h | h) <;> exact h8 _ _ _ h

example : ∃ m₀ m, Mon.new 1 = .ok m₀ ∧
    m₀.run .checked [.iteration [demoMeta 0 1 "a"], .quit, .failure 0 .process "x", .iteration [demoMeta 2 3 "a"]] =
      .ok (m, [.result none, .nothing, .decision .ignore, .result (some "Exiting...")]) := by
  exact ⟨_, _, rfl, rfl⟩

/-! ### Nodes -/

/-- Each node is drawn with the symbol of its connections, whatever their number and order. -/
theorem C70_nodes (g : Graph) (hg : g.WF) :
    nodeTypes g = (List.range g.nodes).map (fun v =>
      symbol (g.edges.any (fun e => e.dst == v)) (g.edges.any (fun e => e.src == v))) := by
  unfold nodeTypes
  rw [foldl_addEdge g.nodes _ (fi := fun _ => false) (fo := fun _ => false)
    (by simp [symbol, List.map_const', List.length_range])]
  apply List.map_congr_left
  intro v _
  have key : ∀ p : Edge → Bool, ((List.range g.nodes).flatMap
      (fun v => (g.edges.filter (fun e => e.dst == v)).reverse)).any p = g.edges.any p := by
    intro p
    rw [Bool.eq_iff_iff, List.any_eq_true, List.any_eq_true]
    constructor
    · rintro ⟨e, he, hp⟩
      simp only [List.mem_flatMap, List.mem_reverse, List.mem_filter] at he
      obtain ⟨_, _, he, _⟩ := he
      exact ⟨e, he, hp⟩
    · rintro ⟨e, he, hp⟩
      refine ⟨e, ?_, hp⟩
      simp only [List.mem_flatMap, List.mem_reverse, List.mem_filter, List.mem_range]
      exact ⟨e.dst, (hg e he).2, he, by simp⟩
  simp only [key, Bool.false_or]

/-- That is the kind of task of the plan, for a connected task. -/
theorem C70_nodes_plan (g : Graph) (hg : g.WF) (v : Nat) (hv : v < g.nodes)
    (hc : ∃ e ∈ g.edges, e.src = v ∨ e.dst = v) :
    (nodeTypes g)[v]? = some (match taskType g v with
      | .source => .source | .sink => .sink | .regular => .task) := by
  rw [C70_nodes g hg, List.getElem?_map, List.getElem?_range hv, Option.map_some]
  congr 1
  have hin : (g.incoming v).length = 0 ↔ g.edges.any (fun e => e.dst == v) = false := by
    simp [Graph.incoming, List.filter_eq_nil_iff]
  have hout : (g.outgoing v).length = 0 ↔ g.edges.any (fun e => e.src == v) = false := by
    simp [Graph.outgoing, List.filter_eq_nil_iff]
  have hor : g.edges.any (fun e => e.dst == v) = true ∨ g.edges.any (fun e => e.src == v) = true := by
    obtain ⟨e, he, h | h⟩ := hc
    · exact .inr (List.any_eq_true.2 ⟨e, he, by simp [h]⟩)
    · exact .inl (List.any_eq_true.2 ⟨e, he, by simp [h]⟩)
  unfold taskType
  generalize g.edges.any (fun e => e.dst == v) = a at *
  generalize g.edges.any (fun e => e.src == v) = b at *
  cases a <;> cases b <;> simp_all [symbol]

example : nodeTypes ⟨4, [⟨0, 1, "a"⟩, ⟨1, 2, "b"⟩, ⟨0, 2, "c"⟩]⟩ = [.source, .task, .sink, .unknown] := by decide

/-- The type of a task is drawn by its last 25 characters, when they are ASCII. -/
theorem C70_type_partial (s : List Char) (h : ∀ c ∈ s, c.utf8Size = 1) :
    shownType s = .ok (s.drop (s.length - 25)) := by
  unfold shownType
  rw [byteLen_ascii s h]
  exact dropBytes_ascii _ s h (by omega)

example : shownType "my_robot_tasks::motor::MotorDriver".toList = .ok "tasks::motor::MotorDriver".toList := by
  decide +kernel

/-- A type whose name has a longer character across that limit is a panic of the interface. -/
theorem C70_type_violated : shownType ("é".toList ++ List.replicate 24 'a') = .panic := by decide +kernel

/-! ### Pools -/

/-- After any reports, a pool is shown with its last figures. -/
theorem C70_pools (reports : List (Nat × List PoolFigures)) (id : String) :
    (look id (reports.foldl (fun ps r => updatePools r.1 ps r.2) [])).map PoolStats.figures =
      (lastFigures id reports.reverse).map (fun f => (f.2.1, f.2.2.1, f.2.2.1 - f.2.1)) := by
  have key : ∀ reports : List (Nat × List PoolFigures),
      (look id (reports.reverse.foldl (fun ps r => updatePools r.1 ps r.2) [])).map PoolStats.figures =
      (lastFigures id reports).map (fun f => (f.2.1, f.2.2.1, f.2.2.1 - f.2.1)) := by
    intro reports
    induction reports with
    | nil => rfl
    | cons r rs ih =>
      rw [List.reverse_cons, List.foldl_append, List.foldl_cons, List.foldl_nil, figures_updatePools]
      unfold lastFigures
      cases r.2.reverse.find? (fun f => f.1 == id) with
      | some f => rfl
      | none => exact ih
  simpa using key reports.reverse

example : (look "a" ([(0, [("a", 3, 8, 64), ("b", 1, 1, 2)]), (5, [("b", 0, 1, 2), ("a", 2, 8, 64)])].foldl
    (fun ps r => updatePools r.1 ps r.2) [])).map PoolStats.figures = some (2, 8, 6) := by decide

/-- A pool that is new is shown with no rate, and keeps it until a second has passed. -/
theorem C70_first_rate (now later : Nat) (id : String) (space total buffer space' total' : Nat)
    (h : later < now + 1000000000) :
    (look id (updatePools now [] [(id, space, total, buffer)])).map (·.handlesPerSecond) = some 0 ∧
    (look id (updatePools later (updatePools now [] [(id, space, total, buffer)]) [(id, space', total', buffer)])).map
      (·.handlesPerSecond) = some 0 := by
  have h' : ¬ 1000000000 ≤ later - now := by omega
  constructor
  · simp [updatePools, updatePool, look, PoolStats.new]
  · simp [updatePools, updatePool, look, PoolStats.new, PoolStats.update, h']

/-- The rate of a pool whose level is read less often than every second is the change of its level since
the previous reading, per second. -/
theorem C70_rate_partial (now : Nat) (p : PoolStats) (space total : Nat) (h : p.lastUpdate + 1000000000 ≤ now) :
    (p.update now space total).handlesPerSecond =
      (if p.handlesInUse ≤ total - space then total - space - p.handlesInUse else p.handlesInUse - (total - space))
        * 1000000000 / (now - p.lastUpdate) ∧
    (p.update now space total).lastUpdate = now := by
  unfold PoolStats.update
  dsimp only
  rw [if_pos (by omega)]
  refine ⟨?_, rfl⟩
  show absDiff (inUse space total) p.handlesInUse * 1000000000 / _ = _
  congr 2
  unfold absDiff inUse
  split <;> split <;> omega

/-- Otherwise, as when every iteration takes a millisecond, it is that change since the last iteration
only, divided by the time since the last rate: ten buffers taken half a second ago are a rate of zero. -/
theorem C70_rate_violated :
    let ps := [(0, [("a", 10, 10, 1)]), (500000000, [("a", 0, 10, 1)]), (1000000000, [("a", 0, 10, 1)])].foldl
      (fun ps (r : Nat × List PoolFigures) => updatePools r.1 ps r.2) []
    ps.map (fun p => (p.handlesInUse, p.lastUpdate, p.handlesPerSecond)) = [(10, 1000000000, 0)] := by decide

/-! ### The debug pane -/

/-- The pane shows the most recent messages, in order; after a round with something on the standard error,
no more than the height of the terminal. -/
theorem C70_pane_partial (rows : Nat) (es : List PaneEvent) :
    (DebugLog.run rows es).log <:+ messages es ∧
    (∀ s, s ≠ "" → (DebugLog.run rows (es ++ [.stderr s])).log.length ≤ (DebugLog.run rows es).maxRows) ∧
    ((∀ n, PaneEvent.resize n ∉ es) → (DebugLog.run rows es).log = (messages es).drop ((messages es).length - rows)) := by
  refine ⟨?_, ?_, ?_⟩
  · simpa [DebugLog.run] using run_suffix es (d := ⟨[], rows⟩) (l := []) (List.suffix_refl _)
  · intro s hs
    simp only [DebugLog.run, List.foldl_append, List.foldl_cons, List.foldl_nil, DebugLog.step, DebugLog.push, if_neg hs,
      List.length_drop]
    omega
  · intro hr
    have := run_exact es (d := ⟨[], rows⟩) (l := []) rows rfl (by simp) hr
    simpa [DebugLog.run] using this

example : (DebugLog.run 2 [.line "a", .stderr "", .stderr "b", .line "c"]).log = ["b", "c"] := by decide

/-- When the terminal becomes smaller, the lines of the logger keep the pane as long as it was. -/
theorem C70_pane_violated :
    (DebugLog.run 3 [.line "a", .line "b", .line "c", .resize 1, .line "d", .line "e"]).log.length = 3 := by decide

end ConsoleMon
end Verif
