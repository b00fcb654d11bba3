import Verif.Proofs.DebugPane
/-!
C109: the text lines that threads log reach the debug pane of the console, in order, and the pane shows
the most recent ones.
-/
namespace Verif
namespace ConsoleMon

/-- In every history, while the user interface runs: what a thread has logged so far, traces aside, is
what the pane received from it followed by what is in the channel, in the order of the thread.  The
channel never holds more than a thousand messages. -/
theorem C109_delivery {height rows : Nat} {lines : List (List LogRecord)} {ms : List PaneMove} {s : Pane}
    (hs : (Pane.start height rows lines).run ms = some s) (hu : s.ui ≠ .gone) {t : Nat} {ls : List LogRecord}
    (ht : lines[t]? = some ls) :
    s.queue.length ≤ 1000 ∧ ∃ rest, s.todo[t]? = some rest ∧
      ls.filterMap shownAs = ofThread t s.received ++ ofThread t s.queue ++ rest.filterMap shownAs := by
  have h := inv_run (inv_start lines height rows) hs
  obtain ⟨rest, h1, h2⟩ := h.flow t ls ht
  obtain ⟨hl, hp⟩ := h.here hu
  refine ⟨h.size, rest, h1, ?_⟩
  rw [h2, hl, hp]
  simp

/-- Once the user has quit: what a thread logs goes to the standard error, after at most a thousand
messages of all the threads. -/
theorem C109_after_quit_partial {height rows : Nat} {lines : List (List LogRecord)} {ms : List PaneMove}
    {s : Pane} (hs : (Pane.start height rows lines).run ms = some s) (hu : s.ui = .gone) {t : Nat}
    {ls : List LogRecord} (ht : lines[t]? = some ls) :
    s.lost.length ≤ 1000 ∧ ∃ rest, s.todo[t]? = some rest ∧
      ls.filterMap shownAs = ofThread t s.received ++ ofThread t s.lost ++ ofThread t s.printed ++
        rest.filterMap shownAs := by
  have h := inv_run (inv_start lines height rows) hs
  obtain ⟨rest, h1, h2⟩ := h.flow t ls ht
  refine ⟨h.lost, rest, h1, ?_⟩
  rw [h2, h.gone hu]
  simp

/-- At any time until the user quits, if no thread logs in between, the user interface has taken all of
the channel after its next round: as many receptions as there are messages.  Every thread can log then. -/
theorem C109_drains_partial (s : Pane) (hu : s.ui ≠ .gone) :
    ∃ s', s.run ((if s.ui = .idle then [.begin] else []) ++ List.replicate s.queue.length .receive ++ [.finish]) =
        some s' ∧
      s'.ui = .idle ∧ s'.received = s.received ++ s.queue ∧ s'.todo = s.todo ∧
      ∀ t r rs, s'.todo[t]? = some (r :: rs) → ∃ s'', s'.step (.send t) = some s'' := by
  have key : ∀ s0 : Pane, s0.ui = .draining → ∃ s',
      s0.run (List.replicate s0.queue.length .receive ++ [.finish]) = some s' ∧ s'.ui = .idle ∧
      s'.received = s0.received ++ s0.queue ∧ s'.todo = s0.todo ∧
      ∀ t r rs, s'.todo[t]? = some (r :: rs) → ∃ s'', s'.step (.send t) = some s'' := by
    intro s0 h0
    obtain ⟨s', h1, h2, h3, h4, h5, _, _⟩ := drain_run s0.queue s0 h0 rfl
    refine ⟨s', h1, h2, h5, h4, ?_⟩
    intro t r rs ht
    simp only [Pane.step, Pane.send, ht]
    cases r.message with
    | none => exact ⟨_, rfl⟩
    | some m => simp only [Pane.push, h2, h3]; exact ⟨_, rfl⟩
  cases hui : s.ui with
  | gone => exact absurd hui hu
  | draining =>
    obtain ⟨s', h1, h2⟩ := key s hui
    exact ⟨s', by simpa using h1, h2⟩
  | idle =>
    obtain ⟨s', h1, h2⟩ := key { s with ui := .draining } rfl
    refine ⟨s', ?_, h2⟩
    simp only [if_true, List.singleton_append, List.cons_append, Pane.run, Pane.step, hui]
    exact h1

/-- On a terminal of at least five rows that keeps its size, one sees the most recent messages that fit:
those received from the threads and those from the standard error (`es`, whose messages of the logger
are those received, and whose others are what was on the standard error). -/
theorem C109_shown_partial {height : Nat} (h5 : 5 ≤ height) {lines : List (List LogRecord)} :
    ∃ rows, startRows height = .ok rows ∧
      ∀ {ms : List PaneMove} {s : Pane}, (Pane.start height rows lines).run ms = some s →
      (∀ n, PaneMove.resize n ∉ ms) →
      ∃ es, es.filterMap lineOf = s.received.map Prod.snd ∧
        es.filterMap stderrOf =
          ms.filterMap stderrAt ∧
        s.log.visible s.height = lastN (height - 5) (messages es) := by
  have hr : startRows height = .ok (height - 5) := by
    unfold startRows
    rw [if_pos h5]
  refine ⟨height - 5, hr, fun {ms s} hs hn => ?_⟩
  obtain ⟨es, h1, h2, h3, h4⟩ := log_events (s := Pane.start height (height - 5) lines) (es0 := [])
    (rows := height - 5) rfl hs
  obtain ⟨h5, h6⟩ := h4 hn
  refine ⟨es, by simpa [Pane.start] using h2.symm, h3, ?_⟩
  have hlog := run_exact es (d := ⟨[], height - 5⟩) (l := []) (height - 5) rfl (by simp) h5
  have he : s.log.log = lastN (height - 5) (messages es) := by
    rw [h1]
    simpa [DebugLog.run, lastN] using hlog
  rw [DebugLog.visible, he, h6]
  simp only [Pane.start]
  apply List.take_of_length_le
  simp [lastN]
  omega

/-- Two threads, a trace that is not sent, a round of the user interface. -/
def paneLines : List (List LogRecord) :=
  [[⟨"12:00:00", .info, "a"⟩, ⟨"12:00:00", .trace, "x"⟩, ⟨"12:00:01", .warn, "b"⟩], [⟨"12:00:00", .debug, "c"⟩]]

def paneMoves : List PaneMove := [.send 0, .send 1, .stderr "oops", .begin, .receive, .send 0, .send 0, .receive]

def paneState : Pane :=
  ⟨[[], []], [(0, "12:00:01 [WARN] - b\n")], .draining, 7,
    ⟨["12:00:00 [INFO] - a\n", "12:00:00 [DEBUG] - c\n"], 2⟩,
    [(0, "12:00:00 [INFO] - a\n"), (1, "12:00:00 [DEBUG] - c\n")], [], []⟩

theorem paneReach : (Pane.start 7 2 paneLines).run paneMoves = some paneState := by decide +kernel

example := C109_delivery paneReach (by decide) (t := 0) (ls := paneLines[0]) rfl
example : ∃ es, es.filterMap lineOf = paneState.received.map Prod.snd ∧
    es.filterMap stderrOf = paneMoves.filterMap stderrAt ∧
    paneState.log.visible paneState.height = lastN 2 (messages es) := by
  obtain ⟨rows, hr, h⟩ := C109_shown_partial (height := 7) (by decide) (lines := paneLines)
  cases hr
  exact h paneReach (by simp [paneMoves])
example := C109_drains_partial paneState (by decide)
example : ∃ s, (Pane.start 7 2 paneLines).run [.send 0, .quit, .send 0, .send 0] = some s ∧ s.ui = .gone ∧
    s.lost = [(0, "12:00:00 [INFO] - a\n")] ∧ s.printed = [(0, "12:00:01 [WARN] - b\n")] := by
  refine ⟨⟨[[], [⟨"12:00:00", .debug, "c"⟩]], [], .gone, 7, ⟨[], 2⟩, [], [(0, "12:00:01 [WARN] - b\n")],
    [(0, "12:00:00 [INFO] - a\n")]⟩, by decide +kernel, rfl, rfl, rfl⟩
example := C109_after_quit_partial (height := 7) (rows := 2) (lines := paneLines) (ms := [.quit]) (t := 0)
  (ls := paneLines[0]) rfl rfl rfl

/-- A thread that logs, a task of the robot for one, waits for the user interface when a thousand
messages are in the channel: after a thousand lines it cannot go on until the next round starts. -/
theorem C109_violated_waits (height rows : Nat) (r : LogRecord) (hr : r.level ≠ .trace) :
    ∃ s, (Pane.start height rows [List.replicate 1001 r]).run (List.replicate 1000 (.send 0)) = some s ∧
      s.todo = [[r]] ∧ s.step (.send 0) = none := by
  obtain ⟨m, hm⟩ : ∃ m, r.message = some m := by
    rw [message_eq]
    obtain ⟨t, l, x⟩ := r
    cases l with
    | trace => exact absurd rfl hr
    | _ => exact ⟨_, rfl⟩
  exact waits_run r m hm height rows 1000 rfl

/-- A round of the user interface need not end: as long as a thread logs, it goes on receiving, and
neither draws nor answers to keys. -/
theorem C109_violated_endless (height rows : Nat) (r : LogRecord) (hr : r.level ≠ .trace) (n : Nat) :
    ∃ ms s, (Pane.start height rows [List.replicate (n + 1) r]).run ms = some s ∧
      ms.count .begin = 1 ∧ n ≤ ms.count .receive ∧ .finish ∉ ms ∧ s.ui = .draining ∧ s.step .finish = none := by
  obtain ⟨m, hm⟩ : ∃ m, r.message = some m := by
    rw [message_eq]
    obtain ⟨t, l, x⟩ := r
    cases l with
    | trace => exact absurd rfl hr
    | _ => exact ⟨_, rfl⟩
  obtain ⟨s, h1, h2, h3⟩ := endless_run r m hm n
    ⟨[List.replicate n r], [(0, m)], .draining, height, ⟨[], rows⟩, [], [], []⟩ rfl rfl rfl
  refine ⟨.send 0 :: .begin :: (List.replicate n [PaneMove.send 0, .receive]).flatten, s, ?_, ?_, ?_, ?_, h2, ?_⟩
  · have e : (Pane.start height rows [List.replicate (n + 1) r]).step (.send 0) =
        some ⟨[List.replicate n r], [(0, m)], .idle, height, ⟨[], rows⟩, [], [], []⟩ := by
      simp [Pane.step, Pane.send, Pane.start, List.replicate_succ, hm, Pane.push, channelSize]
    simp only [Pane.run, e]
    exact h1
  · have : ∀ n, ((List.replicate n [PaneMove.send 0, .receive]).flatten).count .begin = 0 := by
      intro n
      induction n with
      | zero => rfl
      | succ n ih => simp [List.replicate_succ, ih]
    simp [this]
  · have : ∀ n, ((List.replicate n [PaneMove.send 0, .receive]).flatten).count .receive = n := by
      intro n
      induction n with
      | zero => rfl
      | succ n ih => simp [List.replicate_succ, ih]
    simp [this]
  · simp
  · simp only [Pane.step]
    rw [if_neg]
    rintro ⟨_, hq⟩
    rw [hq] at h3
    simp at h3

example := C109_violated_waits 30 25 ⟨"12:00:00", .info, "a"⟩ (by decide)
example := C109_violated_endless 30 25 ⟨"12:00:00", .info, "a"⟩ (by decide) 5

/-- Messages in the channel when the user quits are neither shown nor written on the standard error. -/
theorem C109_violated_lost :
    ((Pane.start 7 2 paneLines).run [.send 0, .quit]).map (fun s => (s.received, s.printed, s.todo)) =
      some ([], [], [paneLines[0].tail, paneLines[1]]) := by decide +kernel

/-- After a change of size, the last message is not seen: the pane keeps as many messages as the
terminal has rows, five more than fit below the menu and inside the border, and is drawn from its oldest
one. -/
theorem C109_violated_resize :
    ((Pane.start 7 2 paneLines).run
      [.resize 6, .send 0, .send 1, .send 0, .send 0, .begin, .receive, .receive, .receive, .finish]).map
      (fun s => (s.log.log, s.log.visible s.height)) =
      some (["12:00:00 [INFO] - a\n", "12:00:00 [DEBUG] - c\n", "12:00:01 [WARN] - b\n"],
        ["12:00:00 [INFO] - a\n"]) := by decide +kernel

/-- On a terminal of fewer than five rows, the user interface panics before it draws anything. -/
theorem C109_violated_small (height : Nat) (h : height < 5) : startRows height = .panic := by
  unfold startRows
  rw [if_neg (by omega)]

example := C109_violated_small 4 (by decide)

end ConsoleMon
end Verif
