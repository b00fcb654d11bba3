import Verif.Proofs.Launch
/-!
C79: an application is built from the configuration in effect.
C80: the log an application is given has room for it.
-/
namespace Verif
namespace Launch
open Config Spec
variable {C T M : Type}

/-! ### C79 -/

/-- The configuration in effect is the one the program gives, whatever is in the file; without one, it is the one in
the file; without a file, it is the text the application was compiled with. -/
theorem C79_effect (ov : Overflow) (p : Parts C T M) (k : Compiled C) (lg : ULog.Logger) :
    (∀ c file, new ov p k (some c) file lg = new ov p k (some c) none lg) ∧
    (∀ t c, readConfigurationStr t = .ok (some c) → new ov p k none (some t) lg = new ov p k (some c) none lg) ∧
    (∀ c, readConfigurationStr k.original = .ok (some c) → new ov p k none none lg = new ov p k (some c) none lg) := by
  refine ⟨fun c file => rfl, ?_, ?_⟩
  · intro t c h; simp [new, startConfig, h]
  · intro c h; simp [new, startConfig, h]

/-- A file that does not pass the validation of its logging settings is an error, one that cannot be read a
panic; in both cases no component is created. -/
theorem C79_bad_file (ov : Overflow) (p : Parts C T M) (k : Compiled C) (lg : ULog.Logger) (t : Tree C) :
    (readConfigurationStr t = .ok none → new ov p k none (some t) lg = ([], .ok (.error .config))) ∧
    (readConfigurationStr t = .panic → new ov p k none (some t) lg = ([], .panic)) := by
  constructor <;> intro h <;> simp [new, startConfig, h]

/-- The application that results: if the configuration in effect begins with the tasks the application was compiled
with, each task was created once, in order, with the parameters the configuration gives to the task of its name;
sources and sinks of a simulation are placeholders, and no component was created for them; the simulation is told of
every task with its parameters, a robot is not; copper lists are logged unless the configuration says otherwise.
Missing: configurations with other tasks or another order, see the violations. -/
theorem C79_created_partial (ov : Overflow) (p : Parts C T M) (k : Compiled C) (c : CuConfig C)
    (file : Option (Tree C)) (lg lg' : ULog.Logger) (calls : List (String × Option C)) (app : App C T M)
    (hs : SameTasks k c) (h : new ov p k (some c) file lg = (calls, .ok (.ok (app, lg')))) :
    calls = wanted k.sim c k.tasks ∧ Pointwise (Made p k.sim c) k.tasks app.tasks ∧
      app.asked = (if k.sim then k.tasks.map (fun t => (t.id, paramsOf c t.id)) else []) ∧
      p.monitor k.monitor c (k.tasks.map (·.id)) = .ok app.monitor ∧
      (app.logger.isSome = true ↔ ∀ l, c.logging = some l → l.enableTaskLogging = true) := by
  have h' : start ov p k c lg = (calls, .ok (.ok (app, lg'))) := h
  cases hn : sectionSize ov k.listSize c with
  | panic => simp [start, hn] at h'
  | ok n =>
    cases hl : ULog.openStream lg .copperList n with
    | panic => simp [start, hn, hl] at h'
    | ok r =>
      obtain ⟨lg1, st⟩ := r
      rcases start_spec ov p k c lg lg1 st n hs hn hl with ⟨xs, h1, h2⟩ | ⟨_, _, _, _, _, _, _, _, _, h2⟩
      · rw [h2] at h'
        cases hm : p.monitor k.monitor c (k.tasks.map (·.id)) with
        | error e => simp [hm] at h'
        | ok m =>
          simp only [hm, Prod.mk.injEq, Rs.ok.injEq, Except.ok.injEq] at h'
          obtain ⟨rfl, rfl, rfl⟩ := h'
          refine ⟨rfl, h1, rfl, rfl, ?_⟩
          cases hlog : c.logging with
          | none => simp [logs, hlog]
          | some l => cases he : l.enableTaskLogging <;> simp [logs, hlog, he]
      · rw [h2] at h'
        simp at h'

/-- If the start ends with an error of a component: it is the first that failed, all before it were created, none
after it, and its message is kept. -/
theorem C79_failed_partial (ov : Overflow) (p : Parts C T M) (k : Compiled C) (c : CuConfig C)
    (file : Option (Tree C)) (lg : ULog.Logger) (calls : List (String × Option C)) (e : CuError)
    (hs : SameTasks k c) (h : new ov p k (some c) file lg = (calls, .ok (.error (.task e)))) :
    ∃ pre t post xs e0, k.tasks = pre ++ t :: post ∧ Pointwise (Made p k.sim c) pre xs ∧
      usesComponent k.sim t = true ∧ p.task t.type_ (paramsOf c t.id) = .error e0 ∧
      calls = wanted k.sim c (pre ++ [t]) ∧ e.message = e0.message := by
  have h' : start ov p k c lg = (calls, .ok (.error (.task e))) := h
  cases hn : sectionSize ov k.listSize c with
  | panic => simp [start, hn] at h'
  | ok n =>
    cases hl : ULog.openStream lg .copperList n with
    | panic => simp [start, hn, hl] at h'
    | ok r =>
      obtain ⟨lg1, st⟩ := r
      rcases start_spec ov p k c lg lg1 st n hs hn hl with ⟨xs, h1, h2⟩ | ⟨pre, t, post, xs, e0, h1, h2, h3, h4, h5⟩
      · rw [h2] at h'
        cases hm : p.monitor k.monitor c (k.tasks.map (·.id)) <;> simp [hm] at h'
      · rw [h5] at h'
        simp only [Prod.mk.injEq, Rs.ok.injEq, Except.error.injEq, Failure.task.injEq] at h'
        obtain ⟨rfl, rfl⟩ := h'
        exact ⟨pre, t, post, xs, e0, h1, h2, h4, h3, rfl, rfl⟩

/-- Negation: the cause a component gave for its failure is replaced by the name of its type. -/
theorem C79_cause_violated (e : CuError) (t : Task) (i : Nat) :
    (e.addCause (createInfo t i)).display =
      e.message ++ "\n   context:" ++ ("Failed to get create instance for " ++ t.type_ ++ ", instance index " ++
        toString i ++ ".") := rfl

/-- The builder: without a clock, a log, or the callback of a simulation it is an error and nothing is created;
with them it is `new`. -/
theorem C79_builder (ov : Overflow) (p : Parts C T M) (k : Compiled C) (file : Option (Tree C)) (b : Builder C) :
    ((∃ w, b.build ov p k file = ([], .ok (.error (.missing w)))) ↔
      b.clock = false ∨ b.logger = none ∨ (k.sim = true ∧ b.callback = false)) ∧
    (∀ lg, b.clock = true → b.logger = some lg → (k.sim = true → b.callback = true) →
      b.build ov p k file = new ov p k b.override file lg) := by
  have hnew : ∀ ovr lg w, new ov p k ovr file lg ≠ ([], .ok (.error (.missing w))) := by
    intro ovr lg w h
    unfold new at h
    split at h
    · simp at h
    · simp at h
    · rename_i c _
      unfold start at h
      split at h
      · simp at h
      · simp only [Prod.mk.injEq] at h
        obtain ⟨-, h⟩ := h
        split at h
        · simp at h
        · simp at h
        · split at h
          · cases h
          · split at h
            · obtain ⟨a, -, ha⟩ := Rs.bind_eq_ok.1 h
              simp [pure] at ha
            · obtain ⟨a, -, ha⟩ := Rs.bind_eq_ok.1 h
              simp [pure] at ha
  unfold Builder.build
  cases hc : b.clock with
  | false => simp
  | true =>
    cases hl : b.logger with
    | none => simp
    | some lg =>
      cases hs : k.sim with
      | false =>
        simp [hnew]
      | true =>
        cases hb : b.callback with
        | false => simp
        | true => simp [hnew]

/-- What is compiled: the tasks of the configuration in order, with their names and types; in a simulation a task
without inputs is a placeholder for the type of message of one of its outputs, one without outputs for that of one of
its inputs, and only the others are themselves.  The text, the monitor, and the kind of application are kept. -/
theorem C79_compiled (t : Tree C) (sim : Bool) (n : Nat) (k : Compiled C) (c : CuConfig C)
    (hr : readConfigurationStr t = .ok (some c)) (hd : (c.nodes.map (·.id)).Nodup) (h : compile t sim n = .ok k) :
    k.tasks.map (·.id) = c.nodes.map (·.id) ∧ k.tasks.map (fun u => some u.type_) = c.nodes.map (·.type_) ∧
      (∀ (i : Nat) u, k.tasks[i]? = some u → Stands c i u.sim) ∧
      k.original = t ∧ k.monitor = c.monitor.map (·.type_) ∧ k.sim = sim ∧ k.listSize = n := by
  unfold compile at h
  rw [hr, Rs.ok_bind] at h
  simp only at h
  obtain ⟨ts, h1, h⟩ := Rs.bind_eq_ok.1 h
  cases h
  obtain ⟨h2, h3⟩ := compileTasks_spec hd c.nodes 0 ts (fun j n hn => by rw [Nat.zero_add]; exact hn) h1
  have hn : ∀ (i : Nat) u, ts[i]? = some u → ∃ n, c.nodes[i]? = some n ∧ u.id = n.id ∧ n.type_ = some u.type_ ∧
      Stands c i u.sim := by
    intro i u hu
    have hi := (List.getElem?_eq_some_iff.1 hu).1
    have := h3 i c.nodes[i] u (List.getElem?_eq_getElem (by omega)) hu
    rw [Nat.zero_add] at this
    exact ⟨_, List.getElem?_eq_getElem (by omega), this⟩
  refine ⟨?_, ?_, fun i u hu => ?_, rfl, rfl, rfl, rfl⟩
  · apply List.ext_getElem (by simpa using h2)
    intro i a b
    have hi : i < ts.length := by simpa using a
    obtain ⟨m, e1, e2, -, -⟩ := hn i ts[i] (List.getElem?_eq_getElem hi)
    have := (List.getElem?_eq_some_iff.1 e1).2
    simp [e2, ← this]
  · apply List.ext_getElem (by simpa using h2)
    intro i a b
    have hi : i < ts.length := by simpa using a
    obtain ⟨m, e1, -, e2, -⟩ := hn i ts[i] (List.getElem?_eq_getElem hi)
    have := (List.getElem?_eq_some_iff.1 e1).2
    simp [← e2, ← this]
  · obtain ⟨_, _, _, _, e⟩ := hn i u hu
    exact e

/-- Hence the configuration an application was compiled with is one of those the theorems are about. -/
theorem C79_same (t : Tree C) (sim : Bool) (n : Nat) (k : Compiled C) (c : CuConfig C)
    (hr : readConfigurationStr t = .ok (some c)) (hd : (c.nodes.map (·.id)).Nodup) (h : compile t sim n = .ok k) :
    SameTasks k c :=
  ⟨⟨[], by rw [List.append_nil]; exact (C79_compiled t sim n k c hr hd h).1.symm⟩, hd⟩

/-! A case -/

/-- Components that keep what they were given; one of type `Bad` fails. -/
def keep : Parts Nat (String × Option Nat) Unit where
  task ty cfg := if ty = "Bad" then .error ⟨"no", some "broken"⟩ else .ok (ty, cfg)
  monitor _ _ _ := .ok ()

def three (last : String) : CuConfig Nat :=
  ⟨[⟨"a", some "A", some 1⟩, ⟨"b", some "B", none⟩, ⟨"c", some last, some 3⟩],
    [⟨0, 1, ⟨"a", "b", "m", none, none⟩⟩, ⟨1, 2, ⟨"b", "c", "n", none, none⟩⟩], none, none⟩

/-- The same with the first and the last task exchanged. -/
def exchanged : CuConfig Nat :=
  ⟨[⟨"c", some "C", some 3⟩, ⟨"b", some "B", none⟩, ⟨"a", some "A", some 1⟩],
    [⟨2, 1, ⟨"a", "b", "m", none, none⟩⟩, ⟨1, 0, ⟨"b", "c", "n", none, none⟩⟩], none, none⟩

def compiled (last : String) (sim : Bool) : Compiled Nat :=
  ⟨(three last).toTree, [⟨"a", "A", .src "m"⟩, ⟨"b", "B", .real⟩, ⟨"c", last, .sink "n"⟩], none, sim, 1⟩

example : compile (three "C").toTree false 1 = .ok (compiled "C" false) := by rfl
example : readConfigurationStr (three "C").toTree = .ok (some (three "C")) := by rfl

def someLog : ULog.Logger :=
  match ULog.Logger.new 256 16 with
  | .ok lg => lg
  | .panic => ⟨0, 0, [], ⟨0, 0, [], 0⟩, []⟩

def tasksOf {C T M : Type} (r : List (String × Option C) × Rs (Except Failure (App C T M × ULog.Logger))) :
    List (String × Option C) × Rs (Failure ⊕ List (Inst T)) :=
  (r.1, r.2.map' fun x => match x with | .error e => .inl e | .ok a => .inr a.1.tasks)

example : tasksOf (new .checked keep (compiled "C" false) none none someLog) =
    ([("A", some 1), ("B", none), ("C", some 3)],
      .ok (.inr [.real ("A", some 1), .real ("B", none), .real ("C", some 3)])) := by decide +kernel
example : tasksOf (new .checked keep (compiled "C" true) none none someLog) =
    ([("B", none)], .ok (.inr [.src "m", .real ("B", none), .sink "n"])) := by decide +kernel
example : tasksOf (new .checked keep (compiled "Bad" false) none none someLog) =
    ([("A", some 1), ("B", none), ("Bad", some 3)],
      .ok (.inl (.task ⟨"no", some "Failed to get create instance for Bad, instance index 2."⟩))) := by decide +kernel

/-! Negations -/

/-- With the tasks in another order, which means the same, tasks get the parameters of others. -/
theorem C79_order_violated :
    paramsOf exchanged "a" = some 1 ∧ paramsOf exchanged "c" = some 3 ∧
    tasksOf (new .checked keep (compiled "C" false) none (some exchanged.toTree) someLog) =
      ([("A", some 3), ("B", none), ("C", some 1)],
        .ok (.inr [.real ("A", some 3), .real ("B", none), .real ("C", some 1)])) := by
  exact ⟨rfl, rfl, by decide +kernel⟩

/-- A configuration without the last task is a panic, after the others were created. -/
theorem C79_fewer_violated :
    tasksOf (new .checked keep (compiled "C" false)
      (some ⟨(three "C").nodes.take 2, (three "C").edges.take 1, none, none⟩) none someLog) =
      ([("A", some 1), ("B", none)], .panic) := by decide +kernel

/-- An error of the monitor is a panic, not an error. -/
theorem C79_monitor_violated :
    tasksOf (new (M := Unit) .checked ⟨keep.task, fun _ _ _ => .error ⟨"no", none⟩⟩ (compiled "C" false) none none
      someLog) = ([("A", some 1), ("B", none), ("C", some 3)], .panic) := by decide +kernel

/-- Other tasks, other types and other connections in the file have no effect, and are no error. -/
theorem C79_ignored_violated :
    tasksOf (new .checked keep (compiled "C" false)
      (some ⟨(three "Other").nodes ++ [⟨"d", some "D", none⟩], [], none, none⟩) none someLog) =
    tasksOf (new .checked keep (compiled "C" false) (some (three "C")) none someLog) := by decide +kernel

/-! ### C80 -/

/-- The basic setup succeeds exactly if a slab holds one section of the text log, rounded to pages. -/
theorem C80_setup (page : Nat) (slab : Option Nat) (hp : 13 < page) (hp' : page ≤ 65535)
    (hs : 10 ≤ slab.getD 10485760) :
    (∃ lg st, basicSetup page slab = .ok (lg, st)) ↔ ULog.align page 40960 ≤ slab.getD 10485760 := by
  rw [← (basicSetup_spec page slab hp hp' hs).1]
  cases basicSetup page slab with
  | panic => simp
  | ok r => simp only [Rs.ok.injEq, ne_eq, reduceCtorEq, not_false_eq_true, iff_true]; exact ⟨r.1, r.2, rfl⟩

example : ∃ lg st, basicSetup 4096 none = .ok (lg, st) :=
  (C80_setup 4096 none (by decide) (by decide) (by decide)).2 (by decide)

/-- An application whose components can be created starts, after the basic setup, exactly if a slab holds one
section of copper lists: 64 of them, or the number of MiB of the configuration.  Missing: that a configuration that is
accepted is one of these, see the violations. -/
theorem C80_starts_partial (page : Nat) (slab : Option Nat) (hp : 13 < page) (hp' : page ≤ 65535)
    (hs : 10 ≤ slab.getD 10485760) (lg : ULog.Logger) (st : ULog.Stream) (hb : basicSetup page slab = .ok (lg, st))
    (ov : Overflow) (p : Parts C T M) (k : Compiled C) (c : CuConfig C) (file : Option (Tree C)) (n : Nat)
    (hsame : SameTasks k c)
    (hn : n = match c.logging.bind (·.sectionSizeMib) with | none => 64 * k.listSize | some mib => mib.toNat * 1048576)
    (hn' : n < 4000000000)
    (hm : ∃ m, p.monitor k.monitor c (k.tasks.map (·.id)) = .ok m) :
    (new ov p k (some c) file lg).2 ≠ .panic ↔ 15 ≤ n ∧ ULog.align page n ≤ slab.getD 10485760 := by
  obtain ⟨-, h2⟩ := basicSetup_spec page slab hp hp' hs
  obtain ⟨-, -, -, h2⟩ := h2 lg st hb
  have ha := align_lt page n (by omega)
  rw [← h2 .copperList n (by omega)]
  have hsec : sectionSize ov k.listSize c = .ok n := by
    unfold sectionSize
    cases hc : c.logging.bind (·.sectionSizeMib) with
    | none => rw [hc] at hn; change n = 64 * k.listSize at hn; rw [hn, Nat.mul_comm]
    | some mib =>
      rw [hc] at hn; change n = mib.toNat * 1048576 at hn; simp only; rw [if_pos (by omega), ← hn]
  have he : new ov p k (some c) file lg = start ov p k c lg := rfl
  rw [he]
  cases hl : ULog.openStream lg .copperList n with
  | panic => simp [start, hsec, hl]
  | ok r =>
    obtain ⟨lg1, st1⟩ := r
    obtain ⟨m, hm⟩ := hm
    rcases start_spec ov p k c lg lg1 st1 n hsame hsec hl with ⟨xs, -, h2⟩ | ⟨_, _, _, _, _, _, _, _, _, h2⟩
    · rw [h2]; simp [hm]
    · rw [h2]; simp

/-- A section larger than a slab is a panic at the start. -/
theorem C80_too_large (page : Nat) (slab : Option Nat) (hp : 13 < page) (hp' : page ≤ 65535)
    (hs : 10 ≤ slab.getD 10485760) (lg : ULog.Logger) (st : ULog.Stream) (hb : basicSetup page slab = .ok (lg, st))
    (ov : Overflow) (p : Parts C T M) (k : Compiled C) (c : CuConfig C) (file : Option (Tree C))
    (hn : match c.logging.bind (·.sectionSizeMib) with
      | none => slab.getD 10485760 < 64 * k.listSize
      | some mib => slab.getD 10485760 < mib.toNat * 1048576 ∧ mib.toNat * 1048576 < 2 ^ 64) :
    new ov p k (some c) file lg = ([], .panic) := by
  obtain ⟨-, h2⟩ := basicSetup_spec page slab hp hp' hs
  obtain ⟨-, h3, h2, -⟩ := h2 lg st hb
  have : ∃ n, sectionSize ov k.listSize c = .ok n ∧ slab.getD 10485760 < n := by
    unfold sectionSize
    cases hc : c.logging.bind (·.sectionSizeMib) with
    | none => simp only [hc] at hn; exact ⟨_, rfl, by omega⟩
    | some mib => simp only [hc] at hn; simp only; rw [if_pos hn.2]; exact ⟨_, rfl, hn.1⟩
  obtain ⟨n, hsec, hlt⟩ := this
  have hl : ULog.openStream lg .copperList n = .panic := by
    apply Classical.byContradiction
    intro hc
    have := h2 .copperList n (openStream_ne_panic.1 hc)
    omega
  have he : new ov p k (some c) file lg = start ov p k c lg := rfl
  rw [he]
  simp [start, hsec, hl]

def sized (l : LoggingConfig) : CuConfig Nat := { three "C" with logging := some l }

/-- Negation: the sizes of the configuration were checked against each other, but the slab has the size the program
gave to the basic setup, 10 MiB if it gave none.  Slabs of 1024 MiB with sections of 100 MiB are accepted, and the
start panics. -/
theorem C80_validated_violated (lg : ULog.Logger) (st : ULog.Stream) (hb : basicSetup 4096 none = .ok (lg, st)) :
    readConfigurationStr (sized ⟨some 1024, some 100, true⟩).toTree = .ok (some (sized ⟨some 1024, some 100, true⟩)) ∧
    new .checked keep (compiled "C" false) none (some (sized ⟨some 1024, some 100, true⟩).toTree) lg = ([], .panic) := by
  have hr : readConfigurationStr (sized ⟨some 1024, some 100, true⟩).toTree =
    .ok (some (sized ⟨some 1024, some 100, true⟩)) := by rfl
  refine ⟨hr, ?_⟩
  rw [(C79_effect .checked keep (compiled "C" false) lg).2.1 _ _ hr]
  exact C80_too_large 4096 none (by decide) (by decide) (by decide) lg st hb .checked keep (compiled "C" false)
    (sized ⟨some 1024, some 100, true⟩) none (show 10485760 < (100 : UInt64).toNat * 1048576 ∧
      (100 : UInt64).toNat * 1048576 < 2 ^ 64 by decide)

/-- Negation: without any settings, 64 copper lists of 256 KiB do not fit in the default slab, and the start
panics. -/
theorem C80_default_violated (lg : ULog.Logger) (st : ULog.Stream) (hb : basicSetup 4096 none = .ok (lg, st)) :
    new .checked keep { compiled "C" false with listSize := 262144 } none none lg = ([], .panic) := by
  have hr : readConfigurationStr (three "C").toTree = .ok (some (three "C")) := by rfl
  rw [(C79_effect .checked keep { compiled "C" false with listSize := 262144 } lg).2.2 _ hr]
  exact C80_too_large 4096 none (by decide) (by decide) (by decide) lg st hb .checked keep
    { compiled "C" false with listSize := 262144 } (three "C") none (show 10485760 < 64 * 262144 by decide)

/-- A case: sections of 1 MiB in the default slab. -/
example (lg : ULog.Logger) (st : ULog.Stream) (hb : basicSetup 4096 none = .ok (lg, st)) :
    (new .checked keep (compiled "C" false) (some (sized ⟨none, some 1, true⟩)) none lg).2 ≠ .panic :=
  (C80_starts_partial 4096 none (by decide) (by decide) (by decide) lg st hb .checked keep (compiled "C" false)
    (sized ⟨none, some 1, true⟩) none 1048576 ⟨⟨[], rfl⟩, by decide⟩ (by decide) (by decide) ⟨(), rfl⟩).2 (by decide)

end Launch
end Verif
