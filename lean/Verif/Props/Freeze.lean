import Verif.Spec.Freeze
import Verif.Proofs.Bincode
import Verif.Proofs.DynThreshold
/-! C97: a task thawed from a snapshot goes on like the one that was frozen. -/
namespace Verif
open Bincode Clock Examples
namespace Frozen
variable {I O S : Type}

/-- Tasks that resume each, resume together: a snapshot of all of them, whatever follows it, restores each of
them, with the same outputs from then on. -/
theorem C97_snapshot (ls : List Live) (h : ∀ l ∈ ls, Resumes l.task l.may ∧ Reached l.task l.may l.state)
    (rest : Bytes) : ∃ rs, restore ls (snapshot ls ++ rest) = .ok (rs, rest) ∧ GoesOn ls rs := by
  induction ls with
  | nil => exact ⟨[], rfl, .nil⟩
  | cons l ls ih =>
    obtain ⟨rs, h1, h2⟩ := ih fun l hl => h l (List.mem_cons_of_mem _ hl)
    obtain ⟨hr, hs⟩ := h l (List.mem_cons_self ..)
    obtain ⟨s', h3, h4⟩ := hr _ hs (snapshot ls ++ rest)
    refine ⟨⟨l.task, l.may, s'⟩ :: rs, ?_, .cons h4 h2⟩
    simp only [snapshot, restore, List.append_assoc, h3, h1]

/-- With the default methods a task resumes if, and only if, what it puts out never depends on what happened to it
before. -/
theorem C97_default (new : S) (next : S → I → Rs (S × O)) (may : I → Prop) :
    Resumes ⟨new, next, nothing, unchanged⟩ may ↔
      ∀ s, Reached ⟨new, next, nothing, unchanged⟩ may s → Alike ⟨new, next, nothing, unchanged⟩ may s new := by
  constructor
  · intro h s hs
    obtain ⟨s', h1, h2⟩ := h s hs []
    simp only [nothing, unchanged, Dec.ret, Except.ok.injEq, Prod.mk.injEq] at h1
    obtain ⟨h1, -⟩ := h1
    subst h1
    exact h2
  · intro h s hs rest
    exact ⟨new, rfl, h s hs⟩

theorem outputs_cons (t : Task I O S) (s : S) (i : I) (is : List I) :
    outputs t s (i :: is) = (t.next s i >>= fun (s', o) => (outputs t s' is).map' (o :: ·)) := by
  unfold outputs
  rw [calls]
  cases t.next s i with
  | panic => rfl
  | ok p =>
    simp only [Rs.ok_bind]
    cases calls t p.1 is <;> rfl

/-- A relation between the states that the calls preserve. -/
theorem alike_of {t : Task I O S} {may : I → Prop} (R : S → S → Prop)
    (h : ∀ s s' i, may i → R s s' → (t.next s i = .panic ∧ t.next s' i = .panic) ∨
      ∃ a a' o, t.next s i = .ok (a, o) ∧ t.next s' i = .ok (a', o) ∧ R a a') {s s' : S} (hr : R s s') :
    Alike t may s s' := by
  intro is
  induction is generalizing s s' with
  | nil => intro _; rfl
  | cons i is ih =>
    intro hm
    rw [outputs_cons, outputs_cons]
    rcases h s s' i (hm i (List.mem_cons_self ..)) hr with ⟨h1, h2⟩ | ⟨a, a', o, h1, h2, h3⟩
    · rw [h1, h2]
    · rw [h1, h2]
      simp only [Rs.ok_bind]
      rw [ih h3 fun i hi => hm i (List.mem_cons_of_mem _ hi)]

/-- An invariant of the states reached. -/
theorem reached_inv {t : Task I O S} {may : I → Prop} (P : S → Prop) (h0 : P t.new)
    (h : ∀ s i s' o, may i → P s → t.next s i = .ok (s', o) → P s') {s : S} (hs : Reached t may s) : P s := by
  obtain ⟨is, os, hm, hc⟩ := hs
  revert hc h0
  generalize t.new = a
  induction is generalizing a os with
  | nil => intro h0 hc; simp only [calls, Rs.ok.injEq, Prod.mk.injEq] at hc; rw [← hc.1]; exact h0
  | cons i is ih =>
    intro h0 hc
    rw [calls] at hc
    cases hn : t.next a i with
    | panic => rw [hn] at hc; cases hc
    | ok p =>
      rw [hn] at hc
      simp only at hc
      cases hc' : calls t p.1 is with
      | panic => rw [hc'] at hc; cases hc
      | ok q =>
        rw [hc'] at hc
        simp only [Rs.ok.injEq, Prod.mk.injEq] at hc
        refine ih q.2 (fun i hi => hm i (List.mem_cons_of_mem _ hi)) p.1 (h a i p.1 p.2 (hm i (List.mem_cons_self ..)) h0 hn) ?_
        rw [hc', ← hc.1]

/-- The source of the caterpillar resumes. -/
theorem C97_caterpillar : Resumes caterSource (fun _ => True) := by
  intro s _ rest
  refine ⟨s, ?_, fun _ _ => rfl⟩
  exact rt_bool s rest

/-- The drivers and tasks without a state resume. -/
theorem C97_stateless (o : Overflow) : Resumes caterSegment (fun _ => True) ∧ Resumes gpio (fun _ => True) ∧
    Resumes wt901 (fun _ => True) ∧ Resumes mspSink (fun _ => True) ∧ Resumes (merger o) (fun _ => True) := by
  refine ⟨?_, ?_, ?_, ?_, ?_⟩
  · refine (C97_default ..).2 fun s hs => ?_
    have : s = .segment := by
      refine reached_inv (t := caterSegment) (fun s => s = .segment) rfl ?_ hs
      intro s i s' out _ hs hn
      subst hs
      rcases i with _ | i
      · simp [caterSegment, Cater.next] at hn
      · simp [caterSegment, Cater.next] at hn; exact hn.1.symm
    subst this
    exact fun _ _ => rfl
  · exact (C97_default ..).2 fun s _ => fun _ _ => rfl
  · exact (C97_default ..).2 fun s _ => fun _ _ => rfl
  · exact (C97_default ..).2 fun s _ => fun _ _ => rfl
  · refine (C97_default ..).2 fun s hs => ?_
    have : s = .merger := by
      refine reached_inv (t := merger o) (fun s => s = .merger) rfl ?_ hs
      intro s i s' out _ hs hn
      subst hs
      simp only [merger] at hn
      unfold Multi.next at hn
      split at hn
      · cases hn
      · rename_i h1
        simp only [Rs.ok.injEq] at hn
        split at hn <;> simp_all
    subst this
    exact fun _ _ => rfl

/-- The thresholded image is determined by the image. -/
theorem thresholded_unique {img out out' : List UInt8} {w h r : Nat} (h1 : Threshold.Thresholded img w h r out)
    (h2 : Threshold.Thresholded img w h r out') : out = out' := by
  refine List.ext_getElem (h1.1.trans h2.1.symm) fun n hn hn' => ?_
  have hn2 := hn
  rw [h1.1] at hn2
  have hw : 0 < w := by
    rcases Nat.eq_zero_or_pos w with rfl | h
    · simp at hn2
    · exact h
  have hx : n % w < w := Nat.mod_lt _ hw
  have hy : n / w < h := (Nat.div_lt_iff_lt_mul hw).2 (by rw [Nat.mul_comm]; exact hn2)
  have he : n % w + n / w * w = n := by rw [Nat.mul_comm]; exact Nat.mod_add_div n w
  have key : Threshold.pixel out w (n % w) (n / w) = Threshold.pixel out' w (n % w) (n / w) := by
    by_cases hb : Threshold.Brighter img w h r (n % w) (n / w)
    · rw [(h1.2 _ _ hx hy).1 hb, (h2.2 _ _ hx hy).1 hb]
    · rw [(h1.2 _ _ hx hy).2 hb, (h2.2 _ _ hx hy).2 hb]
  simp only [Threshold.pixel, he, List.getElem?_eq_getElem hn, List.getElem?_eq_getElem hn', Option.getD_some] at key
  exact UInt8.toNat_inj.mp key

/-- So does the threshold, although it keeps the sums of the last image: it writes all of them before it reads
them. -/
theorem C97_threshold_partial (w h r : Nat) (t : Threshold.Task) (ht : Threshold.Task.new w h r = .ok t)
    (hb : 255 * (w * h) < 2 ^ 32) (h0 : 0 < r) (hr : r < 2 ^ 31) :
    Resumes (threshold t) (fun x => x.2.length = w * h) := by
  refine (C97_default ..).2 fun s hs => ?_
  have hg : s.Good w h r := by
    refine reached_inv (t := threshold t) (fun s => s.Good w h r) (Threshold.new_good ht) ?_ hs
    intro s i s' o hi hs hn
    obtain ⟨t', o', h1, h2, -⟩ := Threshold.process_good hs hb h0 hr (src := i.1) hi
    rw [show (threshold t).next s i = s.process i.1 i.2 from rfl, h1] at hn
    simp only [Rs.ok.injEq, Prod.mk.injEq] at hn
    rw [← hn.1]; exact h2
  refine alike_of (t := threshold t) (fun s s' => s.Good w h r ∧ s'.Good w h r) ?_ ⟨hg, Threshold.new_good ht⟩
  rintro s s' i hi ⟨g1, g2⟩
  obtain ⟨a, o, e1, k1, m1, n1⟩ := Threshold.process_good g1 hb h0 hr (src := i.1) hi
  obtain ⟨a', o', e2, k2, m2, n2⟩ := Threshold.process_good g2 hb h0 hr (src := i.1) hi
  have ho : o = o' := by
    by_cases hl : i.1.length = w * h
    · obtain ⟨x, rfl, hx⟩ := m1 hl
      obtain ⟨y, rfl, hy⟩ := m2 hl
      rw [thresholded_unique hx hy]
    · rw [n1 hl, n2 hl]
  subst ho
  exact .inr ⟨a, a', o, e1, e2, k1, k2⟩

/-- A task with the default methods whose outputs after some calls are not those of a new one does not resume. -/
theorem not_resumes {new : S} {next : S → I → Rs (S × O)} {may : I → Prop} (before after : List I) {s : S} {os : List O}
    (hb : ∀ i ∈ before, may i) (ha : ∀ i ∈ after, may i)
    (h : calls ⟨new, next, nothing, unchanged⟩ new before = .ok (s, os))
    (hne : outputs ⟨new, next, nothing, unchanged⟩ s after ≠ outputs ⟨new, next, nothing, unchanged⟩ new after) :
    ¬ Resumes ⟨new, next, nothing, unchanged⟩ may := fun hr =>
  hne ((C97_default ..).1 hr s ⟨before, os, hb, h⟩ after ha)

/-- The sources that count, the encoder and the filter of the converter use the default methods and lose what they
have counted: the next numbers after a thaw are those of a new task. -/
theorem C97_violated_counters (o : Overflow) : ¬ Resumes (intSource o) (fun _ => True) ∧
    ¬ Resumes (floatSource o) (fun _ => True) ∧ ¬ Resumes (encoder o) (fun _ => True) ∧
    ¬ Resumes adc (fun _ => True) := by
  refine ⟨?_, ?_, ?_, ?_⟩
  · refine not_resumes [()] [()] (s := .int 43) (os := [some (.int 43)]) (by simp) (by simp) ?_ ?_ <;>
      cases o <;> decide +kernel
  · refine not_resumes [()] [()] (s := .float (.fin 25)) (os := [some (.float (.fin 25))]) (by simp) (by simp) ?_ ?_ <;>
      cases o <;> decide +kernel
  · refine not_resumes [.edge true ⟨5⟩] [.process ⟨6⟩ (Msg.new none)] (s := ⟨1, ⟨5⟩, false⟩) (os := [none])
      (by simp) (by simp) ?_ ?_ <;> cases o <;> decide +kernel
  · refine not_resumes [.start (some 80), .process (some 80)] [.process (some 80)] (s := 640) (os := [none, some 80])
      (by simp) (by simp) ?_ ?_ <;> decide +kernel

/-- Starting the thawed filter again does not help: it takes the next reading for the mean. -/
theorem C97_violated_restart : ∃ s os, calls adc adc.new [.start (some 0), .process (some 0)] = .ok (s, os) ∧
    outputs adc s [.process (some 90)] = .ok [some 10] ∧
    ∀ s', adc.thaw adc.new (adc.freeze s) = .ok (s', []) →
      outputs adc s' [.start (some 90), .process (some 90)] = .ok [none, some 90] := by
  refine ⟨0, [none, some 0], by decide +kernel, by decide +kernel, fun s' h => ?_⟩
  simp only [adc, nothing, unchanged, Dec.ret, Except.ok.injEq, Prod.mk.injEq] at h
  rw [← h.1]
  decide +kernel

/-- The aligner loses the messages it keeps, and the source of the serial protocol the part of a frame it has
received. -/
theorem C97_violated_buffers (o : Overflow) :
    ¬ Resumes (aligner (V := Nat) o ⟨20⟩ ⟨100⟩ [(2, 2)]) (fun _ => True) ∧
    ¬ Resumes (mspSource Msp.someTable) (fun _ => True) := by
  constructor
  · refine not_resumes [⟨⟨150⟩, [⟨some 1, { (Msg.new (none : Option Nat)).md with tov := .time ⟨140⟩ }⟩], some []⟩]
      [⟨⟨160⟩, [⟨some 2, { (Msg.new (none : Option Nat)).md with tov := .time ⟨150⟩ }⟩], some []⟩]
      (s := ⟨⟨20⟩, ⟨100⟩, [⟨2, 2, [⟨some 1, { (Msg.new (none : Option Nat)).md with tov := .time ⟨140⟩ }⟩]⟩]⟩)
      (os := [some [[1]]]) (by simp) (by simp) ?_ ?_ <;> cases o <;> decide +kernel
  · refine not_resumes [some [0x24, 0x4d, 0x3e]] [some [0, 0xc8, 0xc8]]
      (s := ⟨.dataLength, .v1, .fromFlightController, 0, 0, [], 0, 0⟩) (os := [some []])
      (by simp) (by simp) ?_ ?_ <;> decide +kernel

/-- The controller writes and reads its state completely, but not that it had a measurement before: thawed, it is
the frozen one without it. -/
theorem C97_pid_partial [Codec Rat] [Codec Nat] (hq : ∀ x : Rat, RoundTrips x) (hn : ∀ x : Nat, RoundTrips x)
    (cfg : Pid.Cfg) (s : Pid.Task) (hs : s.cfg = cfg) (rest : Bytes) :
    (pid cfg).thaw (pid cfg).new ((pid cfg).freeze s ++ rest) =
      .ok ({ s with firstRun := true, lastTov := 0 }, rest) := by
  have hd : RoundTrips s.pid.lastOutput.d := rt_option fun a _ => hq a
  have ho : RoundTrips s.pid.lastOutput.output := rt_option fun a _ => hq a
  subst hs
  simp only [pid, Pid.Task.freeze, List.append_assoc]
  rw [(hq _).bind, (hq _).bind, (hn _).bind, (hq _).bind, (hq _).bind, hd.bind, ho.bind]
  rfl

/-- Whatever its configuration it therefore does not resume: it takes the next measurement for a first one, and
puts out nothing. -/
theorem C97_violated_pid [Codec Rat] [Codec Nat] (hq : ∀ x : Rat, RoundTrips x) (hn : ∀ x : Nat, RoundTrips x)
    (cfg : Pid.Cfg) : ¬ Resumes (pid cfg) (fun _ => True) := by
  intro hr
  have h0 : calls (pid cfg) (pid cfg).new [some (some 0, 0)] =
      .ok (⟨cfg, Pid.Controller.new.init cfg 0, false, 0⟩, [.cleared]) := rfl
  obtain ⟨s', h1, h2⟩ := hr _ ⟨_, _, fun _ _ => trivial, h0⟩ []
  rw [C97_pid_partial hq hn cfg _ rfl] at h1
  simp only [Except.ok.injEq, Prod.mk.injEq, and_true] at h1
  subst h1
  have h3 := h2 [some (some 0, 0)] (fun _ _ => trivial)
  rw [outputs_cons, outputs_cons] at h3
  have e1 : (pid cfg).next ⟨cfg, Pid.Controller.new.init cfg 0, true, 0⟩ (some (some 0, 0)) =
      .ok (⟨cfg, Pid.Controller.new.init cfg 0, false, 0⟩, .cleared) := rfl
  simp only [e1, Rs.ok_bind] at h3
  cases e2 : (pid cfg).next ⟨cfg, Pid.Controller.new.init cfg 0, false, 0⟩ (some (some 0, 0)) with
  | panic => rw [e2] at h3; cases h3
  | ok p =>
    rw [e2] at h3
    simp only [Rs.ok_bind, outputs, calls, Rs.map', Rs.ok.injEq, List.cons.injEq, and_true] at h3
    obtain ⟨a, b⟩ := p
    simp only at h3
    subst h3
    simp only [pid, Pid.Task.process, Bool.false_eq_true, if_false, Nat.lt_irrefl] at e2
    cases e3 : Pid.Controller.next cfg (Pid.Controller.new.init cfg 0) 0 (0 - 0) with
    | panic => rw [e3] at e2; cases e2
    | ok p =>
      rw [e3] at e2
      simp only [Rs.ok_bind] at e2
      split at e2
      · simp at e2
      · split at e2 <;> simp at e2

/-- Nor does the motor: the thawed driver believes that its power is applied to the pins, which are new.  The
command that was running is accepted without turning the motor. -/
theorem C97_violated_motor [Codec Rat] (h : RoundTrips (1 / 2 : Rat)) :
    ¬ Resumes (motor 0 false) (fun _ => True) ∧
    ∃ s s', calls (motor 0 false) (motor 0 false).new [.start, .process ⟨true, true⟩ (some (1 / 2))] =
        .ok (s, [(0, 0, true), (1 / 2, 0, true)]) ∧
      (motor 0 false).thaw (motor 0 false).new ((motor 0 false).freeze s) = .ok (s', []) ∧
      outputs (motor 0 false) s' [.start, .process ⟨true, true⟩ (some (1 / 2))] = .ok [(0, 0, true), (0, 0, true)] := by
  have h0 : calls (motor 0 false) (motor 0 false).new [.start, .process ⟨true, true⟩ (some (1 / 2))] =
        .ok (⟨1 / 2, 0, false, 1 / 2, 0, true⟩, [(0, 0, true), (1 / 2, 0, true)]) := by
    simp only [calls, motor]
    decide +kernel
  have h1 : ∀ rest, (motor 0 false).thaw (motor 0 false).new ((motor 0 false).freeze ⟨1 / 2, 0, false, 1 / 2, 0, true⟩ ++ rest) =
      .ok (⟨1 / 2, 0, false, 0, 0, false⟩, rest) := by
    intro rest
    simp only [motor, Motor.Driver.freeze]
    rw [h.bind]
    rfl
  have h2 : outputs (motor 0 false) ⟨1 / 2, 0, false, 0, 0, false⟩ [.start, .process ⟨true, true⟩ (some (1 / 2))] =
      .ok [(0, 0, true), (0, 0, true)] := by
      simp only [outputs, calls, motor]
      decide +kernel
  constructor
  · intro hr
    obtain ⟨s', h3, h4⟩ := hr _ ⟨_, _, fun _ _ => trivial, h0⟩ []
    rw [h1] at h3
    simp only [Except.ok.injEq, Prod.mk.injEq, and_true] at h3
    subst h3
    have h5 := h4 [.start, .process ⟨true, true⟩ (some (1 / 2))] (fun _ _ => trivial)
    rw [h2] at h5
    have h6 : outputs (motor 0 false) ⟨1 / 2, 0, false, 1 / 2, 0, true⟩ [.start, .process ⟨true, true⟩ (some (1 / 2))] =
      .ok [(1 / 2, 0, true), (1 / 2, 0, true)] := by
      simp only [outputs, calls, motor]
      decide +kernel
    rw [h6] at h5
    exact absurd h5 (by decide +kernel)
  · exact ⟨_, _, h0, by simpa using h1 [], h2⟩

/-! An application of the caterpillar's source, two segments and a pin, three iterations after its start. -/

def someApp : List Live :=
  [⟨caterSource, fun _ => True, false⟩, ⟨caterSegment, fun _ => True, .segment⟩, ⟨caterSegment, fun _ => True, .segment⟩,
   ⟨gpio, fun _ => True, ()⟩]

example : snapshot someApp = [0] ∧
    ∀ l ∈ someApp, Resumes l.task l.may ∧ Reached l.task l.may l.state := by
  refine ⟨by decide +kernel, ?_⟩
  intro l hl
  simp only [someApp, List.mem_cons, List.not_mem_nil, or_false] at hl
  rcases hl with rfl | rfl | rfl | rfl
  · exact ⟨C97_caterpillar, [(), (), ()], [false, true, false], by simp, by decide +kernel⟩
  · exact ⟨(C97_stateless .checked).1, [], [], by simp, rfl⟩
  · exact ⟨(C97_stateless .checked).1, [], [], by simp, rfl⟩
  · exact ⟨(C97_stateless .checked).2.1, [], [], by simp, rfl⟩

/-- A source that is not new when it is frozen: the state is what decides about its outputs. -/
example : outputs caterSource false [(), ()] = .ok [true, false] ∧ outputs caterSource caterSource.new [(), ()] = .ok [false, true] := by
  decide +kernel

/-! An encoding that loses no number: in unary. -/

def unary (n : Nat) : Bytes := List.replicate n 1 ++ [0]
def ununary : Bytes → Except DecodeError (Nat × Bytes)
  | [] => .error .unexpectedEnd
  | b :: bs => if b = 0 then .ok (0, bs) else
    match ununary bs with
    | .error e => .error e
    | .ok (n, r) => .ok (n + 1, r)

theorem ununary_unary (n : Nat) (rest : Bytes) : ununary (unary n ++ rest) = .ok (n, rest) := by
  induction n with
  | zero => rfl
  | succ n ih =>
    simp only [unary, List.replicate_succ, List.cons_append] at ih ⊢
    rw [ununary, if_neg (by decide), ih]

@[instance_reducible] def natCodec : Codec Nat := ⟨unary, ununary⟩
@[instance_reducible] def ratCodec : Codec Rat :=
  ⟨fun q => unary (zigzag q.num) ++ unary q.den,
   fun bs => match ununary bs with
    | .error e => .error e
    | .ok (n, r) => match ununary r with
      | .error e => .error e
      | .ok (d, r) => .ok (mkRat (unzigzag n) d, r)⟩

example : (∀ x : Nat, @RoundTrips _ natCodec x) ∧ ∀ x : Rat, @RoundTrips _ ratCodec x := by
  refine ⟨fun x rest => ununary_unary x rest, fun x rest => ?_⟩
  show (match ununary (unary (zigzag x.num) ++ unary x.den ++ rest) with
    | .error e => Except.error e
    | .ok (n, r) => match ununary r with
      | .error e => Except.error e
      | .ok (d, r) => Except.ok (mkRat (unzigzag n) d, r)) = _
  rw [List.append_assoc, ununary_unary]
  simp only [ununary_unary]
  rw [unzigzag_zigzag, Rat.mkRat_self]

end Frozen
end Verif
