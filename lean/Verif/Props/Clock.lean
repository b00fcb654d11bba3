import Verif.Proofs.Clock
/-! Properties C25–C29: time values (core/cu29_clock). -/
namespace Verif
open Bincode Clock

/-! ### C25 Time values round trip through the log -/

/-- Every kind of time value decodes to the value encoded, leaving exactly the bytes that
followed it. -/
theorem C25_time_values_round_trip :
    (∀ (d : CuDuration) (rest : Bytes), (dec : Dec CuDuration) (enc d ++ rest) = .ok (d, rest)) ∧
    (∀ (o : OptionCuTime) (rest : Bytes),
      (dec : Dec OptionCuTime) (enc o ++ rest) = .ok (o, rest)) ∧
    (∀ (r : CuTimeRange) (rest : Bytes),
      (dec : Dec CuTimeRange) (enc r ++ rest) = .ok (r, rest)) ∧
    (∀ (r : PartialCuTimeRange) (rest : Bytes),
      (dec : Dec PartialCuTimeRange) (enc r ++ rest) = .ok (r, rest)) ∧
    (∀ (t : Tov) (rest : Bytes), (dec : Dec Tov) (enc t ++ rest) = .ok (t, rest)) :=
  ⟨rt_duration, rt_optionCuTime, rt_timeRange, rt_partialTimeRange, rt_tov⟩

-- a three byte duration inside a range, followed by other data
example : (dec : Dec Tov) (enc (Tov.range ⟨⟨250⟩, ⟨251⟩⟩) ++ [7]) =
    .ok (Tov.range ⟨⟨250⟩, ⟨251⟩⟩, [7]) ∧ (enc (Tov.range ⟨⟨250⟩, ⟨251⟩⟩)).length = 5 := by
  constructor
  · exact C25_time_values_round_trip.2.2.2.2 _ _
  · decide

/-- A time of validity made from an optional time says the same. -/
theorem C25_tov_of_option (o : Option CuDuration) :
    (∀ t, Tov.ofOption o = .time t ↔ o = some t) ∧ (Tov.ofOption o = .none ↔ o = none) ∧
      ∀ r, Tov.ofOption o ≠ .range r := by
  cases o <;> simp [Tov.ofOption]

example : Tov.ofOption (some ⟨5⟩) = .time ⟨5⟩ := rfl

/-- The encoding of a duration is never longer than nine bytes, and one byte below 251 ns. -/
theorem C25_duration_size (d : CuDuration) :
    1 ≤ (enc d).length ∧ (enc d).length ≤ 9 ∧ (d.ns.toNat < 251 → (enc d).length = 1) := by
  refine ⟨encVar_length_pos _, encVar_length_le _, fun h => ?_⟩
  show (encVar d.ns.toNat).length = 1
  rw [encVar_length, if_pos h]

example : (enc (⟨250⟩ : CuDuration)).length = 1 ∧ (enc (⟨251⟩ : CuDuration)).length = 3 := by decide

/-! ### C26 Optional time is faithful -/

/-- Full statement, refuted below. -/
def C26_statement : Prop := ∀ o : Option CuTime, (OptionCuTime.ofOption o).toOption = o

/-- The code violates the full statement: the present time 2^64-1 ns becomes absent. -/
theorem C26_violated_max_time : ¬ C26_statement := by
  intro h
  exact absurd (h (some ⟨0xFFFFFFFFFFFFFFFF⟩)) (by decide)

/-- Partial: every absent value and every present time up to `CuDuration::MAX` is faithful
(missing: the single value 2^64-1 ns). -/
theorem C26_option_faithful_partial (o : Option CuTime)
    (h : ∀ t, o = some t → t.ns ≤ CuDuration.MAX.ns) :
    (OptionCuTime.ofOption o).toOption = o ∧
    ((OptionCuTime.ofOption o).isNone = true ↔ o = none) ∧
    (OptionCuTime.ofOption o).unwrap = o := by
  cases o with
  | none => decide
  | some t =>
    have h' : t.ns ≠ NONE_VALUE := by
      intro hc
      have := h t rfl
      rw [hc] at this
      exact absurd this (by decide)
    simp [OptionCuTime.ofOption, OptionCuTime.toOption, OptionCuTime.isNone, OptionCuTime.unwrap, h']

example : ∀ t, (some CuDuration.MAX : Option CuTime) = some t → t.ns ≤ CuDuration.MAX.ns := by
  intro t h; cases h; exact UInt64.le_refl _

/-- The conversion to a standard option is exact: no information is lost in that direction. -/
theorem C26_compact_to_option_and_back (o : OptionCuTime) :
    OptionCuTime.ofOption o.toOption = o := by
  obtain ⟨⟨n⟩⟩ := o
  by_cases h : n = NONE_VALUE
  · subst h; rfl
  · simp [OptionCuTime.toOption, OptionCuTime.ofOption, h]

example : OptionCuTime.ofOption (OptionCuTime.toOption ⟨⟨42⟩⟩) = ⟨⟨42⟩⟩ := by decide

/-! ### C27 Time range of samples is their hull -/

theorem C27_range_is_hull (l : List CuTime) (hl : l ≠ []) :
    ∃ r, CuTimeRange.ofSlice l = some r ∧ r.start ∈ l ∧ r.stop ∈ l ∧
      ∀ t ∈ l, r.start.ns ≤ t.ns ∧ t.ns ≤ r.stop.ns := by
  cases l with
  | nil => exact absurd rfl hl
  | cons a l =>
    refine ⟨_, rfl, (foldl_min_spec l a).1, (foldl_max_spec l a).1, fun t ht => ?_⟩
    exact ⟨(foldl_min_spec l a).2 t ht, (foldl_max_spec l a).2 t ht⟩

example : CuTimeRange.ofSlice [⟨20⟩, ⟨10⟩, ⟨30⟩, ⟨10⟩] = some ⟨⟨10⟩, ⟨30⟩⟩ := by decide

/-- An empty list is the only one that panics. -/
theorem C27_panics_only_on_empty (l : List CuTime) :
    CuTimeRange.ofSlice l = none ↔ l = [] := by
  cases l with
  | nil => simp [CuTimeRange.ofSlice, minTime]
  | cons a l => simp [CuTimeRange.ofSlice, minTime, maxTime]

example : CuTimeRange.ofSlice [] = none := by decide

/-! ### C28 Robot clock -/

/-- Readings of one clock never decrease when the counter does not. -/
theorem C28_monotone (c : RobotClock) (k1 k2 : UInt64) (h : k1 ≤ k2) :
    (c.now k1).ns ≤ (c.now k2).ns := by
  have h1 := k1.toNat_lt; have h2 := k2.toNat_lt
  rw [UInt64.le_iff_toNat_le] at h ⊢
  simp only [RobotClock.now, UInt64.toNat_ofNat']
  omega

example : (RobotClock.now ⟨5⟩ 7).ns ≤ (RobotClock.now ⟨5⟩ 9).ns ∧ (RobotClock.now ⟨5⟩ 9).ns = 4 := by
  decide

/-- A clock started at counter value `refTime` reads exactly the elapsed nanoseconds. -/
theorem C28_elapsed (c : RobotClock) (k : UInt64) (h : c.refTime ≤ k) :
    (c.now k).ns.toNat + c.refTime.toNat = k.toNat := by
  have h1 := k.toNat_lt
  rw [UInt64.le_iff_toNat_le] at h
  simp only [RobotClock.now, UInt64.toNat_ofNat']
  omega

example : (⟨5⟩ : RobotClock).refTime ≤ 7 := by decide

/-- Specification of a mocked clock: the time as a natural number, moved by the operations,
as long as it stays within the representable range. -/
def mockSpec : Nat → List MockOp → Nat
  | t, [] => t
  | t, .increment a :: ops => mockSpec (t + a.toNat) ops
  | t, .decrement a :: ops => mockSpec (t - a.toNat) ops
  | _, .setValue v :: ops => mockSpec v.toNat ops

/-- No operation moves the time below zero or above the 64-bit range. -/
def mockInRange : Nat → List MockOp → Prop
  | _, [] => True
  | t, .increment a :: ops => t + a.toNat < 2 ^ 64 ∧ mockInRange (t + a.toNat) ops
  | t, .decrement a :: ops => a.toNat ≤ t ∧ mockInRange (t - a.toNat) ops
  | _, .setValue v :: ops => mockInRange v.toNat ops

/-- Setting the mock reads back exactly the value, from every state. -/
theorem C28_set_value (m : Mock) (v : UInt64) : (m.setValue v).value = v := by
  unfold Mock.setValue
  split
  · show m.value + (v - m.value) = v
    rw [UInt64.add_comm, UInt64.sub_add_cancel]
  · show m.value - (m.value - v) = v
    have h : v ≤ m.value := UInt64.not_lt.1 ‹_›
    have h' := UInt64.le_iff_toNat_le.1 h
    rw [← UInt64.toNat_inj, UInt64.toNat_sub_of_le _ _ (by
      rw [UInt64.le_iff_toNat_le, UInt64.toNat_sub_of_le _ _ h]; omega),
      UInt64.toNat_sub_of_le _ _ h]
    omega

example : (Mock.setValue ⟨10⟩ 3).value = 3 ∧ (Mock.setValue ⟨3⟩ 10).value = 10 := by decide

/-- A clock obtained with `mock()` reads, after any in-range sequence of operations on its
mock, exactly the accumulated time. -/
theorem C28_mock_reads_accumulated (ops : List MockOp) (h : mockInRange 0 ops) :
    ((RobotClock.mock.1.now ((ops.foldl Mock.apply RobotClock.mock.2).value)).ns).toNat
      = mockSpec 0 ops := by
  have key : ∀ (ops : List MockOp) (m : Mock), mockInRange m.value.toNat ops →
      ((ops.foldl Mock.apply m).value).toNat = mockSpec m.value.toNat ops := by
    intro ops
    induction ops with
    | nil => intro m _; rfl
    | cons op ops ih =>
      intro m hm
      cases op with
      | increment a =>
        obtain ⟨h1, h2⟩ := hm
        have e : ((m.increment a).value).toNat = m.value.toNat + a.toNat := by
          simp only [Mock.increment, UInt64.toNat_add]
          exact Nat.mod_eq_of_lt h1
        simp only [List.foldl_cons, mockSpec, Mock.apply]
        rw [ih _ (by rw [e]; exact h2), e]
      | decrement a =>
        obtain ⟨h1, h2⟩ := hm
        have e : ((m.decrement a).value).toNat = m.value.toNat - a.toNat := by
          simp only [Mock.decrement]
          exact UInt64.toNat_sub_of_le _ _ (UInt64.le_iff_toNat_le.2 h1)
        simp only [List.foldl_cons, mockSpec, Mock.apply]
        rw [ih _ (by rw [e]; exact h2), e]
      | setValue v =>
        simp only [List.foldl_cons, mockSpec, Mock.apply]
        rw [ih _ (by rw [C28_set_value]; exact hm), C28_set_value]
  have := key ops RobotClock.mock.2 h
  simp only [RobotClock.mock, RobotClock.now] at this ⊢
  simp [this]
  have hb : mockSpec 0 ops < 2 ^ 64 := by
    have h0 : mockSpec 0 ops = ((ops.foldl Mock.apply ⟨0⟩).value).toNat := this.symm
    rw [h0]; exact UInt64.toNat_lt _
  omega

example : mockInRange 0 [.increment 1000, .setValue 50, .decrement 20] ∧
    mockSpec 0 [.increment 1000, .setValue 50, .decrement 20] = 30 := by
  simp [mockInRange, mockSpec]

/-! ### C29 Duration arithmetic and display -/

/-- Whenever the exact result is representable, every build profile returns it. -/
theorem C29_arithmetic_exact (o : Overflow) (a b : CuDuration) (k : UInt64) :
    (a.ns.toNat + b.ns.toNat < 2 ^ 64 →
      ∃ r, a.add o b = some r ∧ r.ns.toNat = a.ns.toNat + b.ns.toNat) ∧
    (b.ns.toNat ≤ a.ns.toNat →
      ∃ r, a.sub o b = some r ∧ r.ns.toNat + b.ns.toNat = a.ns.toNat) ∧
    (a.ns.toNat * k.toNat < 2 ^ 64 →
      ∃ r, a.mul o k = some r ∧ r.ns.toNat = a.ns.toNat * k.toNat) ∧
    (k ≠ 0 → ∃ r, a.div k = some r ∧ r.ns.toNat = a.ns.toNat / k.toNat) := by
  refine ⟨fun h => ?_, fun h => ?_, fun h => ?_, fun h => ?_⟩
  · refine ⟨⟨UInt64.ofNat (a.ns.toNat + b.ns.toNat)⟩, ?_, ?_⟩
    · unfold CuDuration.add
      rw [← Int.natCast_add, u64Arith_exact _ _ (by simpa using h)]; rfl
    · simp only [UInt64.toNat_ofNat']; exact Nat.mod_eq_of_lt (by simpa using h)
  · refine ⟨⟨UInt64.ofNat (a.ns.toNat - b.ns.toNat)⟩, ?_, ?_⟩
    · unfold CuDuration.sub
      rw [← Int.ofNat_sub h, u64Arith_exact _ _ (by have := a.ns.toNat_lt; omega)]; rfl
    · simp only [UInt64.toNat_ofNat']
      rw [Nat.mod_eq_of_lt (by have := a.ns.toNat_lt; omega)]; omega
  · refine ⟨⟨UInt64.ofNat (a.ns.toNat * k.toNat)⟩, ?_, ?_⟩
    · unfold CuDuration.mul
      rw [← Int.natCast_mul, u64Arith_exact _ _ (by simpa using h)]; rfl
    · simp only [UInt64.toNat_ofNat']; exact Nat.mod_eq_of_lt (by simpa using h)
  · exact ⟨⟨a.ns / k⟩, by simp [CuDuration.div, h], UInt64.toNat_div _ _⟩

example : CuDuration.add .checked ⟨100⟩ ⟨50⟩ = some ⟨150⟩ ∧ CuDuration.sub .wrapping ⟨100⟩ ⟨50⟩ = some ⟨50⟩ ∧
    CuDuration.mul .checked ⟨100⟩ 2 = some ⟨200⟩ ∧ CuDuration.div ⟨100⟩ 3 = some ⟨33⟩ := by decide

/-- `min` and `max` of two durations are the smaller and the larger number of nanoseconds. -/
theorem C29_min_max (a b : CuDuration) :
    (a.max b).ns.toNat = Nat.max a.ns.toNat b.ns.toNat ∧
    (a.min b).ns.toNat = Nat.min a.ns.toNat b.ns.toNat := by
  unfold CuDuration.max CuDuration.min
  by_cases h : a.ns ≤ b.ns
  · have h' := UInt64.le_iff_toNat_le.1 h
    rw [if_pos h, if_pos h]
    exact ⟨(Nat.max_eq_right h').symm, (Nat.min_eq_left h').symm⟩
  · have h' : b.ns.toNat ≤ a.ns.toNat := by
      have := mt UInt64.le_iff_toNat_le.2 h
      omega
    rw [if_neg h, if_neg h]
    exact ⟨(Nat.max_eq_left h').symm, (Nat.min_eq_right h').symm⟩

example : CuDuration.max ⟨7⟩ ⟨9⟩ = ⟨9⟩ ∧ CuDuration.min ⟨7⟩ ⟨9⟩ = ⟨7⟩ := by decide

/-- With overflow checks, an unrepresentable result is a panic, never a wrong value. -/
theorem C29_checked_panics (a b : CuDuration) (k : UInt64) :
    (2 ^ 64 ≤ a.ns.toNat + b.ns.toNat → a.add .checked b = none) ∧
    (a.ns.toNat < b.ns.toNat → a.sub .checked b = none) ∧
    (2 ^ 64 ≤ a.ns.toNat * k.toNat → a.mul .checked k = none) ∧ a.div 0 = none := by
  refine ⟨fun h => ?_, fun h => ?_, fun h => ?_, rfl⟩
  · unfold CuDuration.add; rw [u64Arith_panics _ (by omega)]; rfl
  · unfold CuDuration.sub; rw [u64Arith_panics _ (by omega)]; rfl
  · unfold CuDuration.mul
    rw [← Int.natCast_mul, u64Arith_panics _ (by omega)]; rfl

example : CuDuration.sub .checked ⟨1⟩ ⟨2⟩ = none := by decide

/-- Refuted part of C29: without overflow checks (the release profile of the workspace),
subtracting a later time from an earlier one silently gives a huge duration. -/
theorem C29_violated_release_underflow :
    CuDuration.sub .wrapping ⟨1⟩ ⟨2⟩ = some ⟨0xFFFFFFFFFFFFFFFF⟩ := by decide

/-- Refuted part of C29: multiplying by a negative `i32` is accepted and, without overflow
checks, yields a huge duration; with checks it panics only because of the size. -/
theorem C29_violated_negative_scale :
    CuDuration.mulI32 .wrapping (-1) ⟨1⟩ = some ⟨0xFFFFFFFFFFFFFFFF⟩ ∧
    CuDuration.mulI32 .checked (-1) ⟨1⟩ = some ⟨0xFFFFFFFFFFFFFFFF⟩ := by decide

/-- Refuted part of C29: converting a standard duration of 2^64 ns or more truncates it. -/
theorem C29_violated_duration_truncation :
    (CuDuration.fromDuration (2 ^ 64)).toDuration = 0 := by decide

/-- Converting a standard duration below 2^64 ns (584 years) is exact both ways. -/
theorem C29_duration_conversion (n : Nat) (h : n < 2 ^ 64) (d : CuDuration) :
    (CuDuration.fromDuration n).toDuration = n ∧ CuDuration.fromDuration d.toDuration = d := by
  constructor
  · simp only [CuDuration.fromDuration, CuDuration.toDuration, UInt64.toNat_ofNat']
    exact Nat.mod_eq_of_lt h
  · cases d; simp [CuDuration.fromDuration, CuDuration.toDuration]

example : (CuDuration.fromDuration (2 ^ 64 - 1)).toDuration = 2 ^ 64 - 1 :=
  (C29_duration_conversion _ (by decide) ⟨0⟩).1

/-- Specification: size of the display units in nanoseconds. -/
def unitNanos : TimeUnit → Nat
  | .d => 24 * 60 * 60 * 10 ^ 9
  | .h => 60 * 60 * 10 ^ 9
  | .m => 60 * 10 ^ 9
  | .s => 10 ^ 9
  | .ms => 10 ^ 6
  | .us => 10 ^ 3
  | .ns => 1

/-- A duration is displayed in a unit not larger than itself (nanoseconds for zero), and every
larger unit exceeds it. -/
theorem C29_display_unit (d : CuDuration) :
    (unitNanos d.displayUnit ≤ d.ns.toNat ∨ d.displayUnit = .ns) ∧
    ∀ u, unitNanos d.displayUnit < unitNanos u → d.ns.toNat < unitNanos u := by
  unfold CuDuration.displayUnit
  generalize d.ns.toNat = n
  dsimp only
  repeat' split
  all_goals
    refine ⟨by first | exact .inl ‹_› | exact .inr rfl | (simp [unitNanos]; omega), ?_⟩
    intro u; cases u <;> simp [unitNanos] <;> omega

example : CuDuration.displayUnit ⟨90_000_000_000⟩ = .m ∧ CuDuration.displayUnit ⟨0⟩ = .ns := by decide

/-! ### C107 Clocks in real time -/

/-- C107: a new clock reads the time since it was made. -/
theorem C107_new {k k' : UInt64} (h : k ≤ k') : ((RobotClock.new k).now k').ns.toNat = k'.toNat - k.toNat := by
  have h1 := k'.toNat_lt
  rw [UInt64.le_iff_toNat_le] at h
  simp only [RobotClock.now, RobotClock.new, UInt64.toNat_ofNat']
  omega

example : ((RobotClock.new 5).now 9).ns = 4 := by decide

/-- C107 (restricted to times that the counter has reached): a clock that is started at a time reads this time, and from
then on the time since.  Missing: later times, see `C107_violated_start`. -/
theorem C107_start_partial {t k k' : UInt64} (ht : t ≤ k) (h : k ≤ k') :
    ∃ c, RobotClock.fromRefTime t k = some c ∧ (c.now k').ns.toNat = t.toNat + (k'.toNat - k.toNat) := by
  have h1 := k'.toNat_lt
  refine ⟨_, if_pos ht, ?_⟩
  rw [UInt64.le_iff_toNat_le] at h
  have ht' := UInt64.le_iff_toNat_le.1 ht
  simp only [RobotClock.now, UInt64.toNat_ofNat', UInt64.toNat_sub_of_le _ _ ht]
  omega

example : ∃ c, RobotClock.fromRefTime 7 100 = some c ∧ (c.now 103).ns = 10 := ⟨_, rfl, by decide⟩

/-- C107, a clock cannot be started at any time: at one that the counter of the machine has not reached, say because it
was started less long ago, it panics. -/
theorem C107_violated_start {t k : UInt64} (h : k < t) : RobotClock.fromRefTime t k = none :=
  if_neg (UInt64.not_le.2 h)

example : RobotClock.fromRefTime 100 7 = none := by decide

/-- C107 (restricted to processes in which something publishes the counter): the cheap reading is never later than the
exact one, does not decrease, and is late by no more than the time since the counter was last published. -/
theorem C107_recent_partial (c : RobotClock) {p p' k : UInt64} (h : p ≤ p') (hk : p' ≤ k) :
    (c.recent p).ns ≤ (c.recent p').ns ∧ (c.recent p').ns ≤ (c.now k).ns ∧
      (c.now k).ns.toNat - (c.recent p').ns.toNat ≤ k.toNat - p'.toNat := by
  refine ⟨C28_monotone c p p' h, C28_monotone c p' k hk, ?_⟩
  have h1 := k.toNat_lt
  have h2 := p'.toNat_lt
  rw [UInt64.le_iff_toNat_le] at hk
  simp only [RobotClock.recent, RobotClock.now, UInt64.toNat_ofNat']
  omega

/-- C107, without that the cheap reading of a new clock is always 0, however long it runs. -/
theorem C107_violated_recent {k k' : UInt64} (h : k < k') :
    ((RobotClock.new k).recent 0).ns = 0 ∧ 0 < ((RobotClock.new k).now k').ns := by
  have h1 := k'.toNat_lt
  have h' := UInt64.lt_iff_toNat_lt.1 h
  refine ⟨by simp [RobotClock.recent, RobotClock.now, RobotClock.new], ?_⟩
  rw [UInt64.lt_iff_toNat_lt]
  simp only [RobotClock.now, RobotClock.new, UInt64.toNat_ofNat']
  show 0 < _
  omega

example : ((RobotClock.new 5).recent 7).ns = 2 ∧ ((RobotClock.new 5).recent 0).ns = 0 := by decide

end Verif
