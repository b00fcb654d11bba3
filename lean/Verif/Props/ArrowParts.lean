import Verif.Proofs.ArrowParts
import Verif.Props.ArrowArity
/-!
C104: the parts of dates, times, durations and intervals are exact.
-/
namespace Verif
namespace Arrow
variable {A : Type}

/-- C104: the calendar is the Gregorian one: the only one that has the first of January 1970 on the day 0 and gives
each day the date after that of the day before. -/
theorem C104_calendar : Calendar dateOf ∧ ∀ cal, Calendar cal → cal = dateOf :=
  ⟨dateOf_calendar, fun _ h => calendar_unique h⟩

example : dateOf 11016 = ⟨2000, 2, 29⟩ ∧ dateOf (-25509) = ⟨1900, 2, 28⟩ ∧ dateOf (-25508) = ⟨1900, 3, 1⟩ ∧
    dateOf (-719528) = ⟨0, 1, 1⟩ ∧ dateOf (-719529) = ⟨-1, 12, 31⟩ := by decide
example : (⟨2024, 2, 28⟩ : Date).next = ⟨2024, 2, 29⟩ ∧ (⟨2023, 12, 31⟩ : Date).next = ⟨2024, 1, 1⟩ ∧
    (⟨2023, 2, 28⟩ : Date).next = ⟨2023, 3, 1⟩ := by decide

/-- C104: a time has exactly one of each part, in the range of the part. -/
theorem C104_parts {cal : Int → Date} (h : Calendar cal) (p : Part) (t : Int) :
    ∃ x, PartOf cal p t x ∧ p.Range x ∧ ∀ y, PartOf cal p t y → y = x := by
  rw [calendar_unique h]
  have hx := extract_part (t := t) (secs := t / 1000000000) (nanos := t % 1000000000) p (by omega) (by omega) (by omega)
  exact ⟨_, hx, part_range hx, fun y hy => part_unique hy hx⟩

example : PartOf dateOf .week 1612025847000000000 4 := extract_part .week (secs := 1612025847) (nanos := 0) (by omega) (by omega) (by omega)

/-- C104: the part of a timestamp is that of the time in its zone, exactly; null if it is null, or in none of the years
of the calendar.  The parts of the second of a timestamp in seconds are zero in any year. -/
theorem C104_timestamp {cal : Int → Date} (hcal : Calendar cal) {parse : String → Option (Int → Int)} {zone : Option String}
    {offset : Int → Int} (hz : match zone with | none => ∀ s, offset s = 0 | some t => parse t = some offset)
    (u : TimeUnit) {a : Prim Int} (h : a.Ok) (p : Part) :
    ∃ b, datePart parse (.timestamp u zone a) p = .ok (.ok b) ∧ b.Ok ∧
      Pointwise (Extracted cal p (fun v => v * u.ns + offset (v * u.ns / 1000000000) * 1000000000)
        (fun v => InYears cal (v * u.ns) ∨ (u = .second ∧ p.OfSecond))) a.slots b.slots := by
  rw [calendar_unique hcal]
  simp only [datePart, stampPart]
  by_cases hc : u = .second ∧ p.OfSecond
  · obtain ⟨rfl, hp⟩ := hc
    rw [if_pos ⟨rfl, (subsecond_iff p).mpr hp⟩]
    obtain ⟨b, e, hb, hs⟩ := zeros_pointwise h (R := Extracted dateOf p
      (fun v => v * TimeUnit.second.ns + offset (v * TimeUnit.second.ns / 1000000000) * 1000000000)
      (fun v => InYears dateOf (v * TimeUnit.second.ns) ∨ (TimeUnit.second = .second ∧ p.OfSecond))) rfl (by
        intro v
        refine ⟨fun _ => ⟨0, rfl, ?_⟩, fun hn => absurd (.inr ⟨rfl, hp⟩) hn⟩
        have := subsecond_zero hp (v + offset (v * TimeUnit.second.ns / 1000000000))
        rw [Int.add_mul] at this
        exact this)
    exact ⟨b, by rw [e]; rfl, hb, hs⟩
  · rw [if_neg (fun hn => hc ⟨hn.1, (subsecond_iff p).mp hn.2⟩)]
    have weaken : ∀ v y, Extracted dateOf p (fun v => v * u.ns + offset (v * u.ns / 1000000000) * 1000000000)
        (fun v => InYears dateOf (v * u.ns)) (some v) y →
        Extracted dateOf p (fun v => v * u.ns + offset (v * u.ns / 1000000000) * 1000000000)
        (fun v => InYears dateOf (v * u.ns) ∨ (u = .second ∧ p.OfSecond)) (some v) y := by
      intro v y hy
      exact ⟨fun ht => hy.1 (ht.resolve_right hc), fun ht => hy.2 fun hh => ht (.inl hh)⟩
    cases zone with
    | none =>
      have ho : offset = fun _ => 0 := funext hz
      subst ho
      obtain ⟨b, e, hb, hs⟩ := unaryOpt_pointwise h (fun v => (stampMoment u v).map (extract p)) (R := Extracted dateOf p
        (fun v => v * u.ns + 0 * 1000000000)
        (fun v => InYears dateOf (v * u.ns) ∨ (u = .second ∧ p.OfSecond))) rfl (by
          intro v
          apply weaken v
          have := stamp_extracted u p (fun _ => 0) v
          rw [map_shift_zero] at this
          exact this)
      exact ⟨b, by rw [← e], hb, hs⟩
    | some t =>
      have ht : parse t = some offset := hz
      simp only [ht]
      obtain ⟨b, e, hb, hs⟩ := unaryOpt_pointwise h
        (fun v => ((stampMoment u v).map fun m => m.shift offset).map (extract p)) (R := Extracted dateOf p
        (fun v => v * u.ns + offset (v * u.ns / 1000000000) * 1000000000)
        (fun v => InYears dateOf (v * u.ns) ∨ (u = .second ∧ p.OfSecond))) rfl
        (fun v => weaken v _ (stamp_extracted u p offset v))
      exact ⟨b, by rw [← e], hb, hs⟩

example : (datePart (fun _ => none) (.timestamp .microsecond none (demo [some 1612025847000000, none, some 1722015847000000]))
    .week).map' (fun r => r.toOption.map Prim.slots) = .ok (some [some 4, none, some 30]) := by decide +kernel
example : (datePart (fun _ => some fun _ => -3600) (.timestamp .millisecond (some "-01:00") (demo [some 0, some (-1), none])) .hour).map'
    (fun r => r.toOption.map Prim.slots) = .ok (some [some 23, some 22, none]) := by decide +kernel
example : (datePart (fun _ => none) (.timestamp .second none (demo [some 9223372036854775807])) .year).map'
    (fun r => r.toOption.map Prim.slots) = .ok (some [none]) := by decide +kernel

/-- C104: a zone that does not exist is an error, but for the parts of the second of timestamps in seconds. -/
theorem C104_zone {parse : String → Option (Int → Int)} {t : String} (hz : parse t = none) (u : TimeUnit) (a : Prim Int)
    (p : Part) (h : ¬ (u = .second ∧ p.OfSecond)) :
    datePart parse (.timestamp u (some t) a) p = .ok (.error .compute) := by
  simp only [datePart, stampPart]
  rw [if_neg (fun hn => h ⟨hn.1, (subsecond_iff p).mp hn.2⟩)]
  simp only [hz]

example : ¬ (TimeUnit.second = .second ∧ Part.hour.OfSecond) := by simp [Part.OfSecond]

/-- C104: the part of a date is that of its beginning, for dates in days, and of the time itself, for those in
milliseconds; null if it is null, or in none of the years of the calendar.  The parts of the day of a date in days are
zero in any year. -/
theorem C104_date {cal : Int → Date} (hcal : Calendar cal) (parse : String → Option (Int → Int)) {a : Prim Int} (h : a.Ok)
    (p : Part) :
    (∃ b, datePart parse (.date32 a) p = .ok (.ok b) ∧ b.Ok ∧
      Pointwise (Extracted cal p (fun v => v * dayNs) (fun v => InYears cal (v * dayNs) ∨ p.OfDay)) a.slots b.slots) ∧
    ∃ b, datePart parse (.date64 a) p = .ok (.ok b) ∧ b.Ok ∧
      Pointwise (Extracted cal p (fun v => v * 1000000) (fun v => InYears cal (v * 1000000))) a.slots b.slots := by
  rw [calendar_unique hcal]
  constructor
  · simp only [datePart]
    by_cases hp : p.OfDay
    · rw [if_pos ((time_iff p).mpr hp)]
      obtain ⟨b, e, hb, hs⟩ := zeros_pointwise h (R := Extracted dateOf p (fun v => v * dayNs)
        (fun v => InYears dateOf (v * dayNs) ∨ p.OfDay)) rfl
        (fun v => ⟨fun _ => ⟨0, rfl, time_zero hp v⟩, fun hn => absurd (.inr hp) hn⟩)
      exact ⟨b, by rw [e]; rfl, hb, hs⟩
    · rw [if_neg (mt (time_iff p).mp hp)]
      obtain ⟨b, e, hb, hs⟩ := unaryOpt_pointwise h (fun v => (date32Moment v).map (extract p))
        (R := Extracted dateOf p (fun v => v * dayNs) (fun v => InYears dateOf (v * dayNs) ∨ p.OfDay)) rfl
        (fun v => ⟨fun ht => (date32_extracted p v).1 (ht.resolve_right hp),
          fun ht => (date32_extracted p v).2 fun hh => ht (.inl hh)⟩)
      exact ⟨b, by rw [← e], hb, hs⟩
  · obtain ⟨b, e, hb, hs⟩ := unaryOpt_pointwise h (fun v => (stampMoment .millisecond v).map (extract p))
      (R := Extracted dateOf p (fun v => v * 1000000) (fun v => InYears dateOf (v * 1000000))) rfl
      (fun v => stamp_extracted_utc .millisecond p v)
    exact ⟨b, by rw [← e]; rfl, hb, hs⟩

example : (datePart (fun _ => none) (.date32 (demo [some 15147, none, some 2147483647])) .dayOfYear).map'
    (fun r => r.toOption.map Prim.slots) = .ok (some [some 173, none, none]) ∧
    (datePart (fun _ => none) (.date64 (demo [some 1514764800000, none, some (-1)])) .quarter).map'
    (fun r => r.toOption.map Prim.slots) = .ok (some [some 1, none, some 4]) ∧
    (datePart (fun _ => none) (.date32 (demo [some 2147483647, none])) .hour).map'
    (fun r => r.toOption.map Prim.slots) = .ok (some [some 0, none]) := by decide +kernel

/-- C104: the parts of a time of the day are exact; null if it is null, or no time of one day.  It has no others. -/
theorem C104_time {cal : Int → Date} (hcal : Calendar cal) (parse : String → Option (Int → Int)) (u : TimeUnit)
    {a : Prim Int} (h : a.Ok) (p : Part) :
    (p.OfDay → ∃ b, datePart parse (.time u a) p = .ok (.ok b) ∧ b.Ok ∧
      Pointwise (Extracted cal p (fun v => v * u.ns) (fun v => 0 ≤ v * u.ns ∧ v * u.ns < dayNs)) a.slots b.slots) ∧
    (¬ p.OfDay → datePart parse (.time u a) p = .ok (.error .compute)) := by
  rw [calendar_unique hcal]
  constructor
  · intro hp
    obtain ⟨f, e, hf⟩ := timePart_some (u := u) hp
    simp only [datePart, e, byPart]
    obtain ⟨b, e', hb, hs⟩ := unaryOpt_pointwise h f
      (R := Extracted dateOf p (fun v => v * u.ns) (fun v => 0 ≤ v * u.ns ∧ v * u.ns < dayNs)) rfl hf
    exact ⟨b, by rw [← e'], hb, hs⟩
  · intro hp
    simp only [datePart, timePart_none hp, byPart]

example : (datePart (fun _ => none) (.time .microsecond (demo [some 86399999999, none, some 86400000000, some (-1)])) .millisecond).map'
    (fun r => r.toOption.map Prim.slots) = .ok (some [some 999, none, none, none]) := by decide +kernel

/-- C104: the part of a duration is the whole number of it the duration has, towards zero; null if it is null, or the
number is none of 32 bits.  A duration has no quarters, years, months, days of the week or of the year. -/
theorem C104_duration (parse : String → Option (Int → Int)) (u : TimeUnit) {a : Prim Int} (h : a.Ok) (p : Part) :
    Amounts a (fun v => wholeOf (v * u.ns) p) (p.ns.isSome = true) (datePart parse (.duration u a) p) := by
  simp only [datePart]
  cases hk : p.ns with
  | none =>
    rw [duration_none hk]
    exact amounts_none (by simp)
  | some k =>
    obtain ⟨f, e, hf⟩ := duration_some (u := u) hk
    rw [e]
    refine amounts_some h (by simp) ?_
    intro v _
    rw [hf v]
    simp [wholeOf, hk]

example : (datePart (fun _ => none) (.duration .second (demo [some (-90), none, some 9223372036854775807])) .minute).map'
    (fun r => r.toOption.map Prim.slots) = .ok (some [some (-1), none, none]) ∧
    (datePart (fun _ => none) (.duration .second (demo [some 3, some 3000])) .nanosecond).map'
    (fun r => r.toOption.map Prim.slots) = .ok (some [none, none]) ∧
    (datePart (fun _ => none) (.duration .second (demo [some 2])) .nanosecond).map'
    (fun r => r.toOption.map Prim.slots) = .ok (some [some 2000000000]) := by decide +kernel

/-- C104: the parts of the intervals of months, of days and milliseconds, and of months, days and nanoseconds. -/
theorem C104_interval (parse : String → Option (Int → Int)) (p : Part) {a : Prim Int} (ha : a.Ok)
    (va : ∀ v, some v ∈ a.slots → (⟨true, 32⟩ : Native).Holds v) {b : Prim DayTime} (hb : b.Ok)
    (vb : ∀ v, some v ∈ b.slots → v.Holds) {c : Prim MonthDayNano} (hc : c.Ok) (vc : ∀ v, some v ∈ c.slots → v.Holds) :
    Amounts a (fun v => yearMonthExact v p) (p = .year ∨ p = .month) (datePart parse (.yearMonth a) p) ∧
    Amounts b (fun v => dayTimeExact v p) (p.ns.isSome = true) (datePart parse (.dayTime b) p) ∧
    Amounts c (fun v => monthDayNanoExact v p) (p = .year ∨ p = .month ∨ p.ns.isSome = true)
      (datePart parse (.monthDayNano c) p) := by
  refine ⟨?_, ?_, ?_⟩
  · simp only [datePart]
    cases p
    case year =>
      exact amounts_some ha (.inl rfl) fun v hv => by simp [yearMonthExact, exact32_tdiv 12 (va v hv)]
    case month =>
      exact amounts_some ha (.inr rfl) fun v hv => by simp [yearMonthExact, exact32_tmod 12 (va v hv)]
    all_goals exact amounts_none (by simp)
  · simp only [datePart]
    cases p
    case week =>
      refine amounts_some hb (by simp [Part.ns]) fun v hv => ?_
      simp only [dayTimeExact, wholeOf, Part.ns, true_or, if_true, Option.map_some, Option.bind_some]
      rw [tdiv_times v.days 7 dayNs _ (by decide) rfl, exact32_tdiv 7 (vb v hv).1 (by decide)]
    case day =>
      refine amounts_some hb (by simp [Part.ns]) fun v hv => ?_
      simp only [dayTimeExact, wholeOf, Part.ns, or_true, if_true, Option.map_some, Option.bind_some]
      rw [Int.mul_tdiv_cancel _ (by decide), exact32_of (vb v hv).1]
    case hour =>
      refine amounts_some hb (by simp [Part.ns]) fun v hv => ?_
      simp only [dayTimeExact, wholeOf, Part.ns, reduceCtorEq, or_self, if_false, Option.map_some, Option.bind_some]
      rw [tdiv_times v.ms (60 * 60 * 1000) 1000000 _ (by decide) (by decide), exact32_tdiv _ (vb v hv).2 (by decide)]
    case minute =>
      refine amounts_some hb (by simp [Part.ns]) fun v hv => ?_
      simp only [dayTimeExact, wholeOf, Part.ns, reduceCtorEq, or_self, if_false, Option.map_some, Option.bind_some]
      rw [tdiv_times v.ms (60 * 1000) 1000000 _ (by decide) (by decide), exact32_tdiv _ (vb v hv).2 (by decide)]
    case second =>
      refine amounts_some hb (by simp [Part.ns]) fun v hv => ?_
      simp only [dayTimeExact, wholeOf, Part.ns, reduceCtorEq, or_self, if_false, Option.map_some, Option.bind_some]
      rw [tdiv_times v.ms 1000 1000000 _ (by decide) (by decide), exact32_tdiv _ (vb v hv).2 (by decide)]
    case millisecond =>
      refine amounts_some hb (by simp [Part.ns]) fun v hv => ?_
      simp only [dayTimeExact, wholeOf, Part.ns, reduceCtorEq, or_self, if_false, Option.map_some, Option.bind_some]
      rw [Int.mul_tdiv_cancel _ (by decide), exact32_of (vb v hv).2]
    case microsecond =>
      refine amounts_some hb (by simp [Part.ns]) fun v hv => ?_
      simp only [dayTimeExact, wholeOf, Part.ns, reduceCtorEq, or_self, if_false, Option.map_some, Option.bind_some]
      rw [mulI32_exact, show (1000000 : Int) = 1000 * 1000 from rfl, ← Int.mul_assoc, Int.mul_tdiv_cancel _ (by decide)]
    case nanosecond =>
      refine amounts_some hb (by simp [Part.ns]) fun v hv => ?_
      simp only [dayTimeExact, wholeOf, Part.ns, reduceCtorEq, or_self, if_false, Option.map_some, Option.bind_some]
      rw [mulI32_exact, Int.tdiv_one]
    all_goals exact amounts_none (by simp [Part.ns])
  · simp only [datePart]
    cases p
    case year =>
      refine amounts_some hc (.inl rfl) fun v hv => ?_
      simp [monthDayNanoExact, exact32_tdiv 12 (vc v hv).1]
    case month =>
      refine amounts_some hc (.inr (.inl rfl)) fun v hv => ?_
      simp [monthDayNanoExact, exact32_of (vc v hv).1]
    case week =>
      refine amounts_some hc (by simp [Part.ns]) fun v hv => ?_
      simp only [monthDayNanoExact, wholeOf, Part.ns, reduceCtorEq, true_or, if_true, if_false, Option.map_some, Option.bind_some]
      rw [tdiv_times v.days 7 dayNs _ (by decide) rfl, exact32_tdiv 7 (vc v hv).2.1 (by decide)]
    case day =>
      refine amounts_some hc (by simp [Part.ns]) fun v hv => ?_
      simp only [monthDayNanoExact, wholeOf, Part.ns, reduceCtorEq, or_true, if_true, if_false, Option.map_some, Option.bind_some]
      rw [Int.mul_tdiv_cancel _ (by decide), exact32_of (vc v hv).2.1]
    case nanosecond =>
      refine amounts_some hc (by simp [Part.ns]) fun v hv => ?_
      simp only [monthDayNanoExact, wholeOf, Part.ns, reduceCtorEq, or_self, if_false, Option.map_some, Option.bind_some,
        toI32_exact, Int.tdiv_one]
    case hour | minute | second | millisecond | microsecond =>
      refine amounts_some hc (by simp [Part.ns]) fun v hv => ?_
      simp only [monthDayNanoExact, wholeOf, Part.ns, reduceCtorEq, or_self, if_false, Option.map_some, Option.bind_some,
        toI32_exact]
    all_goals exact amounts_none (by simp [Part.ns])

example : (datePart (fun _ => none) (.yearMonth (demo [some (-25), none])) .month).map'
    (fun r => r.toOption.map Prim.slots) = .ok (some [some (-1), none]) ∧
    (datePart (fun _ => none) (.dayTime ⟨[⟨-13, 90000⟩, ⟨1, 2147484⟩], none⟩) .week).map'
    (fun r => r.toOption.map Prim.slots) = .ok (some [some (-1), some 0]) ∧
    (datePart (fun _ => none) (.dayTime ⟨[⟨-13, 90000⟩, ⟨1, 2147484⟩], none⟩) .microsecond).map'
    (fun r => r.toOption.map Prim.slots) = .ok (some [some 90000000, none]) := by decide +kernel

/-- C104 does not hold as one expects of months: those of an interval of months are the ones beside its years, those of
an interval of months, days and nanoseconds are all. -/
theorem C104_violated_months (parse : String → Option (Int → Int)) :
    (datePart parse (.yearMonth ⟨[25], none⟩) .month).map' (fun r => r.toOption.map Prim.slots) = .ok (some [some 1]) ∧
    (datePart parse (.monthDayNano ⟨[⟨25, 0, 0⟩], none⟩) .month).map' (fun r => r.toOption.map Prim.slots) =
      .ok (some [some 25]) ∧
    (datePart parse (.yearMonth ⟨[25], none⟩) .year).map' (fun r => r.toOption.map Prim.slots) = .ok (some [some 2]) ∧
    (datePart parse (.monthDayNano ⟨[⟨25, 0, 0⟩], none⟩) .year).map' (fun r => r.toOption.map Prim.slots) =
      .ok (some [some 2]) := by
  refine ⟨?_, ?_, ?_, ?_⟩ <;> rfl

/-- C104: a dictionary keeps its keys, with the parts of its values. -/
theorem C104_dictionary (parse : String → Option (Int → Int)) (keys : Prim Nat) (t : Temporal) (p : Part) :
    (∀ b, datePart parse t p = .ok (.ok b) → ∃ d, datePartDict parse keys t p = .ok (.ok d) ∧
      d.slots = keys.slots.map fun k => k.bind fun k => (b.slots[k]?).join) ∧
    ∀ e, datePart parse t p = .ok (.error e) → datePartDict parse keys t p = .ok (.error e) := by
  constructor
  · intro b hb
    exact ⟨⟨keys, b⟩, by unfold datePartDict; rw [hb]; rfl, rfl⟩
  · intro e he
    unfold datePartDict
    rw [he]
    rfl

example : (datePartDict (fun _ => none) ⟨[1, 0, 1], none⟩ (.date32 (demo [some 0, some 40])) .month).map'
    (fun r => r.toOption.map Dict.slots) = .ok (some [some 2, some 1, some 2]) := by decide +kernel

end Arrow
end Verif
