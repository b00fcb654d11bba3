import Verif.Spec.ArrowParts
import Verif.Proofs.ArrowArity
namespace Verif
namespace Arrow
variable {A O : Type}

/-! ### The calendar -/

/-- Days before the first of March of a year, counted from that of the year 0. -/
def marchStart (y : Int) : Int := 365 * y + y / 4 - y / 100 + y / 400

/-- The day `z` is the day `d` of the year beginning in March of `y`. -/
def March (z y d : Int) : Prop := z = marchStart y + d ∧ 0 ≤ d ∧ z < marchStart (y + 1)

theorem marchStart_mono {y y' : Int} (h : y < y') : marchStart (y + 1) ≤ marchStart y' := by
  unfold marchStart; omega

theorem March.unique {z y d y' d' : Int} (h : March z y d) (h' : March z y' d') : y = y' ∧ d = d' := by
  have e : y = y' := by
    rcases Int.lt_trichotomy y y' with hl | he | hl
    · have := marchStart_mono hl
      obtain ⟨_, _, _⟩ := h
      obtain ⟨_, _, _⟩ := h'
      omega
    · exact he
    · have := marchStart_mono hl
      obtain ⟨_, _, _⟩ := h
      obtain ⟨_, _, _⟩ := h'
      omega
  subst e
  exact ⟨rfl, by have := h.1; have := h'.1; omega⟩

theorem marchStart_step (y : Int) :
    marchStart (y + 1) = marchStart y + 365 + (if LeapYear (y + 1) then 1 else 0) := by
  by_cases hl : LeapYear (y + 1)
  · rw [if_pos hl]
    unfold LeapYear at hl
    unfold marchStart
    omega
  · rw [if_neg hl]
    unfold LeapYear at hl
    unfold marchStart
    omega

theorem leap_end {c q era Y : Int} (hc : c ≤ 3) (hq : 0 ≤ q ∧ q ≤ 24) (h : q = 24 → c = 3)
    (hY : 100 * c + 4 * q + 3 + 400 * era = Y) : LeapYear (Y + 1) := by
  by_cases h24 : q = 24
  · have := h h24
    exact ⟨by omega, .inr (by omega)⟩
  · exact ⟨by omega, .inl (by omega)⟩

theorem marchYear_march (z : Int) :
    March z ((marchYear (z % 146097)).1 + 400 * (z / 146097)) (marchYear (z % 146097)).2 := by
  have h0 := Int.emod_nonneg z (show (146097 : Int) ≠ 0 by decide)
  have h1 := Int.emod_lt_of_pos z (show (0 : Int) < 146097 by decide)
  have h2 := Int.emod_add_mul_ediv z 146097
  generalize hd : z % 146097 = doe at *
  generalize he : z / 146097 = era at *
  simp only [marchYear]
  generalize hc : min (doe / 36524) 3 = c
  have c0 : 0 ≤ c ∧ c ≤ 3 ∧ 0 ≤ doe - 36524 * c ∧ (c < 3 → doe - 36524 * c < 36524) ∧ doe - 36524 * c ≤ 36524 := by omega
  generalize hr : doe - 36524 * c = r at *
  generalize hq : r / 1461 = q
  have q0 : 0 ≤ q ∧ q ≤ 24 ∧ 0 ≤ r - 1461 * q ∧ r - 1461 * q < 1461 ∧ (q = 24 → r - 1461 * q ≤ 1460) ∧
    (c < 3 → q = 24 → r - 1461 * q < 1460) := by omega
  generalize hs : r - 1461 * q = s at *
  generalize hy : min (s / 365) 3 = y
  have y0 : 0 ≤ y ∧ y ≤ 3 ∧ 0 ≤ s - 365 * y ∧ s - 365 * y ≤ 365 ∧ (s - 365 * y = 365 → y = 3) := by omega
  have a4 : (100 * c + 4 * q + y + 400 * era) / 4 = 25 * c + q + 100 * era := by omega
  have a100 : (100 * c + 4 * q + y + 400 * era) / 100 = c + 4 * era := by omega
  have a400 : (100 * c + 4 * q + y + 400 * era) / 400 = era := by omega
  have st : marchStart (100 * c + 4 * q + y + 400 * era) + (s - 365 * y) = z := by
    unfold marchStart; rw [a4, a100, a400]; omega
  refine ⟨st.symm, y0.2.2.1, ?_⟩
  rw [marchStart_step]
  generalize hY : 100 * c + 4 * q + y + 400 * era = Y at *
  by_cases hl : LeapYear (Y + 1)
  · rw [if_pos hl]; omega
  · rw [if_neg hl]
    have : s - 365 * y ≠ 365 := by
      intro h365
      have hy3 := y0.2.2.2.2 h365
      subst hy3
      exact hl (leap_end c0.2.1 ⟨q0.1, q0.2.1⟩ (by omega) hY)
    omega

/-- The first of January of a year. -/
def newYear (y : Int) : Int := marchStart (y - 1) + 306 - 719468

theorem newYear_mono {y y' : Int} (h : y < y') : newYear (y + 1) ≤ newYear y' := by
  have : marchStart (y - 1 + 1) ≤ marchStart (y' - 1) := marchStart_mono (by omega)
  have e : y + 1 - 1 = y - 1 + 1 := by omega
  unfold newYear
  rw [e]
  omega

/-- The date, from the day of the year beginning in March. -/
def ofMarch (y d : Int) : Date :=
  let mp := (5 * d + 2) / 153
  let m := if mp < 10 then mp + 3 else mp - 9
  ⟨y + (if m ≤ 2 then 1 else 0), m, d - (153 * mp + 2) / 5 + 1⟩

theorem dateOf_march {n y d : Int} (h : March (n + 719468) y d) : dateOf n = ofMarch y d := by
  obtain ⟨e1, e2⟩ := (marchYear_march (n + 719468)).unique h
  simp only [dateOf, ofMarch]
  rw [e1, e2]

theorem exists_march (z : Int) : ∃ y d, March z y d := ⟨_, _, marchYear_march z⟩

theorem March.le {z y d : Int} (h : March z y d) : d ≤ 364 ∨ (d = 365 ∧ LeapYear (y + 1)) := by
  obtain ⟨h1, h2, h3⟩ := h
  rw [marchStart_step] at h3
  by_cases hl : LeapYear (y + 1)
  · rw [if_pos hl] at h3
    by_cases hd : d ≤ 364
    · exact .inl hd
    · exact .inr ⟨by omega, hl⟩
  · rw [if_neg hl] at h3
    exact .inl (by omega)

/-- The month that begins with the day `a` of the year beginning in March, and ends before the day `b`. -/
theorem ofMarch_month {y d : Int} (mp a b m o : Int) (ha : a ≤ d) (hb : d < b) (h0 : 153 * mp ≤ 5 * a + 2)
    (h1 : 5 * (b - 1) + 2 < 153 * (mp + 1)) (hm : (if mp < 10 then mp + 3 else mp - 9) = m)
    (ho : (if m ≤ 2 then 1 else 0) = o) (hf : (153 * mp + 2) / 5 = a) : ofMarch y d = ⟨y + o, m, d - a + 1⟩ := by
  have e : (5 * d + 2) / 153 = mp := by omega
  simp only [ofMarch]
  rw [e, hm, ho, hf]

theorem monthDays_long (y : Int) {m : Int} (h : m = 1 ∨ m = 3 ∨ m = 5 ∨ m = 7 ∨ m = 8 ∨ m = 10 ∨ m = 12) :
    monthDays y m = 31 := by
  unfold monthDays
  rw [if_neg (by omega), if_neg (by omega)]

theorem monthDays_short (y : Int) {m : Int} (h : m = 4 ∨ m = 6 ∨ m = 9 ∨ m = 11) : monthDays y m = 30 := by
  unfold monthDays
  rw [if_neg (by omega), if_pos h]

theorem monthDays_feb (y : Int) : monthDays y 2 = 28 + (if LeapYear y then 1 else 0) := by
  unfold monthDays
  rw [if_pos rfl]
  split <;> rfl

theorem step {D D' : Date} {y m d a b : Int} (hD : D = ⟨y, m, d - a + 1⟩) (ha : a ≤ d) (hb : d < b) (hm : 1 ≤ m ∧ m < 12)
    (hl : monthDays y m = b - a) (h1 : d + 1 < b → D' = ⟨y, m, d + 1 - a + 1⟩) (h2 : d + 1 = b → D' = ⟨y, m + 1, 1⟩) :
    D.Valid ∧ D' = D.next := by
  subst hD
  refine ⟨⟨hm.1, Int.le_of_lt hm.2, by simp only; omega, by simp only [hl]; omega⟩, ?_⟩
  by_cases hc : d + 1 < b
  · rw [h1 hc]
    simp only [Date.next, hl]
    rw [if_pos (by omega)]
    congr 1
    omega
  · rw [h2 (by omega)]
    simp only [Date.next, hl]
    rw [if_neg (by omega), if_pos hm.2]

theorem step_year {D D' : Date} {y d a b : Int} (hD : D = ⟨y, 12, d - a + 1⟩) (ha : a ≤ d) (hb : d < b)
    (hl : b - a = 31) (h1 : d + 1 < b → D' = ⟨y, 12, d + 1 - a + 1⟩) (h2 : d + 1 = b → D' = ⟨y + 1, 1, 1⟩) :
    D.Valid ∧ D' = D.next := by
  subst hD
  have hl' : monthDays y 12 = b - a := by rw [monthDays_long y (by omega)]; omega
  refine ⟨⟨by simp, by simp, by simp only; omega, by simp only [hl']; omega⟩, ?_⟩
  by_cases hc : d + 1 < b
  · rw [h1 hc]
    simp only [Date.next, hl']
    rw [if_pos (by omega)]
    congr 1
    omega
  · rw [h2 (by omega)]
    simp only [Date.next, hl']
    rw [if_neg (by omega), if_neg (by omega)]

theorem dateOf_next (n : Int) : (dateOf n).Valid ∧ dateOf (n + 1) = (dateOf n).next := by
  obtain ⟨y, d, h⟩ := exists_march (n + 719468)
  have h0 := h.2.1
  have hz := h.1
  have hlt := h.2.2
  have s1 := marchStart_step y
  -- the day after
  have inside : d + 1 < 365 + (if LeapYear (y + 1) then 1 else 0) → dateOf (n + 1) = ofMarch y (d + 1) := by
    intro hc
    apply dateOf_march
    refine ⟨by omega, by omega, by omega⟩
  have after : d + 1 = 365 + (if LeapYear (y + 1) then 1 else 0) → dateOf (n + 1) = ⟨y + 1, 3, 1⟩ := by
    intro hc
    have s2 := marchStart_step (y + 1)
    have hm : March (n + 1 + 719468) (y + 1) 0 := by
      refine ⟨by omega, by omega, ?_⟩
      split at s2 <;> omega
    rw [dateOf_march hm, ofMarch_month 0 0 31 3 0 (by omega) (by omega) (by omega) (by omega) (by decide) (by decide) (by decide)]
    congr 1 <;> omega
  have hin : d + 1 < 365 → dateOf (n + 1) = ofMarch y (d + 1) := fun hc => inside (by split <;> omega)
  have e := dateOf_march h
  have hle := h.le
  have next : ∀ mp a b m o, a ≤ d + 1 → d + 1 < b → d + 1 < 365 → 153 * mp ≤ 5 * a + 2 →
      5 * (b - 1) + 2 < 153 * (mp + 1) → (if mp < 10 then mp + 3 else mp - 9) = m →
      (if m ≤ 2 then 1 else 0) = o → (153 * mp + 2) / 5 = a → dateOf (n + 1) = ⟨y + o, m, d + 1 - a + 1⟩ := by
    intro mp a b m o h1 h2 h3 h4 h5 h6 h7 h8
    rw [hin h3, ofMarch_month mp a b m o h1 h2 h4 h5 h6 h7 h8]
  have now : ∀ mp a b m o, a ≤ d → d < b → 153 * mp ≤ 5 * a + 2 →
      5 * (b - 1) + 2 < 153 * (mp + 1) → (if mp < 10 then mp + 3 else mp - 9) = m →
      (if m ≤ 2 then 1 else 0) = o → (153 * mp + 2) / 5 = a → dateOf n = ⟨y + o, m, d - a + 1⟩ := by
    intro mp a b m o h1 h2 h4 h5 h6 h7 h8
    rw [e, ofMarch_month mp a b m o h1 h2 h4 h5 h6 h7 h8]
  by_cases c0 : d < 31
  · exact step (now 0 0 31 3 0 (by omega) (by omega) (by decide) (by decide) (by decide) (by decide) (by decide)) (by omega) c0 (by decide)
      (monthDays_long _ (by decide))
      (fun hc => next 0 0 31 3 0 (by omega) hc (by omega) (by decide) (by decide) (by decide) (by decide) (by decide))
      (fun hc => (next 1 31 61 4 0 (by omega) (by omega) (by omega) (by decide) (by decide) (by decide) (by decide) (by decide)).trans (by congr 1 <;> omega))
  by_cases c1 : d < 61
  · exact step (now 1 31 61 4 0 (by omega) (by omega) (by decide) (by decide) (by decide) (by decide) (by decide)) (by omega) c1 (by decide)
      (monthDays_short _ (by decide))
      (fun hc => next 1 31 61 4 0 (by omega) hc (by omega) (by decide) (by decide) (by decide) (by decide) (by decide))
      (fun hc => (next 2 61 92 5 0 (by omega) (by omega) (by omega) (by decide) (by decide) (by decide) (by decide) (by decide)).trans (by congr 1 <;> omega))
  by_cases c2 : d < 92
  · exact step (now 2 61 92 5 0 (by omega) (by omega) (by decide) (by decide) (by decide) (by decide) (by decide)) (by omega) c2 (by decide)
      (monthDays_long _ (by decide))
      (fun hc => next 2 61 92 5 0 (by omega) hc (by omega) (by decide) (by decide) (by decide) (by decide) (by decide))
      (fun hc => (next 3 92 122 6 0 (by omega) (by omega) (by omega) (by decide) (by decide) (by decide) (by decide) (by decide)).trans (by congr 1 <;> omega))
  by_cases c3 : d < 122
  · exact step (now 3 92 122 6 0 (by omega) (by omega) (by decide) (by decide) (by decide) (by decide) (by decide)) (by omega) c3 (by decide)
      (monthDays_short _ (by decide))
      (fun hc => next 3 92 122 6 0 (by omega) hc (by omega) (by decide) (by decide) (by decide) (by decide) (by decide))
      (fun hc => (next 4 122 153 7 0 (by omega) (by omega) (by omega) (by decide) (by decide) (by decide) (by decide) (by decide)).trans (by congr 1 <;> omega))
  by_cases c4 : d < 153
  · exact step (now 4 122 153 7 0 (by omega) (by omega) (by decide) (by decide) (by decide) (by decide) (by decide)) (by omega) c4 (by decide)
      (monthDays_long _ (by decide))
      (fun hc => next 4 122 153 7 0 (by omega) hc (by omega) (by decide) (by decide) (by decide) (by decide) (by decide))
      (fun hc => (next 5 153 184 8 0 (by omega) (by omega) (by omega) (by decide) (by decide) (by decide) (by decide) (by decide)).trans (by congr 1 <;> omega))
  by_cases c5 : d < 184
  · exact step (now 5 153 184 8 0 (by omega) (by omega) (by decide) (by decide) (by decide) (by decide) (by decide)) (by omega) c5 (by decide)
      (monthDays_long _ (by decide))
      (fun hc => next 5 153 184 8 0 (by omega) hc (by omega) (by decide) (by decide) (by decide) (by decide) (by decide))
      (fun hc => (next 6 184 214 9 0 (by omega) (by omega) (by omega) (by decide) (by decide) (by decide) (by decide) (by decide)).trans (by congr 1 <;> omega))
  by_cases c6 : d < 214
  · exact step (now 6 184 214 9 0 (by omega) (by omega) (by decide) (by decide) (by decide) (by decide) (by decide)) (by omega) c6 (by decide)
      (monthDays_short _ (by decide))
      (fun hc => next 6 184 214 9 0 (by omega) hc (by omega) (by decide) (by decide) (by decide) (by decide) (by decide))
      (fun hc => (next 7 214 245 10 0 (by omega) (by omega) (by omega) (by decide) (by decide) (by decide) (by decide) (by decide)).trans (by congr 1 <;> omega))
  by_cases c7 : d < 245
  · exact step (now 7 214 245 10 0 (by omega) (by omega) (by decide) (by decide) (by decide) (by decide) (by decide)) (by omega) c7 (by decide)
      (monthDays_long _ (by decide))
      (fun hc => next 7 214 245 10 0 (by omega) hc (by omega) (by decide) (by decide) (by decide) (by decide) (by decide))
      (fun hc => (next 8 245 275 11 0 (by omega) (by omega) (by omega) (by decide) (by decide) (by decide) (by decide) (by decide)).trans (by congr 1 <;> omega))
  by_cases c8 : d < 275
  · exact step (now 8 245 275 11 0 (by omega) (by omega) (by decide) (by decide) (by decide) (by decide) (by decide)) (by omega) c8 (by decide)
      (monthDays_short _ (by decide))
      (fun hc => next 8 245 275 11 0 (by omega) hc (by omega) (by decide) (by decide) (by decide) (by decide) (by decide))
      (fun hc => (next 9 275 306 12 0 (by omega) (by omega) (by omega) (by decide) (by decide) (by decide) (by decide) (by decide)).trans (by congr 1 <;> omega))
  by_cases c9 : d < 306
  · exact step_year (now 9 275 306 12 0 (by omega) (by omega) (by decide) (by decide) (by decide) (by decide) (by decide)) (by omega) c9 (by decide)
      (fun hc => next 9 275 306 12 0 (by omega) hc (by omega) (by decide) (by decide) (by decide) (by decide) (by decide))
      (fun hc => (next 10 306 337 1 1 (by omega) (by omega) (by omega) (by decide) (by decide) (by decide) (by decide) (by decide)).trans (by congr 1 <;> omega))
  by_cases c10 : d < 337
  · exact step (now 10 306 337 1 1 (by omega) (by omega) (by decide) (by decide) (by decide) (by decide) (by decide)) (by omega) c10 (by decide)
      (monthDays_long _ (by decide))
      (fun hc => next 10 306 337 1 1 (by omega) hc (by omega) (by decide) (by decide) (by decide) (by decide) (by decide))
      (fun hc => (next 11 337 366 2 1 (by omega) (by omega) (by omega) (by decide) (by decide) (by decide) (by decide) (by decide)).trans (by congr 1 <;> omega))
  · have ha : 337 ≤ d := by omega
    have hb : d < 337 + 28 + (if LeapYear (y + 1) then 1 else 0) := by omega
    refine step (a := 337) (b := 337 + 28 + (if LeapYear (y + 1) then 1 else 0))
      (now 11 337 366 2 1 ha (by split at hb <;> omega) (by decide) (by decide) (by decide) (by decide) (by decide)) ha hb
      (by omega) (by rw [monthDays_feb]; omega) ?_ ?_
    · intro hc
      rw [inside (by omega), ofMarch_month 11 337 366 2 1 (by omega) (by split at hc <;> omega) (by decide) (by decide)
        (by decide) (by decide) (by decide)]
    · intro hc
      rw [after (by omega)]
      rfl

theorem date_ext {d e : Date} (h1 : d.year = e.year) (h2 : d.month = e.month) (h3 : d.day = e.day) : d = e := by
  cases d; cases e; simp_all

theorem next_cases (d : Date) :
    (d.day < monthDays d.year d.month ∧ d.next = ⟨d.year, d.month, d.day + 1⟩) ∨
    (¬ d.day < monthDays d.year d.month ∧ d.month < 12 ∧ d.next = ⟨d.year, d.month + 1, 1⟩) ∨
    (¬ d.day < monthDays d.year d.month ∧ ¬ d.month < 12 ∧ d.next = ⟨d.year + 1, 1, 1⟩) := by
  unfold Date.next
  by_cases h1 : d.day < monthDays d.year d.month
  · exact .inl ⟨h1, if_pos h1⟩
  · by_cases h2 : d.month < 12
    · exact .inr (.inl ⟨h1, h2, by rw [if_neg h1, if_pos h2]⟩)
    · exact .inr (.inr ⟨h1, h2, by rw [if_neg h1, if_neg h2]⟩)

theorem next_injective {d e : Date} (hd : d.Valid) (he : e.Valid) (h : d.next = e.next) : d = e := by
  obtain ⟨d1, d2, d3, d4⟩ := hd
  obtain ⟨e1, e2, e3, e4⟩ := he
  rcases next_cases d with ⟨c1, k⟩ | ⟨c1, c2, k⟩ | ⟨c1, c2, k⟩ <;>
  rcases next_cases e with ⟨c1', k'⟩ | ⟨c1', c2', k'⟩ | ⟨c1', c2', k'⟩ <;>
  rw [k, k'] at h <;> injection h with h1 h2 h3
  · exact date_ext h1 h2 (by omega)
  · omega
  · omega
  · omega
  · have hm : d.month = e.month := by omega
    rw [h1, hm] at d4 c1
    exact date_ext h1 hm (by omega)
  · omega
  · omega
  · omega
  · have hm : d.month = e.month := by omega
    have hy : d.year = e.year := by omega
    rw [hy, hm] at d4 c1
    exact date_ext hy hm (by omega)

theorem march_epoch : dateOf 0 = ⟨1970, 1, 1⟩ := by decide

theorem dateOf_calendar : Calendar dateOf := ⟨fun n => (dateOf_next n).1, march_epoch, fun n => (dateOf_next n).2⟩

theorem calendar_unique {cal : Int → Date} (h : Calendar cal) : cal = dateOf := by
  have up : ∀ k : Nat, cal k = dateOf k := by
    intro k
    induction k with
    | zero => rw [show ((0 : Nat) : Int) = 0 from rfl, h.epoch, march_epoch]
    | succ k ih =>
      rw [show ((k + 1 : Nat) : Int) = (k : Int) + 1 from rfl, h.next, dateOf_calendar.next, ih]
  have down : ∀ k : Nat, cal (-(k : Int)) = dateOf (-(k : Int)) := by
    intro k
    induction k with
    | zero => rw [show (-((0 : Nat) : Int)) = 0 from rfl, h.epoch, march_epoch]
    | succ k ih =>
      have e : -(k : Int) = -((k + 1 : Nat) : Int) + 1 := by omega
      rw [e, h.next, dateOf_calendar.next] at ih
      exact next_injective (h.valid _) (dateOf_calendar.valid _) ih
  funext n
  rcases Int.le_total 0 n with hn | hn
  · have := up n.toNat
    rwa [show ((n.toNat : Nat) : Int) = n by omega] at this
  · have := down (-n).toNat
    rwa [show (-(((-n).toNat : Nat) : Int)) = n by omega] at this

theorem ofMarch_year {y d : Int} (h0 : 0 ≤ d) (h1 : d ≤ 365) : (ofMarch y d).year = y + (if 306 ≤ d then 1 else 0) := by
  simp only [ofMarch]
  by_cases hd : 306 ≤ d
  · have : ¬ (5 * d + 2) / 153 < 10 := by omega
    rw [if_pos hd, if_neg this, if_pos (by omega)]
  · have : (5 * d + 2) / 153 < 10 := by omega
    rw [if_neg hd, if_pos this, if_neg (by omega)]

theorem year_bounds (n : Int) :
    newYear (dateOf n).year ≤ n ∧ n < newYear ((dateOf n).year + 1) ∧ ordinalOf n = n - newYear (dateOf n).year + 1 := by
  have h := marchYear_march (n + 719468)
  have e := dateOf_march h
  have hle := h.le
  have ho : ordinalOf n = if 306 ≤ (marchYear ((n + 719468) % 146097)).2 then (marchYear ((n + 719468) % 146097)).2 - 305
      else (marchYear ((n + 719468) % 146097)).2 + 60 +
        (if LeapYear ((marchYear ((n + 719468) % 146097)).1 + 400 * ((n + 719468) / 146097)) then 1 else 0) := rfl
  rw [ho]
  generalize (marchYear ((n + 719468) % 146097)).1 + 400 * ((n + 719468) / 146097) = y at *
  generalize (marchYear ((n + 719468) % 146097)).2 = d at *
  obtain ⟨h1, h2, h3⟩ := h
  have hy := ofMarch_year (y := y) h2 (by omega)
  rw [← e] at hy
  by_cases hd : 306 ≤ d
  · rw [if_pos hd] at hy ⊢
    rw [hy]
    unfold newYear
    rw [show y + 1 - 1 = y by omega, show y + 1 + 1 - 1 = y + 1 by omega]
    have s1 := marchStart_step y
    refine ⟨by omega, by split at s1 <;> omega, by omega⟩
  · rw [if_neg hd] at hy ⊢
    rw [hy]
    unfold newYear
    have s1 := marchStart_step (y - 1)
    rw [show y - 1 + 1 = y by omega] at s1
    rw [show y + 0 - 1 = y - 1 by omega, show y + 0 + 1 - 1 = y by omega]
    refine ⟨by split at s1 <;> omega, by omega, by omega⟩

theorem newYear_step (y : Int) : newYear (y + 1) = newYear y + 365 + (if LeapYear y then 1 else 0) := by
  have := marchStart_step (y - 1)
  unfold newYear
  rw [show y - 1 + 1 = y by omega] at this
  rw [show y + 1 - 1 = y by omega]
  omega

theorem year_of {n y : Int} (h1 : newYear y ≤ n) (h2 : n < newYear (y + 1)) : (dateOf n).year = y := by
  obtain ⟨b1, b2, _⟩ := year_bounds n
  rcases Int.lt_trichotomy (dateOf n).year y with hl | he | hl
  · have := newYear_mono hl; omega
  · exact he
  · have := newYear_mono hl; omega

theorem dateOf_newYear (y : Int) : dateOf (newYear y) = ⟨y, 1, 1⟩ := by
  have s1 := marchStart_step (y - 1)
  have hm : March (newYear y + 719468) (y - 1) 306 := by
    unfold newYear
    refine ⟨by omega, by omega, by split at s1 <;> omega⟩
  rw [dateOf_march hm, ofMarch_month 10 306 337 1 1 (by decide) (by decide) (by decide) (by decide) (by decide) (by decide)
    (by decide)]
  congr 1
  omega

theorem ordinal_range (n : Int) : 1 ≤ ordinalOf n ∧ ordinalOf n ≤ 366 := by
  obtain ⟨h1, h2, h3⟩ := year_bounds n
  have := newYear_step (dateOf n).year
  split at this <;> omega

/-- What is extracted is the part of the time. -/
theorem extract_part {secs nanos t : Int} (p : Part) (h0 : 0 ≤ nanos) (h1 : nanos < 1000000000)
    (ht : t = secs * 1000000000 + nanos) : PartOf dateOf p t (extract p ⟨secs, nanos⟩) := by
  have hs : t / 1000000000 = secs := by omega
  have hn : t % 1000000000 = nanos := by omega
  have hd : dayOf t = secs / 86400 := by
    unfold dayOf dayNs
    omega
  unfold PartOf
  simp only [hd, extract, Moment.days]
  generalize hday : secs / 86400 = n
  cases p with
  | year => rfl
  | quarter =>
    obtain ⟨v1, v2, _, _⟩ := dateOf_calendar.valid n
    simp only
    omega
  | month => rfl
  | day => rfl
  | dayOfYear =>
    simp only
    obtain ⟨_, _, h⟩ := year_bounds n
    rw [← dateOf_newYear]
    congr 1
    omega
  | dayOfWeekSunday0 => simp only [fromSunday]; omega
  | dayOfWeekMonday0 => simp only [fromMonday]; omega
  | week =>
    simp only [isoWeek]
    have hth : (n - fromMonday n + 3) % 7 = 0 ∧ n - 3 ≤ n - fromMonday n + 3 ∧ n - fromMonday n + 3 ≤ n + 3 := by
      unfold fromMonday; omega
    generalize n - fromMonday n + 3 = th at *
    obtain ⟨b1, b2, h⟩ := year_bounds th
    obtain ⟨o1, o2⟩ := ordinal_range th
    refine ⟨th, hth.1, hth.2.1, hth.2.2, by omega, ?_, ?_⟩
    · exact year_of (by omega) (by omega)
    · intro he
      obtain ⟨c1, _, _⟩ := year_bounds (th - 7 * ((ordinalOf th - 1) / 7 + 1))
      rw [he] at c1
      omega
  | hour => simp only; omega
  | minute => simp only; omega
  | second => simp only; omega
  | millisecond => simp only [hn]
  | microsecond => simp only [hn]
  | nanosecond => simp only [hn]

/-- A time has one of each part, in its range. -/
theorem part_unique {p : Part} {t x x' : Int} (h : PartOf dateOf p t x) (h' : PartOf dateOf p t x') : x = x' := by
  unfold PartOf at h h'
  generalize dayOf t = n at *
  cases p with
  | quarter => simp only at h h'; omega
  | dayOfWeekSunday0 => simp only at h h'; omega
  | dayOfWeekMonday0 => simp only at h h'; omega
  | dayOfYear =>
    simp only at h h'
    have b := (year_bounds (n - (x - 1)))
    have b' := (year_bounds (n - (x' - 1)))
    have f : ∀ m y, dateOf m = ⟨y, 1, 1⟩ → m = newYear y := by
      intro m y hm
      rcases Int.lt_trichotomy m (newYear y) with hl | he | hl
      · have := (year_bounds m).2.1
        rw [hm] at this
        have := (year_bounds m).1
        rw [hm] at this
        simp only at *
        omega
      · exact he
      · exfalso
        have e1 : (dateOf (m - 1)).year = y := by
          have := (year_bounds m).2.1
          rw [hm] at this
          simp only at this
          exact year_of (by omega) (by omega)
        have e2 := dateOf_calendar.next (m - 1)
        rw [show m - 1 + 1 = m by omega, hm] at e2
        unfold Date.next at e2
        obtain ⟨v1, v2, v3, v4⟩ := dateOf_calendar.valid (m - 1)
        split at e2
        · injection e2 with _ _ e; omega
        · split at e2
          · injection e2 with _ e _; omega
          · injection e2 with e _ _; omega
    have := f _ _ h
    have := f _ _ h'
    omega
  | week =>
    simp only at h h'
    obtain ⟨th, t1, t2, t3, w1, w2, w3⟩ := h
    obtain ⟨th', t1', t2', t3', w1', w2', w3'⟩ := h'
    have : th = th' := by omega
    subst this
    have b := year_bounds th
    have g : ∀ k, 1 ≤ k → (dateOf (th - 7 * (k - 1))).year = (dateOf th).year → (dateOf (th - 7 * k)).year ≠ (dateOf th).year →
        th - 7 * (k - 1) ≥ newYear (dateOf th).year ∧ th - 7 * k < newYear (dateOf th).year := by
      intro k hk k1 k2
      constructor
      · have := (year_bounds (th - 7 * (k - 1))).1
        rw [k1] at this
        exact this
      · apply Int.not_le.mp
        intro hc
        exact k2 (year_of hc (by omega))
    have := g x w1 w2 w3
    have := g x' w1' w2' w3'
    omega
  | _ => simp only at h h'; omega

theorem part_range {p : Part} {t x : Int} (h : PartOf dateOf p t x) : p.Range x := by
  have hx := extract_part (t := t) (secs := t / 1000000000) (nanos := t % 1000000000) p (by omega) (by omega) (by omega)
  rw [part_unique h hx]
  have hv := dateOf_calendar.valid (t / 1000000000 / 86400)
  have hm : monthDays (dateOf (t / 1000000000 / 86400)).year (dateOf (t / 1000000000 / 86400)).month ≤ 31 := by
    unfold monthDays
    split
    · split <;> omega
    · split <;> omega
  obtain ⟨v1, v2, v3, v4⟩ := hv
  have ho := ordinal_range (t / 1000000000 / 86400)
  have ho' := ordinal_range (t / 1000000000 / 86400 - fromMonday (t / 1000000000 / 86400) + 3)
  cases p <;> simp only [Part.Range, extract, Moment.days, isoWeek, fromSunday, fromMonday] at * <;> omega

/-! ### Arrays -/

theorem optBits_length (op : A → Option O) (vs : List A) (bs : List Bool) (h : bs.length = vs.length) :
    (optBits op vs bs).length = vs.length := by
  induction vs generalizing bs with
  | nil => rfl
  | cons v vs ih =>
    cases bs with
    | nil => simp at h
    | cons b bs => simp [optBits, ih bs (by simpa using h)]

theorem optBits_slots (op : A → Option Int) (vs : List A) (bs : List Bool) (h : bs.length = vs.length) :
    List.zipWith slot (optBits op vs bs) (List.zipWith (fun v b => if b then (op v).getD 0 else 0) vs bs) =
      (List.zipWith slot bs vs).map fun s => s.bind op := by
  induction vs generalizing bs with
  | nil => simp [optBits]
  | cons v vs ih =>
    cases bs with
    | nil => simp at h
    | cons b bs =>
      simp only [optBits, List.zipWith_cons_cons, List.map_cons, ih bs (by simpa using h)]
      congr 1
      cases b
      · rfl
      · cases ho : op v <;> simp [slot, ho]

theorem replicate_slots (vs : List A) : List.zipWith slot (List.replicate vs.length true) vs = vs.map some := by
  induction vs with
  | nil => rfl
  | cons v vs ih => simp [List.replicate_succ, slot, ih]

theorem unaryOpt_ok {a : Prim A} (h : a.Ok) (op : A → Option Int) :
    (unaryOpt a op).Ok ∧ (unaryOpt a op).slots = a.slots.map fun s => s.bind op := by
  have key : ∀ valid : List Bool, valid.length = a.values.length →
      a.slots = List.zipWith slot valid a.values →
      (⟨List.zipWith (fun v b => if b then (op v).getD 0 else 0) a.values valid,
        some ⟨optBits op a.values valid, 0, a.values.length⟩⟩ : Prim Int).Ok ∧
      (⟨List.zipWith (fun v b => if b then (op v).getD 0 else 0) a.values valid,
        some ⟨optBits op a.values valid, 0, a.values.length⟩⟩ : Prim Int).slots = a.slots.map fun s => s.bind op := by
    intro valid hl hs
    constructor
    · intro n hn
      injection hn with hn
      subst hn
      simp [optBits_length op _ _ hl, hl]
    · rw [hs, ← optBits_slots op _ _ hl]
      simp only [Prim.slots, slots, Option.map_some, BoolBuf.view, List.drop_zero]
      rw [List.take_of_length_le (by rw [optBits_length op _ _ hl]; exact Nat.le_refl _)]
  unfold unaryOpt
  cases hn : a.nulls with
  | none =>
    refine key _ (by simp) ?_
    simp [Prim.slots, hn, slots, replicate_slots]
  | some n =>
    obtain ⟨h1, h2⟩ := h n hn
    refine key _ (by simp; omega) ?_
    simp [Prim.slots, hn, slots, BoolBuf.view]

theorem zeros_ok {a : Prim A} (h : a.Ok) :
    ∃ b, zeros a = .ok b ∧ b.Ok ∧ b.slots = a.slots.map (Option.map fun _ => 0) := by
  have e : zeros a = unary a fun _ => (0 : Int) := by
    unfold zeros unary
    congr 1
    simp [List.map_const']
  rw [e]
  exact unary_ok h _

/-- A relation of each slot to what is made of it. -/
theorem pointwise_map {α β : Type} {R : α → β → Prop} (f : α → β) (l : List α) (h : ∀ x, R x (f x)) :
    Pointwise R l (l.map f) := by
  induction l with
  | nil => exact .nil
  | cons x l ih => exact .cons (h x) ih

theorem unaryOpt_pointwise {a : Prim A} (h : a.Ok) (op : A → Option Int) {R : Option A → Option Int → Prop}
    (h0 : R none none) (h1 : ∀ v, R (some v) (op v)) :
    ∃ b, unaryOpt a op = b ∧ b.Ok ∧ Pointwise R a.slots b.slots := by
  refine ⟨_, rfl, (unaryOpt_ok h op).1, ?_⟩
  rw [(unaryOpt_ok h op).2]
  apply pointwise_map
  intro s
  cases s with
  | none => exact h0
  | some v => exact h1 v

theorem zeros_pointwise {a : Prim A} (h : a.Ok) {R : Option A → Option Int → Prop}
    (h0 : R none none) (h1 : ∀ v, R (some v) (some 0)) :
    ∃ b, zeros a = .ok b ∧ b.Ok ∧ Pointwise R a.slots b.slots := by
  obtain ⟨b, e, hb, hs⟩ := zeros_ok h
  refine ⟨b, e, hb, ?_⟩
  rw [hs]
  apply pointwise_map
  intro s
  cases s with
  | none => exact h0
  | some v => exact h1 v

/-- The moment of a timestamp, in its zone. -/
theorem stamp_extracted (u : TimeUnit) (p : Part) (zone : Int → Int) (v : Int) :
    Extracted dateOf p (fun v => v * u.ns + zone (v * u.ns / 1000000000) * 1000000000) (fun v => InYears dateOf (v * u.ns))
      (some v) (((stampMoment u v).map fun m => m.shift zone).map (extract p)) := by
  have hs : v * u.ns / 1000000000 = v / u.base := by
    cases u <;> simp only [TimeUnit.ns, TimeUnit.base] <;> omega
  have hn : v * u.ns = v / u.base * 1000000000 + v % u.base * (1000000000 / u.base) := by
    cases u <;> simp only [TimeUnit.ns, TimeUnit.base] <;> omega
  have hr : 0 ≤ v % u.base * (1000000000 / u.base) ∧ v % u.base * (1000000000 / u.base) < 1000000000 := by
    cases u <;> simp only [TimeUnit.base] <;> omega
  have hd : dayOf (v * u.ns) = v / u.base / 86400 := by
    unfold dayOf dayNs
    rw [← hs]
    generalize v * u.ns = t
    omega
  have hy : InYears dateOf (v * u.ns) ↔
      -262143 ≤ (dateOf (v / u.base / 86400)).year ∧ (dateOf (v / u.base / 86400)).year ≤ 262142 := by
    unfold InYears
    rw [hd]
  unfold stampMoment fromTimestamp
  constructor
  · intro hc
    simp only [if_pos (hy.mp hc), Option.map_some]
    refine ⟨_, rfl, ?_⟩
    unfold Moment.shift
    refine extract_part p hr.1 hr.2 ?_
    simp only [hs]
    omega
  · intro hc
    simp only [if_neg (mt hy.mpr hc), Option.map_none]

theorem map_shift_zero (m : Option Moment) : (m.map fun m => m.shift fun _ => 0) = m := by
  cases m with
  | none => rfl
  | some m => simp [Moment.shift]

theorem stamp_extracted_utc (u : TimeUnit) (p : Part) (v : Int) :
    Extracted dateOf p (fun v => v * u.ns) (fun v => InYears dateOf (v * u.ns)) (some v)
      ((stampMoment u v).map (extract p)) := by
  have := stamp_extracted u p (fun _ => 0) v
  rw [map_shift_zero] at this
  simpa using this

theorem date32_extracted (p : Part) (v : Int) :
    Extracted dateOf p (fun v => v * dayNs) (fun v => InYears dateOf (v * dayNs)) (some v)
      ((date32Moment v).map (extract p)) := by
  have hd : dayOf (v * dayNs) = v * 86400 / 86400 := by unfold dayOf dayNs; omega
  have hy : InYears dateOf (v * dayNs) ↔
      -262143 ≤ (dateOf (v * 86400 / 86400)).year ∧ (dateOf (v * 86400 / 86400)).year ≤ 262142 := by
    unfold InYears
    rw [hd]
  unfold date32Moment fromTimestamp
  constructor
  · intro hc
    simp only [if_pos (hy.mp hc), Option.map_some]
    refine ⟨_, rfl, extract_part p (by omega) (by omega) ?_⟩
    unfold dayNs
    omega
  · intro hc
    simp only [if_neg (mt hy.mpr hc), Option.map_none]

theorem subsecond_iff (p : Part) : p.subsecond = true ↔ p.OfSecond := by
  unfold Part.OfSecond
  cases p <;> simp [Part.subsecond]

theorem time_iff (p : Part) : p.time = true ↔ p.OfDay := by
  unfold Part.OfDay
  cases p <;> simp [Part.time]

theorem subsecond_zero {p : Part} (h : p.OfSecond) (s : Int) : PartOf dateOf p (s * 1000000000) 0 := by
  unfold PartOf
  rcases h with rfl | rfl | rfl <;> simp only <;> omega

theorem time_zero {p : Part} (h : p.OfDay) (d : Int) : PartOf dateOf p (d * dayNs) 0 := by
  unfold PartOf dayNs
  rcases h with rfl | rfl | rfl | rfl | rfl | rfl <;> simp only <;> omega

theorem timePart_some {u : TimeUnit} {p : Part} (h : p.OfDay) :
    ∃ f, timePart u.base p = some f ∧
      ∀ v, Extracted dateOf p (fun v => v * u.ns) (fun v => 0 ≤ v * u.ns ∧ v * u.ns < dayNs) (some v) (f v) := by
  have hr : ∀ v, (0 ≤ v * u.ns ∧ v * u.ns < dayNs) ↔ (0 ≤ v ∧ v < 86400 * u.base) := by
    intro v
    unfold dayNs
    cases u <;> simp only [TimeUnit.ns, TimeUnit.base] <;> omega
  have go : ∀ g : Int → Int, (∀ v, 0 ≤ v ∧ v < 86400 * u.base → PartOf dateOf p (v * u.ns) (g v)) →
      ∀ v, Extracted dateOf p (fun v => v * u.ns) (fun v => 0 ≤ v * u.ns ∧ v * u.ns < dayNs) (some v)
        (if 0 ≤ v ∧ v < 86400 * u.base then some (g v) else none) := by
    intro g hg v
    constructor
    · intro hc
      have hc := (hr v).mp hc
      rw [if_pos hc]
      exact ⟨_, rfl, hg v hc⟩
    · intro hc
      rw [if_neg (mt (hr v).mpr hc)]
  rcases h with rfl | rfl | rfl | rfl | rfl | rfl
  all_goals
    refine ⟨_, rfl, go _ ?_⟩
    intro v hv
    unfold PartOf
    revert hv
    cases u <;> simp only [TimeUnit.ns, TimeUnit.base] <;> intro hv
    all_goals first
      | omega
      | (simp; omega)
      | simp

theorem timePart_none {u : TimeUnit} {p : Part} (h : ¬ p.OfDay) : timePart u.base p = none := by
  unfold Part.OfDay at h
  cases p <;> simp_all [timePart]

/-! ### Durations and intervals -/

theorem has32 (x : Int) : (⟨true, 32⟩ : Native).has x = true ↔ -2 ^ 31 ≤ x ∧ x < 2 ^ 31 := by
  rw [has_iff (by decide)]
  simp [Native.Holds]

theorem toI32_exact (x : Int) : toI32 x = exact32 x := by
  unfold toI32 exact32
  by_cases h : -2 ^ 31 ≤ x ∧ x < 2 ^ 31
  · rw [if_pos ((has32 x).mpr h), if_pos h]
  · rw [if_neg (mt (has32 x).mp h), if_neg h]

theorem mulI32_exact (x k : Int) : mulI32 x k = exact32 (x * k) := toI32_exact (x * k)

theorem mulI64_exact (x k : Int) : (mulI64 x k).bind toI32 = exact32 (x * k) := by
  unfold mulI64
  split
  · exact toI32_exact _
  · rename_i h
    rw [has_iff (by decide)] at h
    unfold exact32
    rw [if_neg]
    · rfl
    · intro hc
      apply h
      simp only [Native.Holds, if_true]
      omega

theorem exact32_of {x : Int} (h : (⟨true, 32⟩ : Native).Holds x) : exact32 x = some x := by
  unfold exact32
  rw [if_pos]
  simpa [Native.Holds] using h

theorem amounts_some {a : Prim A} (h : a.Ok) {exact : A → Option Int} {supported : Prop} {f : A → Option Int}
    (hs : supported) (hf : ∀ v, some v ∈ a.slots → f v = (exact v).bind exact32) :
    Amounts a exact supported (byPart a (some f)) := by
  refine ⟨fun _ => ⟨unaryOpt a f, rfl, (unaryOpt_ok h f).1, ?_⟩, fun hn => absurd hs hn⟩
  rw [(unaryOpt_ok h f).2]
  apply List.map_congr_left
  intro s hm
  cases s with
  | none => rfl
  | some v => exact hf v hm

theorem amounts_none {a : Prim A} {exact : A → Option Int} {supported : Prop} (hs : ¬ supported) :
    Amounts a exact supported (byPart a none) := ⟨fun h => absurd h hs, fun _ => rfl⟩

theorem tdiv_scale (v k c : Int) (hc : 0 < c) : (v * c).tdiv (k * c) = v.tdiv k :=
  Int.mul_tdiv_mul_of_pos_left v k hc

theorem duration_some {u : TimeUnit} {p : Part} {k : Int} (h : p.ns = some k) :
    ∃ f, durationPart u p = some f ∧ ∀ v, f v = exact32 ((v * u.ns).tdiv k) := by
  have s : ∀ v k c : Int, 0 < c → toI32 (v.tdiv k) = exact32 ((v * c).tdiv (k * c)) := by
    intro v k c hc
    rw [tdiv_scale v k c hc, toI32_exact]
  have e : ∀ v c k n : Int, 0 < k → c * k = n → (mulI64 v c).bind toI32 = exact32 ((v * n).tdiv k) := by
    intro v c k n hk hn
    rw [← hn, mulI64_exact, ← Int.mul_assoc, Int.mul_tdiv_cancel _ (by omega)]
  have z : ∀ v k : Int, 0 < k → toI32 v = exact32 ((v * k).tdiv k) := by
    intro v k hk
    rw [toI32_exact, Int.mul_tdiv_cancel _ (by omega)]
  cases u <;> cases p <;> simp only [Part.ns, Option.some.injEq, reduceCtorEq] at h <;> subst h <;>
    refine ⟨_, rfl, fun v => ?_⟩ <;> simp only [TimeUnit.ns]
  all_goals first
    | exact s v _ 1000000000 (by decide)
    | exact s v _ 1000000 (by decide)
    | exact s v _ 1000 (by decide)
    | exact s v _ 1 (by decide)
    | exact z v _ (by decide)
    | exact e v _ _ _ (by decide) (by decide)

theorem duration_none {u : TimeUnit} {p : Part} (h : p.ns = none) : durationPart u p = none := by
  cases u <;> cases p <;> simp [Part.ns] at h <;> rfl

theorem exact32_tdiv {x : Int} (k : Int) (h : (⟨true, 32⟩ : Native).Holds x) (hk : 0 < k) :
    exact32 (x.tdiv k) = some (x.tdiv k) := by
  apply exact32_of
  simp only [Native.Holds, if_true] at h ⊢
  have h1 : (x.tdiv k).natAbs ≤ x.natAbs := by
    rw [Int.natAbs_tdiv]
    exact Nat.div_le_self _ _
  have h2 : 0 ≤ x → 0 ≤ x.tdiv k := fun hx => Int.tdiv_nonneg hx (by omega)
  have h3 : x ≤ 0 → x.tdiv k ≤ 0 := by
    intro hx
    have := Int.tdiv_nonneg (a := -x) (b := k) (by omega) (by omega)
    rw [Int.neg_tdiv] at this
    omega
  omega

theorem exact32_tmod {x : Int} (k : Int) (h : (⟨true, 32⟩ : Native).Holds x) :
    exact32 (x.tmod k) = some (x.tmod k) := exact32_of (tmod_holds h)

theorem tdiv_times (v k c n : Int) (hc : 0 < c) (hn : k * c = n) : (v * c).tdiv n = v.tdiv k := by
  rw [← hn]; exact tdiv_scale v k c hc

end Arrow
end Verif
