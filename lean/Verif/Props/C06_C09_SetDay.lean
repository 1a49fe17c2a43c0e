import Verif.Lemmas.Weekday

/-!
# C06–C09, C12: moving to a numbered day

Everything is stated against the civil odometer `nextDay` and plain counting.
-/

namespace PyCal.DateTime
open Spec

/-! ## C06 -/

theorem setYearDayRaw_form (t : DateTime) (n : Int) :
    ∃ m d, t.setYearDayRaw n = { t with month := m, day := d } ∧
      (n ≠ 0 → 1 ≤ m ∧ m ≤ 12) ∧
      (n ≠ 0 → dayNum t.year m d =
        365 * t.year + leapsBefore t.year + (if n > 0 then n else yearLen t.year + 1 + n)) := by
  have hd := dayNum_dec t.year
  have hj := dayNum_jan t.year
  have hy : yearLen t.year = if isLeapYear t.year then 366 else 365 := rfl
  unfold setYearDayRaw
  split
  · refine ⟨_, _, rfl, by simp, fun _ => ?_⟩
    rw [hd]; split at hy <;> simp_all <;> omega
  split
  · refine ⟨_, _, rfl, by simp, fun _ => ?_⟩
    rw [hj]; split at hy <;> simp_all
  split
  · refine ⟨_, _, rfl, by simp, fun _ => ?_⟩
    rw [hj]; omega
  split
  · refine ⟨_, _, rfl, by simp, fun _ => ?_⟩
    rw [hd]; omega
  · exact ⟨t.month, t.day, rfl, by omega, by omega⟩

theorem setYearDay_form (t : DateTime) (ht : t.TimeOK) (n : Int) (hn : n ≠ 0) :
    ∃ y m d, t.setYearDay n = { t with year := y, month := m, day := d } ∧ ValidYMD y m d ∧
      dayNum y m d =
        365 * t.year + leapsBefore t.year + (if n > 0 then n else yearLen t.year + 1 + n) := by
  obtain ⟨m, d, e, hm, hd⟩ := setYearDayRaw_form t n
  have hv := normalise_validYMD { t with month := m, day := d }
  have hN := normalise_dayNum' (t := { t with month := m, day := d }) ht (hm hn).1 (hm hn).2
  rw [normalise_eq (t := { t with month := m, day := d }) ht] at hN hv
  refine ⟨_, _, _, ?_, hv, ?_⟩
  · unfold setYearDay
    simp only [Bool.false_eq_true, if_false]
    rw [e, normalise_eq (t := { t with month := m, day := d }) ht]
  · rw [hN]; exact hd hn

theorem setYearDay_dayNum (t : DateTime) (ht : t.TimeOK) (n : Int) (hn : n ≠ 0) :
    dayNum (t.setYearDay n).year (t.setYearDay n).month (t.setYearDay n).day =
      365 * t.year + leapsBefore t.year + (if n > 0 then n else yearLen t.year + 1 + n) := by
  obtain ⟨y, m, d, e, hv, hN⟩ := setYearDay_form t ht n hn
  rw [e]; exact hN

/-- C06: for every `n ≥ 1`, `setYearDay(n)` moves to the date `n - 1` days after 1 January of
the year, keeping the time of day. -/
theorem C06_setYearDay_pos (t : DateTime) (h : t.Valid) (n : Nat) (hn : 1 ≤ n) :
    (t.setYearDay n).date = iter nextDay (n - 1) ⟨t.year, 1, 1⟩ := by
  have hv : (t.setYearDay n).Valid := normalise_valid _
  rw [date_eq_iter (by exact hv.1.1) (jan1_valid _)]
  show dayNum (t.setYearDay n).year (t.setYearDay n).month (t.setYearDay n).day = _
  rw [setYearDay_dayNum t h.timeOK n (by omega), dayNum_jan]
  simp only [show (n : Int) > 0 by omega, if_true]
  omega

/-- C06: for every `n ≥ 1`, `setYearDay(-n)` moves to the date from which `n - 1` days lead to
31 December of the year. -/
theorem C06_setYearDay_neg (t : DateTime) (h : t.Valid) (n : Nat) (hn : 1 ≤ n) :
    ⟨t.year, 12, 31⟩ = iter nextDay (n - 1) (t.setYearDay (-n)).date := by
  have hv : (t.setYearDay (-n)).Valid := normalise_valid _
  rw [date_eq_iter (dec31_valid _) (by exact hv.1.1)]
  show _ = dayNum (t.setYearDay (-n)).year (t.setYearDay (-n)).month (t.setYearDay (-n)).day + _
  rw [setYearDay_dayNum t h.timeOK (-n) (by omega), dayNum_dec]
  simp only [show ¬ (-(n : Int) > 0) by omega, if_false]
  omega

/-- C06: the year-day number of a real date counts the days from 1 January. -/
theorem C06_yearDay (t : DateTime) (h : t.Valid) :
    1 ≤ t.yearDay ∧ t.date = iter nextDay (t.yearDay - 1).toNat ⟨t.year, 1, 1⟩ := by
  have hb := dayNum_bounds h.ymd
  have hy := yearDay_dayNum t
  refine ⟨by omega, ?_⟩
  rw [date_eq_iter (by exact h.1.1) (jan1_valid _)]
  show dayNum t.year t.month t.day = dayNum t.year 1 1 + _
  rw [dayNum_jan]; omega

/-- C06: inside the year, set and get agree, the year and the time of day stay. -/
theorem C06_get_set (t : DateTime) (h : t.Valid) (n : Int) (h1 : 1 ≤ n)
    (h2 : n ≤ 365 ∨ n ≤ 366 ∧ Leap t.year) :
    (t.setYearDay n).yearDay = n ∧ (t.setYearDay n).year = t.year ∧
    (t.setYearDay (-n)).year = t.year ∧
    (t.setYearDay (-n)).yearDay = (if Leap t.year then 366 else 365) + 1 - n := by
  have hy : yearLen t.year = if Leap t.year then 366 else 365 := by
    unfold yearLen; rw [isLeapYear_eq]; simp
  have hle : n ≤ yearLen t.year := by
    rw [hy]; by_cases hl : Leap t.year <;> simp only [hl, if_true, if_false] <;> simp [hl] at h2 <;> omega
  have e1 := setYearDay_dayNum t h.timeOK n (by omega)
  have e2 := setYearDay_dayNum t h.timeOK (-n) (by omega)
  simp only [show n > 0 by omega, if_true] at e1
  simp only [show ¬ (-n > 0) by omega, if_false] at e2
  have y1 : (t.setYearDay n).year = t.year :=
    year_of_dayNum (Valid.ymd (normalise_valid _)) (by rw [e1]; omega) (by rw [e1]; omega)
  have y2 : (t.setYearDay (-n)).year = t.year :=
    year_of_dayNum (Valid.ymd (normalise_valid _)) (by rw [e2]; omega) (by rw [e2]; omega)
  have d1 := yearDay_dayNum (t.setYearDay n)
  have d2 := yearDay_dayNum (t.setYearDay (-n))
  rw [e1, y1] at d1
  rw [e2, y2] at d2
  rw [← hy]
  exact ⟨by omega, y1, y2, by omega⟩

/-- C06: setting the year day to the current one is the identity. -/
theorem C06_set_get (t : DateTime) (h : t.Valid) : t.setYearDay t.yearDay = t := by
  have hb := C06_yearDay t h
  obtain ⟨y, m, d, e, hv, hN⟩ := setYearDay_form t h.timeOK t.yearDay (by omega)
  simp only [show t.yearDay > 0 by omega, if_true] at hN
  rw [← yearDay_dayNum] at hN
  obtain ⟨rfl, rfl, rfl⟩ := dayNum_inj hv h.ymd hN
  exact e

example : ((ofDate 2024 7 1).setYearDay 366).date = ⟨2024, 12, 31⟩ := by decide +kernel
example : ((ofDate 2023 7 1).setYearDay (-365)).date = ⟨2023, 1, 1⟩ := by decide +kernel

/-! ## C07 -/

/-- C07: `setMonthDay(n)` moves to the `n`-th day of the month when it exists. -/
theorem C07_setMonthDay_pos (t : DateTime) (h : t.Valid) (n : Int) (h1 : 1 ≤ n)
    (h2 : n ≤ monthLen t.year t.month) : t.setMonthDay n = { t with day := n } := by
  have hm := h.month
  rw [← daysInMonth_eq _ hm.1 hm.2] at h2
  unfold setMonthDay setMonthDayRaw
  simp only [Bool.false_eq_true, if_false, show n > 0 by omega, if_true]
  rw [show 1 + (n - 1) = n by omega]
  exact normalise_of_valid (valid_of_parts ⟨hm.1, hm.2, h1, h2⟩ h.timeOK)

/-- C07: `setMonthDay(-n)` moves to the `n`-th day from the end of the month when it exists. -/
theorem C07_setMonthDay_neg (t : DateTime) (h : t.Valid) (n : Int) (h1 : 1 ≤ n)
    (h2 : n ≤ monthLen t.year t.month) :
    t.setMonthDay (-n) = { t with day := monthLen t.year t.month + 1 - n } := by
  have hm := h.month
  have e := daysInMonth_eq t.year hm.1 hm.2
  unfold setMonthDay setMonthDayRaw
  simp only [Bool.false_eq_true, if_false, show ¬ (-n > 0) by omega, show -n < 0 by omega, if_true]
  rw [e, show monthLen t.year t.month + (-n + 1) = monthLen t.year t.month + 1 - n by omega]
  refine normalise_of_valid (valid_of_parts ⟨hm.1, hm.2, ?_, ?_⟩ h.timeOK)
  · simp only; omega
  · simp only; omega

/-- C07: `isMonthDay(n)` is true exactly for the `n`-th day, `isMonthDay(-n)` exactly for the
`n`-th day from the end, `isMonthDay(0)` never. -/
theorem C07_isMonthDay (t : DateTime) (h : t.Valid) (n : Int) :
    t.isMonthDay n = true ↔
      (n > 0 ∧ t.day = n) ∨ (n < 0 ∧ t.day = monthLen t.year t.month + 1 - (-n)) := by
  have hm := h.month
  rw [← daysInMonth_eq _ hm.1 hm.2]
  unfold isMonthDay
  split
  · simp; omega
  split
  · simp; omega
  · simp; omega

example : ((ofDate 2024 2 5).setMonthDay (-1)).date = ⟨2024, 2, 29⟩ := by decide +kernel

/-! ## C08 -/

/-- Weekday of day `d` of the month `t` is in. -/
def monthWeekday (t : DateTime) (d : Int) : Int := ({ t with day := d } : DateTime).dayOfWeek

/-- How many days before day `d` of this month fall on weekday `wd`. -/
def earlierInMonth (t : DateTime) (wd d : Int) : Nat :=
  count (fun k => decide (t.monthWeekday (1 + k) = wd)) (d - 1).toNat

/-- How many days after day `d` of this month fall on weekday `wd`. -/
def laterInMonth (t : DateTime) (wd d : Int) : Nat :=
  count (fun k => decide (t.monthWeekday (d + 1 + k) = wd)) (monthLen t.year t.month - d).toNat

theorem monthWeekday_eq (t : DateTime) (d : Int) :
    t.monthWeekday d = (t.monthWeekday 1 + (d - 1)) % 7 := by
  unfold monthWeekday
  rw [dayOfWeek_eq, dayOfWeek_eq]
  unfold dayNum
  simp only; omega

theorem monthWeekday_range (t : DateTime) (d : Int) : 0 ≤ t.monthWeekday d ∧ t.monthWeekday d < 7 :=
  dayOfWeek_range _

theorem earlier_eq (t : DateTime) (wd d : Int) (h0 : 0 ≤ wd) (h1 : wd < 7) (hd : 1 ≤ d) :
    (t.earlierInMonth wd d : Int) = (d - 1 + 6 - (wd - t.monthWeekday 1) % 7) / 7 := by
  unfold earlierInMonth
  have := count_mod7 (t.monthWeekday 1) wd h0 h1 (d - 1).toNat
  rw [count_congr (q := fun k => decide ((t.monthWeekday 1 + k) % 7 = wd))]
  · rw [this]; congr 2; omega
  · intro k _
    rw [monthWeekday_eq t (1 + k)]
    congr 2; omega

theorem later_eq (t : DateTime) (wd d : Int) (h0 : 0 ≤ wd) (h1 : wd < 7)
    (hd : d ≤ monthLen t.year t.month) :
    (t.laterInMonth wd d : Int) =
      (monthLen t.year t.month - d + 6 - (wd - (t.monthWeekday 1 + d)) % 7) / 7 := by
  unfold laterInMonth
  have := count_mod7 (t.monthWeekday 1 + d) wd h0 h1 (monthLen t.year t.month - d).toNat
  rw [count_congr (q := fun k => decide ((t.monthWeekday 1 + d + k) % 7 = wd))]
  · rw [this]; congr 2; omega
  · intro k _
    rw [monthWeekday_eq t (d + 1 + k)]
    congr 2; omega

/-- The day number computed before normalisation. -/
theorem setDayOfWeekInMonthRaw_day (t : DateTime) (h : t.Valid) (n wd : Int) (h0 : 0 ≤ wd)
    (h1 : wd < 7) (hn : n ≠ 0) :
    t.setDayOfWeekInMonthRaw n wd = { t with
      day := if n > 0 then 7 * (n - 1) + (wd - t.monthWeekday 1) % 7 + 1
        else monthLen t.year t.month -
          (7 * (-n - 1) + (t.monthWeekday 1 + monthLen t.year t.month - 1 - wd) % 7) } := by
  have hm := h.month
  have e := daysInMonth_eq t.year hm.1 hm.2
  have hr := t.monthWeekday_range 1
  unfold setDayOfWeekInMonthRaw
  simp only [show ({ t with day := 1 } : DateTime).dayOfWeek = t.monthWeekday 1 from rfl, e]
  split
  · rename_i hp
    congr 1
    split <;> omega
  · rename_i hp
    rw [if_pos (show n < 0 by omega)]
    congr 1
    split <;> omega

/-- C08: if the month has a day `d` on weekday `wd` with exactly `n - 1` earlier ones, then
`setDayOfWeekInMonth(n, wd)` moves there, changing nothing else. -/
theorem C08_set_pos (t : DateTime) (h : t.Valid) (n wd d : Int) (h0 : 0 ≤ wd) (h1 : wd < 7)
    (hn : 1 ≤ n) (hd1 : 1 ≤ d) (hd2 : d ≤ monthLen t.year t.month)
    (hw : t.monthWeekday d = wd) (hc : (t.earlierInMonth wd d : Int) = n - 1) :
    t.setDayOfWeekInMonth n wd = { t with day := d } := by
  have hm := h.month
  have hr := t.monthWeekday_range 1
  unfold setDayOfWeekInMonth
  rw [setDayOfWeekInMonthRaw_day t h n wd h0 h1 (by omega)]
  simp only [Bool.false_eq_true, if_false, show n > 0 by omega, if_true]
  rw [earlier_eq t wd d h0 h1 hd1] at hc
  rw [monthWeekday_eq] at hw
  have : 7 * (n - 1) + (wd - t.monthWeekday 1) % 7 + 1 = d := by omega
  rw [this]
  refine normalise_of_valid (valid_of_parts ⟨hm.1, hm.2, hd1, ?_⟩ h.timeOK)
  rw [daysInMonth_eq _ hm.1 hm.2]; exact hd2

/-- C08: the same counted from the end of the month. -/
theorem C08_set_neg (t : DateTime) (h : t.Valid) (n wd d : Int) (h0 : 0 ≤ wd) (h1 : wd < 7)
    (hn : 1 ≤ n) (hd1 : 1 ≤ d) (hd2 : d ≤ monthLen t.year t.month)
    (hw : t.monthWeekday d = wd) (hc : (t.laterInMonth wd d : Int) = n - 1) :
    t.setDayOfWeekInMonth (-n) wd = { t with day := d } := by
  have hm := h.month
  have hr := t.monthWeekday_range 1
  unfold setDayOfWeekInMonth
  rw [setDayOfWeekInMonthRaw_day t h (-n) wd h0 h1 (by omega)]
  simp only [Bool.false_eq_true, if_false, show ¬ (-n > 0) by omega]
  rw [later_eq t wd d h0 h1 hd2] at hc
  rw [monthWeekday_eq] at hw
  have : monthLen t.year t.month - (7 * (- -n - 1) +
      (t.monthWeekday 1 + monthLen t.year t.month - 1 - wd) % 7) = d := by omega
  rw [this]
  refine normalise_of_valid (valid_of_parts ⟨hm.1, hm.2, hd1, ?_⟩ h.timeOK)
  rw [daysInMonth_eq _ hm.1 hm.2]; exact hd2

/-- C08: `isDayOfWeekInMonth(n, wd)` is true exactly for a date on weekday `wd` that is the
`n`-th one of its month (from the end when negative; any when zero). -/
theorem C08_is (t : DateTime) (h : t.Valid) (n wd : Int) (h0 : 0 ≤ wd) (h1 : wd < 7) :
    t.isDayOfWeekInMonth n wd = true ↔
      t.dayOfWeek = wd ∧
        (n = 0 ∨ (n > 0 ∧ (t.earlierInMonth wd t.day : Int) = n - 1) ∨
          (n < 0 ∧ (t.laterInMonth wd t.day : Int) = -n - 1)) := by
  have hm := h.month
  have hday := h.ymd
  have hday2 : t.day ≤ monthLen t.year t.month := by
    rw [← daysInMonth_eq _ hm.1 hm.2]; exact hday.2.2.2
  have hr := t.monthWeekday_range 1
  have hwt : t.dayOfWeek = (t.monthWeekday 1 + (t.day - 1)) % 7 := monthWeekday_eq t t.day
  unfold isDayOfWeekInMonth
  by_cases hw : t.dayOfWeek = wd
  · simp only [hw, ne_eq, not_true_eq_false, if_false, true_and]
    by_cases hn : n = 0
    · simp [hn]
    simp only [hn, if_false, false_or]
    have hcmp : t.compareDate (t.setDayOfWeekInMonth n wd) = true ↔
        t.day = (t.setDayOfWeekInMonthRaw n wd).day := by
      have hraw := setDayOfWeekInMonthRaw_day t h n wd h0 h1 hn
      have hN : dayNum (t.setDayOfWeekInMonth n wd).year (t.setDayOfWeekInMonth n wd).month
          (t.setDayOfWeekInMonth n wd).day =
          dayNum t.year t.month (t.setDayOfWeekInMonthRaw n wd).day := by
        unfold setDayOfWeekInMonth
        simp only [Bool.false_eq_true, if_false]
        rw [hraw]
        exact normalise_dayNum' h.timeOK hm.1 hm.2
      have hv : ValidYMD (t.setDayOfWeekInMonth n wd).year (t.setDayOfWeekInMonth n wd).month
          (t.setDayOfWeekInMonth n wd).day := Valid.ymd (normalise_valid _)
      unfold compareDate
      simp only [Bool.and_eq_true, decide_eq_true_eq]
      constructor
      · rintro ⟨⟨ha, hb⟩, hc⟩
        rw [← ha, ← hb, ← hc] at hN
        unfold dayNum at hN; omega
      · intro he
        rw [← he] at hN
        have := dayNum_inj hv h.ymd hN
        exact ⟨⟨this.1.symm, this.2.1.symm⟩, this.2.2.symm⟩
    rw [hcmp, setDayOfWeekInMonthRaw_day t h n wd h0 h1 hn]
    simp only
    rw [earlier_eq t wd t.day h0 h1 hday.2.2.1, later_eq t wd t.day h0 h1 hday2]
    split
    · rename_i hp
      simp only [hp, true_and, show ¬ n < 0 by omega, false_and, or_false]
      omega
    · rename_i hp
      simp only [hp, false_and, false_or, show n < 0 by omega, true_and]
      omega
  · simp [hw]

/-- Second Tuesday and last Friday of November 2026. -/
example : ((ofDate 2026 11 1).setDayOfWeekInMonth 2 2).date = ⟨2026, 11, 10⟩ ∧
    ((ofDate 2026 11 1).setDayOfWeekInMonth (-1) 5).date = ⟨2026, 11, 27⟩ := by decide +kernel
example : (ofDate 2026 11 1).monthWeekday 10 = 2 ∧ (ofDate 2026 11 1).earlierInMonth 2 10 = 1 := by
  decide +kernel

/-! ## C09 -/

/-- The date `k` days after 1 January of the year of `t`. -/
def yearDate (t : DateTime) (k : Nat) : DateTime :=
  let x := iter nextDay k ⟨t.year, 1, 1⟩
  { t with year := x.y, month := x.m, day := x.d }

/-- Number of days in the year. -/
def daysOfYear (y : Int) : Nat := if Leap y then 366 else 365

theorem daysOfYear_eq (y : Int) : (daysOfYear y : Int) = yearLen y := by
  unfold daysOfYear yearLen; rw [isLeapYear_eq]
  by_cases h : Leap y <;> simp [h]

theorem yearDate_facts (t : DateTime) (k : Nat) (hk : k < daysOfYear t.year) :
    ValidYMD (t.yearDate k).year (t.yearDate k).month (t.yearDate k).day ∧
    (t.yearDate k).year = t.year ∧
    dayNum (t.yearDate k).year (t.yearDate k).month (t.yearDate k).day
      = 365 * t.year + leapsBefore t.year + 1 + k := by
  have hi := iter_nextDay (jan1_valid t.year) k
  rw [dayNum_jan] at hi
  have hv : ValidYMD (t.yearDate k).year (t.yearDate k).month (t.yearDate k).day :=
    (validYMD_iff _ _ _).2 hi.1
  have hd : dayNum (t.yearDate k).year (t.yearDate k).month (t.yearDate k).day
      = 365 * t.year + leapsBefore t.year + 1 + k := hi.2
  have := daysOfYear_eq t.year
  exact ⟨hv, year_of_dayNum hv (by omega) (by omega), hd⟩

theorem yearDate_weekday (t : DateTime) (k : Nat) (hk : k < daysOfYear t.year) :
    (t.yearDate k).dayOfWeek = ((t.yearDate 0).dayOfWeek + k) % 7 := by
  have h1 := yearDate_facts t k hk
  have h0 := yearDate_facts t 0 (by unfold daysOfYear; split <;> omega)
  rw [dayOfWeek_eq, dayOfWeek_eq, h1.2.2, h0.2.2, h1.2.1, h0.2.1]
  omega

/-- How many of the first `k` days of the year fall on weekday `wd`. -/
def earlierInYear (t : DateTime) (wd : Int) (k : Nat) : Nat :=
  count (fun j => decide ((t.yearDate j).dayOfWeek = wd)) k

/-- How many days of the year after day index `k` fall on weekday `wd`. -/
def laterInYear (t : DateTime) (wd : Int) (k : Nat) : Nat :=
  count (fun j => decide ((t.yearDate (k + 1 + j)).dayOfWeek = wd)) (daysOfYear t.year - (k + 1))

theorem earlierInYear_eq (t : DateTime) (wd : Int) (h0 : 0 ≤ wd) (h1 : wd < 7) (k : Nat)
    (hk : k ≤ daysOfYear t.year) :
    (t.earlierInYear wd k : Int) = ((k : Int) + 6 - (wd - (t.yearDate 0).dayOfWeek) % 7) / 7 := by
  unfold earlierInYear
  rw [← count_mod7 (t.yearDate 0).dayOfWeek wd h0 h1 k]
  rw [count_congr]
  intro j hj
  rw [yearDate_weekday t j (by omega)]

theorem laterInYear_eq (t : DateTime) (wd : Int) (h0 : 0 ≤ wd) (h1 : wd < 7) (k : Nat)
    (hk : k < daysOfYear t.year) :
    (t.laterInYear wd k : Int) = ((daysOfYear t.year : Int) - (k + 1) + 6
      - (wd - ((t.yearDate 0).dayOfWeek + (k + 1))) % 7) / 7 := by
  unfold laterInYear
  have := count_mod7 ((t.yearDate 0).dayOfWeek + (k + 1)) wd h0 h1 (daysOfYear t.year - (k + 1))
  rw [show (((daysOfYear t.year - (k + 1) : Nat)) : Int) = (daysOfYear t.year : Int) - (k + 1) by
    omega] at this
  rw [← this, count_congr]
  intro j hj
  rw [yearDate_weekday t _ (by omega)]
  congr 2
  push_cast; omega

theorem setDayOfWeekInYear_eq (t : DateTime) (n wd : Int) (h0 : 0 ≤ wd) (h1 : wd < 7)
    (hn : n ≠ 0) :
    t.setDayOfWeekInYear n wd = ({ t with
      month := 1
      day := if n > 0 then 7 * (n - 1) + (wd - (t.yearDate 0).dayOfWeek) % 7 + 1
        else yearLen t.year -
          (7 * (-n - 1) + ((t.yearDate 0).dayOfWeek + yearLen t.year - 1 - wd) % 7) } :
        DateTime).normalise := by
  have hr := dayOfWeek_range (t.yearDate 0)
  have hl : (365 + (if isLeapYear t.year then 1 else 0) : Int) = yearLen t.year := by
    unfold yearLen; split <;> rfl
  unfold setDayOfWeekInYear
  simp only [show ({ t with month := 1, day := 1 } : DateTime).dayOfWeek
    = (t.yearDate 0).dayOfWeek from rfl, hl]
  split
  · rename_i hp
    congr 2
    split <;> omega
  · rename_i hp
    rw [if_pos (show n < 0 by omega)]
    congr 2
    split <;> omega

/-- C09: if the day with index `k` (0 = 1 January) falls on `wd` and exactly `n - 1` earlier
days of the year do, `setDayOfWeekInYear(n, wd)` moves there, keeping the time of day. -/
theorem C09_set_pos (t : DateTime) (h : t.Valid) (n wd : Int) (k : Nat) (h0 : 0 ≤ wd) (h1 : wd < 7)
    (hn : 1 ≤ n) (hk : k < daysOfYear t.year) (hw : (t.yearDate k).dayOfWeek = wd)
    (hc : (t.earlierInYear wd k : Int) = n - 1) :
    t.setDayOfWeekInYear n wd = t.yearDate k := by
  rw [setDayOfWeekInYear_eq t n wd h0 h1 (by omega)]
  simp only [show n > 0 by omega, if_true]
  rw [earlierInYear_eq t wd h0 h1 k (by omega)] at hc
  rw [yearDate_weekday t k hk] at hw
  have hf := yearDate_facts t k hk
  refine normalise_to ?_ ?_ ?_ hf.1 ?_
  · exact h.timeOK
  · simp
  · simp
  · refine hf.2.2.trans ?_
    rw [dayNum_jan]; simp only
    have := dayOfWeek_range (t.yearDate 0)
    omega

/-- C09: the same counted back from 31 December. -/
theorem C09_set_neg (t : DateTime) (h : t.Valid) (n wd : Int) (k : Nat) (h0 : 0 ≤ wd) (h1 : wd < 7)
    (hn : 1 ≤ n) (hk : k < daysOfYear t.year) (hw : (t.yearDate k).dayOfWeek = wd)
    (hc : (t.laterInYear wd k : Int) = n - 1) :
    t.setDayOfWeekInYear (-n) wd = t.yearDate k := by
  rw [setDayOfWeekInYear_eq t (-n) wd h0 h1 (by omega)]
  simp only [show ¬ (-n > 0) by omega, if_false]
  rw [laterInYear_eq t wd h0 h1 k hk] at hc
  rw [yearDate_weekday t k hk] at hw
  have hf := yearDate_facts t k hk
  refine normalise_to ?_ ?_ ?_ hf.1 ?_
  · exact h.timeOK
  · simp
  · simp
  · refine hf.2.2.trans ?_
    rw [dayNum_jan]; simp only
    have := dayOfWeek_range (t.yearDate 0)
    have := daysOfYear_eq t.year
    omega

/-- Last Sunday of 2026 is 27 December (day index 360). -/
example : ((ofDate 2026 5 5).setDayOfWeekInYear (-1) 0).date = ⟨2026, 12, 27⟩ ∧
    (ofDate 2026 5 5).laterInYear 0 360 = 0 ∧
    ((ofDate 2026 5 5).yearDate 360).dayOfWeek = 0 := by decide +kernel

/-! ## C12 -/

/-- C12: `setNextDayOfWeek(start, wd)` moves to the first date on or after day `start` of the
month that falls on `wd`: it is `k < 7` days after that day, the weekday is `wd`, and none of
the days before is.  `NoSkip` only matters when the result spills from December of a non-leap
century year (1800, 1900, 2100, ...) into the next year. -/
theorem C12_setNextDayOfWeek (t : DateTime) (start wd : Int) (ht : t.TimeOK)
    (hs : (⟨t.year, t.month, start⟩ : Date).Valid) (h0 : 0 ≤ wd) (h1 : wd < 7) :
    ∃ k : Nat, k < 7 ∧
      (t.setNextDayOfWeek start wd).date = iter nextDay k ⟨t.year, t.month, start⟩ ∧
      SameKind (t.setNextDayOfWeek start wd) t ∧
      (NoSkip t.year (t.setNextDayOfWeek start wd).year →
        (t.setNextDayOfWeek start wd).dayOfWeek = wd) ∧
      ∀ (x : DateTime) (j : Nat), j < k → x.date = iter nextDay j ⟨t.year, t.month, start⟩ →
        NoSkip t.year x.year → x.dayOfWeek ≠ wd := by
  have hwr := dayOfWeek_range { t with day := start }
  let w := ({ t with day := start } : DateTime).dayOfWeek
  have hw : ({ t with day := start } : DateTime).dayOfWeek = w := rfl
  rw [hw] at hwr
  have hweq := dayOfWeek_eq { t with day := start }
  rw [hw] at hweq
  have hval : (t.setNextDayOfWeek start wd).Valid := normalise_valid _
  have hnum : dayNum (t.setNextDayOfWeek start wd).year (t.setNextDayOfWeek start wd).month
      (t.setNextDayOfWeek start wd).day = dayNum t.year t.month start + (wd - w) % 7 := by
    unfold setNextDayOfWeek
    simp only [hw]
    rw [normalise_dayNum']
    · simp only
      rw [← dayNum_add]; congr 1
      split <;> omega
    · exact ht
    · exact hs.1
    · exact hs.2.1
  refine ⟨((wd - w) % 7).toNat, by omega, ?_, ⟨rfl, rfl, rfl⟩, ?_, ?_⟩
  · rw [date_eq_iter (by exact hval.1.1) hs]
    show dayNum (t.setNextDayOfWeek start wd).year (t.setNextDayOfWeek start wd).month
      (t.setNextDayOfWeek start wd).day = dayNum t.year t.month start + _
    rw [hnum]; omega
  · intro hns
    rw [dayOfWeek_eq, hnum, ← hns.drift]
    simp only at hweq
    omega
  · intro x j hj hx hns
    have hxv := iter_nextDay hs j
    rw [← hx] at hxv
    have hxn : dayNum x.year x.month x.day = dayNum t.year t.month start + j := hxv.2
    rw [dayOfWeek_eq, hxn, ← hns.drift]
    simp only at hweq
    omega

/-- First Sunday on or after 25 March 2026. -/
example : ((ofDate 2026 3 1).setNextDayOfWeek 25 0).date = ⟨2026, 3, 29⟩ := by decide +kernel

end PyCal.DateTime
