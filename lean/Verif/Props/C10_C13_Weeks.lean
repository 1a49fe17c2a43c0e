import Verif.Props.C06_C09_SetDay

/-!
# C10, C11, C13: ISO weeks and monthly stepping
-/

namespace PyCal.DateTime
open Spec

/-! ## C10 -/

/-- ISO weekday number: Monday 1 ... Sunday 7. -/
def isoWeekday (wd : Int) : Int := if wd = 0 then 7 else wd

/-- `T` is the Thursday of the Monday-to-Sunday week that contains `t`. -/
def IsThursdayOfWeek (T t : DateTime) : Prop :=
  T.date.Valid ∧
  ((isoWeekday t.dayOfWeek ≤ 4 ∧
      T.date = iter nextDay (4 - isoWeekday t.dayOfWeek).toNat t.date) ∨
   (isoWeekday t.dayOfWeek > 4 ∧
      t.date = iter nextDay (isoWeekday t.dayOfWeek - 4).toNat T.date))

/-- First day number of a year, minus one. -/
abbrev yearBase (y : Int) : Int := 365 * y + leapsBefore y

theorem isoDay_eq (t : DateTime) : t.isoDay = isoWeekday t.dayOfWeek := rfl

theorem isoDay_num (t : DateTime) :
    t.isoDay = (dayNum t.year t.month t.day + drift t.year - 719047 - 1) % 7 + 1 := by
  unfold isoDay
  have := dayOfWeek_eq t
  split <;> omega

theorem monToThu_iff (w : Int) : monToThu w = true ↔ 1 ≤ w ∧ w ≤ 4 := by
  unfold monToThu; simp; omega

theorem jan1_num (y : Int) : dayNum (ofDate y 1 1).year (ofDate y 1 1).month (ofDate y 1 1).day
    = yearBase y + 1 := dayNum_jan y 1

theorem dec31_num (y : Int) :
    dayNum (ofDate y 12 31).year (ofDate y 12 31).month (ofDate y 12 31).day
      = yearBase y + yearLen y := by
  have := dayNum_dec y 31
  show dayNum y 12 31 = _
  unfold yearBase; omega

/-- Numeric form of `weekNo`. -/
theorem weekNo_num (t : DateTime) (h : t.Valid) (hp : ¬ SkippedCentury (t.year - 1))
    (hq : ¬ SkippedCentury t.year) (Y : Int)
    (h1 : 1 ≤ dayNum t.year t.month t.day + 4 - t.isoDay - yearBase Y)
    (h2 : dayNum t.year t.month t.day + 4 - t.isoDay - yearBase Y ≤ yearLen Y) :
    t.weekNo = (dayNum t.year t.month t.day + 4 - t.isoDay - yearBase Y + 6) / 7 := by
  have hb := dayNum_bounds h.ymd
  have hyd := yearDay_dayNum t
  have hiso := isoDay_num t
  have hyl := yearLen_cases t.year
  have hyl' := yearLen_cases (t.year - 1)
  have hS := yearStart_succ t.year
  have hS' := yearStart_succ (t.year - 1)
  rw [show t.year - 1 + 1 = t.year by omega] at hS'
  have hd1 := drift_succ _ hp
  rw [show t.year - 1 + 1 = t.year by omega] at hd1
  have hd2 := drift_succ _ hq
  have hY : Y = t.year ∨ Y = t.year - 1 ∨ Y = t.year + 1 := by
    have hm1 : ¬ (Y < t.year - 1) := fun hl => by
      have := yearStart_mono hl
      unfold yearBase at *
      omega
    have hm2 : ¬ (t.year + 1 < Y) := fun hl => by
      have := yearStart_mono hl
      have := yearLen_cases (t.year + 1)
      unfold yearBase at *
      omega
    omega
  -- next year's first weekday
  have hj := dayOfWeek_eq (ofDate (t.year + 1) 1 1)
  rw [jan1_num, show (ofDate (t.year + 1) 1 1).year = t.year + 1 from rfl] at hj
  unfold weekNo
  simp only
  rcases hY with rfl | rfl | rfl
  · -- Thursday in the same year
    rw [if_neg (by unfold yearBase at *; omega)]
    unfold weekNoNonzero
    simp only
    split
    · have : ¬ monToThu (ofDate (t.year + 1) 1 1).dayOfWeek = true := by
        rw [monToThu_iff, hj]; unfold yearBase at *; omega
      rw [if_neg this]; unfold yearBase at *; omega
    · unfold yearBase at *; omega
  · -- Thursday in the previous year
    rw [if_pos (by unfold yearBase at *; omega)]
    unfold weekNoNonzero
    simp only
    have hdn := dec31_num (t.year - 1)
    have hdy := yearDay_dayNum (ofDate (t.year - 1) 12 31)
    have hdi := isoDay_num (ofDate (t.year - 1) 12 31)
    rw [hdn] at hdi hdy
    rw [show (ofDate (t.year - 1) 12 31).year = t.year - 1 from rfl] at *
    have hj2 := dayOfWeek_eq (ofDate t.year 1 1)
    rw [jan1_num, show (ofDate t.year 1 1).year = t.year from rfl] at hj2
    rw [show t.year - 1 + 1 = t.year by omega]
    split
    · have : ¬ monToThu (ofDate t.year 1 1).dayOfWeek = true := by
        rw [monToThu_iff, hj2]; unfold yearBase at *; omega
      rw [if_neg this]; unfold yearBase at *; omega
    · unfold yearBase at *; omega
  · -- Thursday in the next year
    rw [if_neg (by unfold yearBase at *; omega)]
    unfold weekNoNonzero
    simp only
    rw [if_pos (by unfold yearBase at *; omega)]
    have : monToThu (ofDate (t.year + 1) 1 1).dayOfWeek = true := by
      rw [monToThu_iff, hj]; unfold yearBase at *; omega
    rw [if_pos this]; unfold yearBase at *; omega

/-- C10: `getWeekNo()` is the ISO week number: the Thursday of the date's week is a Thursday, and
it is the `k`-th Thursday of its own year where `k` is the returned number.  The library's
weekday arithmetic is only right away from non-leap century years (see C05); the two
hypotheses exclude dates in such a year and in the year after it.

Missing: those dates, `C10_fails`. -/
theorem C10_weekNo_partial (t T : DateTime) (h : t.Valid) (hp : ¬ SkippedCentury (t.year - 1))
    (hq : ¬ SkippedCentury t.year) (hT : IsThursdayOfWeek T t) :
    T.dayOfWeek = 4 ∧ t.weekNo = T.earlierInYear 4 T.yearDay.toNat := by
  have hTv : ValidYMD T.year T.month T.day := (validYMD_iff _ _ _).2 hT.1
  have hiso := isoDay_num t
  have hTN : dayNum T.year T.month T.day = dayNum t.year t.month t.day + 4 - t.isoDay := by
    rcases hT.2 with ⟨ha, hb⟩ | ⟨ha, hb⟩
    · rw [date_eq_iter hT.1 (by exact h.1.1)] at hb
      rw [← isoDay_eq] at ha hb
      simp only [date] at hb
      omega
    · rw [date_eq_iter (by exact h.1.1) hT.1] at hb
      rw [← isoDay_eq] at ha hb
      simp only [date] at hb
      omega
  have hTb := dayNum_bounds hTv
  have hTy := yearDay_dayNum T
  have hw := weekNo_num t h hp hq T.year (by unfold yearBase; omega) (by unfold yearBase; omega)
  have hyear : T.year = t.year ∨ T.year = t.year - 1 ∨ T.year = t.year + 1 := by
    have hb := dayNum_bounds h.ymd
    have hm1 : ¬ (T.year < t.year - 1) := fun hl => by
      have := yearStart_mono hl
      have := yearLen_cases (t.year - 1)
      have hS' := yearStart_succ (t.year - 1)
      rw [show t.year - 1 + 1 = t.year by omega] at hS'
      omega
    have hm2 : ¬ (t.year + 1 < T.year) := fun hl => by
      have := yearStart_mono hl
      have := yearLen_cases (t.year + 1)
      have hS' := yearStart_succ t.year
      omega
    omega
  have hdr : drift T.year = drift t.year := by
    have hd1 := drift_succ _ hp
    rw [show t.year - 1 + 1 = t.year by omega] at hd1
    have hd2 := drift_succ _ hq
    rcases hyear with e | e | e <;> rw [e] <;> omega
  have hthu : T.dayOfWeek = 4 := by
    rw [dayOfWeek_eq, hTN, hdr]; omega
  refine ⟨hthu, ?_⟩
  have hlen := daysOfYear_eq T.year
  rw [earlierInYear_eq T 4 (by omega) (by omega) T.yearDay.toNat (by omega)]
  have h0 := yearDate_facts T 0 (by unfold daysOfYear; split <;> omega)
  have hj := dayOfWeek_eq (T.yearDate 0)
  rw [h0.2.2, h0.2.1] at hj
  have hth := dayOfWeek_eq T
  rw [hthu] at hth
  rw [hw, hj]
  unfold yearBase
  omega

/-- C10 (partial): in the years 1902..2099 the two hypotheses always hold.

Missing: the other years, `C10_fails`. -/
theorem C10_weekNo_window_partial (t T : DateTime) (h : t.Valid) (h1 : 1902 ≤ t.year)
    (h2 : t.year ≤ 2099) (hT : IsThursdayOfWeek T t) :
    T.dayOfWeek = 4 ∧ t.weekNo = T.earlierInYear 4 T.yearDay.toNat :=
  C10_weekNo_partial t T h (by unfold SkippedCentury; omega) (by unfold SkippedCentury; omega) hT

/-- C10 fails in the far years: 31 December 2100 is a Friday in week 52; the Sunday two days
later is in the same week, but `getWeekNo()` puts it into week 1. -/
theorem C10_fails :
    ∃ a b : DateTime, a.Valid ∧ b.Valid ∧ a.dayOfWeek = 5 ∧ b.date = iter nextDay 2 a.date ∧
      a.weekNo = 52 ∧ b.weekNo = 1 :=
  ⟨ofDate 2100 12 31, ofDate 2101 1 2, by decide +kernel⟩

/-- 1 January 2027 is in week 53 of 2026: its Thursday is 31 December 2026. -/
example : IsThursdayOfWeek (ofDate 2026 12 31) (ofDate 2027 1 1) ∧
    (ofDate 2027 1 1).weekNo = 53 := by
  refine ⟨⟨by decide, Or.inr ⟨by decide, by decide⟩⟩, by decide⟩

/-! ## C11 -/

theorem offsetYear_year (t : DateTime) (h : t.Valid) (k : Int) :
    (t.offsetYear k).year = t.year + k ∧ (t.offsetYear k).TimeOK := by
  have hm := h.month
  have hymd := h.ymd
  refine ⟨?_, Valid.timeOK (normalise_valid _)⟩
  have hN := normalise_dayNum' (t := { t with year := t.year + k }) h.timeOK hm.1 hm.2
  have hv := normalise_validYMD { t with year := t.year + k }
  refine year_of_dayNum (y := (t.offsetYear k).year) (m := (t.offsetYear k).month)
    (d := (t.offsetYear k).day) hv ?_ ?_
  · show _ ≤ dayNum (normalise _).year (normalise _).month (normalise _).day
    rw [hN]
    have := upto_nonneg (y := t.year + k) hm.1 hm.2
    unfold dayNum; simp only; have := hymd.2.2.1; omega
  · show dayNum (normalise _).year (normalise _).month (normalise _).day ≤ _
    rw [hN]
    unfold dayNum; simp only
    have h1 := upto_le_yearLen (y := t.year + k) hm.1 hm.2
    have hday := hymd.2.2.2
    by_cases hf : t.month = 2
    · have h31 := upto_mono (m := 2) (m' := 12) (y := t.year + k) (by omega) (by omega) (by omega)
      have h12 := upto_twelve (t.year + k)
      have := daysInMonth_ge (m := 12) (y := t.year + k) (by omega) (by omega)
      have := daysInMonth_ge (m := 2) (y := t.year + k) (by omega) (by omega)
      have := daysInMonth_le (m := 2) (y := t.year) (by omega) (by omega)
      rw [hf] at hday h1 ⊢
      omega
    · have e : daysInMonth t.month (t.year + k) = daysInMonth t.month t.year := by
        unfold daysInMonth; simp only [hf, if_false]
      omega

/-- Day number reached by `setWeekNo`, in all cases. -/
theorem setWeekNo_num (t : DateTime) (h : t.Valid) (n : Int) (hne : t.weekNo ≠ n) :
    (t.setWeekNo n).Valid ∧
    dayNum (t.setWeekNo n).year (t.setWeekNo n).month (t.setWeekNo n).day =
      yearBase t.year + 1 + (if monToThu (ofDate t.year 1 1).dayOfWeek then (n - 1) * 7 else n * 7)
        + t.dayOfWeek - (ofDate t.year 1 1).dayOfWeek := by
  unfold setWeekNo
  rw [if_neg hne]
  simp only
  have hif : ∀ (b : Bool) (x y c d : Int), (if b = true then x + c - d else y + c - d) =
      (if b = true then x else y) + c - d := by intros; split <;> rfl
  simp only [hif]
  generalize (if monToThu (ofDate t.year 1 1).dayOfWeek = true then (n - 1) * 7 else n * 7) = c
  split
  · rename_i hlt
    refine ⟨normalise_valid _, ?_⟩
    have ho := offsetYear_year t h (-1)
    rw [setYearDay_dayNum _ ho.2 _ (by omega), ho.1, if_neg (by omega)]
    have hS' := yearStart_succ (t.year + -1)
    rw [show t.year + -1 + 1 = t.year by omega] at hS'
    unfold yearBase; omega
  · rename_i hge
    refine ⟨normalise_valid _, ?_⟩
    rw [setYearDay_dayNum _ h.timeOK _ (by omega), if_pos (by omega)]
    unfold yearBase; omega

theorem year_near {y m d Y : Int} (h : ValidYMD y m d) (h1 : yearBase Y - 300 ≤ dayNum y m d)
    (h2 : dayNum y m d ≤ yearBase Y + yearLen Y + 300) : y = Y ∨ y = Y - 1 ∨ y = Y + 1 := by
  have hb := dayNum_bounds h
  have hS := yearStart_succ Y
  have hS' := yearStart_succ (Y - 1)
  rw [show Y - 1 + 1 = Y by omega] at hS'
  have := yearLen_cases (Y - 1)
  have := yearLen_cases (Y + 1)
  unfold yearBase at *
  have hm1 : ¬ (y < Y - 1) := fun hl => by have := yearStart_mono hl; omega
  have hm2 : ¬ (Y + 1 < y) := fun hl => by have := yearStart_mono hl; omega
  omega

theorem week_arith {j n L c : Int} (hj0 : 1 ≤ j) (hj1 : j < 7) (hn1 : 1 ≤ n)
    (hL : L = 365 ∨ L = 366) (hn2 : n ≤ 52 ∨ n = 53 ∧ (L + 6 - (4 - j) % 7) / 7 = 53)
    (hc : (j ≤ 4 ∧ c = (n - 1) * 7) ∨ (4 < j ∧ c = n * 7)) :
    1 ≤ 1 + c + 4 - j ∧ 1 + c + 4 - j ≤ L ∧ (1 + c + 4 - j + 6) / 7 = n := by
  omega

/-- C11 (partial): for a date that is not a Sunday, in a year that does not start on a Sunday,
`setWeekNo(n)` reaches ISO week `n` and keeps the weekday, for `n` up to 52, and for 53 if the
year has 53 Thursdays.  Years next to a non-leap century year are excluded (C05).  For Sundays
and for years starting on a Sunday the claim is false: `C11_fails_sunday`,
`C11_fails_year_starting_sunday`. -/
theorem C11_setWeekNo_partial (t : DateTime) (h : t.Valid)
    (hns : ∀ z, t.year - 2 ≤ z → z ≤ t.year + 1 → ¬ SkippedCentury z)
    (n : Int) (hn1 : 1 ≤ n)
    (hn2 : n ≤ 52 ∨ (n = 53 ∧ t.earlierInYear 4 (daysOfYear t.year) = 53))
    (hsun : t.dayOfWeek ≠ 0) (hjan : (ofDate t.year 1 1).dayOfWeek ≠ 0) :
    (t.setWeekNo n).weekNo = n ∧ (t.setWeekNo n).dayOfWeek = t.dayOfWeek := by
  by_cases hne : t.weekNo = n
  · unfold setWeekNo; simp [hne]
  obtain ⟨hv, hN⟩ := setWeekNo_num t h n hne
  have hyl := yearLen_cases t.year
  have hjr := dayOfWeek_range (ofDate t.year 1 1)
  have htr := dayOfWeek_range t
  have hj := dayOfWeek_eq (ofDate t.year 1 1)
  rw [jan1_num, show (ofDate t.year 1 1).year = t.year from rfl] at hj
  have hmt := monToThu_iff (ofDate t.year 1 1).dayOfWeek
  -- number of Thursdays when n = 53
  have h53 : n = 53 → (yearLen t.year + 6 - (4 - (ofDate t.year 1 1).dayOfWeek) % 7) / 7 = 53 := by
    intro e
    rcases hn2 with hn2 | ⟨_, hn2⟩
    · omega
    have h1 := earlierInYear_eq t 4 (by omega) (by omega) (daysOfYear t.year) (by omega)
    rw [hn2, daysOfYear_eq] at h1
    have h2 : (t.yearDate 0).dayOfWeek = (ofDate t.year 1 1).dayOfWeek := rfl
    rw [h2] at h1
    omega
  generalize t.setWeekNo n = r at *
  generalize hc : (if monToThu (ofDate t.year 1 1).dayOfWeek = true then (n - 1) * 7 else n * 7) = c
    at hN
  have hcc : ((ofDate t.year 1 1).dayOfWeek ≤ 4 ∧ c = (n - 1) * 7) ∨
      (4 < (ofDate t.year 1 1).dayOfWeek ∧ c = n * 7) := by
    split at hc
    · rename_i hm; rw [hmt] at hm; exact Or.inl ⟨hm.2, hc.symm⟩
    · rename_i hm; rw [hmt] at hm; right; omega
  have hA := week_arith (j := (ofDate t.year 1 1).dayOfWeek) (n := n) (L := yearLen t.year) (c := c)
    (by omega) (by omega) hn1 hyl (by
      rcases hn2 with hn2 | hn2
      · exact Or.inl hn2
      · exact Or.inr ⟨hn2.1, h53 hn2.1⟩) hcc
  clear hmt h53 hn2 hc hne
  have hyear : r.year = t.year ∨ r.year = t.year - 1 ∨ r.year = t.year + 1 :=
    year_near hv.ymd (by omega) (by omega)
  have hdr : drift r.year = drift t.year := by
    have hd0 := drift_succ _ (hns (t.year - 1) (by omega) (by omega))
    have hd1 := drift_succ _ (hns t.year (by omega) (by omega))
    rw [show t.year - 1 + 1 = t.year by omega] at hd0
    rcases hyear with e | e | e <;> rw [e] <;> omega
  have hwd : r.dayOfWeek = t.dayOfWeek := by
    rw [dayOfWeek_eq, hdr, hN]
    omega
  refine ⟨?_, hwd⟩
  have hiso : r.isoDay = t.dayOfWeek := by
    unfold isoDay; rw [hwd, if_neg hsun]
  have hX : dayNum r.year r.month r.day + 4 - r.isoDay - yearBase t.year =
      1 + c + 4 - (ofDate t.year 1 1).dayOfWeek := by
    rw [hN, hiso]; omega
  have hq1 : ¬ SkippedCentury (r.year - 1) := hns _ (by omega) (by omega)
  have hq2 : ¬ SkippedCentury r.year := hns _ (by omega) (by omega)
  rw [weekNo_num r hv hq1 hq2 t.year (by rw [hX]; exact hA.1) (by rw [hX]; exact hA.2.1), hX]
  exact hA.2.2

/-- C11 fails on Sundays: from Sunday 15 November 2026, `setWeekNo(10)` lands in week 9. -/
theorem C11_fails_sunday :
    ∃ t : DateTime, t.Valid ∧ t.dayOfWeek = 0 ∧ (t.setWeekNo 10).weekNo = 9 :=
  ⟨ofDate 2026 11 15, by decide +kernel⟩

/-- C11 fails in years starting on a Sunday: from Wednesday 3 May 2023, `setWeekNo(10)` lands in
week 11. -/
theorem C11_fails_year_starting_sunday :
    ∃ t : DateTime, t.Valid ∧ t.dayOfWeek = 3 ∧ (ofDate t.year 1 1).dayOfWeek = 0 ∧
      (t.setWeekNo 10).weekNo = 11 :=
  ⟨ofDate 2023 5 3, by decide +kernel⟩

example : (ofDate 2026 11 17).setWeekNo 1 = ofDate 2025 12 30 := by decide +kernel

/-! ## C13 -/

/-- The loop in the MONTHLY branch of `recur` (datetime.py:730-732) never runs: it directly
follows a `normalise()`. -/
theorem recur_loop_dead (t : DateTime) :
    ¬ (t.normalise.day > daysInMonth t.normalise.month t.normalise.year) := by
  have := t.normalise_validYMD
  have := this.2.2.2
  omega

/-- Months elapsed since year 0. -/
def monthIndex (t : DateTime) : Int := 12 * t.year + (t.month - 1)

theorem addMonths_index (t : DateTime) (n : Int) :
    (t.addMonths n).monthIndex = t.monthIndex + n ∧
    1 ≤ (t.addMonths n).month ∧ (t.addMonths n).month ≤ 12 := by
  unfold addMonths monthIndex; simp only; omega

/-- C13: in the mode used for rules with BYxxx parts (`allow_invalid`), stepping by `n` months
advances the month count by exactly `n` and keeps day and time, for every date. -/
theorem C13_monthly_allow_invalid (t : DateTime) (n : Int) :
    (t.recur .monthly n true).monthIndex = t.monthIndex + n ∧
    1 ≤ (t.recur .monthly n true).month ∧ (t.recur .monthly n true).month ≤ 12 ∧
    (t.recur .monthly n true).day = t.day ∧
    (t.recur .monthly n true).hours = t.hours ∧ (t.recur .monthly n true).minutes = t.minutes ∧
    (t.recur .monthly n true).seconds = t.seconds := by
  have := addMonths_index t n
  exact ⟨this.1, this.2.1, this.2.2, rfl, rfl, rfl, rfl⟩

/-- C13 (partial): otherwise, if the target month has the day, stepping goes there and changes
nothing else.  The documented behaviour for the remaining case ("find the next month with the
same day number") is not what the code does, see `C13_monthly_spill` and `C13_fails`. -/
theorem C13_monthly_partial (t : DateTime) (h : t.Valid) (n : Int)
    (hd : t.day ≤ monthLen (t.addMonths n).year (t.addMonths n).month) :
    (t.recur .monthly n).monthIndex = t.monthIndex + n ∧
    (t.recur .monthly n).day = t.day ∧ (t.recur .monthly n).Valid ∧
    (t.recur .monthly n).hours = t.hours ∧ (t.recur .monthly n).minutes = t.minutes ∧
    (t.recur .monthly n).seconds = t.seconds := by
  have hi := addMonths_index t n
  have hv : (t.addMonths n).Valid := by
    refine valid_of_parts ⟨hi.2.1, hi.2.2, h.ymd.2.2.1, ?_⟩ h.timeOK
    rw [daysInMonth_eq _ hi.2.1 hi.2.2]; exact hd
  have e : t.recur .monthly n = t.addMonths n := by
    unfold recur; simp only [Bool.false_eq_true, if_false]; exact normalise_of_valid hv
  rw [e]
  exact ⟨hi.1, rfl, hv, rfl, rfl, rfl⟩

/-- C13: what happens when the target month is too short: the surplus days spill into the month
after it. -/
theorem C13_monthly_spill (t : DateTime) (h : t.Valid) (n : Int)
    (hd : monthLen (t.addMonths n).year (t.addMonths n).month < t.day) :
    (t.recur .monthly n).monthIndex = t.monthIndex + n + 1 ∧
    (t.recur .monthly n).day = t.day - monthLen (t.addMonths n).year (t.addMonths n).month := by
  have hi := addMonths_index t n
  have hday : t.day ≤ 31 := by
    have := h.ymd.2.2.2
    have := daysInMonth_le (m := t.month) (y := t.year) h.month.1 h.month.2
    omega
  have hge := daysInMonth_ge (y := (t.addMonths n).year) hi.2.1 hi.2.2
  rw [← daysInMonth_eq _ hi.2.1 hi.2.2] at hd ⊢
  have e : t.recur .monthly n = (t.addMonths n).normalise := by
    unfold recur; simp only [Bool.false_eq_true, if_false]
  have htd : (t.addMonths n).day = t.day := rfl
  by_cases h12 : (t.addMonths n).month = 12
  · exfalso
    have : daysInMonth (t.addMonths n).month (t.addMonths n).year = 31 := by
      rw [h12]; simp [daysInMonth]
    omega
  · have hto : (t.addMonths n).normalise = { (t.addMonths n) with
        month := (t.addMonths n).month + 1
        day := t.day - daysInMonth (t.addMonths n).month (t.addMonths n).year } := by
      refine normalise_to (t := t.addMonths n) (y := (t.addMonths n).year) h.timeOK hi.2.1 hi.2.2 ?_ ?_
      · have := daysInMonth_ge (m := (t.addMonths n).month + 1) (y := (t.addMonths n).year)
          (by omega) (by omega)
        exact ⟨by omega, by omega, by omega, by omega⟩
      · rw [dayNum_next_month hi.2.1 (by omega)]
        congr 1; rw [htd]; omega
    rw [e, hto]
    refine ⟨?_, rfl⟩
    have := hi.1
    unfold monthIndex at *
    simp only at *; omega

/-- C13 fails: one month after 31 January 2023 is 3 March 2023, not 31 March. -/
theorem C13_fails :
    ∃ t : DateTime, t.Valid ∧ t.date = ⟨2023, 1, 31⟩ ∧
      (t.recur .monthly 1).date = ⟨2023, 3, 3⟩ :=
  ⟨ofDate 2023 1 31, by decide +kernel⟩

/-- C13 (partial): every day up to the 28th is kept, in every month.

Missing: the days from the 29th on, `C13_fails`. -/
theorem C13_monthly_28_partial (t : DateTime) (h : t.Valid) (n : Int) (hd : t.day ≤ 28) :
    (t.recur .monthly n).monthIndex = t.monthIndex + n ∧ (t.recur .monthly n).day = t.day := by
  have hi := addMonths_index t n
  have hge := daysInMonth_ge (y := (t.addMonths n).year) hi.2.1 hi.2.2
  rw [daysInMonth_eq _ hi.2.1 hi.2.2] at hge
  have := C13_monthly_partial t h n (by omega)
  exact ⟨this.1, this.2.1⟩

/-- C13, the other frequencies: DAILY and WEEKLY stepping by `n` days / weeks is `n` resp. `7n`
steps of the calendar, keeping the time of day. -/
theorem C13_daily_weekly (t : DateTime) (h : t.Valid) (n : Nat) :
    (t.recur .daily n).date = iter nextDay n t.date ∧
    (t.recur .weekly n).date = iter nextDay (7 * n) t.date := by
  have h1 := C03_add_days t h n
  have h2 := C03_add_days t h (7 * n)
  refine ⟨h1, ?_⟩
  have : t.recur .weekly n = t.offsetDay ((7 * n : Nat) : Int) := by
    unfold recur offsetDay; simp
  rw [this]; exact h2

/-- C13, SECONDLY, MINUTELY and HOURLY: `n` steps are `n`, `60 n`, `3600 n` clock ticks. -/
theorem C13_clock (t : DateTime) (h : t.Valid) (hd : t.dateOnly = false) (n : Nat) :
    (t.recur .secondly n).civil = iter tick n t.civil ∧
    (t.recur .minutely n).civil = iter tick (60 * n) t.civil ∧
    (t.recur .hourly n).civil = iter tick (3600 * n) t.civil := by
  have key : ∀ (x : DateTime) (k : Nat), x.dateOnly = false → x.secNum = t.secNum + k →
      x.normalise.civil = iter tick k t.civil := by
    intro x k hx hs
    have hit := iter_tick h.1 k
    refine timeNum_inj (normalise_valid x).1 hit.1 ?_
    rw [hit.2, ← h.secNum, ← (normalise_valid x).secNum, normalise_secNum x hx, hs]
  refine ⟨key _ n hd ?_, key _ (60 * n) hd ?_, key _ (3600 * n) hd ?_⟩ <;>
    simp only [secNum, dayNumOf, secondsOfDay] <;> omega

end PyCal.DateTime
