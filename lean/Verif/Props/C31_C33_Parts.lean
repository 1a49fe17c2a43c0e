import Verif.Lemmas.Recurrence
import Verif.Spec.RecurrenceSet
import Verif.Props.C06_C09_SetDay
import Verif.Props.C10_C13_Weeks

/-!
# C31, C32, C33, C52: the BYxxx parts of a rule one by one

* C31 parts used as limits keep exactly the matching dates, in order.
* C32 parts used as expansions give exactly the dates with the value substituted.
* C33 BYSETPOS picks the listed positions.
* C52 BYYEARDAY gives the day of the year.
-/

namespace PyCal.Rule
open Spec DateTime

/-! ## Lists -/

theorem foldl_append {α β : Type} (f : α → List β) (l : List α) (out : List β) :
    l.foldl (fun out a => out ++ f a) out = out ++ l.flatMap f := by
  induction l generalizing out with
  | nil => simp
  | cons a l ih => rw [List.foldl_cons, ih]; simp [List.flatMap_cons]

theorem expandWith_eq {β : Type} (f : DateTime → β → List DateTime) (vals : List β)
    (dates : List DateTime) :
    expandWith f vals dates = dates.flatMap fun d => vals.flatMap (f d) := by
  unfold expandWith
  simp only [foldl_append]
  simp

theorem mem_expandWith {β : Type} {f : DateTime → β → List DateTime} {vals : List β}
    {dates : List DateTime} {x : DateTime} :
    x ∈ expandWith f vals dates ↔ ∃ d ∈ dates, ∃ v ∈ vals, x ∈ f d v := by
  rw [expandWith_eq]; simp

theorem keepLoop_eq {β : Type} (test : β → Bool) (vals : List β) :
    keepLoop test vals = vals.any test := by
  induction vals with
  | nil => rfl
  | cons v vs ih => rw [keepLoop, List.any_cons, ← ih]; cases test v <;> rfl

theorem limitWith_eq {β : Type} (test : DateTime → β → Bool) (vals : List β)
    (dates : List DateTime) :
    limitWith test vals dates = dates.filter fun d => vals.any (test d) := by
  unfold limitWith
  simp only [keepLoop_eq]
  have h : ∀ out, dates.foldl (fun out d => if vals.any (test d) = true then out ++ [d] else out)
      out = out ++ dates.filter fun d => vals.any (test d) := by
    induction dates with
    | nil => simp
    | cons d l ih =>
      intro out
      rw [List.foldl_cons, ih, List.filter_cons]
      split <;> simp
  simpa using h []

theorem mem_limitWith {β : Type} {test : DateTime → β → Bool} {vals : List β}
    {dates : List DateTime} {x : DateTime} :
    x ∈ limitWith test vals dates ↔ x ∈ dates ∧ ∃ v ∈ vals, test x v = true := by
  rw [limitWith_eq]; simp [List.mem_filter]

/-! ## C31 -/

theorem weekdayMatch_iff {t : DateTime} {n wd : Int} :
    WeekdayMatch t (n, wd) ↔ t.dayOfWeek = wd ∧
      (n = 0 ∨ (n > 0 ∧ (t.earlierInMonth wd t.day : Int) = n - 1) ∨
        (n < 0 ∧ (t.laterInMonth wd t.day : Int) = -n - 1)) := by
  unfold WeekdayMatch
  constructor
  · rintro ⟨rfl, h⟩; exact ⟨rfl, h⟩
  · rintro ⟨h, h'⟩; simp only at h h' ⊢; subst h; exact ⟨rfl, h'⟩

theorem isMonthDay_iff {t : DateTime} (h : t.Valid) (n : Int) :
    t.isMonthDay n = true ↔ MonthDayMatch t n := by
  rw [C07_isMonthDay t h]
  unfold MonthDayMatch
  omega

theorem isDay_iff {t : DateTime} (h : t.Valid) (v : Int × Int) (h0 : 0 ≤ v.2) (h1 : v.2 < 7) :
    t.isDayOfWeekInMonth v.1 v.2 = true ↔ WeekdayMatch t v := by
  rw [C08_is t h _ _ h0 h1, ← weekdayMatch_iff]

theorem filter_congr' {p : DateTime → Bool} {q : DateTime → Prop} [DecidablePred q]
    {l : List DateTime} (h : ∀ x ∈ l, (p x = true ↔ q x)) :
    l.filter p = l.filter fun x => decide (q x) := by
  refine List.filter_congr fun x hx => ?_
  rw [Bool.eq_iff_iff, h x hx, decide_eq_true_eq]

/-- C31 (partial): used as limits, BYMONTH, BYMONTHDAY, BYDAY (numbers count within the month),
BYHOUR, BYMINUTE and BYSECOND keep exactly the dates that match one of their values, in order.
Missing: BYYEARDAY (`C31_fails_yearDay`) and negative BYWEEKNO values (`C31_fails_weekNo`). -/
theorem C31_limits_partial (r : Rule) (dates : List DateTime) (hv : ∀ t ∈ dates, t.Valid)
    (hd : ∀ v ∈ r.byDay, 0 ≤ v.2 ∧ v.2 < 7) :
    r.byMonthLimit dates = dates.filter (fun t => decide (t.month ∈ r.byMonth)) ∧
    r.byMonthDayLimit dates
      = dates.filter (fun t => decide (∃ n ∈ r.byMonthDay, MonthDayMatch t n)) ∧
    r.byDayLimit dates = dates.filter (fun t => decide (∃ v ∈ r.byDay, WeekdayMatch t v)) ∧
    r.byHourLimit dates = dates.filter (fun t => decide (t.hours ∈ r.byHours)) ∧
    r.byMinuteLimit dates = dates.filter (fun t => decide (t.minutes ∈ r.byMinutes)) ∧
    r.bySecondLimit dates = dates.filter (fun t => decide (t.seconds ∈ r.bySeconds)) := by
  refine ⟨?_, ?_, ?_, ?_, ?_, ?_⟩
  · unfold byMonthLimit; rw [limitWith_eq]
    exact filter_congr' fun t _ => by simp
  · unfold byMonthDayLimit; rw [limitWith_eq]
    refine filter_congr' fun t ht => ?_
    simp only [List.any_eq_true, isMonthDay_iff (hv t ht)]
  · unfold byDayLimit; rw [limitWith_eq]
    refine filter_congr' fun t ht => ?_
    simp only [List.any_eq_true]
    constructor
    · rintro ⟨v, h1, h2⟩; exact ⟨v, h1, (isDay_iff (hv t ht) v (hd v h1).1 (hd v h1).2).mp h2⟩
    · rintro ⟨v, h1, h2⟩; exact ⟨v, h1, (isDay_iff (hv t ht) v (hd v h1).1 (hd v h1).2).mpr h2⟩
  · unfold byHourLimit; rw [limitWith_eq]
    exact filter_congr' fun t _ => by simp
  · unfold byMinuteLimit; rw [limitWith_eq]
    exact filter_congr' fun t _ => by simp
  · unfold bySecondLimit; rw [limitWith_eq]
    exact filter_congr' fun t _ => by simp

/-- C31 (partial), BYWEEKNO: dates are kept exactly if one of the positive values is the ISO week
number, i.e. (C10) the Thursday of the week is the `n`-th Thursday of its own year.

Missing: negative values, `C31_fails_weekNo`, and years outside 1902..2099 (C10). -/
theorem C31_weekNo_partial (r : Rule) (dates : List DateTime) (th : DateTime → DateTime)
    (hv : ∀ t ∈ dates, t.Valid ∧ 1902 ≤ t.year ∧ t.year ≤ 2099 ∧ IsThursdayOfWeek (th t) t) :
    r.byWeekNoLimit dates = dates.filter (fun t => decide (∃ n ∈ r.byWeekNo, n > 0 ∧
      ((th t).earlierInYear 4 (th t).yearDay.toNat : Int) = n)) := by
  unfold byWeekNoLimit; rw [limitWith_eq]
  refine filter_congr' fun t ht => ?_
  obtain ⟨h1, h2, h3, h4⟩ := hv t ht
  have := (C10_weekNo_window_partial t (th t) h1 h2 h3 h4).2
  simp only [List.any_eq_true, isWeekNo]
  constructor
  · rintro ⟨n, hn, h⟩
    refine ⟨n, hn, ?_⟩
    split at h
    · rw [decide_eq_true_eq] at h; omega
    · simp at h
  · rintro ⟨n, hn, h, h'⟩
    refine ⟨n, hn, ?_⟩
    rw [if_pos h, decide_eq_true_eq]; omega

/-- C31 fails: BYWEEKNO=-1 is the last week of the year, but no date is kept. -/
theorem C31_fails_weekNo (r : Rule) (dates : List DateTime) (h : ∀ n ∈ r.byWeekNo, n < 0) :
    r.byWeekNoLimit dates = [] := by
  unfold byWeekNoLimit
  rw [limitWith_eq, List.filter_eq_nil_iff]
  intro t _
  simp only [List.any_eq_true, not_exists, not_and, isWeekNo]
  intro n hn
  have := h n hn
  rw [if_neg (by omega)]
  simp

/-- C31 fails: BYYEARDAY is not used at all with a frequency below YEARLY.  The candidates for
"hourly, on day 1 of the year" on 2 January are those of "hourly". -/
theorem C31_fails_yearDay :
    ∃ (r : Rule) (t : DateTime), t.Valid ∧ r.freq = .hourly ∧ r.byYearDay = [1] ∧
      ¬ YearDayMatch t 1 ∧ r.candidates .empty t = [t] :=
  ⟨{ freq := .hourly, byYearDay := [1] }, ⟨2020, 1, 2, 9, 0, 0, false, true, none⟩,
    by decide +kernel⟩

/-- The second Monday and the last day of the month in a list of days. -/
example : (∀ t ∈ [ofDate 2026 11 9, ofDate 2026 11 10, ofDate 2026 11 30], t.Valid) ∧
    byDayLimit { byDay := [(2, 1)] } [ofDate 2026 11 9, ofDate 2026 11 10, ofDate 2026 11 30]
      = [ofDate 2026 11 9] ∧
    byMonthDayLimit { byMonthDay := [-1] } [ofDate 2026 11 9, ofDate 2026 11 10, ofDate 2026 11 30]
      = [ofDate 2026 11 30] := by decide +kernel

/-! ## C32 -/

/-- C32: BYMONTH, BYHOUR, BYMINUTE and BYSECOND as expansions replace the month, hour, minute or
second of every date by every value in turn, changing nothing else. -/
theorem C32_substitute (r : Rule) (dates : List DateTime) :
    r.byMonthExpand dates = dates.flatMap (fun t => r.byMonth.map fun v => { t with month := v }) ∧
    r.byHourExpand dates = dates.flatMap (fun t => r.byHours.map fun v => { t with hours := v }) ∧
    r.byMinuteExpand dates
      = dates.flatMap (fun t => r.byMinutes.map fun v => { t with minutes := v }) ∧
    r.bySecondExpand dates
      = dates.flatMap (fun t => r.bySeconds.map fun v => { t with seconds := v }) := by
  have h : ∀ (f : DateTime → Int → DateTime) (vals : List Int),
      expandWith (fun d v => [f d v]) vals dates = dates.flatMap fun t => vals.map (f t) := by
    intro f vals
    rw [expandWith_eq]
    congr 1
    funext t
    induction vals with
    | nil => rfl
    | cons v vs ih => rw [List.flatMap_cons, ih]; rfl
  exact ⟨h _ _, h _ _, h _ _, h _ _⟩

/-- Changing the day does not change the days around it. -/
theorem earlierInMonth_day (t : DateTime) (d' wd d : Int) :
    ({ t with day := d' } : DateTime).earlierInMonth wd d = t.earlierInMonth wd d := rfl

theorem laterInMonth_day (t : DateTime) (d' wd d : Int) :
    ({ t with day := d' } : DateTime).laterInMonth wd d = t.laterInMonth wd d := rfl

/-- The raw day for the `n`-th weekday of the month; the day of `t` does not matter. -/
theorem setDayRaw (t : DateTime) (h : 1 ≤ t.month ∧ t.month ≤ 12) (n wd : Int) (h0 : 0 ≤ wd)
    (h1 : wd < 7) (hn : n ≠ 0) :
    t.setDayOfWeekInMonthRaw n wd = { t with
      day := if n > 0 then 7 * (n - 1) + (wd - t.monthWeekday 1) % 7 + 1
        else monthLen t.year t.month -
          (7 * (-n - 1) + (t.monthWeekday 1 + monthLen t.year t.month - 1 - wd) % 7) } := by
  have e := daysInMonth_eq t.year h.1 h.2
  have hr := t.monthWeekday_range 1
  unfold setDayOfWeekInMonthRaw
  simp only [show ({ t with day := 1 } : DateTime).dayOfWeek = t.monthWeekday 1 from rfl, e]
  split
  · rename_i hp
    congr 1
    split <;> omega
  · rename_i hp
    rw [if_pos (show n < 0 by omega)]
    congr 1
    split <;> omega

/-- A day of the month is the raw day for `n`, `wd` exactly if it is the `n`-th such weekday. -/
theorem weekdayMatch_raw {t : DateTime} (hm : 1 ≤ t.month ∧ t.month ≤ 12) {n wd d : Int}
    (h0 : 0 ≤ wd) (h1 : wd < 7) (hn : n ≠ 0) (hd1 : 1 ≤ d) (hd2 : d ≤ monthLen t.year t.month) :
    (t.setDayOfWeekInMonthRaw n wd).day = d ↔ WeekdayMatch { t with day := d } (n, wd) := by
  rw [setDayRaw t hm n wd h0 h1 hn, weekdayMatch_iff]
  simp only [earlierInMonth_day, laterInMonth_day]
  have hw : ({ t with day := d } : DateTime).dayOfWeek = (t.monthWeekday 1 + (d - 1)) % 7 :=
    monthWeekday_eq t d
  have hr := t.monthWeekday_range 1
  rw [earlier_eq t wd d h0 h1 hd1, later_eq t wd d h0 h1 hd2, hw]
  split <;> omega

/-- C32, BYMONTHDAY: of the dates produced, exactly those that exist count, and these are exactly
the dates in the month of one of the given ones, with its time of day, that match one of the
values. -/
theorem C32_monthDay (r : Rule) (dates : List DateTime)
    (hm : ∀ t ∈ dates, 1 ≤ t.month ∧ t.month ≤ 12) (h0 : (0 : Int) ∉ r.byMonthDay) (x : DateTime) :
    x ∈ (r.byMonthDayExpand dates).filter (fun t => !t.invalid) ↔
      x.date.Valid ∧ ∃ t ∈ dates, x = { t with day := x.day } ∧
        ∃ n ∈ r.byMonthDay, MonthDayMatch x n := by
  have key : ∀ t ∈ dates, ∀ n ∈ r.byMonthDay,
      (x.invalid = false ∧ x = t.setMonthDay n true ↔
        x.date.Valid ∧ x = { t with day := x.day } ∧ MonthDayMatch x n) := by
    intro t ht n hn
    have hm := hm t ht
    have hn0 : n ≠ 0 := fun h => h0 (h ▸ hn)
    have e := daysInMonth_eq t.year hm.1 hm.2
    unfold setMonthDay setMonthDayRaw MonthDayMatch
    simp only [if_true]
    constructor
    · rintro ⟨h1, h2⟩
      have hf : x.year = t.year ∧ x.month = t.month ∧ x = { t with day := x.day } := by
        rw [h2]; repeat' split
        all_goals exact ⟨rfl, rfl, rfl⟩
      refine ⟨(invalid_iff (by rw [hf.2.1]; exact hm.1) (by rw [hf.2.1]; exact hm.2)).mp h1,
        hf.2.2, ?_⟩
      rw [hf.1, hf.2.1]
      rw [h2]
      split
      · simp only; omega
      · rw [if_pos (by omega)]; simp only [e]; omega
    · rintro ⟨h1, h2, h3⟩
      refine ⟨(invalid_iff h1.1 h1.2.1).mpr h1, ?_⟩
      rw [h2]
      have hy : x.year = t.year := by rw [h2]
      have hmo : x.month = t.month := by rw [h2]
      rw [hy, hmo] at h3
      rcases h3 with ⟨a, b⟩ | ⟨a, b⟩
      · rw [if_pos a]; congr 1; omega
      · rw [if_neg (by omega), if_pos a]; congr 1; omega
  simp only [List.mem_filter, Bool.not_eq_true']
  unfold byMonthDayExpand
  rw [mem_expandWith]
  simp only [List.mem_singleton]
  constructor
  · rintro ⟨⟨t, ht, n, hn, he⟩, hi⟩
    obtain ⟨a, b, c⟩ := (key t ht n hn).mp ⟨hi, he⟩
    exact ⟨a, t, ht, b, n, hn, c⟩
  · rintro ⟨a, t, ht, b, n, hn, c⟩
    obtain ⟨hi, he⟩ := (key t ht n hn).mpr ⟨a, b, c⟩
    exact ⟨⟨t, ht, n, hn, he⟩, hi⟩

/-- C32, BYDAY within months: the same for weekdays, with or without number. -/
theorem C32_day_monthly (r : Rule) (dates : List DateTime)
    (hm : ∀ t ∈ dates, 1 ≤ t.month ∧ t.month ≤ 12) (hd : ∀ v ∈ r.byDay, 0 ≤ v.2 ∧ v.2 < 7)
    (x : DateTime) :
    x ∈ (r.byDayExpandMonthly dates).filter (fun t => !t.invalid) ↔
      x.date.Valid ∧ ∃ t ∈ dates, x = { t with day := x.day } ∧
        ∃ v ∈ r.byDay, WeekdayMatch x v := by
  -- one numbered value
  have num : ∀ t : DateTime, 1 ≤ t.month ∧ t.month ≤ 12 → ∀ n wd : Int, n ≠ 0 → 0 ≤ wd → wd < 7 →
      (x.invalid = false ∧ x = t.setDayOfWeekInMonth n wd true ↔
        x.date.Valid ∧ x = { t with day := x.day } ∧ WeekdayMatch x (n, wd)) := by
    intro t hm n wd hn h0 h1
    unfold setDayOfWeekInMonth
    simp only [if_true]
    have hraw := setDayRaw t hm n wd h0 h1 hn
    constructor
    · rintro ⟨hi, he⟩
      have hx : x = { t with day := x.day } := by rw [he, hraw]
      have hy : x.year = t.year := by rw [hx]
      have hmo : x.month = t.month := by rw [hx]
      have hval := (invalid_iff (by omega) (by omega)).mp hi
      refine ⟨hval, hx, ?_⟩
      have := (weekdayMatch_raw (t := t) (d := x.day) hm h0 h1 hn hval.2.2.1
        (by rw [← hy, ← hmo]; exact hval.2.2.2)).mp (by rw [he])
      rw [← hx] at this
      exact this
    · rintro ⟨hval, hx, hw⟩
      have hy : x.year = t.year := by rw [hx]
      have hmo : x.month = t.month := by rw [hx]
      refine ⟨(invalid_iff hval.1 hval.2.1).mpr hval, ?_⟩
      rw [hx] at hw
      have := (weekdayMatch_raw (t := t) (d := x.day) hm h0 h1 hn hval.2.2.1
        (by rw [← hy, ← hmo]; exact hval.2.2.2)).mpr hw
      have h2 : t.setDayOfWeekInMonthRaw n wd =
          { t with day := (t.setDayOfWeekInMonthRaw n wd).day } := by rw [hraw]
      rw [h2, this]; exact hx
  -- any of the weekdays of the month
  have any : ∀ t : DateTime, 1 ≤ t.month ∧ t.month ≤ 12 → ∀ wd : Int, 0 ≤ wd → wd < 7 →
      (x.invalid = false ∧ x ∈ ((List.range 6).map
          fun (i : Nat) => t.setDayOfWeekInMonth (i + 1) wd true).filter
            (fun t' => decide (t'.month = t.month)) ↔
        x.date.Valid ∧ x = { t with day := x.day } ∧ WeekdayMatch x (0, wd)) := by
    intro t hm wd h0 h1
    simp only [List.mem_filter, List.mem_map, List.mem_range, decide_eq_true_eq]
    constructor
    · rintro ⟨hi, ⟨i, _, he⟩, _⟩
      obtain ⟨a, b, c⟩ := (num t hm (i + 1) wd (by omega) h0 h1).mp ⟨hi, he.symm⟩
      exact ⟨a, b, c.1, Or.inl rfl⟩
    · rintro ⟨hval, hx, hw⟩
      have hy : x.year = t.year := by rw [hx]
      have hmo : x.month = t.month := by rw [hx]
      have hml : monthLen t.year t.month ≤ 31 := by
        unfold monthLen; split <;> (try split) <;> omega
      have hd : x.day ≤ monthLen t.year t.month := by rw [← hy, ← hmo]; exact hval.2.2.2
      -- it is the `i + 1`-st one
      have hlt : earlierLikeDays x < 6 := by
        have h2 : earlierLikeDays x = x.earlierInMonth x.dayOfWeek x.day := rfl
        have h3 := earlier_eq x x.dayOfWeek x.day (dayOfWeek_range x).1 (dayOfWeek_range x).2
          hval.2.2.1
        omega
      have hwm : WeekdayMatch x (((earlierLikeDays x : Nat) : Int) + 1, wd) :=
        ⟨hw.1, Or.inr (Or.inl ⟨by simp only; omega, by simp only; omega⟩)⟩
      obtain ⟨hi, he⟩ := (num t hm _ wd (by omega) h0 h1).mpr ⟨hval, hx, hwm⟩
      exact ⟨hi, ⟨_, hlt, he.symm⟩, hmo⟩
  simp only [List.mem_filter, Bool.not_eq_true']
  unfold byDayExpandMonthly
  rw [mem_expandWith]
  constructor
  · rintro ⟨⟨t, ht, ⟨n, wd⟩, hv, he⟩, hi⟩
    have h7 := hd _ hv
    simp only at he h7
    split at he
    · next hn =>
      obtain ⟨a, b, c⟩ := (num t (hm t ht) n wd hn h7.1 h7.2).mp ⟨hi, List.mem_singleton.mp he⟩
      exact ⟨a, t, ht, b, _, hv, c⟩
    · next hn =>
      obtain ⟨a, b, c⟩ := (any t (hm t ht) wd h7.1 h7.2).mp ⟨hi, he⟩
      have : n = 0 := by omega
      subst this
      exact ⟨a, t, ht, b, _, hv, c⟩
  · rintro ⟨a, t, ht, b, ⟨n, wd⟩, hv, c⟩
    have h7 := hd _ hv
    simp only at h7
    by_cases hn : n = 0
    · subst hn
      obtain ⟨hi, he⟩ := (any t (hm t ht) wd h7.1 h7.2).mpr ⟨a, b, c⟩
      refine ⟨⟨t, ht, _, hv, ?_⟩, hi⟩
      simp only [ne_eq, not_true_eq_false, if_false]
      exact he
    · obtain ⟨hi, he⟩ := (num t (hm t ht) n wd hn h7.1 h7.2).mpr ⟨a, b, c⟩
      refine ⟨⟨t, ht, _, hv, ?_⟩, hi⟩
      simp only [ne_eq, hn, not_false_eq_true, if_true, List.mem_singleton]
      exact he


/-- The second and the last Monday of the months of two dates, one of them no real date. -/
example : (byDayExpandMonthly { byDay := [(2, 1), (-1, 1), (5, 1)] }
      [ofDate 2026 11 5, ofDate 2026 2 31]).filter (fun t => !t.invalid)
    = [ofDate 2026 11 9, ofDate 2026 11 30, ofDate 2026 11 30, ofDate 2026 2 9, ofDate 2026 2 23] := by
  decide +kernel

/-- BYDAY within a year: any such weekday, or the `n`-th one from the start or the end of the
year (C09 for the counting). -/
def YearWeekdayMatch (t : DateTime) (v : Int × Int) : Prop :=
  t.dayOfWeek = v.2 ∧
    (v.1 = 0 ∨ v.1 > 0 ∧ (t.earlierInYear v.2 (t.yearDay - 1).toNat : Int) = v.1 - 1 ∨
      v.1 < 0 ∧ (t.laterInYear v.2 (t.yearDay - 1).toNat : Int) = -v.1 - 1)

theorem yearDate_yearDay {t : DateTime} (h : t.Valid) :
    t.yearDate (t.yearDay - 1).toNat = t ∧ (t.yearDay - 1).toNat < daysOfYear t.year := by
  obtain ⟨h1, h2⟩ := C06_yearDay t h
  constructor
  · unfold yearDate
    rw [← h2]; rfl
  · have hb := dayNum_bounds h.ymd
    have := yearDay_dayNum t
    have := daysOfYear_eq t.year
    omega

/-- Moving to the `n`-th weekday of the year, where the date exists. -/
theorem setDayOfWeekInYear_iff {t x : DateTime} (ht : t.TimeOK) (n wd : Int) (h0 : 0 ≤ wd)
    (h1 : wd < 7) (hn : n ≠ 0) (hy : x.year = t.year) :
    x = t.setDayOfWeekInYear n wd ↔
      x.date.Valid ∧ x = { t with month := x.month, day := x.day } ∧
        YearWeekdayMatch x (n, wd) := by
  have hN := normalise_dayNum' (t := { t with
      month := 1
      day := if n > 0 then 7 * (n - 1) + (wd - (t.yearDate 0).dayOfWeek) % 7 + 1
        else yearLen t.year -
          (7 * (-n - 1) + ((t.yearDate 0).dayOfWeek + yearLen t.year - 1 - wd) % 7) })
    ht (by simp) (by simp)
  have hE := normalise_eq (t := { t with
      month := 1
      day := if n > 0 then 7 * (n - 1) + (wd - (t.yearDate 0).dayOfWeek) % 7 + 1
        else yearLen t.year -
          (7 * (-n - 1) + ((t.yearDate 0).dayOfWeek + yearLen t.year - 1 - wd) % 7) }) ht
  have hV := normalise_validYMD { t with
      month := 1
      day := if n > 0 then 7 * (n - 1) + (wd - (t.yearDate 0).dayOfWeek) % 7 + 1
        else yearLen t.year -
          (7 * (-n - 1) + ((t.yearDate 0).dayOfWeek + yearLen t.year - 1 - wd) % 7) }
  rw [dayNum_jan] at hN
  rw [← setDayOfWeekInYear_eq t n wd h0 h1 hn] at hN hE hV
  simp only at hN
  have hr := dayOfWeek_range (t.yearDate 0)
  have hlen := daysOfYear_eq t.year
  constructor
  · intro he
    rw [← he] at hN hE hV
    have hx : x = { t with month := x.month, day := x.day } := by
      rw [hE] at hy ⊢
      simp only at hy ⊢
      rw [hy]
    have hxv : x.Valid := valid_of_parts hV (by rw [hx]; exact ht)
    refine ⟨hxv.1.1, hx, ?_⟩
    have hw0 : (x.yearDate 0).dayOfWeek = (t.yearDate 0).dayOfWeek := by
      rw [hx]; rfl
    obtain ⟨e1, e2⟩ := yearDate_yearDay hxv
    have hyd := (C06_yearDay x hxv).1
    have hnum := yearDay_dayNum x
    have hwd := yearDate_weekday x _ e2
    rw [e1, hw0] at hwd
    have hE1 := earlierInYear_eq x wd h0 h1 (x.yearDay - 1).toNat (by omega)
    have hL1 := laterInYear_eq x wd h0 h1 (x.yearDay - 1).toNat e2
    rw [hw0] at hE1 hL1
    rw [hy] at hN hnum hL1
    unfold YearWeekdayMatch
    simp only
    rw [hE1, hL1, hwd]
    clear hE1 hL1 hwd hE hV e1 hw0
    split at hN <;> omega
  · rintro ⟨hv, hx, hm⟩
    have hxv : x.Valid := valid_of_parts ((validYMD_iff _ _ _).2 hv) (by rw [hx]; exact ht)
    have hw0 : (x.yearDate 0).dayOfWeek = (t.yearDate 0).dayOfWeek := by
      rw [hx]; rfl
    obtain ⟨e1, e2⟩ := yearDate_yearDay hxv
    have hyd := (C06_yearDay x hxv).1
    have hnum := yearDay_dayNum x
    have hwd := yearDate_weekday x _ e2
    rw [e1, hw0] at hwd
    have hE1 := earlierInYear_eq x wd h0 h1 (x.yearDay - 1).toNat (by omega)
    have hL1 := laterInYear_eq x wd h0 h1 (x.yearDay - 1).toNat e2
    rw [hw0] at hE1 hL1
    unfold YearWeekdayMatch at hm
    simp only at hm
    rw [hE1, hL1, hwd] at hm
    rw [hy] at hnum hm e2
    have hnumt : dayNum x.year x.month x.day = 365 * t.year + leapsBefore t.year +
        (if n > 0 then 7 * (n - 1) + (wd - (t.yearDate 0).dayOfWeek) % 7 + 1
        else yearLen t.year -
          (7 * (-n - 1) + ((t.yearDate 0).dayOfWeek + yearLen t.year - 1 - wd) % 7)) := by
      rw [hy, hnum]
      clear hN hE hV hE1 hL1 hwd hnum
      split <;> omega
    rw [← hN] at hnumt
    obtain ⟨a, b, c⟩ := dayNum_inj hxv.ymd hV hnumt
    rw [hx, hE]
    rw [hE] at a b c
    simp only at a b c ⊢
    rw [← b, ← c, ← a, hy]

/-- Every weekday occurs at least 52 times in a year. -/
theorem setDayOfWeekInYear_year {t : DateTime} (ht : t.TimeOK) (n wd : Int) (h0 : 0 ≤ wd)
    (h1 : wd < 7) (hn : n ≠ 0) (hn1 : -52 ≤ n) (hn2 : n ≤ 52) :
    (t.setDayOfWeekInYear n wd).year = t.year := by
  have hN := normalise_dayNum' (t := { t with
      month := 1
      day := if n > 0 then 7 * (n - 1) + (wd - (t.yearDate 0).dayOfWeek) % 7 + 1
        else yearLen t.year -
          (7 * (-n - 1) + ((t.yearDate 0).dayOfWeek + yearLen t.year - 1 - wd) % 7) })
    ht (by simp) (by simp)
  have hV := normalise_validYMD { t with
      month := 1
      day := if n > 0 then 7 * (n - 1) + (wd - (t.yearDate 0).dayOfWeek) % 7 + 1
        else yearLen t.year -
          (7 * (-n - 1) + ((t.yearDate 0).dayOfWeek + yearLen t.year - 1 - wd) % 7) }
  rw [dayNum_jan] at hN
  rw [← setDayOfWeekInYear_eq t n wd h0 h1 hn] at hN hV
  simp only at hN
  have hr := dayOfWeek_range (t.yearDate 0)
  have hlen := yearLen_cases t.year
  refine year_of_dayNum hV ?_ ?_
  · rw [hN]; split <;> omega
  · rw [hN]; split <;> omega

/-- C32 (partial), BYDAY within years: exactly the dates of the year of one of the given dates,
with its time of day, that match one of the values.  Missing: the numbers 53 and -53, with which
the result can lie in the next or previous year (`C32_fails_yearly`). -/
theorem C32_day_yearly_partial (r : Rule) (dates : List DateTime) (ht : ∀ t ∈ dates, t.TimeOK)
    (hd : ∀ v ∈ r.byDay, 0 ≤ v.2 ∧ v.2 < 7 ∧ -52 ≤ v.1 ∧ v.1 ≤ 52) (x : DateTime) :
    x ∈ r.byDayExpandYearly dates ↔
      x.date.Valid ∧ ∃ t ∈ dates, x = { t with month := x.month, day := x.day } ∧
        ∃ v ∈ r.byDay, YearWeekdayMatch x v := by
  unfold byDayExpandYearly
  rw [mem_expandWith]
  constructor
  · rintro ⟨t, hm, ⟨n, wd⟩, hv, he⟩
    have h7 := hd _ hv
    simp only at he h7
    split at he
    · next hn =>
      rw [List.mem_singleton] at he
      have hy : x.year = t.year := by
        rw [he]; exact setDayOfWeekInYear_year (ht t hm) n wd h7.1 h7.2.1 hn h7.2.2.1 h7.2.2.2
      obtain ⟨a, b, c⟩ :=
        (setDayOfWeekInYear_iff (ht t hm) n wd h7.1 h7.2.1 hn hy).mp he
      exact ⟨a, t, hm, b, _, hv, c⟩
    · next hn =>
      have : n = 0 := by omega
      subst this
      simp only [List.mem_filter, List.mem_map, List.mem_range, decide_eq_true_eq] at he
      obtain ⟨⟨i, _, he⟩, hy⟩ := he
      obtain ⟨a, b, c⟩ :=
        (setDayOfWeekInYear_iff (ht t hm) (i + 1) wd h7.1 h7.2.1 (by omega) hy).mp he.symm
      exact ⟨a, t, hm, b, _, hv, c.1, Or.inl rfl⟩
  · rintro ⟨a, t, hm, b, ⟨n, wd⟩, hv, c⟩
    have h7 := hd _ hv
    simp only at h7
    have hy : x.year = t.year := by rw [b]
    refine ⟨t, hm, _, hv, ?_⟩
    simp only
    split
    · next hn =>
      rw [List.mem_singleton]
      exact (setDayOfWeekInYear_iff (ht t hm) n wd h7.1 h7.2.1 hn hy).mpr ⟨a, b, c⟩
    · next hn =>
      simp only [List.mem_filter, List.mem_map, List.mem_range, decide_eq_true_eq]
      have hxv : x.Valid :=
        valid_of_parts ((validYMD_iff _ _ _).2 a) (by rw [b]; exact ht t hm)
      obtain ⟨e1, e2⟩ := yearDate_yearDay hxv
      have hE := earlierInYear_eq x wd h7.1 h7.2.1 (x.yearDay - 1).toNat (by omega)
      have hlen := daysOfYear_eq x.year
      have := yearLen_cases x.year
      have hyd := (C06_yearDay x hxv).1
      have hwd := yearDate_weekday x _ e2
      rw [e1, c.1] at hwd
      simp only at hwd
      refine ⟨⟨x.earlierInYear wd (x.yearDay - 1).toNat, by omega, ?_⟩, hy⟩
      refine ((setDayOfWeekInYear_iff (ht t hm)
        ((x.earlierInYear wd (x.yearDay - 1).toNat : Int) + 1) wd h7.1 h7.2.1 (by omega) hy).mpr
        ⟨a, b, c.1, Or.inr (Or.inl ⟨?_, ?_⟩)⟩).symm
      · simp only; omega
      · simp only; omega

/-- C32 fails: 2026 has 52 Mondays, but BYDAY=53MO in that year gives the first one of 2027. -/
theorem C32_fails_yearly : ∃ (r : Rule) (t x : DateTime), t.Valid ∧ r.byDay = [(53, 1)] ∧
    r.byDayExpandYearly [t] = [x] ∧ x.year ≠ t.year :=
  ⟨{ byDay := [(53, 1)] }, ofDate 2026 5 5, ofDate 2027 1 4, by decide +kernel⟩

/-- Two dates are in the same week, the week starting on weekday `ws`. -/
def SameWeek (ws : Int) (a b : Date) : Prop :=
  ∃ F : Date, F.Valid ∧ (ofDate F.y F.m F.d).dayOfWeek = ws ∧
    (∃ i, i < 7 ∧ a = iter nextDay i F) ∧ ∃ j, j < 7 ∧ b = iter nextDay j F

/-- Weekdays of nearby dates in the years around the present. -/
theorem dayOfWeek_shift {a b : DateTime} (ha : 1901 ≤ a.year ∧ a.year ≤ 2100)
    (hb : 1901 ≤ b.year ∧ b.year ≤ 2100) {k : Int}
    (h : dayNum b.year b.month b.day = dayNum a.year a.month a.day + k) :
    b.dayOfWeek = (a.dayOfWeek + k) % 7 := by
  have hd : ∀ y : Int, 1901 ≤ y ∧ y ≤ 2100 → drift y = drift 1901 := by
    intro y hy
    unfold drift leapsBefore
    split <;> omega
  rw [dayOfWeek_eq, dayOfWeek_eq, hd _ ha, hd _ hb, h]
  omega

/-- Moving by days, in day numbers. -/
theorem offsetDay_num {t : DateTime} (h : t.Valid) (k : Int) :
    (t.offsetDay k).Valid ∧
    dayNum (t.offsetDay k).year (t.offsetDay k).month (t.offsetDay k).day
      = dayNum t.year t.month t.day + k ∧
    t.offsetDay k = { t with year := (t.offsetDay k).year, month := (t.offsetDay k).month,
                             day := (t.offsetDay k).day } := by
  refine ⟨normalise_valid _, ?_, ?_⟩
  · have := normalise_dayNum' (t := { t with day := t.day + k }) h.timeOK h.month.1 h.month.2
    exact this.trans (dayNum_add _ _ _ _)
  · unfold offsetDay
    rw [normalise_eq (t := { t with day := t.day + k }) h.timeOK]

theorem _root_.PyCal.DateTime.Valid.onDate {t : DateTime} (h : t.Valid) : t.date.Valid := h.1.1

theorem year_within {a b : DateTime} (ha : a.date.Valid) (hb : b.date.Valid) {k : Int}
    (h : dayNum b.year b.month b.day = dayNum a.year a.month a.day + k) (h1 : -300 ≤ k)
    (h2 : k ≤ 300) : a.year - 1 ≤ b.year ∧ b.year ≤ a.year + 1 := by
  have ha' := dayNum_bounds ((validYMD_iff _ _ _).2 ha)
  have := year_near (Y := a.year) ((validYMD_iff _ _ _).2 hb)
    (by unfold yearBase; simp only [date] at *; omega)
    (by unfold yearBase; simp only [date] at *; omega)
  have e : b.date.y = b.year := rfl
  omega

/-- C32 (partial), BYDAY within weeks: exactly the dates in the week (starting at WKST) of one of
the given dates, with its time of day, on one of the listed weekdays.  Values with a number are
ignored (RFC 5545 forbids them here).  Missing: years outside 1902..2099, where weekdays are wrong
(C05). -/
theorem C32_day_weekly_partial (r : Rule) (dates : List DateTime)
    (ht : ∀ t ∈ dates, t.Valid ∧ 1902 ≤ t.year ∧ t.year ≤ 2099)
    (hws : 0 ≤ r.weekStart ∧ r.weekStart < 7)
    (hd : ∀ v ∈ r.byDay, 0 ≤ v.2 ∧ v.2 < 7) (x : DateTime) :
    x ∈ r.byDayExpandWeekly dates ↔
      x.Valid ∧ ∃ t ∈ dates, x = { t with year := x.year, month := x.month, day := x.day } ∧
        SameWeek r.weekStart t.date x.date ∧ (0, x.dayOfWeek) ∈ r.byDay := by
  unfold byDayExpandWeekly
  rw [mem_expandWith]
  constructor
  · rintro ⟨t, hm, ⟨n, wd⟩, hv, he⟩
    have h7 := hd _ hv
    have h := ht t hm
    simp only at he h7
    split at he
    · next hn =>
      subst hn
      rw [List.mem_singleton] at he
      have hr := dayOfWeek_range t
      generalize hw' : (if r.weekStart - t.dayOfWeek > 0 then r.weekStart - t.dayOfWeek - 7
        else r.weekStart - t.dayOfWeek) = w at he
      generalize ho' : (if wd - r.weekStart < 0 then wd - r.weekStart + 7 else wd - r.weekStart) = o
        at he
      have hw : w = -((t.dayOfWeek - r.weekStart) % 7) := by
        rw [← hw']; split <;> omega
      have ho : o = (wd - r.weekStart) % 7 := by
        rw [← ho']; split <;> omega
      clear hw' ho'
      have he' : x = t.offsetDay (w + o) := he
      -- the first day of the week
      obtain ⟨f1, f2, f3⟩ := offsetDay_num h.1 w
      obtain ⟨x1, x2, x3⟩ := offsetDay_num h.1 (w + o)
      rw [← he'] at x1 x2 x3
      have fy := year_within (a := t) (b := t.offsetDay w) h.1.1.1 f1.1.1 f2 (by omega) (by omega)
      have xy := year_within (a := t) (b := x) h.1.1.1 x1.1.1 x2 (by omega) (by omega)
      have fw := dayOfWeek_shift (a := t) (b := t.offsetDay w) (by omega) (by omega) f2
      have xw := dayOfWeek_shift (a := t) (b := x) (by omega) (by omega) x2
      refine ⟨x1, t, hm, x3, ⟨(t.offsetDay w).date, f1.1.1, ?_, ⟨(-w).toNat, by omega, ?_⟩,
        ⟨o.toNat, by omega, ?_⟩⟩, ?_⟩
      · have : (ofDate (t.offsetDay w).date.y (t.offsetDay w).date.m
          (t.offsetDay w).date.d).dayOfWeek = (t.offsetDay w).dayOfWeek := rfl
        rw [this, fw]; omega
      · rw [date_eq_iter h.1.onDate f1.onDate]
        simp only [date]
        omega
      · rw [date_eq_iter x1.onDate f1.onDate]
        simp only [date]
        omega
      · rw [xw, show (t.dayOfWeek + (w + o)) % 7 = wd by omega]
        exact hv
    · simp at he
  · rintro ⟨hx, t, hm, hk, ⟨F, hF, hFw, ⟨i, hi, ei⟩, ⟨j, hj, ej⟩⟩, hmem⟩
    have h := ht t hm
    refine ⟨t, hm, _, hmem, ?_⟩
    simp only [if_true, List.mem_singleton]
    have h7 := hd _ hmem
    have hr := dayOfWeek_range t
    rw [date_eq_iter h.1.onDate hF] at ei
    rw [date_eq_iter hx.onDate hF] at ej
    simp only [date] at ei ej
    have fy := year_within (a := t) (b := ofDate F.y F.m F.d) (k := -i) h.1.1.1 hF
      (by simp only [ofDate]; omega) (by omega) (by omega)
    have xy := year_within (a := t) (b := x) (k := j - i) h.1.1.1 hx.1.1
      (by omega) (by omega) (by omega)
    have fw := dayOfWeek_shift (a := t) (b := ofDate F.y F.m F.d) (k := -i) (by omega)
      (by omega) (by simp only [ofDate]; omega)
    have xw := dayOfWeek_shift (a := t) (b := x) (k := j - i) (by omega) (by omega)
      (by omega)
    rw [hFw] at fw
    simp only at h7
    generalize hwo : ((if r.weekStart - t.dayOfWeek > 0 then r.weekStart - t.dayOfWeek - 7
        else r.weekStart - t.dayOfWeek) + if x.dayOfWeek - r.weekStart < 0 then
          x.dayOfWeek - r.weekStart + 7 else x.dayOfWeek - r.weekStart) = k
    have hk' : k = j - i := by
      rw [← hwo]
      clear hwo hmem ei ej xy fy
      split <;> split <;> omega
    obtain ⟨x1, x2, x3⟩ := offsetDay_num h.1 k
    obtain ⟨a, b, c⟩ := dayNum_inj hx.ymd x1.ymd (by omega)
    rw [x3, ← a, ← b, ← c]
    exact hk

/-- Tuesday and Sunday of the week of Friday 1 January 2027, with weeks from Monday. -/
example : byDayExpandWeekly { byDay := [(0, 2), (0, 0)] } [ofDate 2027 1 1]
    = [ofDate 2026 12 29, ofDate 2027 1 3] := by decide +kernel

/-! ## C33 -/

/-- The element of a list at a 1-based position, counted from the end if negative. -/
def nth (l : List DateTime) (p : Int) : Option DateTime :=
  if p > 0 then l[(p - 1).toNat]? else if p < 0 then l.reverse[(-p - 1).toNat]? else none

theorem pickPos_eq (l : List DateTime) (p : Int) : pickPos l p = (nth l p).toList := by
  unfold pickPos nth
  split
  · split
    · rfl
    · rw [List.getElem?_eq_none (by omega)]; rfl
  · split
    · split
      · rw [List.getElem?_reverse (by omega)]
        congr 2
        omega
      · rw [List.getElem?_eq_none (by simp; omega)]; rfl
    · rfl

/-- C33 (partial): BYSETPOS gives, for the candidates sorted by absolute time, one element for each
listed position that exists (0 never does), in the order of the list.  "Each once, in order" is
missing: see `C33_once_partial`, `C33_fails`. -/
theorem C33_setPos_partial (env : TzEnv) (r : Rule) (dates : List DateTime) :
    ∃ sorted : List DateTime, sorted.Perm dates ∧
      sorted.Pairwise (fun a b => a.posix env ≤ b.posix env) ∧
      r.bySetPosLimit env dates = r.bySetPos.filterMap (nth sorted) := by
  refine ⟨sortByPosix env dates, List.perm_insertionSort _ _, ?_, ?_⟩
  · have : Std.Total fun a b : DateTime => a.posix env ≤ b.posix env := ⟨fun a b => by omega⟩
    have : IsTrans DateTime fun a b : DateTime => a.posix env ≤ b.posix env :=
      ⟨fun a b c => by omega⟩
    exact List.pairwise_insertionSort _ _
  · unfold bySetPosLimit
    simp only [pickPos_eq]
    rw [foldl_append, List.nil_append]
    generalize r.bySetPos = ps
    induction ps with
    | nil => rfl
    | cons p ps ih =>
      rw [List.flatMap_cons, ih, List.filterMap_cons]
      cases nth (sortByPosix env dates) p <;> rfl

/-- C33: whatever positions are listed, only candidates are kept, and a date is kept exactly if
it is at one of the positions of the sorted candidates. -/
theorem C33_mem (env : TzEnv) (r : Rule) (dates : List DateTime) (x : DateTime) :
    (x ∈ r.bySetPosLimit env dates → x ∈ dates) ∧
    ∃ sorted : List DateTime, sorted.Perm dates ∧
      sorted.Pairwise (fun a b => a.posix env ≤ b.posix env) ∧
      (x ∈ r.bySetPosLimit env dates ↔ ∃ p ∈ r.bySetPos, nth sorted p = some x) := by
  obtain ⟨sorted, h1, h2, h3⟩ := C33_setPos_partial env r dates
  have h4 : x ∈ r.bySetPosLimit env dates ↔ ∃ p ∈ r.bySetPos, nth sorted p = some x := by
    rw [h3]; simp [List.mem_filterMap]
  refine ⟨fun h => ?_, sorted, h1, h2, h4⟩
  obtain ⟨p, _, hp⟩ := h4.mp h
  rw [← h1.mem_iff]
  unfold nth at hp
  split at hp
  · exact List.mem_of_getElem? hp
  · split at hp
    · exact List.mem_reverse.mp (List.mem_of_getElem? hp)
    · exact absurd hp (by simp)

/-- C33 (partial): if all listed positions are positive, distinct, and the candidates are distinct,
no date is given twice.

Missing: negative positions, `C33_fails`. -/
theorem C33_once_partial (env : TzEnv) (r : Rule) (dates : List DateTime) (hn : dates.Nodup)
    (hp : ∀ p ∈ r.bySetPos, p > 0) (hd : r.bySetPos.Nodup) :
    (r.bySetPosLimit env dates).Nodup := by
  obtain ⟨sorted, h1, h2, h3⟩ := C33_setPos_partial env r dates
  have hs : sorted.Nodup := h1.nodup_iff.mpr hn
  rw [h3]
  revert hp hd
  generalize r.bySetPos = ps
  intro hp hd
  induction ps with
  | nil => simp
  | cons p ps ih =>
    rw [List.nodup_cons] at hd
    have ih := ih (fun q hq => hp q (List.mem_cons_of_mem _ hq)) hd.2
    rw [List.filterMap_cons]
    split
    · exact ih
    · next x hx =>
      rw [List.nodup_cons]
      refine ⟨fun hm => ?_, ih⟩
      obtain ⟨q, hq, hqx⟩ := List.mem_filterMap.mp hm
      have hp0 := hp p List.mem_cons_self
      have hq0 := hp q (List.mem_cons_of_mem _ hq)
      unfold nth at hx hqx
      rw [if_pos hp0] at hx
      rw [if_pos hq0] at hqx
      have hlt : (p - 1).toNat < sorted.length := by
        obtain ⟨h, _⟩ := List.getElem?_eq_some_iff.mp hx; exact h
      have := (List.getElem?_inj hlt hs).mp (hx.trans hqx.symm)
      exact hd.1 (by rw [show p = q by omega]; exact hq)

/-- C33 fails: with one candidate, BYSETPOS=1,-1 gives it twice, and the whole expansion of
"every month, on the 17th, first and last" has every date after the first twice. -/
theorem C33_fails : ∃ (r : Rule) (start : DateTime) (range : Period),
    start.Valid ∧ r.bySetPos = [1, -1] ∧ r.byMonthDay = [17] ∧ r.freq = .monthly ∧
    r.candidates .empty start = [start, start] ∧
    (r.expand .empty 10 {} start range).map Prod.fst =
      some (.dates [start, start, ofDate 2026 12 17, ofDate 2026 12 17] true) :=
  ⟨{ freq := .monthly, byMonthDay := [17], bySetPos := [1, -1] }, ofDate 2026 11 17,
    .ofEnd (ofDate 2026 11 1) (ofDate 2027 1 1), by decide +kernel⟩

/-- The second and the last of three candidates. -/
example : bySetPosLimit .empty { bySetPos := [-1, 2, 4] }
    [ofDate 2026 11 9, ofDate 2026 11 30, ofDate 2026 11 10]
      = [ofDate 2026 11 30, ofDate 2026 11 10] := by decide +kernel

/-! ## C52 -/

/-- C52 (partial): BYYEARDAY in a yearly rule.  For values within 31 days of either end of the year
and ±366, of the dates produced exactly those that exist count, and these are the dates of the year
of one of the given ones, with its time of day, that match one of the values.  For all other values
the claim is false: `C52_fails`. -/
theorem C52_yearDay_partial (r : Rule) (dates : List DateTime)
    (hd : ∀ n ∈ r.byYearDay, 1 ≤ n ∧ n ≤ 31 ∨ -31 ≤ n ∧ n ≤ -1 ∨ n = 366 ∨ n = -366)
    (x : DateTime) :
    x ∈ (r.byYearDayExpand dates).filter (fun t => !t.invalid) ↔
      x.date.Valid ∧ ∃ t ∈ dates, x = { t with month := x.month, day := x.day } ∧
        ∃ n ∈ r.byYearDay, YearDayMatch x n := by
  have key : ∀ t ∈ dates, ∀ n ∈ r.byYearDay,
      (x.invalid = false ∧ x = t.setYearDay n true ↔
        x.date.Valid ∧ x = { t with month := x.month, day := x.day } ∧ YearDayMatch x n) := by
    intro t ht n hn
    have hn := hd n hn
    obtain ⟨m, d, e, hm, hnum⟩ := setYearDayRaw_form t n
    have hm := hm (by omega)
    have hnum := hnum (by omega)
    have hset : t.setYearDay n true = { t with month := m, day := d } := by
      unfold setYearDay; simp only [if_true]; exact e
    rw [hset]
    have match_num : ∀ hx : x.date.Valid, x.year = t.year →
        (YearDayMatch x n ↔ dayNum x.year x.month x.day = 365 * t.year + leapsBefore t.year +
          (if n > 0 then n else yearLen t.year + 1 + n)) := by
      intro hx hy
      unfold YearDayMatch
      rw [date_eq_iter hx (jan1_valid _), date_eq_iter (dec31_valid _) hx]
      simp only [date, dayNum_jan, dayNum_dec, hy]
      split <;> omega
    constructor
    · rintro ⟨hi, he⟩
      have hy : x.year = t.year := by rw [he]
      have hmo : x.month = m := by rw [he]
      have hda : x.day = d := by rw [he]
      have hval := (invalid_iff (t := x) (by omega) (by omega)).mp hi
      refine ⟨hval, by rw [he], ?_⟩
      rw [match_num hval hy, hmo, hda, hy]
      exact hnum
    · rintro ⟨hval, hx, hmt⟩
      have hy : x.year = t.year := by rw [hx]
      refine ⟨(invalid_iff hval.1 hval.2.1).mpr hval, ?_⟩
      rw [match_num hval hy] at hmt
      have hb := dayNum_bounds ((validYMD_iff _ _ _).2 hval)
      -- the raw date is a real one, so it is the same
      have hv : ValidYMD t.year m d := by
        have hyl : yearLen t.year = if isLeapYear t.year then 366 else 365 := rfl
        simp only [hy] at hb hmt
        have hj : daysInMonth 1 t.year = 31 := by simp [daysInMonth]
        have hde : daysInMonth 12 t.year = 31 := by simp [daysInMonth]
        unfold setYearDayRaw at e
        rcases hn with h | h | h | h
        · rw [if_neg (by omega), if_neg (by omega), if_pos (by omega)] at e
          injection e with _ e1 e2
          subst e1; subst e2
          exact ⟨by omega, by omega, by omega, by omega⟩
        · rw [if_neg (by omega), if_neg (by omega), if_neg (by omega), if_pos (by omega)] at e
          injection e with _ e1 e2
          subst e1; subst e2
          exact ⟨by omega, by omega, by omega, by omega⟩
        · rw [if_pos h] at e
          injection e with _ e1 e2
          subst e1
          rw [if_pos (by omega)] at hmt
          cases hl : isLeapYear t.year <;> simp only [hl, if_true, Bool.false_eq_true, if_false] at hyl e2
          · omega
          · exact ⟨by omega, by omega, by omega, by omega⟩
        · rw [if_neg (by omega), if_pos h] at e
          injection e with _ e1 e2
          subst e1
          rw [if_neg (by omega)] at hmt
          cases hl : isLeapYear t.year <;> simp only [hl, if_true, Bool.false_eq_true, if_false] at hyl e2
          · omega
          · exact ⟨by omega, by omega, by omega, by omega⟩
      obtain ⟨_, b, c⟩ := dayNum_inj ((validYMD_iff _ _ _).2 hval) (by rw [← hy] at hv; exact hv)
        (y' := x.year) (by rw [hmt, hy, hnum])
      rw [hx]
      rw [b, c]
  simp only [List.mem_filter, Bool.not_eq_true']
  unfold byYearDayExpand
  rw [mem_expandWith]
  simp only [List.mem_singleton]
  constructor
  · rintro ⟨⟨t, ht, n, hn, he⟩, hi⟩
    obtain ⟨a, b, c⟩ := (key t ht n hn).mp ⟨hi, he⟩
    exact ⟨a, t, ht, b, n, hn, c⟩
  · rintro ⟨a, t, ht, b, n, hn, c⟩
    obtain ⟨hi, he⟩ := (key t ht n hn).mpr ⟨a, b, c⟩
    exact ⟨⟨t, ht, n, hn, he⟩, hi⟩

/-- C52 fails for all other values, i.e. nearly always: nothing at all is produced, in any year. -/
theorem C52_fails (r : Rule) (dates : List DateTime)
    (hd : ∀ n ∈ r.byYearDay, 32 ≤ n ∧ n ≤ 365 ∨ -365 ≤ n ∧ n ≤ -32) :
    (r.byYearDayExpand dates).filter (fun t => !t.invalid) = [] := by
  rw [List.filter_eq_nil_iff]
  intro x hx
  unfold byYearDayExpand at hx
  rw [mem_expandWith] at hx
  obtain ⟨t, _, n, hn, he⟩ := hx
  have hn := hd n hn
  rw [List.mem_singleton] at he
  unfold setYearDay setYearDayRaw at he
  simp only [if_true] at he
  have : x.invalid = true := by
    rcases hn with h | h
    · rw [if_neg (by omega), if_neg (by omega), if_pos (by omega)] at he
      rw [he]; unfold invalid
      have : daysInMonth 1 t.year = 31 := by simp [daysInMonth]
      simp only [this]; simp; omega
    · rw [if_neg (by omega), if_neg (by omega), if_neg (by omega), if_pos (by omega)] at he
      rw [he]; unfold invalid
      simp; omega
  simp [this]

/-- "Every year on day 100": no candidate, although day 100 exists in every year. -/
theorem C52_fails_day100 : ∃ (r : Rule) (t x : DateTime), t.Valid ∧ x.Valid ∧ r.freq = .yearly ∧
    r.byYearDay = [100] ∧ YearDayMatch x 100 ∧ x.year = t.year ∧ r.candidates .empty t = [] :=
  ⟨{ byYearDay := [100] }, ofDate 2026 5 5, ofDate 2026 4 10, by decide +kernel⟩

example : (byYearDayExpand { byYearDay := [17, -3, 366] } [ofDate 2026 5 5, ofDate 2028 5 5]).filter
    (fun t => !t.invalid) = [ofDate 2026 1 17, ofDate 2026 12 29, ofDate 2028 1 17,
      ofDate 2028 12 29, ofDate 2028 12 31] := by decide +kernel

end PyCal.Rule
