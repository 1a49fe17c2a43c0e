import Verif.Props.C31_C33_Parts

/-!
# C53: the candidates of one interval

For each frequency, which date-times the BYxxx parts together describe (RFC 5545, table on
page 44), before BYSETPOS.  `t` is the date the iteration has reached: `DTSTART` stepped by
`INTERVAL`, which for MONTHLY and YEARLY rules need not exist (31 February).
-/

namespace PyCal.Rule
open Spec DateTime

/-- The hour, minute and second of `x` come from `t`, or from the parts that replace them. -/
def TimesFrom (hs ms ss : List Int) (t x : DateTime) : Prop :=
  OneOf hs t.hours x.hours ∧ OneOf ms t.minutes x.minutes ∧ OneOf ss t.seconds x.seconds

/-- `x` is `t` on the same date with another time of day. -/
def SameDay (t x : DateTime) : Prop :=
  x = { t with hours := x.hours, minutes := x.minutes, seconds := x.seconds }

/-- `x` is `t` on another day of the month and with another time of day. -/
def SameMonth (t x : DateTime) : Prop :=
  x = { t with day := x.day, hours := x.hours, minutes := x.minutes, seconds := x.seconds }

/-- `x` is `t` on another day of the year and with another time of day. -/
def SameYear (t x : DateTime) : Prop :=
  x = { t with month := x.month, day := x.day, hours := x.hours, minutes := x.minutes,
               seconds := x.seconds }

/-! ## One step -/

theorem part_nil {β : Type} (f : List DateTime → List DateTime) (items : List DateTime) :
    part ([] : List β) f items = items := rfl

theorem part_ne {β : Type} {vals : List β} (h : vals ≠ []) (f : List DateTime → List DateTime)
    (items : List DateTime) : part vals f items = f items := by
  unfold part
  cases vals with
  | nil => exact absurd rfl h
  | cons => rfl

theorem mem_part_limit {β : Type} {vals : List β} {test : DateTime → β → Bool}
    {items : List DateTime} {x : DateTime} :
    x ∈ part vals (limitWith test vals) items ↔
      x ∈ items ∧ Limits vals fun v => test x v = true := by
  by_cases h : vals = []
  · subst h; simp [part_nil, Limits]
  · rw [part_ne h, mem_limitWith]
    simp [Limits, h]

theorem mem_part_expand {vals : List Int} {f : DateTime → Int → DateTime}
    {items : List DateTime} {x : DateTime} :
    x ∈ part vals (expandWith (fun d v => [f d v]) vals) items ↔
      (vals = [] ∧ x ∈ items) ∨ ∃ d ∈ items, ∃ v ∈ vals, x = f d v := by
  by_cases h : vals = []
  · subst h; simp [part_nil]
  · rw [part_ne h, mem_expandWith]
    simp [h]

/-- The three time-of-day expansions together. -/
theorem mem_times (r : Rule) (items : List DateTime) (x : DateTime) :
    x ∈ part r.bySeconds r.bySecondExpand (part r.byMinutes r.byMinuteExpand
        (part r.byHours r.byHourExpand items)) ↔
      ∃ d ∈ items, SameDay d x ∧ TimesFrom r.byHours r.byMinutes r.bySeconds d x := by
  have h1 : ∀ y, y ∈ part r.byHours r.byHourExpand items ↔
      ∃ d ∈ items, y = { d with hours := y.hours } ∧ OneOf r.byHours d.hours y.hours := by
    intro y
    unfold byHourExpand OneOf
    rw [mem_part_expand]
    constructor
    · rintro (⟨h, hy⟩ | ⟨d, hd, v, hv, rfl⟩)
      · exact ⟨y, hy, rfl, Or.inl ⟨h, rfl⟩⟩
      · exact ⟨d, hd, rfl, Or.inr hv⟩
    · rintro ⟨d, hd, he, ⟨h, h'⟩ | h⟩
      · exact Or.inl ⟨h, by rw [he, h']; exact hd⟩
      · exact Or.inr ⟨d, hd, _, h, he⟩
  have h2 : ∀ y, y ∈ part r.byMinutes r.byMinuteExpand (part r.byHours r.byHourExpand items) ↔
      ∃ d ∈ items, y = { d with hours := y.hours, minutes := y.minutes } ∧
        OneOf r.byHours d.hours y.hours ∧ OneOf r.byMinutes d.minutes y.minutes := by
    intro y
    unfold byMinuteExpand
    rw [mem_part_expand]
    constructor
    · rintro (⟨h, hy⟩ | ⟨d, hd, v, hv, rfl⟩)
      · obtain ⟨d, hd, he, ho⟩ := (h1 y).mp hy
        refine ⟨d, hd, ?_, ho, Or.inl ⟨h, ?_⟩⟩
        · rw [he]
        · rw [he]
      · obtain ⟨d', hd', he, ho⟩ := (h1 d).mp hd
        refine ⟨d', hd', ?_, ho, Or.inr hv⟩
        rw [he]
    · rintro ⟨d, hd, he, ho, ⟨h, h'⟩ | h⟩
      · exact Or.inl ⟨h, (h1 y).mpr ⟨d, hd, by rw [he, h'], ho⟩⟩
      · refine Or.inr ⟨{ y with minutes := d.minutes }, (h1 _).mpr ⟨d, hd, ?_, ho⟩, _, h, rfl⟩
        rw [he]
  unfold bySecondExpand
  rw [mem_part_expand]
  unfold SameDay TimesFrom
  constructor
  · rintro (⟨h, hy⟩ | ⟨d, hd, v, hv, rfl⟩)
    · obtain ⟨d, hd, he, ho, ho'⟩ := (h2 x).mp hy
      refine ⟨d, hd, ?_, ho, ho', Or.inl ⟨h, ?_⟩⟩
      · rw [he]
      · rw [he]
    · obtain ⟨d', hd', he, ho, ho'⟩ := (h2 d).mp hd
      refine ⟨d', hd', ?_, ho, ho', Or.inr hv⟩
      rw [he]
  · rintro ⟨d, hd, he, ho, ho', ⟨h, h'⟩ | h⟩
    · exact Or.inl ⟨h, (h2 x).mpr ⟨d, hd, by rw [he, h'], ho, ho'⟩⟩
    · refine Or.inr ⟨{ x with seconds := d.seconds }, (h2 _).mpr ⟨d, hd, ?_, ho, ho'⟩, _, h, rfl⟩
      rw [he]

theorem invalid_date {a b : DateTime} (h : a.date = b.date) : a.invalid = b.invalid := by
  simp only [date, Date.mk.injEq] at h
  unfold DateTime.invalid
  rw [h.1, h.2.1, h.2.2]

theorem SameDay.date {t x : DateTime} (h : SameDay t x) : x.date = t.date := by
  rw [show x = _ from h]; rfl

theorem mem_finish {env : TzEnv} {r : Rule} (hp : r.bySetPos = []) {items : List DateTime}
    {x : DateTime} : x ∈ r.finishSet env items ↔ x ∈ items ∧ x.invalid = false := by
  unfold finishSet
  rw [hp, part_nil, List.mem_filter]
  simp

/-! ## DAILY and below -/

/-- The date parts used as limits: they all look at the date of `t`; numbers in BYDAY count within
the month, BYWEEKNO knows positive numbers only (C31). -/
def DayLimits (r : Rule) (t : DateTime) : Prop :=
  Limits r.byMonth (fun m => t.month = m) ∧
  Limits r.byWeekNo (fun n => n > 0 ∧ t.weekNo = n) ∧
  Limits r.byMonthDay (MonthDayMatch t) ∧
  Limits r.byDay (WeekdayMatch t)

theorem limits_congr {β : Type} {vals : List β} {p q : β → Prop} (h : ∀ v ∈ vals, (p v ↔ q v)) :
    Limits vals p ↔ Limits vals q := by
  unfold Limits
  constructor
  · rintro (e | ⟨v, hv, hp⟩)
    · exact Or.inl e
    · exact Or.inr ⟨v, hv, (h v hv).mp hp⟩
  · rintro (e | ⟨v, hv, hp⟩)
    · exact Or.inl e
    · exact Or.inr ⟨v, hv, (h v hv).mpr hp⟩

theorem mem_dayLimits {r : Rule} {t : DateTime} (h : t.Valid)
    (hd : ∀ v ∈ r.byDay, 0 ≤ v.2 ∧ v.2 < 7) (x : DateTime) :
    x ∈ r.dayLimits t ↔ x = t ∧ r.DayLimits t := by
  unfold dayLimits byMonthLimit byWeekNoLimit byMonthDayLimit byDayLimit DayLimits
  simp only [mem_part_limit, List.mem_singleton]
  constructor
  · rintro ⟨⟨⟨⟨rfl, a⟩, b⟩, c⟩, d⟩
    refine ⟨rfl, ?_, ?_, ?_, ?_⟩
    · exact (limits_congr (by simp)).mp a
    · exact (limits_congr (by intro v _; unfold isWeekNo; split <;> simp [*])).mp b
    · exact (limits_congr fun v _ => isMonthDay_iff h v).mp c
    · exact (limits_congr fun v hv => isDay_iff h v (hd v hv).1 (hd v hv).2).mp d
  · rintro ⟨rfl, a, b, c, d⟩
    refine ⟨⟨⟨⟨rfl, ?_⟩, ?_⟩, ?_⟩, ?_⟩
    · exact (limits_congr (by simp)).mpr a
    · exact (limits_congr (by intro v _; unfold isWeekNo; split <;> simp [*])).mpr b
    · exact (limits_congr fun v _ => isMonthDay_iff h v).mpr c
    · exact (limits_congr fun v hv => isDay_iff h v (hd v hv).1 (hd v hv).2).mpr d

theorem valid_not_invalid {t : DateTime} (h : t.Valid) : t.invalid = false :=
  (invalid_iff h.month.1 h.month.2).mpr h.1.1

/-- C53, DAILY: if the date of `t` passes BYMONTH, BYWEEKNO, BYMONTHDAY and BYDAY, all
combinations of the given hours, minutes and seconds on that day; otherwise nothing. -/
theorem C53_daily (env : TzEnv) (r : Rule) (t : DateTime) (h : t.Valid) (hf : r.freq = .daily)
    (hd : ∀ v ∈ r.byDay, 0 ≤ v.2 ∧ v.2 < 7) (hp : r.bySetPos = []) (x : DateTime) :
    x ∈ r.candidates env t ↔
      r.DayLimits t ∧ SameDay t x ∧ TimesFrom r.byHours r.byMinutes r.bySeconds t x := by
  unfold candidates dailySet
  simp only [hf]
  rw [mem_finish hp, mem_times]
  simp only [mem_dayLimits h hd]
  constructor
  · rintro ⟨⟨d, ⟨rfl, a⟩, b, c⟩, _⟩; exact ⟨a, b, c⟩
  · rintro ⟨a, b, c⟩
    refine ⟨⟨t, ⟨rfl, a⟩, b, c⟩, ?_⟩
    rw [invalid_date b.date]; exact valid_not_invalid h

theorem sameDay_self (t : DateTime) : SameDay t t := rfl

theorem mem_two (r : Rule) (items : List DateTime) (x : DateTime) :
    x ∈ part r.bySeconds r.bySecondExpand (part r.byMinutes r.byMinuteExpand items) ↔
      ∃ d ∈ items, SameDay d x ∧ TimesFrom [] r.byMinutes r.bySeconds d x := by
  exact mem_times { r with byHours := [] } items x

theorem mem_one (r : Rule) (items : List DateTime) (x : DateTime) :
    x ∈ part r.bySeconds r.bySecondExpand items ↔
      ∃ d ∈ items, SameDay d x ∧ TimesFrom [] [] r.bySeconds d x := by
  exact mem_times { r with byHours := [], byMinutes := [] } items x

/-- C53, HOURLY: BYHOUR limits too, BYMINUTE and BYSECOND are combined. -/
theorem C53_hourly (env : TzEnv) (r : Rule) (t : DateTime) (h : t.Valid) (hf : r.freq = .hourly)
    (hd : ∀ v ∈ r.byDay, 0 ≤ v.2 ∧ v.2 < 7) (hp : r.bySetPos = []) (x : DateTime) :
    x ∈ r.candidates env t ↔
      r.DayLimits t ∧ Limits r.byHours (fun v => t.hours = v) ∧ SameDay t x ∧
        TimesFrom [] r.byMinutes r.bySeconds t x := by
  unfold candidates hourlySet
  simp only [hf]
  rw [mem_finish hp, mem_two]
  unfold byHourLimit
  simp only [mem_part_limit, mem_dayLimits h hd, decide_eq_true_eq]
  constructor
  · rintro ⟨⟨d, ⟨⟨rfl, a⟩, a'⟩, b, c⟩, _⟩; exact ⟨a, a', b, c⟩
  · rintro ⟨a, a', b, c⟩
    refine ⟨⟨t, ⟨⟨rfl, a⟩, a'⟩, b, c⟩, ?_⟩
    rw [invalid_date b.date]; exact valid_not_invalid h

/-- C53, MINUTELY: BYHOUR and BYMINUTE limit, BYSECOND is combined. -/
theorem C53_minutely (env : TzEnv) (r : Rule) (t : DateTime) (h : t.Valid) (hf : r.freq = .minutely)
    (hd : ∀ v ∈ r.byDay, 0 ≤ v.2 ∧ v.2 < 7) (hp : r.bySetPos = []) (x : DateTime) :
    x ∈ r.candidates env t ↔
      r.DayLimits t ∧ Limits r.byHours (fun v => t.hours = v) ∧
        Limits r.byMinutes (fun v => t.minutes = v) ∧ SameDay t x ∧
        TimesFrom [] [] r.bySeconds t x := by
  unfold candidates minutelySet
  simp only [hf]
  rw [mem_finish hp, mem_one]
  unfold byHourLimit byMinuteLimit
  simp only [mem_part_limit, mem_dayLimits h hd, decide_eq_true_eq]
  constructor
  · rintro ⟨⟨d, ⟨⟨⟨rfl, a⟩, a'⟩, a''⟩, b, c⟩, _⟩; exact ⟨a, a', a'', b, c⟩
  · rintro ⟨a, a', a'', b, c⟩
    refine ⟨⟨t, ⟨⟨⟨rfl, a⟩, a'⟩, a''⟩, b, c⟩, ?_⟩
    rw [invalid_date b.date]; exact valid_not_invalid h

/-- C53, SECONDLY: every part limits. -/
theorem C53_secondly (env : TzEnv) (r : Rule) (t : DateTime) (h : t.Valid) (hf : r.freq = .secondly)
    (hd : ∀ v ∈ r.byDay, 0 ≤ v.2 ∧ v.2 < 7) (hp : r.bySetPos = []) (x : DateTime) :
    x ∈ r.candidates env t ↔
      x = t ∧ r.DayLimits t ∧ Limits r.byHours (fun v => t.hours = v) ∧
        Limits r.byMinutes (fun v => t.minutes = v) ∧ Limits r.bySeconds (fun v => t.seconds = v) := by
  unfold candidates secondlySet
  simp only [hf]
  rw [mem_finish hp]
  unfold byHourLimit byMinuteLimit bySecondLimit
  simp only [mem_part_limit, mem_dayLimits h hd, decide_eq_true_eq]
  constructor
  · rintro ⟨⟨⟨⟨⟨rfl, a⟩, a'⟩, a''⟩, b⟩, _⟩; exact ⟨rfl, a, a', a'', b⟩
  · rintro ⟨rfl, a, a', a'', b⟩
    exact ⟨⟨⟨⟨⟨rfl, a⟩, a'⟩, a''⟩, b⟩, valid_not_invalid h⟩

/-- Mondays and Tuesdays in November at 9:30 and 17:30. -/
example : candidates .empty
      { freq := .daily, byMonth := [11], byDay := [(0, 1), (0, 2)], byHours := [9, 17],
        byMinutes := [30] } ⟨2026, 11, 17, 8, 0, 0, false, true, none⟩
    = [⟨2026, 11, 17, 9, 30, 0, false, true, none⟩, ⟨2026, 11, 17, 17, 30, 0, false, true, none⟩] := by
  decide +kernel

/-! ## WEEKLY -/

/-- C53 (partial), WEEKLY: the weekdays of BYDAY in the week of `t` (or the weekday of `t`), at all
combinations of the given hours, minutes and seconds, provided the date of `t` itself passes BYMONTH
and BYWEEKNO.  RFC 5545 applies BYMONTH to the dates produced instead: `C53_fails_weekly`.  Years
1902..2099 (C05). -/
theorem C53_weekly_partial (env : TzEnv) (r : Rule) (t : DateTime) (h : t.Valid)
    (hy : 1902 ≤ t.year ∧ t.year ≤ 2099) (hf : r.freq = .weekly)
    (hws : 0 ≤ r.weekStart ∧ r.weekStart < 7)
    (hd : ∀ v ∈ r.byDay, 0 ≤ v.2 ∧ v.2 < 7) (hp : r.bySetPos = []) (x : DateTime) :
    x ∈ r.candidates env t ↔
      Limits r.byMonth (fun m => t.month = m) ∧ Limits r.byWeekNo (fun n => n > 0 ∧ t.weekNo = n) ∧
      x.date.Valid ∧
      (r.byDay = [] ∧ x.date = t.date ∨
        SameWeek r.weekStart t.date x.date ∧ (0, x.dayOfWeek) ∈ r.byDay) ∧
      SameKind x t ∧ TimesFrom r.byHours r.byMinutes r.bySeconds t x := by
  unfold candidates weeklySet
  simp only [hf]
  rw [mem_finish hp, mem_times]
  have hlim : ∀ y, y ∈ part r.byWeekNo r.byWeekNoLimit (part r.byMonth r.byMonthLimit [t]) ↔
      y = t ∧ Limits r.byMonth (fun m => t.month = m) ∧
        Limits r.byWeekNo (fun n => n > 0 ∧ t.weekNo = n) := by
    intro y
    unfold byMonthLimit byWeekNoLimit
    simp only [mem_part_limit, List.mem_singleton]
    constructor
    · rintro ⟨⟨rfl, a⟩, b⟩
      exact ⟨rfl, (limits_congr (by simp)).mp a,
        (limits_congr (by intro v _; unfold isWeekNo; split <;> simp [*])).mp b⟩
    · rintro ⟨rfl, a, b⟩
      exact ⟨⟨rfl, (limits_congr (by simp)).mpr a⟩,
        (limits_congr (by intro v _; unfold isWeekNo; split <;> simp [*])).mpr b⟩
  have hday : ∀ y, y ∈ part r.byDay r.byDayExpandWeekly (part r.byWeekNo r.byWeekNoLimit
        (part r.byMonth r.byMonthLimit [t])) ↔
      (Limits r.byMonth (fun m => t.month = m) ∧
        Limits r.byWeekNo (fun n => n > 0 ∧ t.weekNo = n)) ∧ y.Valid ∧
      (r.byDay = [] ∧ y.date = t.date ∨
        SameWeek r.weekStart t.date y.date ∧ (0, y.dayOfWeek) ∈ r.byDay) ∧
      y = { t with year := y.year, month := y.month, day := y.day } := by
    intro y
    by_cases hb : r.byDay = []
    · rw [hb, part_nil, hlim]
      constructor
      · rintro ⟨rfl, a⟩; exact ⟨a, h, Or.inl ⟨rfl, rfl⟩, rfl⟩
      · rintro ⟨a, _, ⟨_, hdt⟩ | ⟨_, hm⟩, he⟩
        · refine ⟨?_, a⟩
          simp only [date, Date.mk.injEq] at hdt
          rw [he, hdt.1, hdt.2.1, hdt.2.2]
        · simp at hm
    · rw [part_ne hb, C32_day_weekly_partial r _ (by
        intro d hd'; obtain ⟨rfl, _⟩ := (hlim d).mp hd'; exact ⟨h, hy⟩) hws hd]
      constructor
      · rintro ⟨hv, d, hm, he, hs, hdm⟩
        obtain ⟨rfl, a⟩ := (hlim d).mp hm
        exact ⟨a, hv, Or.inr ⟨hs, hdm⟩, he⟩
      · rintro ⟨a, hv, ⟨hb', _⟩ | ⟨hs, hdm⟩, he⟩
        · exact absurd hb' hb
        · exact ⟨hv, t, (hlim t).mpr ⟨rfl, a⟩, he, hs, hdm⟩
  constructor
  · rintro ⟨⟨d, hm, hs, ht⟩, hi⟩
    obtain ⟨a, hv, b, he⟩ := (hday d).mp hm
    have e : x.date = d.date := hs.date
    have hw : x.dayOfWeek = d.dayOfWeek := by
      simp only [date, Date.mk.injEq] at e
      rw [dayOfWeek_eq, dayOfWeek_eq, e.1, e.2.1, e.2.2]
    rw [e, hw]
    refine ⟨a.1, a.2, hv.1.1, b, ?_, ?_⟩
    · rw [show x = _ from hs, he]; exact ⟨rfl, rfl, rfl⟩
    · rw [he] at ht; exact ht
  · rintro ⟨a, a', hv, b, hk, ht⟩
    refine ⟨⟨{ t with year := x.year, month := x.month, day := x.day }, (hday _).mpr
      ⟨⟨a, a'⟩, ?_, ?_, rfl⟩, ?_, ht⟩, (invalid_iff hv.1 hv.2.1).mpr hv⟩
    · exact valid_of_parts ((validYMD_iff _ _ _).2 hv) h.timeOK
    · exact b
    · obtain ⟨k1, k2, k3⟩ := hk
      unfold SameDay
      rw [← k1, ← k2, ← k3]

/-- C53 fails: "weekly, Mondays, in January only", reached on Sunday 2 February 2020 with weeks from
Monday: Monday 27 January is in that week, but it is not produced; conversely reached on Sunday
31 January 2021 with weeks from Sunday, Monday 1 February is. -/
theorem C53_fails_weekly :
    ∃ (r r' : Rule) (t t' x x' : DateTime), t.Valid ∧ t'.Valid ∧ r.freq = .weekly ∧ r'.freq = .weekly ∧
      r.byMonth = [1] ∧ r'.byMonth = [1] ∧ r.byDay = [(0, 1)] ∧ r'.byDay = [(0, 1)] ∧
      x.month = 1 ∧ x ∈ byDayExpandWeekly r [t] ∧ r.candidates .empty t = [] ∧
      x'.month = 2 ∧ r'.candidates .empty t' = [x'] :=
  ⟨{ freq := .weekly, byMonth := [1], byDay := [(0, 1)] },
    { freq := .weekly, byMonth := [1], byDay := [(0, 1)], weekStart := 0 },
    ofDate 2020 2 2, ofDate 2021 1 31, ofDate 2020 1 27, ofDate 2021 2 1, by decide +kernel⟩

/-! ## MONTHLY -/

/-- The date parts of a MONTHLY rule and of a YEARLY rule with BYMONTH or BYMONTHDAY: the day
matches BYMONTHDAY and BYDAY, and is that of `t` if both are absent. -/
def MonthDays (r : Rule) (t x : DateTime) : Prop :=
  Limits r.byMonthDay (MonthDayMatch x) ∧ Limits r.byDay (WeekdayMatch x) ∧
    (r.byMonthDay = [] → r.byDay = [] → x.day = t.day)

theorem match_sameDay {d x : DateTime} (h : SameDay d x) :
    (∀ n, MonthDayMatch x n ↔ MonthDayMatch d n) ∧ (∀ v, WeekdayMatch x v ↔ WeekdayMatch d v) ∧
    ∀ v, YearWeekdayMatch x v ↔ YearWeekdayMatch d v := by
  unfold SameDay at h
  refine ⟨fun n => ?_, fun v => ?_, fun v => ?_⟩ <;> rw [h] <;> exact Iff.rfl

/-- BYMONTHDAY, then BYDAY as limit or within the month, applied to one date `t` whose day need not
exist: of the result, only the dates that exist. -/
theorem mem_monthDays {r : Rule} {items : List DateTime} (hm : ∀ t ∈ items, 1 ≤ t.month ∧ t.month ≤ 12)
    (ht : ∀ t ∈ items, t.TimeOK) (h0 : (0 : Int) ∉ r.byMonthDay)
    (hd : ∀ v ∈ r.byDay, 0 ≤ v.2 ∧ v.2 < 7) (x : DateTime) :
    (x ∈ part r.byDay (fun items =>
        if !([] : List Int).isEmpty || !r.byMonthDay.isEmpty then r.byDayLimit items
        else r.byDayExpandMonthly items) (part r.byMonthDay r.byMonthDayExpand items) ∧
      x.invalid = false) ↔
    ∃ t ∈ items, x.date.Valid ∧ x = { t with day := x.day } ∧ r.MonthDays t x := by
  have hmd : ∀ y, (y ∈ part r.byMonthDay r.byMonthDayExpand items ∧ y.invalid = false) ↔
      ∃ t ∈ items, y.date.Valid ∧ y = { t with day := y.day } ∧
        Limits r.byMonthDay (MonthDayMatch y) ∧ (r.byMonthDay = [] → y.day = t.day) := by
    intro y
    by_cases hb : r.byMonthDay = []
    · rw [hb, part_nil]
      constructor
      · rintro ⟨hy, hi⟩
        exact ⟨y, hy, (invalid_iff (hm y hy).1 (hm y hy).2).mp hi, rfl, Or.inl rfl, fun _ => rfl⟩
      · rintro ⟨t, hmem, hv, he, _, hday⟩
        refine ⟨?_, (invalid_iff hv.1 hv.2.1).mpr hv⟩
        rw [he, hday rfl]; exact hmem
    · rw [part_ne hb]
      have := C32_monthDay r items hm h0 y
      rw [List.mem_filter, Bool.not_eq_true'] at this
      rw [this]
      constructor
      · rintro ⟨hv, t, hmem, he, hn⟩; exact ⟨t, hmem, hv, he, Or.inr hn, fun h => absurd h hb⟩
      · rintro ⟨t, hmem, hv, he, hn, _⟩
        exact ⟨hv, t, hmem, he, hn.resolve_left hb⟩
  by_cases hb : r.byDay = []
  · rw [hb, part_nil, hmd]
    unfold MonthDays
    rw [hb]
    constructor
    · rintro ⟨t, a, b, c, d, e⟩; exact ⟨t, a, b, c, d, Or.inl rfl, fun h _ => e h⟩
    · rintro ⟨t, a, b, c, d, _, e⟩; exact ⟨t, a, b, c, d, fun h => e h rfl⟩
  · rw [part_ne hb]
    by_cases hmb : r.byMonthDay = []
    · rw [hmb, part_nil]
      simp only [List.isEmpty_nil, Bool.not_true, Bool.or_false, Bool.false_eq_true, if_false]
      have := C32_day_monthly r items hm hd x
      rw [List.mem_filter, Bool.not_eq_true'] at this
      rw [this]
      unfold MonthDays
      rw [hmb]
      constructor
      · rintro ⟨hv, t, hmem, he, hn⟩
        exact ⟨t, hmem, hv, he, Or.inl rfl, Or.inr hn, fun _ h => absurd h hb⟩
      · rintro ⟨t, hmem, hv, he, _, hn, _⟩
        exact ⟨hv, t, hmem, he, hn.resolve_left hb⟩
    · have e : (!([] : List Int).isEmpty || !r.byMonthDay.isEmpty) = true := by
        cases h : r.byMonthDay with
        | nil => exact absurd h hmb
        | cons => rfl
      simp only [e, if_true]
      unfold byDayLimit
      rw [mem_limitWith, and_right_comm, hmd]
      unfold MonthDays
      have hval : ∀ t ∈ items, x.date.Valid → x = { t with day := x.day } → x.Valid := by
        intro t hmem hv he
        refine valid_of_parts ((validYMD_iff _ _ _).2 hv) ?_
        rw [he]; exact ht t hmem
      constructor
      · rintro ⟨⟨t, a, b, c, d, e⟩, v, hv, h⟩
        exact ⟨t, a, b, c, d,
          Or.inr ⟨v, hv, (isDay_iff (hval t a b c) v (hd v hv).1 (hd v hv).2).mp h⟩,
          fun h => absurd h hmb⟩
      · rintro ⟨t, a, b, c, d, e, _⟩
        obtain ⟨v, hv, h⟩ := e.resolve_left hb
        exact ⟨⟨t, a, b, c, d, fun h => absurd h hmb⟩, v, hv,
          (isDay_iff (hval t a b c) v (hd v hv).1 (hd v hv).2).mpr h⟩

/-- C53, MONTHLY: the days of the month of `t` that exist and pass BYMONTH, BYMONTHDAY and BYDAY
(numbers count within the month), at all combinations of the given hours, minutes and seconds. -/
theorem C53_monthly (env : TzEnv) (r : Rule) (t : DateTime) (hm : 1 ≤ t.month ∧ t.month ≤ 12)
    (ht : t.TimeOK) (hf : r.freq = .monthly) (hyd : r.byYearDay = []) (h0 : (0 : Int) ∉ r.byMonthDay)
    (hd : ∀ v ∈ r.byDay, 0 ≤ v.2 ∧ v.2 < 7) (hp : r.bySetPos = []) (x : DateTime) :
    x ∈ r.candidates env t ↔
      x.date.Valid ∧ Limits r.byMonth (fun m => x.month = m) ∧ r.MonthDays t x ∧
      SameMonth t x ∧ TimesFrom r.byHours r.byMinutes r.bySeconds t x := by
  unfold candidates monthlySet
  simp only [hf]
  rw [mem_finish hp, mem_times]
  have hlim : ∀ y, y ∈ part r.byMonth r.byMonthLimit [t] ↔
      y = t ∧ Limits r.byMonth (fun m => t.month = m) := by
    intro y
    unfold byMonthLimit
    simp only [mem_part_limit, List.mem_singleton]
    constructor
    · rintro ⟨rfl, a⟩; exact ⟨rfl, (limits_congr (by simp)).mp a⟩
    · rintro ⟨rfl, a⟩; exact ⟨rfl, (limits_congr (by simp)).mpr a⟩
  rw [hyd]
  have key := mem_monthDays (r := r) (items := part r.byMonth r.byMonthLimit [t])
    (by intro d h; rw [((hlim d).mp h).1]; exact hm)
    (by intro d h; rw [((hlim d).mp h).1]; exact ht) h0 hd
  constructor
  · rintro ⟨⟨d, hmem, hs, htm⟩, hi⟩
    rw [invalid_date hs.date] at hi
    obtain ⟨t', hmem', hv, he, hk⟩ := (key d).mp ⟨hmem, hi⟩
    obtain ⟨rfl, hl⟩ := (hlim t').mp hmem'
    have e := hs.date
    obtain ⟨m1, m2, _⟩ := match_sameDay hs
    have e' : x.month = t'.month := by
      rw [show x = _ from hs, he]
    refine ⟨by rw [e]; exact hv, by rw [e']; exact hl, ?_, ?_, ?_⟩
    · unfold MonthDays at hk ⊢
      simp only [date, Date.mk.injEq] at e
      rw [limits_congr fun n _ => m1 n, limits_congr fun n _ => m2 n, e.2.2]
      exact hk
    · unfold SameMonth
      rw [show x = _ from hs, he]
    · rw [he] at htm; exact htm
  · rintro ⟨hv, hl, hk, hs, htm⟩
    have hxd : SameDay { t with day := x.day } x := hs
    obtain ⟨m1, m2, _⟩ := match_sameDay hxd
    have e' : x.month = t.month := by rw [show x = _ from hs]
    have := (key { t with day := x.day }).mpr ⟨t, (hlim t).mpr ⟨rfl, by rw [← e']; exact hl⟩, by
      rw [← hxd.date]; exact hv, rfl, by
      unfold MonthDays at hk ⊢
      rw [limits_congr fun n _ => m1 n, limits_congr fun n _ => m2 n] at hk
      exact hk⟩
    exact ⟨⟨_, this.1, hxd, htm⟩, by rw [invalid_date hxd.date]; exact this.2⟩

/-- Friday the 13th, reached on a 31st that does not exist. -/
example : candidates .empty { freq := .monthly, byMonthDay := [13], byDay := [(0, 5)] }
    (ofDate 2026 2 31) = [ofDate 2026 2 13] := by decide +kernel

/-! ## YEARLY -/

/-- What a YEARLY rule gives when BYDAY does not count within the year. -/
theorem mem_yearly_month (env : TzEnv) (r : Rule) (t : DateTime) (hm : 1 ≤ t.month ∧ t.month ≤ 12)
    (ht : t.TimeOK) (hf : r.freq = .yearly) (hyd : r.byYearDay = []) (hwn : r.byWeekNo = [])
    (hbm : r.byMonth ≠ [] ∨ r.byMonthDay ≠ [] ∨ r.byDay = [])
    (hmr : ∀ m ∈ r.byMonth, 1 ≤ m ∧ m ≤ 12) (h0 : (0 : Int) ∉ r.byMonthDay)
    (hd : ∀ v ∈ r.byDay, 0 ≤ v.2 ∧ v.2 < 7) (hp : r.bySetPos = []) (x : DateTime) :
    x ∈ r.candidates env t ↔
      x.date.Valid ∧ OneOf r.byMonth t.month x.month ∧ r.MonthDays t x ∧
      SameYear t x ∧ TimesFrom r.byHours r.byMinutes r.bySeconds t x := by
  unfold candidates yearlySet
  simp only [hf]
  rw [mem_finish hp, mem_times]
  rw [hyd, hwn]
  simp only [part_nil]
  have hlim : ∀ y, y ∈ part r.byMonth r.byMonthExpand [t] ↔
      OneOf r.byMonth t.month y.month ∧ y = { t with month := y.month } := by
    intro y
    unfold byMonthExpand OneOf
    simp only [mem_part_expand, List.mem_singleton]
    constructor
    · rintro (⟨h, rfl⟩ | ⟨d, rfl, v, hv, rfl⟩)
      · exact ⟨Or.inl ⟨h, rfl⟩, rfl⟩
      · exact ⟨Or.inr hv, rfl⟩
    · rintro ⟨⟨h, h'⟩ | h, he⟩
      · exact Or.inl ⟨h, by rw [he, h']⟩
      · exact Or.inr ⟨t, rfl, _, h, he⟩
  have hpart : ∀ items, part r.byDay (fun items =>
        if (!([] : List Int).isEmpty || !r.byMonthDay.isEmpty) = true then r.byDayLimit items
        else if (!([] : List Int).isEmpty) = true then r.byDayExpandWeekly items
        else if (!r.byMonth.isEmpty) = true then r.byDayExpandMonthly items
        else r.byDayExpandYearly items) items =
      part r.byDay (fun items =>
        if !([] : List Int).isEmpty || !r.byMonthDay.isEmpty then r.byDayLimit items
        else r.byDayExpandMonthly items) items := by
    intro items
    rcases hbm with hbm | hbm | hbm
    · have e : (!r.byMonth.isEmpty) = true := by
        cases h : r.byMonth with
        | nil => exact absurd h hbm
        | cons => rfl
      simp only [e, if_true, List.isEmpty_nil, Bool.not_true, Bool.false_eq_true, if_false]
    · have e : (!r.byMonthDay.isEmpty) = true := by
        cases h : r.byMonthDay with
        | nil => exact absurd h hbm
        | cons => rfl
      simp only [e, if_true, List.isEmpty_nil, Bool.not_true, Bool.false_or]
    · rw [hbm]; rfl
  rw [hpart]
  have key := mem_monthDays (r := r) (items := part r.byMonth r.byMonthExpand [t])
    (by
      intro d h
      obtain ⟨h1, h2⟩ := (hlim d).mp h
      rcases h1 with ⟨_, h1⟩ | h1
      · rw [h1]; exact hm
      · exact hmr _ h1)
    (by intro d h; rw [((hlim d).mp h).2]; exact ht) h0 hd
  constructor
  · rintro ⟨⟨d, hmem, hs, htm⟩, hi⟩
    rw [invalid_date hs.date] at hi
    obtain ⟨t', hmem', hv, he, hk⟩ := (key d).mp ⟨hmem, hi⟩
    obtain ⟨hl, he'⟩ := (hlim t').mp hmem'
    have e := hs.date
    obtain ⟨m1, m2, _⟩ := match_sameDay hs
    have e' : x.month = t'.month := by
      rw [show x = _ from hs, he]
    refine ⟨by rw [e]; exact hv, by rw [e']; exact hl, ?_, ?_, ?_⟩
    · unfold MonthDays at hk ⊢
      simp only [date, Date.mk.injEq] at e
      rw [limits_congr fun n _ => m1 n, limits_congr fun n _ => m2 n, e.2.2]
      rw [he'] at hk
      exact hk
    · unfold SameYear
      rw [show x = _ from hs, he, he']
    · rw [he, he'] at htm; exact htm
  · rintro ⟨hv, hl, hk, hs, htm⟩
    have hxd : SameDay { t with month := x.month, day := x.day } x := hs
    obtain ⟨m1, m2, _⟩ := match_sameDay hxd
    have := (key { t with month := x.month, day := x.day }).mpr
      ⟨{ t with month := x.month }, (hlim _).mpr ⟨hl, rfl⟩, by
      rw [← hxd.date]; exact hv, rfl, by
      unfold MonthDays at hk ⊢
      rw [limits_congr fun n _ => m1 n, limits_congr fun n _ => m2 n] at hk
      exact hk⟩
    exact ⟨⟨_, this.1, hxd, htm⟩, by rw [invalid_date hxd.date]; exact this.2⟩

/-- C53, YEARLY with BYMONTH, or without any of BYMONTHDAY, BYDAY: the days of the given months
(or the month of `t`) that exist and pass BYMONTHDAY and BYDAY (numbers count within the month), at
all combinations of the given hours, minutes and seconds. -/
theorem C53_yearly_month (env : TzEnv) (r : Rule) (t : DateTime) (hm : 1 ≤ t.month ∧ t.month ≤ 12)
    (ht : t.TimeOK) (hf : r.freq = .yearly) (hyd : r.byYearDay = []) (hwn : r.byWeekNo = [])
    (hbm : r.byMonth ≠ [] ∨ r.byMonthDay = [] ∧ r.byDay = [])
    (hmr : ∀ m ∈ r.byMonth, 1 ≤ m ∧ m ≤ 12) (h0 : (0 : Int) ∉ r.byMonthDay)
    (hd : ∀ v ∈ r.byDay, 0 ≤ v.2 ∧ v.2 < 7) (hp : r.bySetPos = []) (x : DateTime) :
    x ∈ r.candidates env t ↔
      x.date.Valid ∧ OneOf r.byMonth t.month x.month ∧ r.MonthDays t x ∧
      SameYear t x ∧ TimesFrom r.byHours r.byMinutes r.bySeconds t x :=
  mem_yearly_month env r t hm ht hf hyd hwn
    (hbm.imp_right fun h => Or.inr h.2) hmr h0 hd hp x

/-- C53 (partial), YEARLY with BYDAY but no other date part: the days of the year of `t` on the
given weekdays, numbers counting within the year.  Missing: the numbers ±53 (`C32_fails_yearly`). -/
theorem C53_yearly_day_partial (env : TzEnv) (r : Rule) (t : DateTime) (ht : t.TimeOK)
    (hf : r.freq = .yearly) (hyd : r.byYearDay = []) (hwn : r.byWeekNo = []) (hbm : r.byMonth = [])
    (hmd : r.byMonthDay = []) (hbd : r.byDay ≠ [])
    (hd : ∀ v ∈ r.byDay, 0 ≤ v.2 ∧ v.2 < 7 ∧ -52 ≤ v.1 ∧ v.1 ≤ 52) (hp : r.bySetPos = [])
    (x : DateTime) :
    x ∈ r.candidates env t ↔
      x.date.Valid ∧ (∃ v ∈ r.byDay, YearWeekdayMatch x v) ∧ SameYear t x ∧
        TimesFrom r.byHours r.byMinutes r.bySeconds t x := by
  unfold candidates yearlySet
  simp only [hf]
  rw [mem_finish hp, mem_times]
  simp only [hyd, hwn, hbm, hmd, part_nil, part_ne hbd, List.isEmpty_nil, Bool.not_true,
    Bool.or_false, Bool.false_eq_true, if_false]
  have key := C32_day_yearly_partial r [t] (by simpa using ht) hd
  simp only [List.mem_singleton] at key
  constructor
  · rintro ⟨⟨d, hmem, hs, htm⟩, hi⟩
    obtain ⟨hv, t', rfl, he, v, hv', hm⟩ := (key d).mp hmem
    obtain ⟨_, _, m3⟩ := match_sameDay hs
    refine ⟨by rw [hs.date]; exact hv, ⟨v, hv', (m3 v).mpr hm⟩, ?_, ?_⟩
    · unfold SameYear
      rw [show x = _ from hs, he]
    · rw [he] at htm; exact htm
  · rintro ⟨hv, ⟨v, hv', hm⟩, hs, htm⟩
    have hxd : SameDay { t with month := x.month, day := x.day } x := hs
    obtain ⟨_, _, m3⟩ := match_sameDay hxd
    refine ⟨⟨_, (key _).mpr ⟨?_, t, rfl, rfl, v, hv', (m3 v).mp hm⟩, hxd, htm⟩,
      (invalid_iff hv.1 hv.2.1).mpr hv⟩
    rw [← hxd.date]; exact hv

/-- C53 fails: "every year, on the 13th" is the 13th of every month (RFC 5545: BYMONTHDAY expands),
but only the month of the start is used. -/
theorem C53_fails_yearly : ∃ (r : Rule) (t x : DateTime), t.Valid ∧ x.Valid ∧ r.freq = .yearly ∧
    r.byMonthDay = [13] ∧ x.year = t.year ∧ MonthDayMatch x 13 ∧ SameKind x t ∧
    x ∉ r.candidates .empty t ∧ r.candidates .empty t = [ofDate 2026 5 13] :=
  ⟨{ byMonthDay := [13] }, ofDate 2026 5 5, ofDate 2026 6 13, by
    refine ⟨by decide +kernel, by decide +kernel, rfl, rfl, rfl, by decide +kernel, ⟨rfl, rfl, rfl⟩,
      by decide +kernel, by decide +kernel⟩⟩

/-- US Thanksgiving and the last Friday of the year. -/
example : candidates .empty { byMonth := [11], byDay := [(4, 4)] } (ofDate 2026 2 29)
      = [ofDate 2026 11 26] ∧
    candidates .empty { byDay := [(-1, 5)] } (ofDate 2026 2 29) = [ofDate 2026 12 25] := by
  decide +kernel

end PyCal.Rule
