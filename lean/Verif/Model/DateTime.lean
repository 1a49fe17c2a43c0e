import Verif.Model.Calendar
import Verif.Model.Duration

/-!
# `pycalendar.datetime.DateTime`

The object is modelled by its value fields only; the two caches `mPosixTime` and
`mTZOffset` are added on top in `Verif.Model.DateTimeObject`; property C19 is about whether
they ever influence results.
-/

namespace PyCal

/-- The contents of `DateTime.mTZID`: a timezone name (`str`) or a numeric UTC offset
(`int`, set by `parseFractionalAndUTCOffset`, datetime.py:941-957). -/
inductive TzId where
  | name (s : String)
  | fixed (offset : Int)
deriving DecidableEq, Repr

/-- Truth value of `mTZID` in Python: `None`, `""` and `0` are false
(used by `local`, `floating`, datetime.py:608-612, and `Timezone.is_float`,
timezone.py:72-74). -/
def tzTruthy : Option TzId → Bool
  | none => false
  | some (.name s) => decide (s ≠ "")
  | some (.fixed n) => decide (n ≠ 0)

/-- `DateTime` value fields, `DateTime.__init__`, datetime.py:51-94.
The cache fields `mTZOffset`, `mPosixTimeCached`, `mPosixTime` are left out here. -/
structure DateTime where
  year : Int := 1970
  month : Int := 1
  day : Int := 1
  hours : Int := 0
  minutes : Int := 0
  seconds : Int := 0
  dateOnly : Bool := false
  utc : Bool := false
  tzid : Option TzId := none
deriving DecidableEq, Repr

namespace DateTime

/-- `DateTime.__init__` with only year, month, day given: date-only, floating;
datetime.py:53-75. -/
def ofDate (y m d : Int) : DateTime :=
  { year := y, month := m, day := d, dateOnly := true }

/-- `DateTime.floating`, datetime.py:611-612. -/
def floating (t : DateTime) : Bool := !t.utc && !tzTruthy t.tzid

/-- `DateTime.local`, datetime.py:608-609. -/
def isLocal (t : DateTime) : Bool := !t.utc && tzTruthy t.tzid

/-- `DateTime.daysSince1970`, datetime.py:1119-1133. -/
def daysSince1970 (t : DateTime) : Int :=
  (t.year - 1970) * 365 + leapDaysSince1970 (t.year - 1970)
    + daysUptoMonth t.month t.year + (t.day - 1)

/-- Seconds since midnight, the expression in `getPosixTime`, datetime.py:232. -/
def secondsOfDay (t : DateTime) : Int := (t.hours * 60 + t.minutes) * 60 + t.seconds

/-- Environment: UTC offset in seconds of the named timezone at a date-time
(`TimezoneDatabase.getTimezoneOffsetSeconds`, timezonedb.py:83-90; the last argument is
`relative_to_utc`).  The name `none` stands for `TZID` `None`, which is what a
floating time asks for (timezone.py:97-98). -/
abbrev TzEnv := Option String → DateTime → Bool → Int

/-- An environment without any timezone data: every lookup gives `0`
(timezonedb.py:89-90). -/
def TzEnv.empty : TzEnv := fun _ _ _ => 0

/-- `DateTime.timeZoneSecondsOffset`, datetime.py:1103-1109 without the `mTZOffset` cache,
and `Timezone.timeZoneSecondsOffset`, timezone.py:94-103, with the default timezone
being UTC (timezone.py:119). -/
def tzOffset (env : TzEnv) (t : DateTime) (relativeToUtc : Bool := false) : Int :=
  if t.utc then 0
  else match t.tzid with
    | none => env none t relativeToUtc
    | some (.fixed n) => n
    | some (.name s) => env (some s) t relativeToUtc

/-- `DateTime.getPosixTime`, datetime.py:225-244, without the cache. -/
def posix (env : TzEnv) (t : DateTime) : Int :=
  t.secondsOfDay + t.daysSince1970 * 86400 - t.tzOffset env

/-! ### Normalisation -/

/-- Every month has at least one day when its number is in range; used for termination
of the loops below. -/
theorem daysInMonth_pos {m y : Int} (h1 : 1 ≤ m) (h2 : m ≤ 12) : 28 ≤ daysInMonth m y := by
  have h : m = 1 ∨ m = 2 ∨ m = 3 ∨ m = 4 ∨ m = 5 ∨ m = 6 ∨ m = 7 ∨ m = 8 ∨ m = 9 ∨ m = 10 ∨
      m = 11 ∨ m = 12 := by omega
  rcases h with h | h | h | h | h | h | h | h | h | h | h | h <;> subst h <;>
    simp [daysInMonth]
  split <;> decide

/-- The forward day loop of `normalise`, datetime.py:1082-1088:
`while day > daysInMonth(month, year)`.  The guard on the month is the invariant
established at datetime.py:1072-1079 (Python would raise `IndexError` otherwise); outside
it the model stops. -/
def dayLoopUp (y m d : Int) : Int × Int × Int :=
  if _h : 1 ≤ m ∧ m ≤ 12 ∧ d > daysInMonth m y then
    if m + 1 > 12 then dayLoopUp (y + 1) 1 (d - daysInMonth m y)
    else dayLoopUp y (m + 1) (d - daysInMonth m y)
  else (y, m, d)
termination_by d.toNat
decreasing_by
  all_goals
    have := daysInMonth_pos (y := y) _h.1 _h.2.1
    omega

/-- The backward day loop of `normalise`, datetime.py:1089-1095: `while day <= 0`.
Same remark about the month guard. -/
def dayLoopDown (y m d : Int) : Int × Int × Int :=
  if _h : 1 ≤ m ∧ m ≤ 12 ∧ d ≤ 0 then
    if m - 1 < 1 then dayLoopDown (y - 1) 12 (d + daysInMonth 12 (y - 1))
    else dayLoopDown y (m - 1) (d + daysInMonth (m - 1) y)
  else (y, m, d)
termination_by (1 - d).toNat
decreasing_by
  · have := daysInMonth_pos (m := 12) (y := y - 1) (by omega) (by omega)
    omega
  · have := daysInMonth_pos (m := m - 1) (y := y) (by omega) (by omega)
    omega

/-- The month and day part of `normalise`, datetime.py:1070-1095. -/
def normaliseDate (y m d : Int) : Int × Int × Int :=
  let m' := (m - 1) % 12 + 1
  let y' := y + (m - 1) / 12
  if d > 0 then dayLoopUp y' m' d else dayLoopDown y' m' d

/-- `DateTime.normalise`, datetime.py:1041-1098.  The branches
`if normalised_... < 0` are dead code in Python (`%` is non-negative) and are omitted. -/
def normalise (t : DateTime) : DateTime :=
  let secs := t.seconds % 60
  let mins0 := t.minutes + t.seconds / 60
  let mins := mins0 % 60
  let hours0 := t.hours + mins0 / 60
  let hours := hours0 % 24
  let day0 := t.day + hours0 / 24
  let r := normaliseDate t.year t.month day0
  { t with
    year := r.1, month := r.2.1, day := r.2.2
    hours := if t.dateOnly then 0 else hours
    minutes := if t.dateOnly then 0 else mins
    seconds := if t.dateOnly then 0 else secs }

/-- `DateTime.offsetYear`, datetime.py:268-270. -/
def offsetYear (t : DateTime) (n : Int) : DateTime := { t with year := t.year + n }.normalise
/-- `DateTime.offsetMonth`, datetime.py:280-282. -/
def offsetMonth (t : DateTime) (n : Int) : DateTime := { t with month := t.month + n }.normalise
/-- `DateTime.offsetDay`, datetime.py:292-294. -/
def offsetDay (t : DateTime) (n : Int) : DateTime := { t with day := t.day + n }.normalise
/-- `DateTime.offsetHours`, datetime.py:564-566. -/
def offsetHours (t : DateTime) (n : Int) : DateTime := { t with hours := t.hours + n }.normalise
/-- `DateTime.offsetMinutes`, datetime.py:576-578. -/
def offsetMinutes (t : DateTime) (n : Int) : DateTime :=
  { t with minutes := t.minutes + n }.normalise
/-- `DateTime.offsetSeconds`, datetime.py:588-590. -/
def offsetSeconds (t : DateTime) (n : Int) : DateTime :=
  { t with seconds := t.seconds + n }.normalise

/-- `DateTime.__add__`, datetime.py:122-127. -/
def add (t : DateTime) (d : Duration) : DateTime :=
  { t with seconds := t.seconds + d.totalSeconds }.normalise

/-- `DateTime.__sub__` with a `Duration`, datetime.py:162-168. -/
def subDuration (t : DateTime) (d : Duration) : DateTime :=
  { t with seconds := t.seconds - d.totalSeconds }.normalise

/-- `DateTime.__sub__` with a `DateTime`, datetime.py:131-160, without the caches: floating
operands first take over the timezone of the other one (UTC if both float).
`setTimezoneID` clears the UTC flag, `setTimezoneUTC` then sets it. -/
def subDateTime (env : TzEnv) (a b : DateTime) : Duration :=
  if a.floating && b.floating then
    Duration.ofSeconds ({ a with utc := true }.posix env - { b with utc := true }.posix env)
  else if a.floating then
    Duration.ofSeconds ({ a with tzid := b.tzid, utc := b.utc }.posix env - b.posix env)
  else if b.floating then
    Duration.ofSeconds (a.posix env - { b with tzid := a.tzid, utc := a.utc }.posix env)
  else Duration.ofSeconds (a.posix env - b.posix env)

/-- `DateTime.invalid`, datetime.py:1028-1039. -/
def invalid (t : DateTime) : Bool :=
  decide (t.day ≤ 0) || decide (t.day > daysInMonth t.month t.year)

/-- `DateTime.getDayOfWeek`, datetime.py:527-534. -/
def dayOfWeek (t : DateTime) : Int := (4 + t.daysSince1970) % 7

/-- `DateTime.getYearDay`, datetime.py:330-331. -/
def yearDay (t : DateTime) : Int := t.day + daysUptoMonth t.month t.year

/-- The field assignments of `DateTime.setYearDay` before normalisation,
datetime.py:300-322; with `allow_invalid=True` this is the whole effect. -/
def setYearDayRaw (t : DateTime) (n : Int) : DateTime :=
  if n = 366 then { t with month := 12, day := if isLeapYear t.year then 31 else 32 }
  else if n = -366 then { t with month := 1, day := if isLeapYear t.year then 1 else 0 }
  else if n > 0 then { t with month := 1, day := 1 + (n - 1) }
  else if n < 0 then { t with month := 12, day := 31 + (n + 1) }
  else t

/-- `DateTime.setYearDay`, datetime.py:296-328. -/
def setYearDay (t : DateTime) (n : Int) (allowInvalid : Bool := false) : DateTime :=
  if allowInvalid then t.setYearDayRaw n else (t.setYearDayRaw n).normalise

/-- The field assignments of `DateTime.setMonthDay`, datetime.py:337-349. -/
def setMonthDayRaw (t : DateTime) (n : Int) : DateTime :=
  if n > 0 then { t with day := 1 + (n - 1) }
  else if n < 0 then { t with day := daysInMonth t.month t.year + (n + 1) }
  else t

/-- `DateTime.setMonthDay`, datetime.py:333-355. -/
def setMonthDay (t : DateTime) (n : Int) (allowInvalid : Bool := false) : DateTime :=
  if allowInvalid then t.setMonthDayRaw n else (t.setMonthDayRaw n).normalise

/-- `DateTime.isMonthDay`, datetime.py:357-363. -/
def isMonthDay (t : DateTime) (n : Int) : Bool :=
  if n > 0 then decide (t.day = n)
  else if n < 0 then decide (t.day - 1 - daysInMonth t.month t.year = n)
  else false

/-- `first_day in (MONDAY, TUESDAY, WEDNESDAY, THURSDAY)`, datetime.py:386, 426. -/
def monToThu (wd : Int) : Bool := decide (wd = 1) || decide (wd = 2) || decide (wd = 3) || decide (wd = 4)

/-- ISO weekday 1..7, datetime.py:410-412. -/
def isoDay (t : DateTime) : Int := if t.dayOfWeek = 0 then 7 else t.dayOfWeek

/-- `DateTime.getWeekNo` on a date whose raw week number is not `0`, i.e. without the
recursive call; datetime.py:405-429.  The recursive call is made only on a 31 December,
whose raw week number is at least 52 (`weekNo_dec31`), so one level suffices. -/
def weekNoNonzero (t : DateTime) : Int :=
  let w := (t.yearDay - t.isoDay + 10) / 7
  if w = 53 then
    if monToThu (ofDate (t.year + 1) 1 1).dayOfWeek then 1 else w
  else w

/-- `DateTime.getWeekNo`, datetime.py:400-429. -/
def weekNo (t : DateTime) : Int :=
  let w := (t.yearDay - t.isoDay + 10) / 7
  if w = 0 then (ofDate (t.year - 1) 12 31).weekNoNonzero
  else t.weekNoNonzero

/-- `DateTime.isWeekNo`, datetime.py:431-439. -/
def isWeekNo (t : DateTime) (n : Int) : Bool := if n > 0 then decide (t.weekNo = n) else false

/-- `DateTime.setWeekNo`, datetime.py:365-398. -/
def setWeekNo (t : DateTime) (weekno : Int) : DateTime :=
  if t.weekNo = weekno then t
  else
    let firstDay := (ofDate t.year 1 1).dayOfWeek
    let currentDay := t.dayOfWeek
    let yd := if monToThu firstDay then (weekno - 1) * 7 + currentDay - firstDay
              else weekno * 7 + currentDay - firstDay
    if yd < 0 then (t.offsetYear (-1)).setYearDay yd
    else t.setYearDay (yd + 1)

/-- `DateTime.setDayOfWeekInYear`, datetime.py:441-465. -/
def setDayOfWeekInYear (t : DateTime) (offset wd : Int) : DateTime :=
  let t := { t with month := 1, day := 1 }
  let firstDay := t.dayOfWeek
  let len := 365 + (if isLeapYear t.year then 1 else 0)
  if offset > 0 then
    let cycle := (offset - 1) * 7 + wd - firstDay + (if firstDay > wd then 7 else 0)
    { t with day := cycle + 1 }.normalise
  else if offset < 0 then
    let lastDay := (firstDay + len - 1) % 7
    let cycle := (-offset - 1) * 7 - wd + lastDay + (if wd > lastDay then 7 else 0)
    { t with day := len - cycle }.normalise
  else t.normalise

/-- The field assignments of `DateTime.setDayOfWeekInMonth`, datetime.py:468-489. -/
def setDayOfWeekInMonthRaw (t : DateTime) (offset wd : Int) : DateTime :=
  let t := { t with day := 1 }
  let firstDay := t.dayOfWeek
  if offset > 0 then
    let cycle := (offset - 1) * 7 + wd - firstDay + (if firstDay > wd then 7 else 0)
    { t with day := cycle + 1 }
  else if offset < 0 then
    let dim := daysInMonth t.month t.year
    let lastDay := (firstDay + (dim - 1)) % 7
    let cycle := (-offset - 1) * 7 - wd + lastDay + (if wd > lastDay then 7 else 0)
    { t with day := dim - cycle }
  else t

/-- `DateTime.setDayOfWeekInMonth`, datetime.py:467-494. -/
def setDayOfWeekInMonth (t : DateTime) (offset wd : Int) (allowInvalid : Bool := false) :
    DateTime :=
  if allowInvalid then t.setDayOfWeekInMonthRaw offset wd
  else (t.setDayOfWeekInMonthRaw offset wd).normalise

/-- `DateTime.compareDate`, datetime.py:222-223. -/
def compareDate (a b : DateTime) : Bool :=
  decide (a.year = b.year) && decide (a.month = b.month) && decide (a.day = b.day)

/-- `DateTime.isDayOfWeekInMonth`, datetime.py:510-525. -/
def isDayOfWeekInMonth (t : DateTime) (offset wd : Int) : Bool :=
  if t.dayOfWeek ≠ wd then false
  else if offset = 0 then true
  else t.compareDate (t.setDayOfWeekInMonth offset wd)

/-- `DateTime.setNextDayOfWeek`, datetime.py:496-508. -/
def setNextDayOfWeek (t : DateTime) (start wd : Int) : DateTime :=
  let t := { t with day := start }
  let firstDay := t.dayOfWeek
  let d := if firstDay > wd then t.day + 7 else t.day
  { t with day := d + (wd - firstDay) }.normalise

/-! ### Recurrence stepping -/

/-- `definitions.eRecurrence_*`, icalendar/definitions.py. -/
inductive Freq where
  | secondly | minutely | hourly | daily | weekly | monthly | yearly
deriving DecidableEq, Repr

/-- The month normalisation inside `recur`, datetime.py:719-726. -/
def addMonths (t : DateTime) (n : Int) : DateTime :=
  { t with month := (t.month + n - 1) % 12 + 1, year := t.year + (t.month + n - 1) / 12 }

/-- `DateTime.recur`, datetime.py:697-742.  The `while` loop at 730-732 follows a
`normalise()` and its condition `mDay > daysInMonth(...)` is then always false (theorem
`DateTime.recur_loop_dead`), so it is omitted. -/
def recur (t : DateTime) (freq : Freq) (interval : Int) (allowInvalid : Bool := false) : DateTime :=
  match freq with
  | .secondly => { t with seconds := t.seconds + interval }.normalise
  | .minutely => { t with minutes := t.minutes + interval }.normalise
  | .hourly => { t with hours := t.hours + interval }.normalise
  | .daily => { t with day := t.day + interval }.normalise
  | .weekly => { t with day := t.day + 7 * interval }.normalise
  | .monthly =>
    if allowInvalid then t.addMonths interval else (t.addMonths interval).normalise
  | .yearly =>
    if allowInvalid then { t with year := t.year + interval }
    else { t with year := t.year + interval }.normalise

end DateTime
end PyCal
