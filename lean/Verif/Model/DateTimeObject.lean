import Verif.Model.DateTime

/-!
# `DateTime` objects with their caches

`DateTime` objects carry three cache fields on top of the value fields of
`Verif.Model.DateTime`: `mTZOffset`, `mPosixTimeCached` and `mPosixTime`.
-/

namespace PyCal

/-- A `DateTime` object, `DateTime.__init__`, datetime.py:51-94: the value fields and the caches
(`mTZOffset`, `mPosixTimeCached`, `mPosixTime`). -/
structure Obj where
  dt : DateTime
  tzOff : Option Int := none
  posixCached : Bool := false
  posixTime : Int := 0
deriving DecidableEq, Repr

namespace Obj

/-- `DateTime.changed`, datetime.py:1115-1117. -/
def changed (o : Obj) : Obj := { o with posixCached := false, tzOff := none }

/-- A method that assigns fields and then always calls `changed()`, possibly through
`normalise()` (datetime.py:1097-1098). -/
def assign (o : Obj) (t : DateTime) : Obj := { o with dt := t }.changed

/-- A setter that does nothing if the new values equal the old ones, e.g. `setYear`,
datetime.py:263-266. -/
def assignIfNew (o : Obj) (t : DateTime) : Obj := if t = o.dt then o else o.assign t

/-- `DateTime.timeZoneSecondsOffset`, datetime.py:1103-1109: the result and the object after the
call. -/
def timeZoneSecondsOffset (env : DateTime.TzEnv) (o : Obj) (relativeToUtc : Bool) : Int × Obj :=
  if o.dt.utc then (0, o)
  else match o.tzOff with
    | some n => (n, o)
    | none => (o.dt.tzOffset env relativeToUtc,
        { o with tzOff := some (o.dt.tzOffset env relativeToUtc) })

/-- `DateTime.getPosixTime`, datetime.py:225-244: the result and the object after the call. -/
def getPosixTime (env : DateTime.TzEnv) (o : Obj) : Int × Obj :=
  if !o.posixCached || o.dt.floating then
    let r := o.timeZoneSecondsOffset env false
    let p := o.dt.secondsOfDay + o.dt.daysSince1970 * 86400 - r.1
    (p, { r.2 with posixCached := true, posixTime := p })
  else (o.posixTime, o)

/-- `DateTime.setTimezone`, datetime.py:620-623. -/
def setTimezone (o : Obj) (utc : Bool) (tzid : Option TzId) : Obj :=
  o.assign { o.dt with utc := utc, tzid := tzid }

/-- `DateTime.offsetSeconds`, datetime.py:588-590. -/
def offsetSeconds (o : Obj) (n : Int) : Obj := o.assign (o.dt.offsetSeconds n)

/-- `DateTime.adjustToUTC`, datetime.py:636-654. -/
def adjustToUTC (env : DateTime.TzEnv) (o : Obj) : Obj :=
  if o.dt.isLocal && !o.dt.dateOnly then
    let r := o.timeZoneSecondsOffset env false
    let o' := (r.2.setTimezone true none).offsetSeconds (-r.1)
    if o.posixCached then
      { o' with posixCached := true, posixTime := o.posixTime, tzOff := some 0 }
    else { o' with tzOff := some 0 }
  else o

/-- `DateTime.adjustTimezone`, datetime.py:625-634. -/
def adjustTimezone (env : DateTime.TzEnv) (o : Obj) (utc : Bool) (tzid : Option TzId) : Obj :=
  if utc ≠ o.dt.utc ∨ tzid ≠ o.dt.tzid then
    let o1 := if !o.dt.utc then o.adjustToUTC env else o
    let r := (o1.setTimezone utc tzid).timeZoneSecondsOffset env true
    r.2.offsetSeconds r.1
  else o

/-- A call of `DateTime.parse` (datetime.py:959-1004) that raises because the date is not followed
by `T`: `parseDate` has assigned the three date fields, `changed()` is not reached. -/
def parseFailing (o : Obj) (y m d : Int) : Obj :=
  { o with dt := { o.dt with year := y, month := m, day := d } }

end Obj

/-- The public methods of `DateTime` that change the object or use its caches. -/
inductive Op where
  /-- `setDateOnly`, datetime.py:249-251 -/
  | setDateOnly (b : Bool)
  /-- `setYYMMDD`, datetime.py:253-258 -/
  | setYYMMDD (y m d : Int)
  /-- `setYear`, datetime.py:263-266 -/
  | setYear (y : Int)
  /-- `setMonth`, datetime.py:275-278 -/
  | setMonth (m : Int)
  /-- `setDay`, datetime.py:287-290 -/
  | setDay (d : Int)
  /-- `setHHMMSS`, datetime.py:549-554 -/
  | setHHMMSS (h m s : Int)
  /-- `setHours`, datetime.py:559-562 -/
  | setHours (h : Int)
  /-- `setMinutes`, datetime.py:571-574 -/
  | setMinutes (m : Int)
  /-- `setSeconds`, datetime.py:583-586 -/
  | setSeconds (s : Int)
  /-- `offsetYear`, datetime.py:268-270 -/
  | offsetYear (n : Int)
  /-- `offsetMonth`, datetime.py:280-282 -/
  | offsetMonth (n : Int)
  /-- `offsetDay`, datetime.py:292-294 -/
  | offsetDay (n : Int)
  /-- `offsetHours`, datetime.py:564-566 -/
  | offsetHours (n : Int)
  /-- `offsetMinutes`, datetime.py:576-578 -/
  | offsetMinutes (n : Int)
  /-- `offsetSeconds`, datetime.py:588-590 -/
  | offsetSeconds (n : Int)
  /-- `setYearDay`, datetime.py:296-328 -/
  | setYearDay (n : Int) (allowInvalid : Bool)
  /-- `setMonthDay`, datetime.py:333-355 -/
  | setMonthDay (n : Int) (allowInvalid : Bool)
  /-- `setWeekNo`, datetime.py:365-398 -/
  | setWeekNo (n : Int)
  /-- `setDayOfWeekInYear`, datetime.py:441-465 -/
  | setDayOfWeekInYear (offset wd : Int)
  /-- `setDayOfWeekInMonth`, datetime.py:467-494 -/
  | setDayOfWeekInMonth (offset wd : Int) (allowInvalid : Bool)
  /-- `setNextDayOfWeek`, datetime.py:496-508 -/
  | setNextDayOfWeek (start wd : Int)
  /-- `recur`, datetime.py:697-742 -/
  | recur (freq : DateTime.Freq) (interval : Int) (allowInvalid : Bool)
  /-- `setTimezoneUTC`, datetime.py:595-598 -/
  | setTimezoneUTC (b : Bool)
  /-- `setTimezoneID`, datetime.py:603-606 -/
  | setTimezoneID (tzid : Option TzId)
  /-- `setTimezone`, datetime.py:620-623 -/
  | setTimezone (utc : Bool) (tzid : Option TzId)
  /-- `adjustTimezone`, datetime.py:625-634 -/
  | adjustTimezone (utc : Bool) (tzid : Option TzId)
  /-- `adjustToUTC`, datetime.py:636-654 -/
  | adjustToUTC
  /-- `getPosixTime`, datetime.py:225-244; also called by `__hash__` and, for operands of
  different zones, by `compareDateTime` and `__sub__` -/
  | getPosixTime
  /-- `timeZoneSecondsOffset`, datetime.py:1103-1109 -/
  | timeZoneSecondsOffset (relativeToUtc : Bool)
  /-- a successful `parse`, datetime.py:959-1004, leaving the given fields -/
  | parsed (t : DateTime)
  /-- `parse` raising after the date part, see `Obj.parseFailing` -/
  | parseFailing (y m d : Int)
  /-- `duplicate`, datetime.py:96-108, continuing with the copy (the caches are copied too) -/
  | duplicate
deriving Repr

namespace Obj

/-- The effect of one method call on the object. -/
def step (env : DateTime.TzEnv) (o : Obj) : Op → Obj
  | .setDateOnly b => o.assign { o.dt with dateOnly := b }
  | .setYYMMDD y m d => o.assignIfNew { o.dt with year := y, month := m, day := d }
  | .setYear y => o.assignIfNew { o.dt with year := y }
  | .setMonth m => o.assignIfNew { o.dt with month := m }
  | .setDay d => o.assignIfNew { o.dt with day := d }
  | .setHHMMSS h m s => o.assignIfNew { o.dt with hours := h, minutes := m, seconds := s }
  | .setHours h => o.assignIfNew { o.dt with hours := h }
  | .setMinutes m => o.assignIfNew { o.dt with minutes := m }
  | .setSeconds s => o.assignIfNew { o.dt with seconds := s }
  | .offsetYear n => o.assign (o.dt.offsetYear n)
  | .offsetMonth n => o.assign (o.dt.offsetMonth n)
  | .offsetDay n => o.assign (o.dt.offsetDay n)
  | .offsetHours n => o.assign (o.dt.offsetHours n)
  | .offsetMinutes n => o.assign (o.dt.offsetMinutes n)
  | .offsetSeconds n => o.offsetSeconds n
  | .setYearDay n b => o.assign (o.dt.setYearDay n b)
  | .setMonthDay n b => o.assign (o.dt.setMonthDay n b)
  | .setWeekNo n => if o.dt.weekNo = n then o else o.assign (o.dt.setWeekNo n)
  | .setDayOfWeekInYear n wd => o.assign (o.dt.setDayOfWeekInYear n wd)
  | .setDayOfWeekInMonth n wd b => o.assign (o.dt.setDayOfWeekInMonth n wd b)
  | .setNextDayOfWeek s wd => o.assign (o.dt.setNextDayOfWeek s wd)
  | .recur f n b => o.assign (o.dt.recur f n b)
  | .setTimezoneUTC b => o.assignIfNew { o.dt with utc := b }
  | .setTimezoneID z => o.assign { o.dt with utc := false, tzid := z }
  | .setTimezone u z => o.setTimezone u z
  | .adjustTimezone u z => o.adjustTimezone env u z
  | .adjustToUTC => o.adjustToUTC env
  | .getPosixTime => (o.getPosixTime env).2
  | .timeZoneSecondsOffset r => (o.timeZoneSecondsOffset env r).2
  | .parsed t => o.assign t
  | .parseFailing y m d => o.parseFailing y m d
  | .duplicate => o

/-- The object after a sequence of calls. -/
def run (env : DateTime.TzEnv) (o : Obj) (ops : List Op) : Obj := ops.foldl (step env) o

end Obj
end PyCal
