import Verif.Model.Period
import Mathlib.Data.List.Sort

/-!
# `pycalendar.icalendar.recurrence.Recurrence`: expansion

Loops that need not terminate (a rule can step forever) take a number of iterations `fuel`;
`none` means "still running after that many iterations".
-/

namespace PyCal

open DateTime (TzEnv Freq)

/-- `Recurrence` without its cache, `init_Recurrence`, recurrence.py:146-175.  The BYxxx lists are
`None` or lists in Python; every use treats `None` and `[]` alike, so both are `[]` here.
`byDay` holds pairs (number, weekday). -/
structure Rule where
  freq : Freq := .yearly
  useCount : Bool := false
  count : Int := 0
  useUntil : Bool := false
  untilDate : Option DateTime := none
  interval : Int := 1
  bySeconds : List Int := []
  byMinutes : List Int := []
  byHours : List Int := []
  byDay : List (Int × Int) := []
  byMonthDay : List Int := []
  byYearDay : List Int := []
  byWeekNo : List Int := []
  byMonth : List Int := []
  bySetPos : List Int := []
  weekStart : Int := 1
deriving DecidableEq, Repr

namespace Rule

/-- `Recurrence.hasBy`, recurrence.py:757-768. -/
def hasBy (r : Rule) : Bool :=
  !r.bySeconds.isEmpty || !r.byMinutes.isEmpty || !r.byHours.isEmpty || !r.byDay.isEmpty ||
  !r.byMonthDay.isEmpty || !r.byYearDay.isEmpty || !r.byWeekNo.isEmpty || !r.byMonth.isEmpty ||
  !r.bySetPos.isEmpty

/-! ### BYxxx used as expansion -/

/-- The double loop shared by `byMonthExpand`, `byWeekNoExpand`, `byYearDayExpand`,
`byMonthDayExpand`, `byHourExpand`, `byMinuteExpand`, `bySecondExpand`: for every date and every
value append one new date; recurrence.py:1372-1422, 1499-1536. -/
def expandWith {β : Type} (f : DateTime → β → List DateTime) (vals : List β)
    (dates : List DateTime) : List DateTime :=
  dates.foldl (fun out d => vals.foldl (fun out v => out ++ f d v) out) []

/-- `byMonthExpand`, recurrence.py:1372-1383. -/
def byMonthExpand (r : Rule) (dates : List DateTime) : List DateTime :=
  expandWith (fun d v => [{ d with month := v }]) r.byMonth dates

/-- `byWeekNoExpand`, recurrence.py:1385-1396. -/
def byWeekNoExpand (r : Rule) (dates : List DateTime) : List DateTime :=
  expandWith (fun d v => [d.setWeekNo v]) r.byWeekNo dates

/-- `byYearDayExpand`, recurrence.py:1398-1409. -/
def byYearDayExpand (r : Rule) (dates : List DateTime) : List DateTime :=
  expandWith (fun d v => [d.setYearDay v true]) r.byYearDay dates

/-- `byMonthDayExpand`, recurrence.py:1411-1422. -/
def byMonthDayExpand (r : Rule) (dates : List DateTime) : List DateTime :=
  expandWith (fun d v => [d.setMonthDay v true]) r.byMonthDay dates

/-- `byDayExpandYearly`, recurrence.py:1424-1444. -/
def byDayExpandYearly (r : Rule) (dates : List DateTime) : List DateTime :=
  expandWith (fun d v =>
    if v.1 ≠ 0 then [d.setDayOfWeekInYear v.1 v.2]
    else ((List.range 53).map fun (i : Nat) => d.setDayOfWeekInYear (i + 1) v.2).filter
      fun t => decide (t.year = d.year)) r.byDay dates

/-- `byDayExpandMonthly`, recurrence.py:1446-1466. -/
def byDayExpandMonthly (r : Rule) (dates : List DateTime) : List DateTime :=
  expandWith (fun d v =>
    if v.1 ≠ 0 then [d.setDayOfWeekInMonth v.1 v.2 true]
    else ((List.range 6).map fun (i : Nat) => d.setDayOfWeekInMonth (i + 1) v.2 true).filter
      fun t => decide (t.month = d.month)) r.byDay dates

/-- `byDayExpandWeekly`, recurrence.py:1468-1497. -/
def byDayExpandWeekly (r : Rule) (dates : List DateTime) : List DateTime :=
  expandWith (fun d v =>
    if v.1 = 0 then
      let w := r.weekStart - d.dayOfWeek
      let w := if w > 0 then w - 7 else w
      let o := v.2 - r.weekStart
      let o := if o < 0 then o + 7 else o
      [d.offsetDay (w + o)]
    else []) r.byDay dates

/-- `byHourExpand`, recurrence.py:1499-1510. -/
def byHourExpand (r : Rule) (dates : List DateTime) : List DateTime :=
  expandWith (fun d v => [{ d with hours := v }]) r.byHours dates

/-- `byMinuteExpand`, recurrence.py:1512-1523. -/
def byMinuteExpand (r : Rule) (dates : List DateTime) : List DateTime :=
  expandWith (fun d v => [{ d with minutes := v }]) r.byMinutes dates

/-- `bySecondExpand`, recurrence.py:1525-1536. -/
def bySecondExpand (r : Rule) (dates : List DateTime) : List DateTime :=
  expandWith (fun d v => [{ d with seconds := v }]) r.bySeconds dates

/-! ### BYxxx used as limit -/

/-- The inner loop of the `by...Limit` methods: `keep = False; for v in vals: keep = test; if keep:
break`. -/
def keepLoop {β : Type} (test : β → Bool) : List β → Bool
  | [] => false
  | v :: vs => if test v then true else keepLoop test vs

/-- The outer loop of the `by...Limit` methods, recurrence.py:1538-1649. -/
def limitWith {β : Type} (test : DateTime → β → Bool) (vals : List β) (dates : List DateTime) :
    List DateTime :=
  dates.foldl (fun out d => if keepLoop (test d) vals then out ++ [d] else out) []

/-- `byMonthLimit`, recurrence.py:1538-1552. -/
def byMonthLimit (r : Rule) (dates : List DateTime) : List DateTime :=
  limitWith (fun d v => decide (d.month = v)) r.byMonth dates

/-- `byWeekNoLimit`, recurrence.py:1554-1568. -/
def byWeekNoLimit (r : Rule) (dates : List DateTime) : List DateTime :=
  limitWith (fun d v => d.isWeekNo v) r.byWeekNo dates

/-- `byMonthDayLimit`, recurrence.py:1570-1585. -/
def byMonthDayLimit (r : Rule) (dates : List DateTime) : List DateTime :=
  limitWith (fun d v => d.isMonthDay v) r.byMonthDay dates

/-- `byDayLimit`, recurrence.py:1587-1601. -/
def byDayLimit (r : Rule) (dates : List DateTime) : List DateTime :=
  limitWith (fun d v => d.isDayOfWeekInMonth v.1 v.2) r.byDay dates

/-- `byHourLimit`, recurrence.py:1603-1617. -/
def byHourLimit (r : Rule) (dates : List DateTime) : List DateTime :=
  limitWith (fun d v => decide (d.hours = v)) r.byHours dates

/-- `byMinuteLimit`, recurrence.py:1619-1633. -/
def byMinuteLimit (r : Rule) (dates : List DateTime) : List DateTime :=
  limitWith (fun d v => decide (d.minutes = v)) r.byMinutes dates

/-- `bySecondLimit`, recurrence.py:1635-1649. -/
def bySecondLimit (r : Rule) (dates : List DateTime) : List DateTime :=
  limitWith (fun d v => decide (d.seconds = v)) r.bySeconds dates

/-- `list.sort(key=lambda x: x.getPosixTime())`: Python's sort is stable, as is insertion sort. -/
def sortByPosix (env : TzEnv) (dates : List DateTime) : List DateTime :=
  dates.insertionSort fun a b => a.posix env ≤ b.posix env

/-- One round of the loop in `bySetPosLimit`, recurrence.py:1660-1668, on the sorted dates. -/
def pickPos (dates : List DateTime) (pos : Int) : List DateTime :=
  if pos > 0 then
    if pos ≤ dates.length then (dates[(pos - 1).toNat]?).toList else []
  else if pos < 0 then
    if -pos ≤ dates.length then (dates[(dates.length + pos).toNat]?).toList else []
  else []

/-- `bySetPosLimit`, recurrence.py:1651-1670. -/
def bySetPosLimit (env : TzEnv) (r : Rule) (dates : List DateTime) : List DateTime :=
  r.bySetPos.foldl (fun out pos => out ++ pickPos (sortByPosix env dates) pos) []

/-! ### Candidate sets -/

/-- `if (part is not None) and (len(part) != 0): items[:] = f(items)`. -/
def part {β : Type} (vals : List β) (f : List DateTime → List DateTime) (items : List DateTime) :
    List DateTime :=
  if vals.isEmpty then items else f items

/-- The common tail of the `generate...Set` methods: remove invalid dates, then BYSETPOS;
e.g. recurrence.py:1093-1097. -/
def finishSet (env : TzEnv) (r : Rule) (items : List DateTime) : List DateTime :=
  part r.bySetPos (r.bySetPosLimit env) (items.filter fun t => !t.invalid)

/-- `generateYearlySet`, recurrence.py:1048-1096. -/
def yearlySet (env : TzEnv) (r : Rule) (start : DateTime) : List DateTime :=
  let items := [start]
  let items := part r.byMonth r.byMonthExpand items
  let items := part r.byWeekNo r.byWeekNoExpand items
  let items := part r.byYearDay r.byYearDayExpand items
  let items := part r.byMonthDay r.byMonthDayExpand items
  let items := part r.byDay (fun items =>
    if !r.byYearDay.isEmpty || !r.byMonthDay.isEmpty then r.byDayLimit items
    else if !r.byWeekNo.isEmpty then r.byDayExpandWeekly items
    else if !r.byMonth.isEmpty then r.byDayExpandMonthly items
    else r.byDayExpandYearly items) items
  let items := part r.byHours r.byHourExpand items
  let items := part r.byMinutes r.byMinuteExpand items
  let items := part r.bySeconds r.bySecondExpand items
  r.finishSet env items

/-- `generateMonthlySet`, recurrence.py:1098-1143.  The early `return` on an empty list is the
same as going on: every step maps the empty list to the empty list (`monthlySet` and the ones
below leave it out). -/
def monthlySet (env : TzEnv) (r : Rule) (start : DateTime) : List DateTime :=
  let items := [start]
  let items := part r.byMonth r.byMonthLimit items
  let items := part r.byMonthDay r.byMonthDayExpand items
  let items := part r.byDay (fun items =>
    if !r.byYearDay.isEmpty || !r.byMonthDay.isEmpty then r.byDayLimit items
    else r.byDayExpandMonthly items) items
  let items := part r.byHours r.byHourExpand items
  let items := part r.byMinutes r.byMinuteExpand items
  let items := part r.bySeconds r.bySecondExpand items
  r.finishSet env items

/-- `generateWeeklySet`, recurrence.py:1145-1182. -/
def weeklySet (env : TzEnv) (r : Rule) (start : DateTime) : List DateTime :=
  let items := [start]
  let items := part r.byMonth r.byMonthLimit items
  let items := part r.byWeekNo r.byWeekNoLimit items
  let items := part r.byDay r.byDayExpandWeekly items
  let items := part r.byHours r.byHourExpand items
  let items := part r.byMinutes r.byMinuteExpand items
  let items := part r.bySeconds r.bySecondExpand items
  r.finishSet env items

/-- The limits BYMONTH, BYWEEKNO, BYMONTHDAY, BYDAY at the start of `generateDailySet`,
`generateHourlySet`, `generateMinutelySet`, `generateSecondlySet`, e.g.
recurrence.py:1187-1211. -/
def dayLimits (r : Rule) (start : DateTime) : List DateTime :=
  let items := [start]
  let items := part r.byMonth r.byMonthLimit items
  let items := part r.byWeekNo r.byWeekNoLimit items
  let items := part r.byMonthDay r.byMonthDayLimit items
  part r.byDay r.byDayLimit items

/-- `generateDailySet`, recurrence.py:1184-1226. -/
def dailySet (env : TzEnv) (r : Rule) (start : DateTime) : List DateTime :=
  let items := r.dayLimits start
  let items := part r.byHours r.byHourExpand items
  let items := part r.byMinutes r.byMinuteExpand items
  let items := part r.bySeconds r.bySecondExpand items
  r.finishSet env items

/-- `generateHourlySet`, recurrence.py:1228-1272. -/
def hourlySet (env : TzEnv) (r : Rule) (start : DateTime) : List DateTime :=
  let items := r.dayLimits start
  let items := part r.byHours r.byHourLimit items
  let items := part r.byMinutes r.byMinuteExpand items
  let items := part r.bySeconds r.bySecondExpand items
  r.finishSet env items

/-- `generateMinutelySet`, recurrence.py:1274-1320. -/
def minutelySet (env : TzEnv) (r : Rule) (start : DateTime) : List DateTime :=
  let items := r.dayLimits start
  let items := part r.byHours r.byHourLimit items
  let items := part r.byMinutes r.byMinuteLimit items
  let items := part r.bySeconds r.bySecondExpand items
  r.finishSet env items

/-- `generateSecondlySet`, recurrence.py:1322-1370. -/
def secondlySet (env : TzEnv) (r : Rule) (start : DateTime) : List DateTime :=
  let items := r.dayLimits start
  let items := part r.byHours r.byHourLimit items
  let items := part r.byMinutes r.byMinuteLimit items
  let items := part r.bySeconds r.bySecondLimit items
  r.finishSet env items

/-- The dispatch on the frequency in `complexExpand`, recurrence.py:940-959. -/
def candidates (env : TzEnv) (r : Rule) (start : DateTime) : List DateTime :=
  match r.freq with
  | .secondly => r.secondlySet env start
  | .minutely => r.minutelySet env start
  | .hourly => r.hourlySet env start
  | .daily => r.dailySet env start
  | .weekly => r.weeklySet env start
  | .monthly => r.monthlySet env start
  | .yearly => r.yearlySet env start

/-! ### The expansion loops -/

/-- What an expansion leaves behind: the list it filled and whether it is complete, or
`TooManyInstancesError` and the list filled so far. -/
inductive Outcome where
  | done (items : List DateTime) (full : Bool)
  | tooMany (items : List DateTime)
deriving DecidableEq, Repr

/-- `if maxInstances and len(items) > maxInstances`, recurrence.py:899, 988. -/
def exceeds (maxInstances : Option Int) (items : List DateTime) : Bool :=
  match maxInstances with
  | none => false
  | some m => decide (m ≠ 0) && decide ((items.length : Int) > m)

/-- One step of the iteration: `start_iter.recur(self.mFreq, self.mInterval, allow_invalid=True)`,
recurrence.py:903, 1009. -/
def step (r : Rule) (t : DateTime) : DateTime := t.recur r.freq r.interval true

/-- The next valid date: one `recur`, then more of them while `invalid()`,
recurrence.py:903-905. -/
def nextValid (r : Rule) : Nat → DateTime → Option DateTime
  | 0, _ => none
  | n + 1, t => if (r.step t).invalid then r.nextValid n (r.step t) else some (r.step t)

/-- The limit `float_until`, recurrence.py:886-890 (`setTimezoneID(0)`) and 924-928
(`setTimezoneID(None)`): the UNTIL value, made floating and shifted by `float_offset` if the start
is floating.  `none` when UNTIL is not used (`mUseUntil` without `mUntil`, on which Python raises
`AttributeError`, is treated as no limit). -/
def untilLimit (r : Rule) (start : DateTime) (floatOffset : Int) (tzid : Option TzId) :
    Option DateTime :=
  if r.useUntil then
    r.untilDate.map fun u =>
      if start.floating then
        ({ u with utc := false, tzid := tzid } : DateTime).offsetSeconds floatOffset
      else u
  else none

/-- Whether the iteration has gone past the UNTIL limit. -/
def pastUntil (env : TzEnv) (limit : Option DateTime) (t : DateTime) : Bool :=
  match limit with
  | none => false
  | some u => t.gt env u

/-- The loop of `simpleExpand`, recurrence.py:892-917. -/
def simpleLoop (env : TzEnv) (r : Rule) (limit : Option DateTime) (range : Period)
    (maxInstances : Option Int) : Nat → DateTime → Int → List DateTime → Option Outcome
  | 0, _, _, _ => none
  | n + 1, t, ctr, items =>
    if range.isDateAfter env t then some (.done items false)
    else if exceeds maxInstances (items ++ [t]) then some (.tooMany (items ++ [t]))
    else match r.nextValid n t with
      | none => none
      | some t' =>
        if r.useCount then
          if ctr + 1 ≥ r.count then some (.done (items ++ [t]) true)
          else simpleLoop env r limit range maxInstances n t' (ctr + 1) (items ++ [t])
        else if pastUntil env limit t' then some (.done (items ++ [t]) true)
        else simpleLoop env r limit range maxInstances n t' ctr (items ++ [t])

/-- `simpleExpand`, recurrence.py:882-917. -/
def simpleExpand (env : TzEnv) (r : Rule) (fuel : Nat) (start : DateTime) (range : Period)
    (floatOffset : Int) (maxInstances : Option Int) : Option Outcome :=
  simpleLoop env r (r.untilLimit start floatOffset (some (.fixed 0))) range maxInstances fuel
    start 0 []

/-- How the inner `for` loop of `complexExpand` ends: it falls through, or `return`s / raises. -/
inductive SetResult where
  | next (ctr : Int) (items : List DateTime)
  | stop (o : Outcome)

/-- The inner loop of `complexExpand` over one sorted candidate set, recurrence.py:966-1002. -/
def setLoop (env : TzEnv) (r : Rule) (limit : Option DateTime) (start : DateTime) (range : Period)
    (maxInstances : Option Int) : List DateTime → Int → List DateTime → SetResult
  | [], ctr, items => .next ctr items
  | t :: ts, ctr, items =>
    if t.lt env start then setLoop env r limit start range maxInstances ts ctr items
    else if range.isDateAfter env t then .stop (.done items false)
    else if pastUntil env limit t then .stop (.done items true)
    else if decide (ctr = 1) && start.eq env t then
      setLoop env r limit start range maxInstances ts ctr items
    else if exceeds maxInstances (items ++ [t]) then .stop (.tooMany (items ++ [t]))
    else if r.useCount then
      if ctr + 1 ≥ r.count then .stop (.done (items ++ [t]) true)
      else setLoop env r limit start range maxInstances ts (ctr + 1) (items ++ [t])
    else setLoop env r limit start range maxInstances ts ctr (items ++ [t])

/-- The outer loop of `complexExpand`, recurrence.py:936-1009. -/
def complexLoop (env : TzEnv) (r : Rule) (limit : Option DateTime) (start : DateTime)
    (range : Period) (maxInstances : Option Int) :
    Nat → DateTime → Int → List DateTime → Option Outcome
  | 0, _, _, _ => none
  | n + 1, t, ctr, items =>
    match setLoop env r limit start range maxInstances (sortByPosix env (r.candidates env t))
        ctr items with
    | .stop o => some o
    | .next ctr' items' =>
      if range.isDateAfter env t then some (.done items' false)
      else complexLoop env r limit start range maxInstances n (r.step t) ctr' items'

/-- `complexExpand`, recurrence.py:919-1009. -/
def complexExpand (env : TzEnv) (r : Rule) (fuel : Nat) (start : DateTime) (range : Period)
    (floatOffset : Int) (maxInstances : Option Int) : Option Outcome :=
  if r.useCount && decide (1 ≥ r.count) then some (.done [] true)
  else complexLoop env r (r.untilLimit start floatOffset none) start range maxInstances fuel start
    (if r.useCount then 1 else 0) []

/-- The choice between the two expansions, recurrence.py:862-866. -/
def expandRaw (env : TzEnv) (r : Rule) (fuel : Nat) (start : DateTime) (range : Period)
    (floatOffset : Int) (maxInstances : Option Int) : Option Outcome :=
  if !r.hasBy then r.simpleExpand env fuel start range floatOffset maxInstances
  else r.complexExpand env fuel start range floatOffset maxInstances

/-! ### `expand` and its cache -/

/-- The cache fields of a `Recurrence`, recurrence.py:166-170.  `mRecurrences = None` is `[]`. -/
structure Cache where
  cached : Bool := false
  start : Option DateTime := none
  upto : Option DateTime := none
  full : Bool := false
  items : List DateTime := []
deriving DecidableEq, Repr

/-- What a call of `expand` gives the caller: the dates and the `limited` flag, or
`TooManyInstancesError`. -/
inductive Answer where
  | dates (items : List DateTime) (limited : Bool)
  | tooMany
deriving DecidableEq, Repr

/-- `start != self.mCacheStart`, recurrence.py:849; `None` equals nothing
(`DateTime.compareDateTime(None)` is 1, datetime.py:192-193). -/
def startDiffers (env : TzEnv) (start : DateTime) : Option DateTime → Bool
  | none => true
  | some s => !start.eq env s

/-- `self.mCacheUpto is None or self.mCacheUpto < range.getEnd()`, recurrence.py:856. -/
def tooShort (env : TzEnv) (range : Period) : Option DateTime → Bool
  | none => true
  | some u => u.lt env range.stop

/-- The returned part of the recurrence list, recurrence.py:871-878: the dates in the range;
`limited` if the list is not complete or something was left out. -/
def answer (env : TzEnv) (range : Period) (c : Cache) : Answer :=
  .dates (c.items.filter fun t => range.isDateWithin env t)
    (!c.full || c.items.any fun t => !range.isDateWithin env t)

/-- `expand`, recurrence.py:838-880: the answer and the new cache.  `start` is normalised in
place first.  When the expansion raises, the list filled so far stays in `mRecurrences` while the
other cache fields keep their values. -/
def expand (env : TzEnv) (r : Rule) (fuel : Nat) (c : Cache) (start : DateTime) (range : Period)
    (floatOffset : Int := 0) (maxInstances : Option Int := none) : Option (Answer × Cache) :=
  let start := start.normalise
  let c := if c.cached && startDiffers env start c.start then
    { c with cached := false, full := false } else c
  if !c.cached || !c.full && tooShort env range c.upto then
    match r.expandRaw env fuel start range floatOffset maxInstances with
    | none => none
    | some (.tooMany items) => some (.tooMany, { c with items := items })
    | some (.done items full) =>
      let c' : Cache :=
        { cached := true, start := some start, upto := some range.stop, full := full, items := items }
      some (answer env range c', c')
  else some (answer env range c, c)

/-- `clear`, recurrence.py:1011-1015. -/
def Cache.clear (c : Cache) : Cache := { c with cached := false, full := false, items := [] }

end Rule
end PyCal
