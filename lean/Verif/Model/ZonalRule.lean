import Verif.Model.DateTime
import Verif.Model.RecurrenceText

/-!
# Rules of the time zone data: `src/zonal/rule.py`

Failed assertions and other exceptions are `none`.
-/

namespace PyCal
namespace Zonal

/-- `Rule.__init__`, zonal/rule.py:167-176.  `kind` is `type`.  The cache is in `RuleObj`. -/
structure TzRule where
  name : List Char
  fromYear : List Char
  toYear : List Char
  kind : List Char
  inMonth : List Char
  onDay : List Char
  atTime : List Char
  saveTime : List Char
  letter : List Char
deriving DecidableEq, Repr

/-! ### Lines -/

/-- `line.expandtabs(1)`: every tab becomes one space. -/
def expandTabs (s : List Char) : List Char := s.map fun c => if c = '\t' then ' ' else c

/-- `[x for x in line.expandtabs(1).split(" ") if len(x) > 0]`, zonal/rule.py:208, zone.py:71, 329. -/
def fields (line : List Char) : List (List Char) :=
  (splitOn ' ' (expandTabs line)).filter (· ≠ [])

/-- `Rule.parse`, zonal/rule.py:199-218. -/
def TzRule.parse (line : List Char) : Option TzRule :=
  match fields line with
  | _ :: name :: fromY :: toY :: kind :: inMonth :: onDay :: atTime :: save :: letter :: _ =>
    some ⟨name, fromY, toY, kind, inMonth, onDay, atTime, save, letter⟩
  | _ => none

/-- `sep.join(items)`. -/
def joinFields (sep : Char) : List (List Char) → List Char
  | [] => []
  | [a] => a
  | a :: b :: r => a ++ sep :: joinFields sep (b :: r)

/-- `Rule.generate`, zonal/rule.py:220-239. -/
def TzRule.generate (r : TzRule) : List Char :=
  joinFields '\t' ["Rule".toList, r.name, r.fromYear, r.toYear, r.kind, r.inMonth, r.onDay, r.atTime,
    r.saveTime, r.letter]

/-! ### Names of days and months -/

/-- `DAY_NAME_TO_DAY`, zonal/rule.py:120-128: the place in this list. -/
def dayNames : List (List Char) :=
  ["Sun".toList, "Mon".toList, "Tue".toList, "Wed".toList, "Thu".toList, "Fri".toList, "Sat".toList]

/-- `MONTH_NAME_TO_POS`, zonal/rule.py:150-163: the place in this list, from 1. -/
def monthNames : List (List Char) :=
  ["Jan".toList, "Feb".toList, "Mar".toList, "Apr".toList, "May".toList, "Jun".toList, "Jul".toList,
   "Aug".toList, "Sep".toList, "Oct".toList, "Nov".toList, "Dec".toList]

/-- `DAY_NAME_TO_DAY[s]`. -/
def dayPos (s : List Char) : Option Int := (dayNames.idxOf? s).map fun n => (n : Int)

/-- `MONTH_NAME_TO_POS[s]`. -/
def monthPos (s : List Char) : Option Int := (monthNames.idxOf? s).map fun n => (n : Int) + 1

/-- `LASTDAY_NAME_TO_DAY.get(s)`, zonal/rule.py:110-118. -/
def lastDayPos : List Char → Option Int
  | 'l' :: 'a' :: 's' :: 't' :: s => dayPos s
  | _ => none

/-- `s.split(">=")`. -/
def splitGe : List Char → List (List Char)
  | [] => [[]]
  | '>' :: '=' :: r => [] :: splitGe r
  | c :: r =>
    match splitGe r with
    | [] => [[c]]
    | p :: ps => (c :: p) :: ps

/-- The forms of the day field. -/
inductive OnDay
  | last (wd : Int)
  | next (wd n : Int)
  | day (n : Int)
deriving DecidableEq, Repr

/-- How `datetimeForYear` reads the day field, zonal/rule.py:310-321.  (`vtimezone`, 485-547, reads it in
the same way, but a text with two `>=` is an exception there.) -/
def readOnDay (s : List Char) : Option OnDay :=
  match lastDayPos s with
  | some wd => some (.last wd)
  | none =>
    match splitGe s with
    | a :: b :: _ =>
      match dayPos a, pyInt b with
      | some wd, some n => some (.next wd n)
      | _, _ => none
    | _ => (pyInt s).map .day

/-! ### Times -/

/-- The time field in `datetimeForYear`, zonal/rule.py:288-300: hours, minutes and the mode letters. -/
def readAt (s : List Char) : Option (Int × Int × List Char) :=
  let mins (h m : List Char) :=
    if m.length > 2 then
      match pyInt h, pyInt (m.take 2) with
      | some h, some mi => some (h, mi, m.drop 2)
      | _, _ => none
    else
      match pyInt h, pyInt m with
      | some h, some mi => some (h, mi, [])
      | _, _ => none
  match splitOn ':' s with
  | [h] => mins h ['0']
  | [h, m] => mins h m
  | _ => none

/-- `Rule.getOffset`, zonal/rule.py:241-257: the saving in seconds. -/
def TzRule.getOffset (r : TzRule) : Option Int :=
  match splitOn ':' r.saveTime with
  | [] => none
  | h :: rest =>
    match pyInt h, (match rest with | [m] => pyInt m | _ => some 0) with
    | some hours, some minutes =>
      some (if hours < 0 then -((-hours * 60) + minutes) * 60 else ((hours * 60) + minutes) * 60)
    | _, _ => none

/-- `startYear`, zonal/rule.py:259-260. -/
def TzRule.startYear (r : TzRule) : Option Int := pyInt r.fromYear

/-- `endYear`, zonal/rule.py:262-268. -/
def TzRule.endYear (r : TzRule) : Option Int :=
  if r.toYear = "only".toList then r.startYear
  else if r.toYear = "max".toList then some 9999
  else pyInt r.toYear

/-- The first day of the month with the time set, zonal/rule.py:279-308. -/
def monthStart (year month hours minutes : Int) : DateTime :=
  if hours = 24 ∧ minutes = 0 then
    { year := year, month := month, day := 1, hours := 23, minutes := 59, seconds := 59 }
  else { year := year, month := month, day := 1, hours := hours, minutes := minutes, seconds := 0 }

/-- The day set, zonal/rule.py:310-321. -/
def setOnDay (dt : DateTime) : OnDay → DateTime
  | .last wd => dt.setDayOfWeekInMonth (-1) wd
  | .next wd n => dt.setNextDayOfWeek n wd
  | .day n => { dt with day := n }

/-- `datetimeForYear`, zonal/rule.py:270-323. -/
def TzRule.datetimeForYear (r : TzRule) (year : Int) : Option (DateTime × List Char) :=
  match monthPos r.inMonth, readAt r.atTime, readOnDay r.onDay with
  | some month, some (hours, minutes, special), some on =>
    some (setOnDay (monthStart year month hours minutes) on, special)
  | _, _, _ => none

/-! ### Expansion -/

/-- `zonal.utils.DateTime`, zonal/utils.py:18-26.  The mode `None` is the empty text. -/
structure TzTime where
  dt : DateTime
  mode : List Char
deriving DecidableEq, Repr

/-- `getUTC`, zonal/utils.py:42-50. -/
def TzTime.getUTC (t : TzTime) (offset stdoffset : Int) : DateTime :=
  if t.mode = ['u'] then t.dt
  else if t.mode = ['s'] then t.dt.offsetSeconds (-stdoffset)
  else t.dt.offsetSeconds (-offset)

/-- The years from `a` to `b`: `xrange(a, b + 1)`. -/
def yearsUpto (a b : Int) : List Int := (List.range (b + 1 - a).toNat).map fun (k : Nat) => a + k

/-- A rule and its `dt_cache`. -/
structure RuleObj where
  rule : TzRule
  cache : Option (List TzTime) := none
deriving DecidableEq, Repr

/-- `fullExpand`, zonal/rule.py:412-428.  (After an exception, which ends the conversion, the cache would
be left partly filled; it is not modelled then.) -/
def RuleObj.fullExpand (o : RuleObj) (maxYear : Int) : Option RuleObj :=
  match o.cache with
  | some _ => some o
  | none =>
    match o.rule.startYear, o.rule.endYear with
    | some start, some end_ =>
      match (yearsUpto start (if end_ > maxYear then maxYear - 1 else end_)).mapM
          o.rule.datetimeForYear with
      | some dts => some { o with cache := some (dts.map fun x => ⟨x.1, x.2⟩) }
      | none => none
    | _, _ => none

/-- `Rule.expand`, zonal/rule.py:391-410: the appended results, and the rule with its cache. -/
def RuleObj.expand (o : RuleObj) (zoneOffset maxYear : Int) :
    Option (List (TzTime × Int × TzRule) × RuleObj) :=
  match o.rule.startYear with
  | none => none
  | some start =>
    if start ≥ maxYear then some ([], o)
    else
      match o.fullExpand maxYear, o.rule.getOffset with
      | some o', some offset =>
        some ((o'.cache.getD []).map fun dt => (dt, zoneOffset + offset, o.rule), o')
      | _, _ => none

/-! ### Recurrence rules -/

/-- The parts of the recurrence rule that `vtimezone` writes, beside `FREQ=YEARLY`. -/
structure Parts where
  byMonth : List Int := []
  byDay : List (Int × Int) := []
  byMonthDay : List Int := []
  byYearDay : List Int := []
deriving DecidableEq, Repr

/-- The part of `getOnDayDetails` after the adjustment, zonal/rule.py:362-389. -/
def dayDetails (month year dayOfWeek offset : Int) : Int × Int × List Int :=
  if offset = 1 then (1, dayOfWeek, [])
  else if offset = 8 then (2, dayOfWeek, [])
  else if offset = 15 then (3, dayOfWeek, [])
  else if offset = 22 then (4, dayOfWeek, [])
  else
    let dim := daysInMonth month year
    if dim - offset = 6 then (-1, dayOfWeek, [])
    else if dim - offset = 13 then (-2, dayOfWeek, [])
    else if dim - offset = 20 then (-3, dayOfWeek, [])
    else (0, dayOfWeek, ((List.range 7).map fun (i : Nat) => offset + i).filter fun x => x ≤ dim)

/-- `getOnDayDetails`, zonal/rule.py:325-389: the number and weekday of BYDAY, and BYMONTHDAY. -/
def onDayDetails (start : DateTime) (indicatedDay indicatedOffset : Int) :
    Option (Int × Int × List Int) :=
  let dow := start.dayOfWeek
  if indicatedDay ≠ dow then
    let difference := dow - indicatedDay
    if difference = 1 ∨ difference = -6 then
      let month :=
        if start.day = 1 then (if start.month - 1 < 1 then 12 else start.month - 1) else start.month
      some (dayDetails month start.year dow (indicatedOffset + 1))
    else if difference = -1 ∨ difference = 6 then
      if indicatedOffset = 1 then none
      else some (dayDetails start.month start.year dow (indicatedOffset - 1))
    else if difference = -5 then some (dayDetails start.month start.year dow indicatedOffset)
    else none
  else some (dayDetails start.month start.year dow indicatedOffset)

/-- `daysBackStartOfMonth`, zonal/rule.py:505-507. -/
def daysBack : List Int := [365, 334, 306, 275, 245, 214, 184, 153, 122, 92, 61, 31, 0]

/-- BYMONTHDAY is only set if it is not empty, zonal/rule.py:498-500. -/
def detailParts (month : Int) (d : Int × Int × List Int) : Parts :=
  { byMonth := [month], byDay := [(d.1, d.2.1)], byMonthDay := d.2.2 }

/-- The choice of the parts, zonal/rule.py:484-547.  In the second form `dayoffset` is a string, so that
`dayoffset == 1` (525) is false. -/
def ruleParts (month : Int) (start : DateTime) : OnDay → Option Parts
  | .last ind =>
    let dow := start.dayOfWeek
    if dow = ind then some { byMonth := [month], byDay := [(-1, ind)] }
    else if dow < ind ∨ dow = 6 ∧ ind = 0 then
      (onDayDetails start ind (daysInMonth start.month start.year - 6)).map (detailParts month)
    else
      some { byYearDay := (List.range 7).map fun (i : Nat) => -((daysBack[month.toNat]?).getD 0 + i)
             byDay := [(0, (ind + 1) % 7)] }
  | .next ind n => (onDayDetails start ind n).map (detailParts month)
  | .day _ => some { byMonth := [month] }

end Zonal
end PyCal
