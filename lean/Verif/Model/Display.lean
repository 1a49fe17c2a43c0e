import Verif.Model.TimezoneText
import Verif.Model.DateTime

/-!
# `pycalendar.locale` and the display texts of `pycalendar.datetime.DateTime`

`none` is an exception, in texts with a time zone also "still running".
-/

namespace PyCal

/-- `l[i]` in Python: a negative index counts from the end. -/
def pyItem {α : Type} (l : List α) (i : Int) : Option α :=
  if 0 ≤ i then l[i.toNat]? else if -(l.length : Int) ≤ i then l[(l.length + i).toNat]? else none

namespace Locale

/-- `cLongDays`, locale.py:22. -/
def longDays : List String :=
  ["Sunday", "Monday", "Tuesday", "Wednesday", "Thursday", "Friday", "Saturday"]
/-- `cShortDays`, locale.py:24. -/
def shortDays : List String := ["Sun", "Mon", "Tue", "Wed", "Thu", "Fri", "Sat"]
/-- `cLongMonths`, locale.py:28-29. -/
def longMonths : List String :=
  ["", "January", "February", "March", "April", "May", "June", "July", "August", "September",
   "October", "November", "December"]
/-- `cShortMonths`, locale.py:31-32. -/
def shortMonths : List String :=
  ["", "Jan", "Feb", "Mar", "Apr", "May", "Jun", "Jul", "Aug", "Sep", "Oct", "Nov", "Dec"]

/-- `getDay`, locale.py:43-44, for LONG and SHORT (nothing asks for ABBREVIATED; all tables have the
same number of entries). -/
def getDay (day : Int) (long : Bool) : Option (List Char) :=
  (pyItem (if long then longDays else shortDays) day).map String.toList

/-- `getMonth`, locale.py:48-49, for LONG and SHORT. -/
def getMonth (month : Int) (long : Bool) : Option (List Char) :=
  (pyItem (if long then longMonths else shortMonths) month).map String.toList

end Locale

namespace DateTime

/-- The formats FULLDATE, ABBREVDATE, NUMERICDATE and those without a year, datetime.py:39-44. -/
inductive Format where
  | full | abbrev | numeric | fullNoYear | abbrevNoYear | numericNoYear
deriving DecidableEq, Repr

/-- `getMonthText`, datetime.py:536-544. -/
def monthText (t : DateTime) (short : Bool) : Option (List Char) :=
  if t.month < 1 ∨ t.month > 12 then some [] else Locale.getMonth t.month (!short)

/-- Day of the week, month and day, as in datetime.py:749-753, 757-761, 771-775, 777-781. -/
def dayText (t : DateTime) (long : Bool) : Option (List Char) :=
  (Locale.getDay t.dayOfWeek long).bind fun d =>
    (Locale.getMonth t.month long).map fun m => d ++ ", ".toList ++ m ++ " ".toList ++ decInt t.day

/-- `getLocaleDate`, datetime.py:744-787. -/
def localeDate (f : Format) (t : DateTime) : Option (List Char) :=
  match f with
  | .full => (t.dayText true).map fun s => s ++ ", ".toList ++ decInt t.year
  | .abbrev => (t.dayText false).map fun s => s ++ ", ".toList ++ decInt t.year
  | .numeric => some (decInt t.month ++ "/".toList ++ decInt t.day ++ "/".toList ++ decInt t.year)
  | .fullNoYear => t.dayText true
  | .abbrevNoYear => t.dayText false
  | .numericNoYear => some (decInt t.month ++ "/".toList ++ decInt t.day)

/-- A number with a leading zero if below 10, datetime.py:805-807, 816-818. -/
def zeroText (n : Int) : List Char := (if n < 10 then ['0'] else []) ++ decInt n

/-- Minutes and seconds, datetime.py:804-812, 819-827. -/
def minuteText (t : DateTime) (withSeconds : Bool) : List Char :=
  ":".toList ++ zeroText t.minutes ++
    (if withSeconds then ":".toList ++ zeroText t.seconds else [])

/-- `getTime` without the time zone, datetime.py:789-827. -/
def clockText (t : DateTime) (withSeconds amPm : Bool) : List Char :=
  if amPm then
    let h := if t.hours ≥ 12 then t.hours - 12 else t.hours
    let am := decide (¬ t.hours ≥ 12)
    let h := if h = 0 then 12 else h
    decInt h ++ t.minuteText withSeconds ++ (if !am then " PM".toList else " AM".toList)
  else zeroText t.hours ++ t.minuteText withSeconds

/-- `getTime`, datetime.py:789-835; `desc` is the text of `timeZoneDescriptor` when it is asked
for. -/
def getTimeText (t : DateTime) (withSeconds amPm : Bool) (desc : Option (List Char)) : List Char :=
  t.clockText withSeconds amPm ++
    match desc with
    | none => []
    | some d => if d.length > 0 then ' ' :: d else []

/-- `getLocaleDateTime`, datetime.py:837-838. -/
def localeDateTime (f : Format) (t : DateTime) (withSeconds amPm : Bool)
    (desc : Option (List Char)) : Option (List Char) :=
  (t.localeDate f).map fun s => s ++ " ".toList ++ t.getTimeText withSeconds amPm desc

end DateTime
end PyCal
