import Verif.Model.RecurrenceText
import Verif.Model.Escape

/-!
# `pycalendar.icalendar.recurrence.Recurrence`: jCal form

The value of a rule in jCal is an object.  Its members are a list here, in the order in which the
dictionary is gone through.
-/

namespace PyCal

/-- A number or a text in JSON.  Floating point numbers, `null` and the like are left out. -/
inductive JItem where
  | num (n : Int)
  | str (s : List Char)
deriving DecidableEq, Repr

/-- The value of a member: one item or an array of them. -/
inductive JVal where
  | one (i : JItem)
  | many (l : List JItem)
deriving DecidableEq, Repr

/-- `str(x)`.  (Texts that are not ASCII, for which it raises, are not told apart; they are not
accepted by `parse` either.) -/
def JItem.text : JItem → List Char
  | .num n => decInt n
  | .str s => s

namespace Rule

/-- The members that may be arrays, recurrence.py:694-698. -/
def listNames : List (List Char) :=
  ["bysecond".toList, "byminute".toList, "byhour".toList, "bymonthday".toList, "byyearday".toList,
   "byweekno".toList, "bymonth".toList, "bysetpos".toList, "byday".toList]

/-- The text for the value of a member, recurrence.py:694-703.  `none`: a number for `until` has no
`replace`, and an array elsewhere becomes a text in brackets that `parse` rejects. -/
def memberValue (name : List Char) (v : JVal) : Option (List Char) :=
  match v with
  | .many l => if name ∈ listNames then some (commaSep (l.map JItem.text)) else none
  | .one i =>
    if name = "until".toList then
      match i with
      | .str s => some (s.filter fun c => c ≠ '-' && c ≠ ':')
      | .num _ => none
    else some i.text

/-- `"%s=%s" % (name.upper(), value)`, recurrence.py:703.  Of letters only those of ASCII change. -/
def memberText (m : List Char × JVal) : Option (List Char) :=
  (memberValue m.1 m.2).map fun v => m.1.map Char.toUpper ++ '=' :: v

/-- `parseJSON`, recurrence.py:686-704; `none` is an exception. -/
def parseJSON (sr : Bool) (ms : List (List Char × JVal)) : Option Rule :=
  (ms.mapM memberText).bind fun items => parse sr (joinSep ';' items)

/-- A list of numbers is written if it is neither `None` nor empty, recurrence.py:725-752. -/
def numMember (name : List Char) (l : List Int) : List (List Char × JVal) :=
  if l = [] then [] else [(name, .many (l.map .num))]

/-- COUNT or UNTIL, recurrence.py:715-718; `none`: `mUseUntil` without `mUntil` raises. -/
def limitMember (r : Rule) : Option (List (List Char × JVal)) :=
  if r.useCount then some [("count".toList, .one (.num r.count))]
  else if r.useUntil then r.untilDate.map fun t => [("until".toList, .one (.str t.getXMLText))]
  else some []

/-- `writeJSON`, recurrence.py:706-758: the members of the dictionary.  The names are in
icalendar/xmldefinitions.py:25-48; `cFreqToXMLMap` (58-66) has the same words as `generate`, and
`cWeekdayRecurMap` (97) is `cWeekdayMap` the other way round, with "MO" for other numbers in `wkst`. -/
def writeJSON (r : Rule) : Option (List (List Char × JVal)) :=
  r.limitMember.map fun limit =>
    ("freq".toList, .one (.str (freqText r.freq))) :: (limit ++
    (if r.interval > 1 then [("interval".toList, .one (.num r.interval))] else []) ++
    numMember "bysecond".toList r.bySeconds ++
    numMember "byminute".toList r.byMinutes ++
    numMember "byhour".toList r.byHours ++
    (if r.byDay = [] then [] else
      [("byday".toList, .many (r.byDay.map fun v => .str (dayText v)))]) ++
    numMember "bymonthday".toList r.byMonthDay ++
    numMember "byyearday".toList r.byYearDay ++
    numMember "byweekno".toList r.byWeekNo ++
    numMember "bymonth".toList r.byMonth ++
    numMember "bysetpos".toList r.bySetPos ++
    (if r.weekStart ≠ 1 then
      [("wkst".toList, .one (.str
        (if weekdayText r.weekStart = [] then ['M','O'] else weekdayText r.weekStart)))]
      else []))

end Rule
end PyCal
