import Verif.Model.Container
import Verif.Model.PropertyJSON
import Verif.Model.PeriodObject

/-!
# xCal: the XML form

The `writeXML` methods of values (value.py and the classes derived from it), of recurrence rules
(icalendar/recurrence.py), parameters (parameter.py), properties (property.py) and components
(componentbase.py, icalendar/calendar.py).  They build a tree with `xml.etree`; how that library and
`xmlutils.toString` make a text of it is not modelled.  All elements are in one namespace.
-/

namespace PyCal
namespace XCal
open PropText ValueType

/-- `element.text`: `None`, a string, or a floating point number (`s` is its `str`). -/
inductive XText where
  | none
  | str (s : List Char)
  | float (s : List Char)
deriving DecidableEq, Repr

/-- An element: its tag, text and children. -/
inductive Xml where
  | elem (tag : List Char) (text : XText) (children : List Xml)
deriving Repr

/-- The name in `makeTag`, xmlutils.py:20-21. -/
def makeTag (name : List Char) : List Char := PropJSON.lower name

/-- An element with only a text. -/
def leaf (tag : String) (s : List Char) : Xml := .elem tag.toList (.str s) []

/-- A value: a text of a class derived from `PlainTextValue` with its type, an `IntegerValue`, a
`FloatValue` (by the `str` of its number), a `UTCOffsetValue`, a `RequestStatusValue`, a `GeoValue` (by the
`str` of its numbers), or the wrapped recurrence, date-time, duration or period. -/
inductive XVal where
  | plain (t : VType) (s : List Char)
  | int (n : Int)
  | float (s : List Char)
  | offset (n : Int)
  | status (l : List (List Char))
  | geo (lat lon : List Char)
  | recur (r : Rule)
  | date (t : DateTime)
  | duration (d : Duration)
  | period (p : PeriodObj)

/-- `Value._xmlMap` (value.py:67-71) as filled by the `registerType` calls (geovalue.py:85,
icalendar/requeststatusvalue.py:108, vcard/orgvalue.py:55 and so on; the names are in xmldefinitions.py:25-37
and icalendar/xmldefinitions.py:23, 54).  `none`: the entry is `None`, which has no `lower`, or there is no
entry; both raise. -/
def xmlName (t : VType) : Option String :=
  match t with
  | .adr | .n | .org | .requestStatus | .boolean | .time | .vcard => none
  | .binary => some "binary"
  | .calAddress => some "cal-address"
  | .date => some "date"
  | .dateTime => some "date-time"
  | .duration => some "duration"
  | .float => some "float"
  | .geo => some "geo"
  | .integer => some "integer"
  | .period => some "period"
  | .recur => some "recur"
  | .text => some "text"
  | .unknown => some "unknown"
  | .uri => some "uri"
  | .utcOffset => some "utc-offset"

/-- `DateTime.writeXML`, datetime.py:1012-1020. -/
def dateElem (t : DateTime) : Xml := leaf (if t.dateOnly then "date" else "date-time") t.getXMLText

/-- `writeXMLList`, recurrence.py:680-684. -/
def numElems (name : String) (l : List Int) : List Xml := l.map fun n => leaf name (decInt n)

/-- COUNT or UNTIL, recurrence.py:645-650; `none`: `mUseUntil` without `mUntil` raises. -/
def limitElems (r : Rule) : Option (List Xml) :=
  if r.useCount then some [leaf "count" (decInt r.count)]
  else if r.useUntil then r.untilDate.map fun t => [.elem "until".toList .none [dateElem t]]
  else some []

/-- `Recurrence.writeXML`, recurrence.py:638-678; the names are in icalendar/xmldefinitions.py:23-48. -/
def recurElem (r : Rule) : Option Xml :=
  (limitElems r).map fun limit => .elem "recur".toList .none
    (leaf "freq" (Rule.freqText r.freq) :: (limit ++
      (if r.interval > 1 then [leaf "interval" (decInt r.interval)] else []) ++
      numElems "bysecond" r.bySeconds ++ numElems "byminute" r.byMinutes ++ numElems "byhour" r.byHours ++
      (r.byDay.map fun v => leaf "byday" (Rule.dayText v)) ++
      numElems "bymonthday" r.byMonthDay ++ numElems "byyearday" r.byYearDay ++
      numElems "byweekno" r.byWeekNo ++ numElems "bymonth" r.byMonth ++ numElems "bysetpos" r.bySetPos ++
      (if r.weekStart ≠ 1 then
        [leaf "wkst" (if Rule.weekdayText r.weekStart = [] then ['M','O'] else Rule.weekdayText r.weekStart)]
        else [])))

/-- `text[:-2] + ":" + text[-2:]`, utcoffsetvalue.py:94. -/
def colonBefore2 (s : List Char) : List Char :=
  s.take (s.length - 2) ++ ':' :: s.drop (s.length - 2)

/-- `writeXML` of a value, which adds one element: plaintextvalue.py:42-44, integervalue.py:44-46,
floatvalue.py:44-46, utcoffsetvalue.py:89-97, icalendar/requeststatusvalue.py:80-91, geovalue.py:64-71,
icalendar/recurrencevalue.py:28-29, datetimevalue.py:34-35.  A `DurationValue` and a `PeriodValue` have the
`writeXML` of `WrapperValue` (valueutils.py:80-82), which calls `writeXML()` of the duration or the period
without its two arguments (duration.py:255, period.py:107).  `none` is an exception. -/
def valueElem (v : XVal) : Option Xml :=
  match v with
  | .plain t s => (xmlName t).map fun n => leaf n s
  | .int n => (xmlName .integer).map fun x => leaf x (decInt n)
  | .float s => (xmlName .float).map fun x => leaf x s
  | .offset n => (xmlName .utcOffset).map fun x => leaf x (colonBefore2 (utcOffsetGenerate false n))
  | .status (a :: b :: l) =>
    (xmlName .requestStatus).map fun x => .elem x.toList .none
      ([leaf "code" a, leaf "description" b] ++
        (match l with
          | [c] => if c = [] then [] else [leaf "data" c]
          | _ => []))
  | .status _ => none
  | .geo lat lon =>
    (xmlName .geo).map fun x => .elem x.toList .none
      [.elem "latitude".toList (.float lat) [], .elem "longitude".toList (.float lon) []]
  | .recur r => recurElem r
  | .date t => some (dateElem t)
  | .duration _ => none
  | .period _ => none

/-- `Parameter.writeXML`, parameter.py:110-115. -/
def paramElem (p : Param) : Xml := .elem (makeTag p.name) .none (p.values.map (leaf "text"))

/-- A property: its parameters, in the order in which they were added, and its value, or the values of a
`MultiValue` (multivalue.py:82-84). -/
structure XProp where
  name : List Char
  params : List Param
  values : List XVal

/-- The parameters in `generateValueXML`, property.py:410-416: keys in ascending order, VALUE left out. -/
def paramsElem (ps : List Param) : List Xml :=
  if ps.isEmpty then []
  else [.elem "parameters".toList .none
    (((ps.insertionSort fun a b => a.key ≤ b.key).filter fun p =>
      PropJSON.lower p.name ≠ "value".toList).map paramElem)]

/-- `generateValueXML`, property.py:405-420. -/
def propElem (novalue : Bool) (p : XProp) : Option Xml :=
  (if novalue then some [] else p.values.mapM valueElem).map fun vs =>
    .elem (makeTag p.name) .none (paramsElem p.params ++ vs)

/-! ## Components -/

open Cont

/-- `writePropertiesXML`, componentbase.py:587-596: the element `properties`. -/
def propertiesElem (props : List Xml) : Xml := .elem "properties".toList .none props

/-- The element `components`, componentbase.py:417-418: only if there are components. -/
def componentsElem (cs : List Component) (subs : List Xml) : List Xml :=
  if cs.isEmpty then [] else [.elem "components".toList .none subs]

mutual
/-- `ComponentBase.writeXML`, componentbase.py:299-308, with `writePropertiesXML` (587-596) and
`writeComponentsXML` (415-422).  `write` is `Property.writeXML`.  `none` is an exception. -/
def compElem (write : CProp → Option Xml) (o : Order) : Component → Option Xml
  | .mk t ps cs =>
    match (writtenProps (o.keyOrder t) ps).mapM write, compElems write o cs, sortedTagged o t (tag cs) with
    | some xs, some subs, some l =>
      some (.elem (makeTag t) .none
        (propertiesElem xs :: componentsElem cs (l.filterMap fun x => subs[x.1]?)))
    | _, _, _ => none

def compElems (write : CProp → Option Xml) (o : Order) : List Component → Option (List Xml)
  | [] => some []
  | c :: cs =>
    match compElem write o c, compElems write o cs with
    | some x, some xs => some (x :: xs)
    | _, _ => none
end

/-- `Calendar.writeXML`, icalendar/calendar.py:426-433, after the time zones have been included. -/
def rootElem (write : CProp → Option Xml) (o : Order) (c : Component) : Option Xml :=
  (compElem write o c).map fun x => .elem "icalendar".toList .none [x]

end XCal
end PyCal
