import Verif.Model.ValueType
import Verif.Model.PeriodObject
import Verif.Model.Escape
import Verif.Model.RecurrenceText

/-!
# iCalendar properties with date-times and periods

What `Property(name, value)` writes for a date-time, a list of date-times and a list of periods, as
text and as jCal, and what is read from it.  A written property is given by its VALUE and TZID
parameters and its value text; how these are put into a line and found in it again is the subject of
`Verif.Model.PropertyText`.
-/

namespace PyCal.ValueType

/-- What is written of a property: the VALUE parameter, the TZID parameter and the value.  In jCal
`value` is the name of the type, which is always there. -/
structure Written (α : Type) where
  value : Option String
  tzid : Option TzId
  data : α
deriving DecidableEq

/-- `getType()` of the value of a property made from date-times, icalendar/property.py:289-313: for a
single date-time `DateTimeValue.getType` (datetimevalue.py:28-29), for a list the `MultiValue` type
found from its first element. -/
def dtType (dts : List DateTime) : VType :=
  match dts with
  | t :: _ => if t.dateOnly then .date else .dateTime
  | [] => .dateTime

/-- The TZID parameter, icalendar/property.py:296-300, 316-321: from the first element. -/
def dtTzid (dts : List DateTime) : Option TzId :=
  match dts with
  | t :: _ => if !t.dateOnly && t.isLocal then t.tzid else none
  | [] => none

/-- `Property(name, dt)` (a list of one element here) or `Property(name, dts)` as text:
icalendar/property.py:289-321, multivalue.py:71-82. -/
def writeDates (S : Tables) (name : String) (dts : List DateTime) : Written (List Char) where
  value := writtenValue S name (dtType dts)
  tzid := dtTzid dts
  data := joinSep ',' (dts.map DateTime.getText)

/-- `_postCreateValue`, icalendar/property.py:259-278, with `setTimezoneID`, datetime.py:603-606: the
values of a property of type `t` after the TZID parameter has been applied. -/
def applyTzid (t : VType) (tzid : Option TzId) (dts : List DateTime) : List DateTime :=
  match tzid with
  | some z => if t = .time ∨ t = .dateTime then dts.map fun d => { d with utc := false, tzid := some z }
      else dts
  | none => dts

/-- The date-times of a property read from text, property.py:521-543 with `MultiValue.parse`,
multivalue.py:59-69; `none` if it raises `InvalidProperty` or its value is of another type. -/
def readDates (S : Tables) (sr : Bool) (name : String) (w : Written (List Char)) :
    Option (List DateTime) :=
  let t := determine S name w.value
  if t = .date ∨ t = .dateTime then
    ((if name ∈ S.multi then splitOn ',' w.data else [w.data]).mapM
      (DateTime.parseText sr · false)).map (applyTzid t w.tzid)
  else none

/-- The names of the types in jCal, `Value._jsonMap` (value.py:67-71), as filled by the
`registerType` calls (datetimevalue.py:37-38, geovalue.py:85, icalendar/requeststatusvalue.py:108,
vcard/orgvalue.py:55, vcard/adrvalue.py:29, vcard/nvalue.py:29 and so on; the names are in
xmldefinitions.py and icalendar/xmldefinitions.py).  Outer `none`: no entry (`KeyError`); inner `none`: the
entry is `None`. -/
def jsonName (t : VType) : Option (Option String) :=
  match t with
  | .adr | .n | .org => some none
  | .boolean | .time | .vcard => none
  | .binary => some (some "binary")
  | .calAddress => some (some "cal-address")
  | .date => some (some "date")
  | .dateTime => some (some "date-time")
  | .duration => some (some "duration")
  | .float | .geo => some (some "float")
  | .integer => some (some "integer")
  | .period => some (some "period")
  | .recur => some (some "recur")
  | .text | .requestStatus => some (some "text")
  | .unknown => some (some "unknown")
  | .uri => some (some "uri")
  | .utcOffset => some (some "utc-offset")

/-- `writeJSON`, property.py:473-503, value.py:113-115, multivalue.py:90-92: the type and the values.
The TZID parameter becomes a member of the parameter object, parameter.py (`writeJSON`). -/
def writeDatesJSON (dts : List DateTime) : Written (List (List Char)) where
  value := (jsonName (dtType dts)).getD none
  tzid := dtTzid dts
  data := dts.map DateTime.getXMLText

/-- The VALUE parameter made by `parseJSON` from the type name `v`, property.py:447-452: absent if the
type is the default of the property. -/
def jsonValue (S : Tables) (name : String) (v : String) : Option String :=
  if (S.defaultOf name).getD .unknown = (S.byName.lookup v.toUpper).getD .unknown then none
  else some v.toUpper

/-- `getType()` of the value made by `parseJSON`, property.py:447-466, from the type name `v` (a JSON null
has no `upper`: `none`, raised as `InvalidProperty`). -/
def readTypeJSON (S : Tables) (name : String) (v : Option String) (isDate : Bool) : Option VType :=
  v.map fun v => valueType S name isDate (determine S name (jsonValue S name v))

/-- The date-times of a property read from jCal, property.py:421-469, multivalue.py:84-88: without
multiple values only the first value is looked at (`none` also for the `IndexError` of there being
none). -/
def readDatesJSON (S : Tables) (sr : Bool) (name : String) (w : Written (List (List Char))) :
    Option (List DateTime) :=
  match w.value with
  | none => none
  | some v =>
  let t := determine S name (jsonValue S name v)
  if t = .date ∨ t = .dateTime then
    if name ∈ S.multi then
      (w.data.mapM (DateTime.parseText sr · true)).map (applyTzid t w.tzid)
    else
      match w.data with
      | [] => none
      | a :: _ => (DateTime.parseText sr a true).map fun d => applyTzid t w.tzid [d]
  else none

/-- `setValue(dts)` on a property that has the given VALUE and TZID parameters, property.py:545-573:
the date-times it then holds.  (The `DateTime` objects given are the ones changed by the TZID
parameter.)  `none` if the value created is not for date-times. -/
def setDates (S : Tables) (name : String) (value : Option String) (tzid : Option TzId)
    (dts : List DateTime) : Option (List DateTime) :=
  let t := setType S name value
  if t = .date ∨ t = .dateTime then some (applyTzid t tzid dts) else none

/-- `Property(name, periods)` as text, icalendar/property.py:323-330, 339-344: there is no TZID
parameter. -/
def writePeriods (S : Tables) (name : String) (ps : List PeriodObj) : Written (List Char) where
  value := writtenValue S name .period
  tzid := none
  data := joinSep ',' (ps.map PeriodObj.generate)

/-- The periods of a property read from text; the TZID parameter has no effect on the type PERIOD
(icalendar/property.py:269). -/
def readPeriods (S : Tables) (sr strict : Bool) (name : String) (w : Written (List Char)) :
    Option (List PeriodObj) :=
  if determine S name w.value = .period then
    (if name ∈ S.multi then splitOn ',' w.data else [w.data]).mapM fun a =>
      match PeriodObj.parseText sr strict a with
      | .ok p => some p
      | .error _ => none
  else none

end PyCal.ValueType
