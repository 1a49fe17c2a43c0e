import Verif.Model.CalendarRead
import Verif.Model.ValueType

/-!
# A calendar that was read, as it is written

`PropertyBase.generateValue` (property.py) of the properties that `EventRead` reads, and the lines of the components of a calendar
as `Calendar.generate` writes them.
-/

namespace PyCal
namespace Rewrite
open EventRead PropText ValueType

/-- What `generate` writes for a value of a type that `EventRead` leaves open, made from this text. -/
abbrev Writer := VType → Option (List Char) → List Char

/-- `generate` of one value in a `MultiValue` that was made from this text, valueutils.py:77-78, textvalue.py:34-39; what
cannot be read is not in a property. -/
def itemText (e : Env) (w : Writer) (t : VType) (tz : Option TzId) (s : List Char) : List Char :=
  if t = .date ∨ t = .dateTime then
    match DateTime.parseText e.sr s false with
    | some d => (setZone tz d).getText
    | none => []
  else if t = .period then
    match PeriodObj.parseText e.sr e.strict s with
    | .ok p => p.generate
    | .error _ => []
  else if t = .text then
    match decodeText e.escColon e.escOther s with
    | some d => escapeText d
    | none => []
  else w t (some s)

/-- `getType() == VALUETYPE_DATE` of a `DateTimeValue`, datetimevalue.py:28-29. -/
def isDate : Value → Bool
  | .date t => t.dateOnly
  | _ => false

/-- `generate` of the value: MultiValue (multivalue.py:70-80, from the texts of its values), DateTimeValue,
RecurrenceValue and DurationValue (valueutils.py:77-78), TextValue (textvalue.py:34-39), URIValue (urivalue.py:40-52), the other texts
(plaintextvalue.py:35-40), IntegerValue (integervalue.py:38-42), UTCOffsetValue (utcoffsetvalue.py:66-87), and those that are left open. -/
def valueText (e : Env) (w : Writer) (t : VType) (tz : Option TzId) (data : Option (List Char)) (v : Value) :
    List Char :=
  match v with
  | .date d => d.getText
  | .recur r => r.generate
  | .dur d => d.generate
  | .text s => if t = .text then escapeText s else if t = .uri then writeURI s else s
  | .multi _ => joinSep ',' ((splitOn ',' (data.getD [])).map (itemText e w t tz))
  | .int n => Num.writeInteger n
  | .offset n => utcOffsetGenerate false n
  | .other => w t data

/-- The VALUE parameter that `setupValueParameter` adds, property.py:592-594. -/
def valueParam : Option String → List Param
  | some s => [⟨"VALUE".toList, [s.toList]⟩]
  | none => []

/-- The parameters after `setupValueParameter`, property.py:575-594. -/
def writtenParams (e : Env) (key : String) (t : VType) (ps : List Param) (v : Value) : List Param :=
  (ps.filter fun p => decide (p.key ≠ "VALUE".toList)) ++
    valueParam (writtenValue e.tables key (valueType e.tables key (isDate v) t))

/-- The line that `generateValue` (property.py:336-363, before the folding) writes for the property that is read from this line; `none`: it
cannot be read. -/
def rewriteLine (e : Env) (w : Writer) (line : List Char) : Option (List Char) :=
  match parseText false e.cfg line with
  | .ok (_, name, ps, data) =>
    (createValue e name ps data).map fun v =>
      let key := String.ofList (upper name)
      let t := determine e.tables key ((paramValue ps "VALUE").map String.ofList)
      let tz := if t = .time ∨ t = .dateTime then (paramValue ps "TZID").map fun z => TzId.name (String.ofList z) else none
      generate ⟨none, name, writtenParams e key t ps v, valueText e w t tz data v⟩
  | _ => none

/-- A property with the line that is written for it. -/
def reline (e : Env) (w : Writer) (p : Cont.CProp) : Cont.CProp := ⟨p.name, (rewriteLine e w p.text).getD p.text⟩

mutual
/-- A component with the lines that are written for its properties, and the same for the components in it. -/
def relines (e : Env) (w : Writer) : Cont.Component → Cont.Component
  | .mk t ps cs => .mk t (ps.map (reline e w)) (relinesAll e w cs)

def relinesAll (e : Env) (w : Writer) : List Cont.Component → List Cont.Component
  | [] => []
  | c :: cs => relines e w c :: relinesAll e w cs
end

/-- `Calendar.getText` of a calendar that was read, icalendar/calendar.py:408-420, componentbase.py:264-282: its lines, unfolded; with
`NO_TIMEZONES`, or if no time zone is added (`TimezoneInclude` has which are). -/
def written (e : Env) (w : Writer) (o : Cont.Order) (c : Cont.Component) : Option (List (List Char)) :=
  Cont.generate o (relines e w c)

end Rewrite
end PyCal
