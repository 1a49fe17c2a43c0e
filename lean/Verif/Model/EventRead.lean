import Verif.Model.PropertyText
import Verif.Model.DateTimeProperty
import Verif.Model.RecurLoad
import Verif.Model.Event
import Verif.Model.Escape
import Verif.Model.Numbers

/-!
# The times of a component, from its lines

`Property.parseText` (property.py) with the values that bear on times, and what `finalise` of a component
(icalendar/componentrecur.py, icalendar/component.py) takes from the properties.  The lines are unfolded and are those of the component itself, not
of components in it.
-/

namespace PyCal
namespace EventRead
open PropText ValueType RecurLoad

/-- The settings, the tables and, for the types of values that do not matter for times, whether `parse` of a value of
this type takes the text (`none`: there is no colon, and `parse` is given `None`).  `escColon`, `escOther` and `uriFix`:
`INVALID_COLON_ESCAPE_SEQUENCE`, `INVALID_ESCAPE_SEQUENCES`, and whether `BACKSLASH_IN_URI_VALUE` is `PARSER_FIX`. -/
structure Env where
  sr : Bool
  strict : Bool
  cfg : Config
  tables : Tables
  accepts : VType → Option (List Char) → Bool
  escColon : PMode := .fix
  escOther : PMode := .raise
  uriFix : Bool := true

/-- The value of a property, by its class: `DateTimeValue`, `MultiValue`, `RecurrenceValue`, `DurationValue`, `PlainTextValue`
(`TextValue`, `URIValue`, `UnknownValue`, `CalAddressValue`, `BinaryValue`), `IntegerValue`, `UTCOffsetValue`, another. -/
inductive Value where
  | date (t : DateTime)
  | multi (l : List Item)
  | recur (r : Rule)
  | dur (d : Duration)
  | text (s : List Char)
  | int (n : Int)
  | offset (n : Int)
  | other

/-- `hasParameter` and `getParameterValue`, property.py:128-132: the first value of the first parameter of that name. -/
def paramValue (ps : List Param) (key : String) : Option (List Char) :=
  match ps.find? fun p => decide (p.key = key.toList) with
  | some p => p.values.head?
  | none => none

/-- One value in a `MultiValue`, multivalue.py:64-68, with textvalue.py:29-31. -/
def parseItem (e : Env) (t : VType) (s : List Char) : Option Item :=
  if t = .date ∨ t = .dateTime then (DateTime.parseText e.sr s false).map Item.date
  else if t = .period then
    match PeriodObj.parseText e.sr e.strict s with
    | .ok p => some (.period (.ofEnd p.start (p.getEnd.1.getD p.start)))
    | .error _ => none
  else if t = .text then (decodeText e.escColon e.escOther s).map .text
  else if e.accepts t (some s) then some .other
  else none

/-- `setTimezoneID` in `_postCreateValue`, icalendar/property.py:269-278, datetime.py:603-606. -/
def setZone (tz : Option TzId) (t : DateTime) : DateTime :=
  match tz with
  | some z => { t with utc := false, tzid := some z }
  | none => t

/-- The same for a value in a `MultiValue`. -/
def setItemZone (tz : Option TzId) : Item → Item
  | .date t => .date (setZone tz t)
  | i => i

/-- The value of a property, property.py:257-271, with the `parse` of DurationValue (valueutils.py), textvalue.py:29-31,
urivalue.py:30-37, plaintextvalue.py:30-32, integervalue.py:34-35, utcoffsetvalue.py:35-63, and `_postCreateValue`, icalendar/property.py:259-278; `none`: an exception
(always turned into `InvalidProperty`). -/
def createValue (e : Env) (name : List Char) (ps : List Param) (data : Option (List Char)) : Option Value :=
  let key := String.ofList (upper name)
  let t := determine e.tables key ((paramValue ps "VALUE").map String.ofList)
  let tz := if t = .time ∨ t = .dateTime then (paramValue ps "TZID").map fun z => TzId.name (String.ofList z) else none
  if key ∈ e.tables.multi then
    match data with
    | some s => ((splitOn ',' s).mapM (parseItem e t)).map fun l => .multi (l.map (setItemZone tz))
    | none => none
  else if t = .date ∨ t = .dateTime then
    match data with
    | some s => (DateTime.parseText e.sr s false).map fun d => .date (setZone tz d)
    | none => none
  else if t = .recur then
    match data with
    | some s => (Rule.parse e.sr s).map .recur
    | none => none
  else if t = .duration then
    match data with
    | some s => (Duration.parseText e.strict s).map .dur
    | none => none
  else if t = .text ∨ t = .uri ∧ e.uriFix then
    match data with
    | some s => (decodeText e.escColon e.escOther s).map .text
    | none => none
  else if t = .uri ∨ t = .unknown ∨ t = .calAddress ∨ t = .binary then
    match data with
    | some s => some (.text s)
    | none => some .other
  else if t = .integer then
    match data with
    | some s => (Num.parseInteger s).map .int
    | none => none
  else if t = .utcOffset then
    match data with
    | some s => (utcOffsetParse false s).map .offset
    | none => none
  else if e.accepts t data then some .other
  else none

/-- A property of a component. -/
structure RProp where
  name : List Char
  params : List Param
  value : Value

/-- `Property.parseText`, property.py:220-276; `none`: `InvalidProperty`. -/
def readLine (e : Env) (line : List Char) : Option RProp :=
  match parseText false e.cfg line with
  | .ok (_, name, ps, data) => (createValue e name ps data).map fun v => ⟨name, ps, v⟩
  | _ => none

/-- `getProperties(name)`, componentbase.py:166-172, of the properties added by `addProperty` (182-186): their values. -/
def values (ps : List RProp) (key : String) : List Value :=
  (ps.filter fun p => decide (upper p.name = key.toList)).map (·.value)

/-- `mStart` after `finalise`, componentrecur.py:83, 241-244, with `loadValueDateTime`, componentbase.py:487-493: that of the
first DTSTART, if it is a date-time, or else the `DateTime()` of a new component. -/
def start (ps : List RProp) : DateTime :=
  match (values ps "DTSTART").head? with
  | some (.date t) => t
  | _ => {}

/-- The values for `RecurLoad`; the rules are new objects. -/
def Value.pval : Value → PVal
  | .recur r => .recur r {}
  | .multi l => .multi l
  | _ => .other

/-- The properties that `_resetRecurrenceSet` looks at. -/
def props (ps : List RProp) : Props where
  rrule := (values ps "RRULE").map Value.pval
  rdate := (values ps "RDATE").map Value.pval
  exrule := (values ps "EXRULE").map Value.pval
  exdate := (values ps "EXDATE").map Value.pval

/-- The lines of a component, containerbase.py:188-201, and `finalise`, componentrecur.py:230-297: its start and its
recurrence set. -/
def readEvent (e : Env) (lines : List (List Char)) : Option (DateTime × Option Loaded) :=
  (lines.mapM (readLine e)).map fun ps => (start ps, reset (props ps))

/-! ### All that bears on times -/

/-- `loadValueDateTime`, componentbase.py:487-493. -/
def loadDate (ps : List RProp) (key : String) : Option DateTime :=
  match (values ps key).head? with
  | some (.date t) => some t
  | _ => none

/-- `loadValueDuration`, componentbase.py:495-501. -/
def loadDuration (ps : List RProp) (key : String) : Option Duration :=
  match (values ps key).head? with
  | some (.dur d) => some d
  | _ => none

/-- `loadValueString`, componentbase.py:479-485. -/
def loadText (ps : List RProp) (key : String) : Option (List Char) :=
  match (values ps key).head? with
  | some (.text s) => some s
  | _ => none

/-- The RANGE parameter of the first RECURRENCE-ID, componentrecur.py:282-286. -/
def rangeOf (ps : List RProp) : Option (List Char) :=
  match ps.find? fun p => decide (upper p.name = "RECURRENCE-ID".toList) with
  | some p => paramValue p.params "RANGE"
  | none => none

/-- The recurrence set without periods, for `Event`. -/
def setFor (s : Loaded) : RecurrenceSet where
  rrules := s.rrules
  exrules := s.exrules
  rdates := s.rdates
  exdates := s.exdates

/-- The times of a component, and what is in its `RecurrenceSet`. -/
structure Timed where
  event : Event
  loaded : Loaded

/-- The attributes after `finalise`, component.py:159-163 (the UID, which is `""` before) and componentrecur.py:230-297.  `none`:
there is a RECURRENCE-ID that is no date-time (`getText` of `None`, 277). -/
def finalised (ps : List RProp) : Option Timed :=
  if values ps "RECURRENCE-ID" ≠ [] ∧ (loadDate ps "RECURRENCE-ID").isNone then none
  else
    let s := (reset (props ps)).getD {}
    some
      { event :=
          { uid := (loadText ps "UID").getD []
            stamp := (loadDate ps "DTSTAMP").getD {}
            start := start ps
            dtend := loadDate ps "DTEND"
            dur := loadDuration ps "DURATION"
            rid := loadDate ps "RECURRENCE-ID"
            future := decide (rangeOf ps = some "THISANDFUTURE".toList)
            prior := decide (rangeOf ps = some "THISANDPRIOR".toList)
            rset := setFor s }
        loaded := s }

/-- `expandPeriod`, componentrecur.py:392-468.  With periods in RDATE or EXDATE the expansion of the recurrence set raises, if it
ends (see `Loaded.expand`). -/
def Timed.expandPeriod (env : DateTime.TzEnv) (o : SetOrder) (fuel : Nat) (parent : Option (List Event)) (t : Timed)
    (period : Period) : Option Event.Outcome :=
  if t.loaded.rperiods = [] ∧ t.loaded.experiods = [] then t.event.expandPeriod env o fuel parent period
  else
    match t.loaded.expand env o fuel t.event.start period with
    | none => none
    | some _ => some .raises

end EventRead
end PyCal
