import Verif.Model.TimezoneText

/-!
# `pycalendar.icalendar.vtimezone` and `vtimezoneelement`: reading a VTIMEZONE and copying it

What `finalise` takes from the properties of a VTIMEZONE and of its STANDARD and DAYLIGHT components,
and `duplicate`.  The other properties of a time zone (LAST-MODIFIED, TZURL, comments) are left out.
-/

namespace PyCal
open DateTime (TzEnv)

/-- The value of a property, by its class: `DateTimeValue`, `UTCOffsetValue`, `TextValue`,
`RecurrenceValue`, `MultiValue` of date-times; `other` for the others.  A `MultiValue` with periods is
left out. -/
inductive TzVal where
  | dateTime (t : DateTime)
  | offset (v : Int)
  | text (s : List Char)
  | rule (r : Rule)
  | dates (l : List DateTime)
  | other

/-- A property: its name in upper case and its value. -/
structure TzProp where
  name : String
  value : TzVal

/-- `findFirstProperty`, componentbase.py:174-175: its value. -/
def firstValue (ps : List TzProp) (name : String) : Option TzVal :=
  (ps.find? fun p => decide (p.name = name)).map (·.value)

/-- `loadValueDateTime`, componentbase.py:487-493. -/
def loadDateTime (ps : List TzProp) (name : String) : Option DateTime :=
  match firstValue ps name with
  | some (.dateTime t) => some t
  | _ => none

/-- `loadValueInteger` for a UTC offset, componentbase.py:463-477. -/
def loadOffset (ps : List TzProp) (name : String) : Option Int :=
  match firstValue ps name with
  | some (.offset v) => some v
  | _ => none

/-- `loadValueString`, componentbase.py:479-485. -/
def loadText (ps : List TzProp) (name : String) : Option (List Char) :=
  match firstValue ps name with
  | some (.text s) => some s
  | _ => none

/-- The rule of an RRULE property, componentbase.py:511-524. -/
def ruleOf (p : TzProp) : List Rule :=
  match p.value with
  | .rule r => if p.name = "RRULE" then [r] else []
  | _ => []

/-- The date-times of an RDATE property, componentbase.py:526-538. -/
def datesOf (p : TzProp) : List DateTime :=
  match p.value with
  | .dates l => if p.name = "RDATE" then l else []
  | _ => []

namespace TzElement

/-- A new `VTimezoneElement`, vtimezoneelement.py:41-49; `DateTime()` is 1 January 1970,
datetime.py:81-95. -/
def new : TzElement where
  start := ⟨1970, 1, 1, 0, 0, 0, false, false, none⟩
  offsetFrom := 0
  offsetTo := 0

/-- `finalise` of a STANDARD or DAYLIGHT component, vtimezoneelement.py:62-90. -/
def finalise (e : TzElement) (ps : List TzProp) : TzElement :=
  { e with
    start := (loadDateTime ps "DTSTART").getD e.start
    offsetTo := (loadOffset ps "TZOFFSETTO").getD e.offsetTo
    offsetFrom := (loadOffset ps "TZOFFSETFROM").getD e.offsetFrom
    name := (loadText ps "TZNAME").getD e.name
    recurrences := { e.recurrences with
      rrules := e.recurrences.rrules ++ (ps.flatMap ruleOf).map fun r => (r, {})
      rdates := e.recurrences.rdates ++ ps.flatMap datesOf } }

/-- A STANDARD or DAYLIGHT component as parsed, containerbase.py:155-176. -/
def read (ps : List TzProp) : TzElement := new.finalise ps

/-- `duplicate`, vtimezoneelement.py:51-60: `RecurrenceSet.duplicate` (recurrenceset.py:31-39) and
`Recurrence.duplicate` (recurrence.py:102-143) copy everything, with the caches of the rules. -/
def duplicate (e : TzElement) : TzElement := { e with below := none, items := none }

end TzElement

namespace Zone

/-- `finalise` of a VTIMEZONE, vtimezone.py:71-81, of new objects: the ID, and the elements sorted by
DTSTART (`list.sort` is stable). -/
def read (env : TzEnv) (ps : List TzProp) (observances : List (List TzProp)) : List Char × Zone :=
  ((loadText ps "TZID").getD [],
    { elements := (observances.map TzElement.read).insertionSort fun a b => !b.start.lt env a.start })

/-- `duplicate`, vtimezone.py:47-51, componentbase.py:55-64: a new object with copies of the elements;
the copied `mUTCOffsetSortKey` is left out, as in `sortKey`. -/
def duplicate (z : Zone) : Zone := { elements := z.elements.map TzElement.duplicate }

end Zone
end PyCal
