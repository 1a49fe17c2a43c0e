import Verif.Model.TimezoneDb

/-!
# Adding time zones to a calendar and removing them

`Calendar.includeMissingTimezones` and `Calendar.stripStandardTimezones` of
`pycalendar.icalendar.calendar`, over the time zone database of `Verif.Model.TimezoneDb`.
-/

namespace PyCal

/-- The value of a property as far as TZIDs are concerned: a date-time (`DateTimeValue`) with its
`getTimezoneID()`; a list of date-times or periods (`MultiValue`), or a period (`PeriodValue`), with
the TZIDs in it; any other value.  A TZID that is a number (the offset of jCal and vCard texts) is not
modelled. -/
inductive TzValue where
  | dateTime (tzid : Option String)
  | many (tzids : List (Option String))
  | other
deriving DecidableEq, Repr

/-- A component in a component of a calendar.  Those in it in turn (a VALARM of a VEVENT of a VPOLL)
are not modelled: nothing below looks at them. -/
structure TzSub where
  ctype : String
  values : List TzValue
deriving DecidableEq, Repr

/-- A component of a calendar: `getType()`, for a VTIMEZONE `getID()`, the values of its properties,
its components, and a number for all its other content. -/
structure TzComp where
  ctype : String
  tzid : String := ""
  values : List TzValue := []
  subs : List TzSub := []
  content : Nat := 0
deriving DecidableEq, Repr

namespace TzComp

/-- `Component.getTimezones`, component.py:180-189: the TZIDs that are added to the set. -/
def valueTzids (values : List TzValue) : List String :=
  values.filterMap fun v =>
    match v with
    | .dateTime (some t) => if t = "" then none else some t
    | _ => none

/-- `getTimezones` of a component: component.py:180-189, and for VAVAILABILITY
vavailability.py:103-114. -/
def getTimezones (c : TzComp) : List String :=
  valueTzids c.values ++
    if c.ctype = "VAVAILABILITY" then
      (c.subs.filter fun s => decide (s.ctype = "AVAILABLE")).flatMap fun s => valueTzids s.values
    else []

/-- The set `tzids` of `includeMissingTimezones`, calendar.py:658-661, as a list with repetitions. -/
def referenced (comps : List TzComp) : List String :=
  comps.flatMap fun c => if c.ctype ≠ "VTIMEZONE" then c.getTimezones else []

/-- `self.getTimezone(tzid) is not None`, calendar.py:611-617. -/
def hasZone (comps : List TzComp) (tzid : String) : Bool :=
  comps.any fun c => decide (c.ctype = "VTIMEZONE" ∧ c.tzid = tzid)

/-- `tz.duplicate()` of a component of the database, vtimezone.py:49-53. -/
def dup (tz : Tz) : TzComp := { ctype := "VTIMEZONE", tzid := tz.tzid, content := tz.obj }

/-- `includeTimezones` of `includeMissingTimezones`, calendar.py:52-54. -/
inductive Include where
  | all | nonstd | none
deriving DecidableEq, Repr

/-- The body of the second loop of `includeMissingTimezones`, calendar.py:666-675.  `file` are the time
zones that a TZID's file has during the call. -/
def includeStep (nonstd : Bool) (file : String → List Tz) (st : List TzComp × TzDb) (tzid : String) :
    List TzComp × TzDb :=
  let r := if nonstd then st.2.isStandard (some tzid) (file tzid) else (false, st.2)
  if r.1 then (st.1, r.2)
  else if hasZone st.1 tzid then (st.1, r.2)
  else
    let v := r.2.getTimezone (some tzid) (file tzid)
    match v.1 with
    | some tz => (st.1 ++ [dup tz], v.2)
    | Option.none => (st.1, v.2)

/-- `includeMissingTimezones`, calendar.py:639-675.  `order` is the order in which the set of TZIDs is
gone through. -/
def includeMissing (arg : Option Include) (order : List String) (file : String → List Tz)
    (comps : List TzComp) (db : TzDb) : List TzComp × TzDb :=
  match arg with
  | some .none => (comps, db)
  | some .all => order.foldl (includeStep false file) (comps, db)
  | some .nonstd => order.foldl (includeStep true file) (comps, db)
  | Option.none => order.foldl (includeStep true file) (comps, db)

/-- The body of the loop of `stripStandardTimezones`, calendar.py:687-691.  `self.removeComponent` is
`list.remove`, which removes the first component that compares equal (componentbase.py:72-75,
135-136): the first with the same content.  Two components with the same properties are taken to have
the same `getID()`, which is so unless there are several TZID properties. -/
def stripStep (file : String → List Tz) (st : List TzComp × Bool × TzDb) (c : TzComp) :
    List TzComp × Bool × TzDb :=
  let v := st.2.2.getTimezone (some c.tzid) (file c.tzid)
  if v.1 = Option.none then (st.1, st.2.1, v.2)
  else
    let r := v.2.isStandard (some c.tzid) (file c.tzid)
    if r.1 then (st.1.erase c, true, r.2) else (st.1, st.2.1, r.2)

/-- `stripStandardTimezones`, calendar.py:677-693: the components, the result, and the database
afterwards.  The loop goes over a list made before. -/
def stripStandard (file : String → List Tz) (comps : List TzComp) (db : TzDb) :
    List TzComp × Bool × TzDb :=
  (comps.filter fun c => decide (c.ctype = "VTIMEZONE")).foldl (stripStep file) (comps, false, db)

end TzComp
end PyCal
