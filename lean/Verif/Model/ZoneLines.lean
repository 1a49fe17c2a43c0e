import Verif.Model.CalendarRead
import Verif.Model.TimezoneRead

/-!
# A time zone from the lines of its VTIMEZONE

The properties of a VTIMEZONE and of the STANDARD and DAYLIGHT components in it, from their lines, for `finalise` as in
`TimezoneRead`.  Periods in RDATE are left out.
-/

namespace PyCal
namespace EventRead
open PropText ValueType

/-- The value of a property as `TimezoneRead` takes it. -/
def Value.tzVal : Value → TzVal
  | .date t => .dateTime t
  | .recur r => .rule r
  | .text s => .text s
  | .offset n => .offset n
  | .multi l => .dates (l.filterMap fun i => match i with
    | .date t => some t
    | _ => none)
  | _ => .other

/-- `Property.parseText`, property.py:220-276; `none`: `InvalidProperty`. -/
def readZoneLine (e : Env) (line : List Char) : Option TzProp :=
  match parseText false e.cfg line with
  | .ok (_, name, ps, data) => (createValue e name ps data).map fun v => ⟨String.ofList (upper name), v.tzVal⟩
  | _ => none

end EventRead

namespace CalendarRead
open EventRead
open DateTime (TzEnv)

/-- The `VTimezone` for a component that was read, containerbase.py:155-201: its properties and its STANDARD and DAYLIGHT
components (vtimezone.py:60-66), with `finalise` of all of them (vtimezone.py:71-81, vtimezoneelement.py:62-90). -/
def zoneOf (env : TzEnv) (e : Env) (c : Cont.Component) : Option (List Char × Zone) :=
  (c.props.mapM fun p => readZoneLine e p.text).bind fun ps =>
    (c.subs.mapM fun (d : Cont.Component) => d.props.mapM fun p => readZoneLine e p.text).map fun os => Zone.read env ps os

/-- The time zones of a calendar that was read, `getComponents("VTIMEZONE")`, componentbase.py:108-110.  `none`: there is one in
which a line cannot be read, or whose type differs from `VTIMEZONE` in case; such calendars are not accepted. -/
def zonesOf (env : TzEnv) (e : Env) (c : Cont.Component) : Option (List (List Char × Zone)) :=
  (c.subs.filter fun d => decide (PropText.upper d.type = "VTIMEZONE".toList)).mapM fun d =>
    if d.type = "VTIMEZONE".toList then zoneOf env e d else none

/-- `Calendar.getTimezoneOffsetSeconds` and `getTimezone`, icalendar/calendar.py:601-617: the offset, and the time zones with the
caches that this leaves.  `none`: the calculation does not end (in so many steps). -/
def offsetIn (env : TzEnv) (o : SetOrder) (o' : SetOrder (DateTime × Int × Int)) (fuel : Nat) (tzid : List Char) (x : DateTime)
    (rel : Bool) : List (List Char × Zone) → Option (Int × List (List Char × Zone))
  | [] => some (0, [])
  | (id, z) :: zs =>
    if id = tzid then (z.offsetSeconds env o o' fuel x rel).map fun v => (v.1, (id, v.2) :: zs)
    else (offsetIn env o o' fuel tzid x rel zs).map fun v => (v.1, (id, z) :: v.2)

end CalendarRead
end PyCal
