import Verif.Model.Attributes
import Verif.Model.Container
import Verif.Model.EventRead

/-!
# The attributes of an event, a to-do or a calendar, from its lines

The properties as `EventRead` reads them, and what `finalise` (`Attributes`) keeps of them.
-/

namespace PyCal
namespace AttrRead
open EventRead PropText

/-- The keys under which the properties are kept, by `mName.upper()`, componentbase.py:165-166; the names as in
definitions.py:138-180. -/
def keyOf (n : List Char) : Attr.Key :=
  if n = "UID".toList then .uid
  else if n = "SEQUENCE".toList then .sequence
  else if n = "SUMMARY".toList then .summary
  else if n = "DESCRIPTION".toList then .description
  else if n = "LOCATION".toList then .location
  else if n = "STATUS".toList then .status
  else if n = "COMPLETED".toList then .completed
  else if n = "PRIORITY".toList then .priority
  else if n = "PERCENT-COMPLETE".toList then .percent
  else if n = "X-WR-CALNAME".toList then .calname
  else if n = "X-WR-CALDESC".toList then .caldesc
  else if n = "DTSTAMP".toList then .dtstamp
  else if n = "LAST-MODIFIED".toList then .lastModified
  else if n = "RECURRENCE-ID".toList then .rid
  else .other n

/-- The value by its class: `getTextValue`, `getIntegerValue` and `getDateTimeValue`, property.py:175-204. -/
def valueIn : Value → Attr.Val
  | .date t => .dateTime t
  | .text s => .text s
  | .int n => .int n
  | _ => .another

/-- The properties of a component with these lines, added in their order (containerbase.py:190-205); `none`: a line is rejected. -/
def propsOf (e : Env) (lines : List (List Char)) : Option Attr.Props :=
  (lines.mapM (readLine e)).map fun qs => qs.map fun q => (keyOf (upper q.name), valueIn q.value)

/-- The components that have the attributes, by their type (icalendar/component.py, definitions.py:22-25). -/
def kindOf (t : List Char) : Option Attr.Kind :=
  if t = "VEVENT".toList then some .event else if t = "VTODO".toList then some .todo else none

/-- The event or to-do that the parser makes of a component with its properties (containerbase.py:162-205, vevent.py:82-93,
vtodo.py:242-264); `none`: it is another component, or a line is rejected. -/
def compIn (e : Env) (c : Cont.Component) : Option Attr.Comp :=
  (kindOf c.type).bind fun k => (propsOf e (c.props.map Cont.CProp.text)).map (Attr.Comp.fresh k)

/-- The name and the description of a calendar that was parsed (calendar.py:162-173). -/
def calIn (e : Env) (c : Cont.Component) : Option Attr.Cal :=
  (propsOf e (c.props.map Cont.CProp.text)).map fun ps => Attr.Cal.finalise { props := ps }

end AttrRead
end PyCal
