import Verif.Model.AlarmEdit
import Verif.Model.Container
import Verif.Model.EventRead

/-!
# An alarm from its lines

The properties of a VALARM as `EventRead` reads them, and the alarm that `finalise` (`AlarmEdit`) makes of them.
-/

namespace PyCal
namespace AlarmRead
open EventRead PropText ValueType

/-- The keys under which the properties are kept, by `mName.upper()`, componentbase.py:165-166; the names as in
definitions.py:138-364. -/
def keyOf (n : List Char) : Alm.Key :=
  if n = "ACTION".toList then .action
  else if n = "TRIGGER".toList then .trigger
  else if n = "REPEAT".toList then .repeat
  else if n = "DURATION".toList then .duration
  else if n = "X-MULBERRY-ALARM-STATUS".toList then .alarmStatus
  else if n = "X-MULBERRY-LAST-TRIGGER".toList then .lastTrigger
  else if n = "X-MULBERRY-SPEAK-TEXT".toList then .speak
  else if n = "DESCRIPTION".toList then .description
  else if n = "SUMMARY".toList then .summary
  else if n = "ATTENDEE".toList then .attendee
  else if n = "URL".toList then .url
  else .other n

/-- The value by its class, of a property of this type (value.py:73-80). -/
def valueIn (t : VType) (v : Value) : Alm.Val :=
  match v with
  | .date t => .dateTime t
  | .dur d => .duration d
  | .text s => if t = .calAddress then .address s else .text s
  | .int n => .int n
  | _ => .another

/-- `Property.parseText`, property.py:220-276, and what `VAlarm` looks at; `none`: it raises. -/
def propOf (e : Env) (line : List Char) : Option Alm.P :=
  match parseText false e.cfg line with
  | .ok (_, name, ps, data) =>
    (createValue e name ps data).map fun v =>
      ⟨keyOf (upper name), valueIn (determine e.tables (String.ofList (upper name)) ((paramValue ps "VALUE").map String.ofList)) v,
        paramValue ps "RELATED"⟩
  | _ => none

/-- The alarm with these lines, as the parser makes it (containerbase.py:155-212); `none`: a line is rejected. -/
def load (e : Env) (lines : List (List Char)) : Option Alm.VAlarm := (lines.mapM (propOf e)).map Alm.VAlarm.fresh

/-- The alarm that the parser makes of a VALARM with its properties (containerbase.py:162-205, valarm.py:413-474); `none`: a line is
rejected. -/
def alarmIn (e : Env) (c : Cont.Component) : Option Alm.VAlarm := load e (c.props.map Cont.CProp.text)

end AlarmRead
end PyCal
