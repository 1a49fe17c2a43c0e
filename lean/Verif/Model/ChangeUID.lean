import Verif.Model.EditLines

/-!
# `changeUID` on the lines of a calendar (icalendar/calendar.py)
-/

namespace PyCal
namespace EditLines
open EventRead

/-- `getUID` of a component with these lines, component.py:50, 87-88, 161-165; `none`: a line is rejected. -/
def uidIn (e : Env) (c : Cont.Component) : Option (List Char) :=
  (c.props.mapM fun p => readLine e p.text).map fun qs =>
    match (values qs "UID").head? with
    | some (.text s) => s
    | _ => []

/-- `setUID` with a UID that is not empty, component.py:90-92, 124-127. -/
def setUID (e : Env) (uid : List Char) : Cont.Component → Cont.Component
  | .mk t ps cs => .mk t (set e "UID" (.text uid) ps) cs

/-- What `changeUID` does to a component, calendar.py:149-151. -/
def changeOne (e : Env) (old new : List Char) (d : Cont.Component) : Cont.Component := if uidIn e d = some old then setUID e new d else d

/-- `changeUID`, calendar.py:136-160; the maps are in `CalendarIndex`. -/
def changeUID (e : Env) (old new : List Char) : Cont.Component → Cont.Component
  | .mk t ps cs => .mk t ps (cs.map (changeOne e old new))

end EditLines
end PyCal
