import Verif.Model.FreeBusy
import Verif.Model.CalendarRead

/-!
# A free-busy component from its lines

The properties of a VFREEBUSY as `EventRead` reads them, and what `VFreeBusy.finalise` and `cacheBusyTime` (`FreeBusy`) take from them.
-/

namespace PyCal
namespace FreeBusyRead
open EventRead PropText

/-- What `cacheBusyTime` looks at in a FREEBUSY property, vfreebusy.py:234-276: the FBTYPE parameter and the periods in a `MultiValue`
(whose values are all of its type, multivalue.py:64-68). -/
def fbProperty (p : RProp) : FBProperty where
  fbtype := paramValue p.params "FBTYPE"
  periods :=
    match p.value with
    | .multi l => l.filterMap fun | .period q => some q | _ => none
    | _ => []

/-- The component with these properties after `finalise`, vfreebusy.py:76-100, with `loadValueDateTime` and `loadValueDuration`
(componentbase.py:487-501). -/
def busy (ps : List RProp) : VFreeBusy :=
  .finalise (loadDate ps "DTSTART") (loadDate ps "DTEND") (loadDuration ps "DURATION")
    ((ps.filter fun p => decide (upper p.name = "FREEBUSY".toList)).map fbProperty)

/-- A component of a calendar that was read (`CalendarRead`); `none`: a line is rejected. -/
def busyIn (e : Env) (c : Cont.Component) : Option VFreeBusy := (c.props.mapM fun p => readLine e p.text).map busy

end FreeBusyRead
end PyCal
