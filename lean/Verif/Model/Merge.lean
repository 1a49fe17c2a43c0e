import Verif.Model.Container

/-!
# Components that are added to a calendar and removed from it (componentbase.py)
-/

namespace PyCal
namespace Merge

/-- `addComponent`, componentbase.py:126-127; what `Calendar` keeps beside it (calendar.py:308-320) is in `CalendarIndex`. -/
def add : Cont.Component → Cont.Component → Cont.Component
  | .mk t ps cs, d => .mk t ps (cs ++ [d])

/-- `addComponent` for each of some components. -/
def addAll (c : Cont.Component) : List Cont.Component → Cont.Component
  | [] => c
  | d :: ds => addAll (add c d) ds

/-- `removeAllComponent`, componentbase.py:138-145, if it returns (see `RemoveAll`); without a name all are removed. -/
def removeAll (name : List Char) : Cont.Component → Cont.Component
  | .mk t ps cs => .mk t ps (if name = [] then [] else cs.filter fun d => decide (PropText.upper d.type ≠ PropText.upper name))

end Merge
end PyCal
