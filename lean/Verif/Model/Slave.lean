import Verif.Model.Editing

/-!
# The times of a changed instance

`setMaster`, `initFromMaster`, `recurring` and `duplicate` of `ComponentRecur` (icalendar/componentrecur.py).
-/

namespace PyCal
open DateTime (TzEnv)

namespace Timing

/-- `initFromMaster`, componentrecur.py:642-671, of a component that is not its own master; `m` is the
master, `rid` the date of RECURRENCE-ID, `todo`: it is a `VToDo`.  `none`: it has neither DTSTART nor
RECURRENCE-ID, so that `mStart` becomes `None`, and the end is then taken from it (a `TypeError`) or is the
DTEND that there is.  (A property whose value has another type counts as none here too; `mStart` and
`mRecurrenceID` become the same object.) -/
def initFromMaster (env : TzEnv) (todo : Bool) (rid : Option DateTime) (c : Timing) (m : Timing) :
    Option Timing :=
  let c := if todo then c.finaliseToDo else c.finalise
  let r : Option Timing := match c.dtstart with
    | some _ => some c
    | none => rid.map fun t => { c with start := t }
  r.map fun c =>
    if c.dtend = none ∧ c.duration = none then
      { c with stop := c.start.add (m.stop.subDateTime env m.start) }
    else
      match c.duration, c.dtstart with
      | some d, none => { c with stop := c.start.add d }
      | _, _ => c

end Timing

/-- A component and its master: objects are numbers. -/
structure Linked where
  self : Nat
  master : Option Nat
  times : Timing

namespace Linked

/-- `recurring`, componentrecur.py:132-133. -/
def recurring (c : Linked) : Bool := c.master.isSome && decide (c.master ≠ some c.self)

/-- `duplicate`, componentrecur.py:99-127, as far as the master and the times are concerned, and
vevent.py:58-61, vtodo.py:125-132; `new` is the new object. -/
def duplicate (new : Nat) (c : Linked) : Linked :=
  { self := new, master := if c.recurring then c.master else some c.self, times := c.times }

/-- `setMaster`, componentrecur.py:135-137. -/
def setMaster (env : TzEnv) (todo : Bool) (rid : Option DateTime) (m : Option Linked) (c : Linked) :
    Option Linked :=
  let c := { c with master := m.map (·.self) }
  if c.recurring then
    match m with
    | none => some c
    | some m => (c.times.initFromMaster env todo rid m.times).map fun t => { c with times := t }
  else some c

end Linked
end PyCal
