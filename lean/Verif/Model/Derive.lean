import Verif.Model.Editing
import Verif.Model.DateTimeObject

/-!
# Overridden instances made from a master

`Calendar.masterComponent` and `Calendar.deriveComponent` of icalendar/calendar.py.
-/

namespace PyCal
open DateTime (TzEnv)

/-- The components of a calendar: the types that can recur (`ComponentRecur`) and the others. -/
inductive Kind where
  | event | todo | journal | other
deriving DecidableEq, Repr

/-- A component: its type, its timing (`Verif.Model.Editing`), its recurrence properties, the value of
RECURRENCE-ID (a property whose value is not a date-time counts as none) and its other properties. -/
structure DComp where
  kind : Kind
  timing : Timing
  recs : Recurring := {}
  rid : Option DateTime := none
  rest : List (List Char) := []

namespace DComp

/-- `finalise` as far as times are concerned: componentrecur.py:241-272, vtodo.py:220-237. -/
def finalise (c : DComp) : DComp :=
  { c with timing := if c.kind = .todo then c.timing.finaliseToDo else c.timing.finalise
           recs := c.recs.reset }

/-- `masterComponent`, calendar.py:391-406. -/
def master (comps : List DComp) : Option DComp :=
  comps.find? fun c => decide (c.kind ≠ .other ∧ c.rid = none)

/-- `newdtstartValue`, calendar.py:369-375; `duplicate` keeps the caches of the date-time. -/
def newStart (env : TzEnv) (dtstart : DateTime) (rid : Obj) : DateTime :=
  if !dtstart.dateOnly then
    if dtstart.isLocal then (rid.adjustTimezone env dtstart.utc dtstart.tzid).dt else rid.dt
  else { rid.dt with dateOnly := true }

/-- `deriveComponent`, calendar.py:336-389, with `getStart` and `getEnd` as `finalise` left them.
The new DTSTART and RECURRENCE-ID share one date-time object, which is not modelled. -/
def derive (env : TzEnv) (comps : List DComp) (rid : Obj) : Option DComp :=
  match master comps with
  | none => none
  | some m =>
    let oldduration := m.timing.stop.subDateTime env m.timing.start
    let start := newStart env m.timing.start rid
    let timing := { m.timing with dtstart := some start, dtend := none }
    let timing := if !timing.useDuration then { timing with dtend := some (start.add oldduration) }
      else timing
    some { m with timing := timing, recs := {}, rid := some start }.finalise

end DComp
end PyCal
