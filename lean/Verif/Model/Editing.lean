import Verif.Model.Event

/-!
# Editing the times and the recurrences of a component

The `edit...` methods of `ComponentRecur` (icalendar/componentrecur.py) on the properties of the component
and on the values it keeps beside them.
-/

namespace PyCal
open DateTime (TzEnv)

/-- The timing of a component: the values of its first DTSTART, DTEND, DUE and DURATION (a property whose
value has another type counts as none) and what it keeps: `mHasStart`, `mStart`, `mHasEnd`, `mEnd`,
`mDuration`. -/
structure Timing where
  dtstart : Option DateTime := none
  dtend : Option DateTime := none
  due : Option DateTime := none
  duration : Option Duration := none
  hasStart : Bool := false
  start : DateTime := ⟨1970, 1, 1, 0, 0, 0, false, false, none⟩
  hasEnd : Bool := false
  stop : DateTime := ⟨1970, 1, 1, 0, 0, 0, false, false, none⟩
  useDuration : Bool := false
deriving DecidableEq

namespace Timing

/-- `finalise`, componentrecur.py:241-266. -/
def finalise (c : Timing) : Timing :=
  let c := match c.dtstart with
    | some t => { c with hasStart := true, start := t }
    | none => { c with hasStart := false }
  match c.dtend with
  | some t => { c with hasEnd := true, stop := t, useDuration := false }
  | none =>
    match c.duration with
    | some d => { c with hasEnd := false, stop := c.start.add d, useDuration := true }
    | none =>
      { c with hasEnd := false, stop := if c.start.dateOnly then c.start.offsetDay 1 else c.start,
               useDuration := false }

/-- `VToDo.finalise`, vtodo.py:224-240. -/
def finaliseToDo (c : Timing) : Timing :=
  let c := c.finalise
  match c.due with
  | some t => { c with hasEnd := true, stop := t }
  | none =>
    match c.duration with
    | some d => { c with hasEnd := true, stop := c.start.add d }
    | none => { c with hasEnd := false }

/-- The four `removeProperties`, for example componentrecur.py:539-543. -/
def bare (c : Timing) : Timing :=
  { c with dtstart := none, dtend := none, due := none, duration := none }

/-- `FixStartEnd`, componentrecur.py:374-390. -/
def fixStartEnd (env : TzEnv) (c : Timing) : Timing :=
  if c.hasStart && c.stop.le env c.start then
    if c.start.dateOnly then { c with stop := c.start.offsetDay 1, useDuration := true }
    else { c with stop := { c.start.offsetDay 1 with hours := 0, minutes := 0, seconds := 0 }
                  useDuration := false }
  else c

/-- `editTiming`, componentrecur.py:503-515: whether it returned, and the component after it.  `setToday`
calls `copy_ICalendarDateTime` (datetime.py:662-664), a method that does not exist. -/
def editTiming (c : Timing) : Bool × Timing :=
  (false, { c with hasStart := false, hasEnd := false, useDuration := false })

/-- `editTimingDue`, componentrecur.py:517-533. -/
def editTimingDue (due : DateTime) (c : Timing) : Timing :=
  { { c with hasStart := false, hasEnd := true, useDuration := false, start := due, stop := due }.bare
    with due := some due }

/-- `editTimingStartEnd`, componentrecur.py:535-557. -/
def editTimingStartEnd (env : TzEnv) (start stop : DateTime) (c : Timing) : Timing :=
  let c := { c with hasStart := true, hasEnd := true, start := start, stop := stop, useDuration := false }
  let c := { (c.fixStartEnd env).bare with dtstart := some start }
  if !start.dateOnly || !stop.eq env (start.offsetDay 1) then { c with dtend := some stop } else c

/-- `editTimingStartDuration`, componentrecur.py:559-580. -/
def editTimingStartDuration (start : DateTime) (d : Duration) (c : Timing) : Timing :=
  let c := { c with hasStart := true, hasEnd := false, start := start, stop := start.add d,
                    useDuration := true }
  let c := { c.bare with dtstart := some start }
  if !start.dateOnly || decide (d.weeks ≠ 0) || decide (d.days > 1) then { c with duration := some d }
  else c

/-- A new component with the properties of `c`: `__init__`, componentrecur.py:76-83. -/
def blank (c : Timing) : Timing :=
  { dtstart := c.dtstart, dtend := c.dtend, due := c.due, duration := c.duration }

end Timing

/-! ### Recurrences -/

/-- The recurrence properties of a component (the values of RRULE, EXRULE, RDATE and EXDATE in order) and
its recurrence set, `mRecurrences`. -/
structure Recurring where
  rrule : List Rule := []
  exrule : List Rule := []
  rdate : List DateTime := []
  exdate : List DateTime := []
  rset : Option RecurrenceSet := none

namespace Recurring

/-- `_resetRecurrenceSet`, componentrecur.py:350-372, for RDATE and EXDATE whose value is a list of dates
(`loadValueRDATE`, componentbase.py:526-547). -/
def reset (c : Recurring) : Recurring :=
  { c with rset :=
      if c.rrule.isEmpty && c.rdate.isEmpty && c.exrule.isEmpty && c.exdate.isEmpty then none
      else some { rrules := c.rrule.map fun r => (r, {}), rdates := c.rdate
                  exrules := c.exrule.map fun r => (r, {}), exdates := c.exdate } }

/-- `editRecurrenceSet`, componentrecur.py:582-608: the component after the call and whether the call
raised.  `self.getExrules()` (600) is not a method of a component. -/
def editRecurrenceSet (s : RecurrenceSet) (_ : Recurring) : Recurring × Bool :=
  ({ rrule := s.rrules.map Prod.fst, exrule := [], rdate := [], exdate := [], rset := some s }, true)

/-- `excludeRecurrence`, componentrecur.py:610-620; a `RecurrenceSet` has no `subtract` (616). -/
def excludeRecurrence (_ : DateTime) (c : Recurring) : Recurring × Bool :=
  match c.rset with
  | none => (c, false)
  | some _ => (c, true)

/-- `excludeFutureRecurrence`, componentrecur.py:622-640.  With a rule it raises at recurrence.py:1028
(`Period` has no `init`), without one at recurrenceset.py:245 (`list` has no `removeOnOrAfter`). -/
def excludeFutureRecurrence (_ : DateTime) (c : Recurring) : Recurring × Bool :=
  match c.rset with
  | none => (c, false)
  | some _ => (c, true)

end Recurring
end PyCal
