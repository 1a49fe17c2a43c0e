import Verif.Model.FreeBusy
import Verif.Model.Editing

/-!
# The times of a free-busy component

The methods of `icalendar.vfreebusy.VFreeBusy` that load and edit the start and the end of the component.
-/

namespace PyCal
open DateTime (TzEnv)

/-- `VFreeBusy`, vfreebusy.py:46-56: the values of its first DTSTART, DTEND and DURATION (a property whose
value has another type counts as none), its FREEBUSY properties, and what it keeps: `mHasStart`, `mStart`,
`mHasEnd`, `mEnd`, `mDuration`, and `mBusyTime` with `mSpanPeriod` if `mCachedBusyTime`.  The values set by
`__init__` are the defaults.  Which objects are shared is left out. -/
structure BusyTiming where
  dtstart : Option DateTime := none
  dtend : Option DateTime := none
  duration : Option Duration := none
  freebusy : List FBProperty := []
  hasStart : Bool := false
  start : DateTime := ⟨1970, 1, 1, 0, 0, 0, false, false, none⟩
  hasEnd : Bool := false
  stop : DateTime := ⟨1970, 1, 1, 0, 0, 0, false, false, none⟩
  useDuration : Bool := false
  cached : Option (Option (List Busy × Period)) := none

namespace BusyTiming

/-- `finalise`, vfreebusy.py:76-100. -/
def finalise (c : BusyTiming) : BusyTiming :=
  let c := match c.dtstart with
    | some t => { c with hasStart := true, start := t }
    | none => { c with hasStart := false }
  match c.dtend with
  | some t => { c with hasEnd := true, useDuration := false, stop := t }
  | none =>
    match c.duration with
    | some d => { c with stop := c.start.add d, useDuration := true }
    | none => { c with stop := c.start }

/-- `fixStartEnd`, vfreebusy.py:102-118. -/
def fixStartEnd (env : TzEnv) (c : BusyTiming) : BusyTiming :=
  if c.hasStart && c.stop.le env c.start then
    if c.start.dateOnly then { c with stop := c.start.offsetDay 1, useDuration := true }
    else { c with stop := { c.start.offsetDay 1 with hours := 0, minutes := 0, seconds := 0 }
                  useDuration := false }
  else c

/-- The three `removeProperties`, for example vfreebusy.py:163-165. -/
def bare (c : BusyTiming) : BusyTiming := { c with dtstart := none, dtend := none, duration := none }

/-- `editTiming`, vfreebusy.py:141-152: whether it returned, and the component after it.  `setToday` calls
a method that does not exist (datetime.py:662-664). -/
def editTiming (c : BusyTiming) : Bool × BusyTiming :=
  (false, { c with hasStart := false, hasEnd := false, useDuration := false })

/-- `editTimingStartEnd`, vfreebusy.py:154-176. -/
def editTimingStartEnd (env : TzEnv) (start stop : DateTime) (c : BusyTiming) : BusyTiming :=
  let c := { c with hasStart := true, hasEnd := true, start := start, stop := stop, useDuration := false }
  let c := { (c.fixStartEnd env).bare with dtstart := some start }
  if !start.dateOnly || !stop.eq env (start.offsetDay 1) then { c with dtend := some stop } else c

/-- `editTimingStartDuration`, vfreebusy.py:178-200 (DUE is not in this model). -/
def editTimingStartDuration (start : DateTime) (d : Duration) (c : BusyTiming) : BusyTiming :=
  let c := { c with hasStart := true, hasEnd := false, start := start, stop := start.add d,
                    useDuration := true }
  let c := { c.bare with dtstart := some start }
  if !start.dateOnly || decide (d.weeks ≠ 0) || decide (d.days > 1) then { c with duration := some d }
  else c

/-- `duplicate`, vfreebusy.py:58-67, with componentbase.py:55-64; nothing is cached in the copy. -/
def duplicate (c : BusyTiming) : BusyTiming := { c with cached := none }

/-- A new component with the properties of `c`. -/
def blank (c : BusyTiming) : BusyTiming :=
  { dtstart := c.dtstart, dtend := c.dtend, duration := c.duration, freebusy := c.freebusy }

/-- What the queries use of the component, in the form of `Model/FreeBusy.lean`. -/
def view (c : BusyTiming) : VFreeBusy :=
  { start := if c.hasStart then some c.start else none
    stop := if c.hasEnd then some c.stop else none
    duration := if c.dtend.isSome then none else c.duration
    freebusy := c.freebusy
    cached := c.cached }

/-- `expandPeriodComp`, vfreebusy.py:202-209: whether the component is appended; it keeps the busy time. -/
def expandPeriodComp (env : TzEnv) (period : Period) (c : BusyTiming) : Bool × BusyTiming :=
  ((c.view.expandPeriodComp env period).1,
    { c with cached := (c.view.expandPeriodComp env period).2.cached })

end BusyTiming
end PyCal
