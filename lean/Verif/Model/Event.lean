import Verif.Model.RecurrenceSet
import Verif.Model.Period

/-!
# Events and their expansion in a period

`ComponentRecur` (icalendar/componentrecur.py), `ComponentExpanded` (icalendar/componentexpanded.py)
and `Calendar.getVEvents` (icalendar/calendar.py).  Only what bears on times is kept of a component.
-/

namespace PyCal
open DateTime (TzEnv)

/-- The timing properties of a `VEvent` with a DTSTART.  `future` and `prior`: the RANGE parameter of
RECURRENCE-ID. -/
structure Event where
  uid : List Char := []
  stamp : DateTime := ⟨1970, 1, 1, 0, 0, 0, false, false, none⟩
  start : DateTime
  dtend : Option DateTime := none
  dur : Option Duration := none
  rid : Option DateTime := none
  future : Bool := false
  prior : Bool := false
  rset : RecurrenceSet := {}

namespace Event

/-- `mHasEnd` after `finalise`, componentrecur.py:246-266. -/
def hasEnd (e : Event) : Bool := e.dtend.isSome

/-- `mEnd` after `finalise`, componentrecur.py:246-266. -/
def stop (e : Event) : DateTime :=
  match e.dtend with
  | some t => t
  | none =>
    match e.dur with
    | some d => e.start.add d
    | none => if e.start.dateOnly then e.start.offsetDay 1 else e.start

/-- The times of `editTimingStartEnd` after `FixStartEnd`, componentrecur.py:374-390: the new `mEnd`. -/
def fixEnd (env : TzEnv) (start stop : DateTime) : DateTime :=
  if stop.le env start then
    if start.dateOnly then start.offsetDay 1
    else { start.offsetDay 1 with hours := 0, minutes := 0, seconds := 0 }
  else stop

/-- `ComponentExpanded`: `mInstanceStart`, `mInstanceEnd`, `mRecurring` and the stamp of its owner. -/
structure Instance where
  start : DateTime
  stop : DateTime
  recurring : Bool
  stamp : DateTime
deriving DecidableEq, Repr

/-- `initFromOwner`, componentexpanded.py:92-148. -/
def expanded (env : TzEnv) (owner : Event) (rid : Option DateTime) : Instance :=
  match rid with
  | none => ⟨owner.start, owner.stop, false, owner.stamp⟩
  | some t =>
    match owner.rid with
    | none =>
      if owner.hasEnd then ⟨t, t.add (owner.stop.subDateTime env owner.start), true, owner.stamp⟩
      else ⟨t, t, true, owner.stamp⟩
    | some r =>
      if t.eq env r then ⟨owner.start, owner.stop, true, owner.stamp⟩
      else
        let s := t.add (owner.start.subDateTime env r)
        ⟨s, s.add (owner.stop.subDateTime env owner.start), true, owner.stamp⟩

/-- `hasRecurrence`, recurrenceset.py:41-46. -/
def recurs (e : Event) : Bool :=
  !e.rset.rrules.isEmpty || !e.rset.rdates.isEmpty || !e.rset.rperiods.isEmpty ||
  !e.rset.exrules.isEmpty || !e.rset.exdates.isEmpty || !e.rset.experiods.isEmpty

/-- The end of `withinPeriod`, componentrecur.py:477-482: an event without recurrence. -/
def spans (env : TzEnv) (e : Event) (period : Period) : Bool :=
  !(e.stop.le env period.start || e.start.ge env period.stop)

/-- The outcome of an expansion; the exception is `AttributeError` or `TooManyInstancesError`. -/
inductive Outcome where
  | instances (l : List Instance)
  | raises
deriving DecidableEq

/-- `withinPeriod`, componentrecur.py:470-482; `none`: still running. -/
def within (env : TzEnv) (o : SetOrder) (fuel : Nat) (e : Event) (period : Period) :
    Option (Option Bool) :=
  if e.recurs then
    match e.rset.expand env o fuel e.start period with
    | none => none
    | some (.tooMany _) => some none
    | some (.dates items _ _) => some (some (!items.isEmpty))
  else some (some (e.spans env period))

/-- The items of a master that are not overridden, componentrecur.py:397-461, made instances.  The
comparator `sort_by_dtstart` (componentrecur.py:64-74) takes an attribute `self` that components do not
have, so sorting two components with a RANGE raises (431-432), and of one the loops (442-453) do not look
at index 0: the master is always used. -/
def masterInstances (env : TzEnv) (o : SetOrder) (e : Event) (overrides : List Event)
    (items : List DateTime) : Outcome :=
  if overrides.isEmpty then .instances (items.map fun t => e.expanded env (some t))
  else if (overrides.filter Event.prior).length ≥ 2 || (overrides.filter Event.future).length ≥ 2 then
    .raises
  else .instances
    ((setDifference env o items (overrides.filterMap Event.rid)).map fun t => e.expanded env (some t))

/-- `expandPeriod`, componentrecur.py:392-468.  `parent`: the overridden instances that the calendar
records for the UID, if the component is in a calendar.  `none`: still running. -/
def expandPeriod (env : TzEnv) (o : SetOrder) (fuel : Nat) (parent : Option (List Event)) (e : Event)
    (period : Period) : Option Outcome :=
  if e.recurs && e.rid.isNone then
    match e.rset.expand env o fuel e.start period with
    | none => none
    | some (.tooMany _) => some .raises
    | some (.dates items _ _) =>
      match parent with
      | none => some (.instances [])
      | some overrides => some (masterInstances env o e overrides items)
  else
    match e.within env o fuel period with
    | none => none
    | some none => some .raises
    | some (some true) => some (.instances [e.expanded env e.rid])
    | some (some false) => some (.instances [])

/-! ### `getVEvents` -/

/-- `ComponentExpanded.sort_by_dtstart_allday`, componentexpanded.py:23-39. -/
def byStartAllDay (env : TzEnv) (a b : Instance) : Bool :=
  if a.start.dateOnly && b.start.dateOnly then a.start.lt env b.start
  else if a.start.dateOnly then true
  else if b.start.dateOnly then false
  else if a.start.eq env b.start then
    if a.stop.eq env b.stop then a.stamp.lt env b.stamp else a.stop.gt env b.stop
  else a.start.lt env b.start

/-- `ComponentExpanded.sort_by_dtstart`, componentexpanded.py:42-53. -/
def byStart (env : TzEnv) (a b : Instance) : Bool :=
  if a.start.eq env b.start then
    if a.start.dateOnly != b.start.dateOnly then a.start.dateOnly else false
  else a.start.lt env b.start

/-- `list.sort(f)` in Python 2: `x` comes before `y` if `f(x, y) < 0`; otherwise the order stays.  The
`bool` that `f` gives is 0 or 1. -/
def pySort {α : Type} (f : α → α → Bool) (l : List α) : List α :=
  l.insertionSort fun x y => ¬ (if f y x then (1 : Int) else 0) < 0

/-- The loop of `getVEvents`, calendar.py:450-451; `index`: the recorded overridden instances. -/
def expandAll (env : TzEnv) (o : SetOrder) (fuel : Nat) (index : List Char → List Event)
    (period : Period) : List Event → Option Outcome
  | [] => some (.instances [])
  | e :: es =>
    match e.expandPeriod env o fuel (some (index e.uid)) period with
    | none => none
    | some .raises => some .raises
    | some (.instances l) =>
      match expandAll env o fuel index period es with
      | none => none
      | some .raises => some .raises
      | some (.instances l') => some (.instances (l ++ l'))

/-- `getVEvents`, calendar.py:448-456. -/
def getVEvents (env : TzEnv) (o : SetOrder) (fuel : Nat) (index : List Char → List Event)
    (events : List Event) (period : Period) (allDayAtTop : Bool := true) : Option Outcome :=
  match expandAll env o fuel index period events with
  | none => none
  | some .raises => some .raises
  | some (.instances l) =>
    some (.instances (if allDayAtTop then pySort (byStartAllDay env) l else pySort (byStart env) l))

end Event
end PyCal
