import Verif.Model.EventRead
import Verif.Model.Container

/-!
# The events of a calendar, from its lines

`Calendar.parseText` (containerbase.py) with the properties read as in `EventRead`, and `getVEvents` (icalendar/calendar.py) of the
calendar that is read.
-/

namespace PyCal
namespace CalendarRead
open EventRead PropText
open DateTime (TzEnv)

/-- The settings for the properties, whether `BLANK_LINES_IN_DATA` is `PARSER_RAISE`, and, for a component that is no
`ComponentRecur`, whether `finalise` goes through. -/
structure Settings extends Env where
  blankRaise : Bool := false
  finishes : Cont.Component → Bool := fun _ => true

/-- Whether the class for the type is a `ComponentRecur`: vevent.py:25, vtodo.py:27, vjournal.py:24, available.py:23. -/
def isRecur (type : List Char) : Bool :=
  decide (type = "VEVENT".toList ∨ type = "VTODO".toList ∨ type = "VJOURNAL".toList ∨ type = "AVAILABLE".toList)

/-- The times of a component with these properties; `none`: an exception. -/
def timed (e : Env) (c : Cont.Component) : Option Timed :=
  (c.props.mapM fun p => readLine e p.text).bind finalised

/-- `Calendar.validProperty`, icalendar/calendar.py:624-637. -/
def valid (e : Env) (p : Cont.CProp) : Bool :=
  let is (s : String) : Bool :=
    match readLine e p.text with
    | some ⟨_, _, .text v⟩ => decide (v = s.toList)
    | _ => false
  if p.name = "VERSION".toList then is "2.0"
  else if p.name = "CALSCALE".toList then is "GREGORIAN"
  else true

/-- What `ContainerBase.parse` does with lines and with components; `finalise` only caches, apart from `VTimezone.finalise`, which
sorts the components in it. -/
def container (s : Settings) : Cont.Env where
  container := "VCALENDAR".toList
  nested := true
  blankRaise := s.blankRaise
  parseProp := fun l => (readLine s.toEnv l).map fun p => ⟨p.name, l⟩
  valid := valid s.toEnv
  finalise := fun c =>
    if (if isRecur c.type then (timed s.toEnv c).isSome else s.finishes c) then some c else none

/-- `Calendar.parseText` of unfolded lines, containerbase.py:110-212, icalendar/calendar.py:193-201. -/
def read (s : Settings) (lines : List (List Char)) : Except Cont.Err (Option Cont.Component) :=
  Cont.parseCalendar (container s) lines

/-- `mOverriddenComponentsByUID`, calendar.py:308-320: by UID, whatever the type of the component. -/
def overridden (e : Env) (c : Cont.Component) (uid : List Char) : List Event :=
  ((c.subs.filter fun d => isRecur d.type).filterMap fun d => (timed e d).map (·.event)).filter
    fun v => v.rid.isSome && decide (v.uid = uid)

/-- `expandPeriod` of a component that `getComponents` gives, calendar.py:450-451: what has not the type `VEVENT` itself but one that
differs in case is an `UnknownComponent` (component.py:40-45), which has no such method. -/
def expandOne (env : TzEnv) (o : SetOrder) (fuel : Nat) (e : Env) (c : Cont.Component) (period : Period) (d : Cont.Component) :
    Option Event.Outcome :=
  if d.type ≠ "VEVENT".toList then some .raises
  else
    match timed e d with
    | none => some .raises
    | some t => t.expandPeriod env o fuel (some (overridden e c t.event.uid)) period

/-- The loop of `getVEvents`, calendar.py:450-451. -/
def expandAll (env : TzEnv) (o : SetOrder) (fuel : Nat) (e : Env) (c : Cont.Component) (period : Period) :
    List Cont.Component → Option Event.Outcome
  | [] => some (.instances [])
  | d :: ds =>
    match expandOne env o fuel e c period d with
    | none => none
    | some .raises => some .raises
    | some (.instances l) =>
      match expandAll env o fuel e c period ds with
      | none => none
      | some .raises => some .raises
      | some (.instances l') => some (.instances (l ++ l'))

/-- `getVEvents`, calendar.py:448-456, with `getComponents`, componentbase.py:108-110. -/
def getVEvents (env : TzEnv) (o : SetOrder) (fuel : Nat) (e : Env) (c : Cont.Component) (period : Period)
    (allDayAtTop : Bool := true) : Option Event.Outcome :=
  match expandAll env o fuel e c period (c.subs.filter fun d => decide (upper d.type = "VEVENT".toList)) with
  | none => none
  | some .raises => some .raises
  | some (.instances l) =>
    some (.instances (if allDayAtTop then Event.pySort (Event.byStartAllDay env) l else Event.pySort (Event.byStart env) l))

end CalendarRead
end PyCal
