import Verif.Model.Event
import Verif.Model.FreeBusy

/-!
# What a calendar is asked for its free-busy time and its to-dos

`getVToDos`, `getVFreeBusyList`, `getVFreeBusyFB` and `getFreeBusy` of `Calendar` (icalendar/calendar.py),
`getStatusText` and `sort_for_display` of `VToDo` (icalendar/vtodo.py).
-/

namespace PyCal
namespace Query
open DateTime (TzEnv)

/-- The exceptions. -/
inductive Err where
  | attributeError | typeError | other
deriving DecidableEq, Repr

/-- `ComponentBase.getProperty(prop, value)`, componentbase.py:193-194: it calls `self.loadValue(prop, value)`,
but `loadValue` (457-461) takes the name only. -/
def getProperty (_owner : Event.Instance) : Except Err (Option (List Char)) := .error .typeError

/-- The loop of `getFreeBusy` over the instances, calendar.py:566-587: what was appended, and the exception.
`status` is `getMaster().getStatus()` (0, 1: none or confirmed; 2: tentative). -/
def busyLoop (status : Event.Instance → Int) : List Busy → List Event.Instance → List Busy × Option Err
  | fb, [] => (fb, none)
  | fb, c :: cs =>
    if c.start.dateOnly then busyLoop status fb cs
    else
      match getProperty c with
      | .error e => (fb, some e)
      | .ok transp =>
        if transp = some "TRANSPARENT".toList then busyLoop status fb cs
        else if status c = 0 ∨ status c = 1 then
          busyLoop status (fb ++ [⟨.busy, .ofEnd c.start c.stop⟩]) cs
        else if status c = 2 then (fb ++ [⟨.tentative, .ofEnd c.start c.stop⟩], none)
        else busyLoop status fb cs

/-- `getFreeBusy`, calendar.py:559-599: `fb` after it, and the exception if one was raised; `none`: still
running.  It calls `self.getVFreeBusy`, a method that does not exist. -/
def getFreeBusy (env : TzEnv) (o : SetOrder) (fuel : Nat) (index : List Char → List Event)
    (events : List Event) (status : Event.Instance → Int) (period : Period) (fb : List Busy) :
    Option (List Busy × Option Err) :=
  match Event.getVEvents env o fuel index events period with
  | none => none
  | some .raises => some (fb, some .other)
  | some (.instances l) =>
    match busyLoop status fb l with
    | (fb, some e) => some (fb, some e)
    | (fb, none) => some (fb, some .attributeError)

/-- `getVFreeBusyList`, calendar.py:499-502: `VFreeBusy` has no method `expandPeriod`. -/
def getVFreeBusyList (components : List VFreeBusy) (list : List VFreeBusy) : List VFreeBusy × Option Err :=
  match components with
  | [] => (list, none)
  | _ :: _ => (list, some .attributeError)

/-- `getVFreeBusyFB`, calendar.py:504-557: `list` is the class `list`, which `getVEvents` gets as the list to
append to: `list.append(x)`, or `list.sort(f)` if there is nothing to append, is a call without an object.
The lines behind it are never reached. -/
def getVFreeBusyFB (env : TzEnv) (o : SetOrder) (fuel : Nat) (index : List Char → List Event)
    (events : List Event) (period : Period) (fb : List Busy) : Option (List Busy × Option Err) :=
  match Event.expandAll env o fuel index period events with
  | none => none
  | some .raises => some (fb, some .other)
  | some (.instances _) => some (fb, some .typeError)

/-- `getVToDos`, calendar.py:458-488: `setNowUTC` (datetime.py:685-686) calls a method that does not exist. -/
def getVToDos {α : Type} (_onlyDue _allDates : Bool) (_upto : DateTime) (list : List α) :
    List α × Option Err := (list, some .attributeError)

/-- `VToDo.getStatusText`, vtodo.py:153-191: `StringIO` is the module `cStringIO` (vtodo.py:24). -/
def getStatusText (_status : Int) : Except Err (List Char) := .error .typeError

/-- `VToDo.sort_for_display`, vtodo.py:36-86: a component has no attribute `self`. -/
def sortForDisplay {α : Type} (_e1 _e2 : α) : Except Err Bool := .error .attributeError

end Query
end PyCal
