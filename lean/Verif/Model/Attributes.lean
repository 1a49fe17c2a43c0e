import Verif.Model.PeriodObject

/-!
# Attributes of components kept beside their properties

UID, SEQUENCE, SUMMARY, STATUS, COMPLETED, PRIORITY and PERCENT-COMPLETE of events and to-dos, and the name
and description of a calendar: what the object keeps, how it is loaded (`finalise`) and how it is edited.
-/

namespace PyCal
namespace Attr
open DateTime (TzEnv)

/-- The keys of `mProperties` that matter here. -/
inductive Key where
  | uid | sequence | summary | description | location | status | completed | priority | percent
  | calname | caldesc | dtstamp | lastModified | rid
  | other (name : List Char)
deriving DecidableEq

/-- `mValue` of a property by its class; `none` is a property made without a value. -/
inductive Val where
  | text (s : List Char) | int (n : Int) | dateTime (t : DateTime) | another | none
deriving DecidableEq

/-- `mProperties`: the properties in the order in which they were added. -/
abbrev Props := List (Key × Val)

/-- `findFirstProperty`, componentbase.py:174-175: the value of the property. -/
def first (k : Key) (ps : Props) : Option Val := (ps.find? fun p => p.1 = k).map (·.2)

/-- `removeProperties`, componentbase.py:183-185. -/
def remove (k : Key) (ps : Props) : Props := ps.filter fun p => p.1 ≠ k

/-- `addProperty`, componentbase.py:165-166. -/
def add (k : Key) (v : Val) (ps : Props) : Props := ps ++ [(k, v)]

/-- `editProperty`, componentbase.py:651-658; `none` is Python's `None`. -/
def editProperty (k : Key) (v : Option (List Char)) (ps : Props) : Props :=
  match v with
  | some (c :: s) => add k (.text (c :: s)) (remove k ps)
  | _ => remove k ps

/-- `loadValueString`, componentbase.py:479-485. -/
def loadString (k : Key) (ps : Props) : Option (List Char) :=
  match first k ps with | some (.text s) => some s | _ => none

/-- `loadValueInteger`, componentbase.py:463-477. -/
def loadInt (k : Key) (ps : Props) : Option Int :=
  match first k ps with | some (.int n) => some n | _ => none

/-- `loadValueDateTime`, componentbase.py:487-493. -/
def loadDateTime (k : Key) (ps : Props) : Option DateTime :=
  match first k ps with | some (.dateTime t) => some t | _ => none

/-- An event or a to-do. -/
inductive Kind where
  | event | todo
deriving DecidableEq

/-- What an event or to-do keeps: `mUID`, `mSeq`, `mOriginalSeq`, `mMapKey`, `mSummary`, `mStatus`,
`mHasCompleted`, `mCompleted`, `mPriority`, `mPercentComplete`.  (`mMapKey`, `None` or a text, is without the
random key that `getMapKey` puts there.)  The last four only exist in to-dos.  In the beginning:
component.py:47-53, componentrecur.py:76-92, vevent.py:54-56, vtodo.py:117-123. -/
structure Comp where
  props : Props := []
  uid : List Char := []
  seq : Int := 0
  originalSeq : Int := 0
  mapKey : Option (List Char) := none
  summary : Option (List Char) := none
  status : Int := 0
  hasCompleted : Bool := false
  completed : DateTime := ⟨1970, 1, 1, 0, 0, 0, false, false, none⟩
  priority : Option Int := some 0
  percent : Option Int := some 0
deriving DecidableEq

/-- `ComponentRecur.mapKey`, componentrecur.py:34-42. -/
def mapKey (uid : List Char) (rid : Option (List Char)) : Option (List Char) :=
  if uid = [] then none else some ("u:".toList ++ uid ++ rid.getD [])

/-- The text of the RECURRENCE-ID, if there is one (componentrecur.py:273-279). -/
def ridText (ps : Props) : Option (List Char) := (loadDateTime .rid ps).map DateTime.getText

/-- The status texts, definitions.py:277-298, as compared in vevent.py:86-93 and vtodo.py:246-255. -/
def statusOf (k : Kind) (s : List Char) : Option Int :=
  match k with
  | .event =>
    if s = "TENTATIVE".toList then some 2
    else if s = "CONFIRMED".toList then some 1
    else if s = "CANCELLED".toList then some 3
    else none
  | .todo =>
    if s = "NEEDS-ACTION".toList then some 1
    else if s = "COMPLETED".toList then some 3
    else if s = "IN-PROCESS".toList then some 2
    else if s = "CANCELLED".toList then some 4
    else none

/-- `finalise`: component.py:161-175, componentrecur.py:268-291, vevent.py:82-93, vtodo.py:242-264.  If the
RECURRENCE-ID is not a date the code raises; here it counts as none. -/
def Comp.finalise (k : Kind) (c : Comp) : Comp :=
  let uid := (loadString .uid c.props).getD c.uid
  let seq := (loadInt .sequence c.props).getD c.seq
  let summary := match loadString .summary c.props with | some s => some s | none => c.summary
  let status := (((loadString .status c.props).bind (statusOf k)).getD c.status)
  let c := { c with uid, seq, originalSeq := seq, mapKey := Attr.mapKey uid (ridText c.props), summary, status }
  match k with
  | .event => c
  | .todo =>
    let d := loadDateTime .completed c.props
    { c with priority := loadInt .priority c.props, percent := loadInt .percent c.props
             hasCompleted := d.isSome, completed := d.getD c.completed }

/-- A new object with the properties given, loaded as the parser does. -/
def Comp.fresh (k : Kind) (ps : Props) : Comp := Comp.finalise k { props := ps }

/-- `Component.setUID`, component.py:90-127, with componentrecur.py:200-207: whether it returned.  Without a
text it calls `md5.new` (stringutils.py:101-102), which `hashlib.md5` does not have: `AttributeError`.  The code
uses the RECURRENCE-ID found when the component was loaded; none of the calls here changes the property. -/
def Comp.setUID (uid : List Char) (c : Comp) : Bool × Comp :=
  if uid = [] then (false, c)
  else (true, { c with uid := uid, props := add .uid (.text uid) (remove .uid c.props),
                       mapKey := Attr.mapKey uid (ridText c.props) })

/-- `Component.setSeq`, component.py:132-138. -/
def Comp.setSeq (n : Int) (c : Comp) : Comp :=
  { c with seq := n, props := add .sequence (.int n) (remove .sequence c.props) }

/-- `editSummary`, componentrecur.py:490-495. -/
def Comp.editSummary (s : Option (List Char)) (c : Comp) : Comp :=
  { c with summary := s, props := editProperty .summary s c.props }

/-- `editDetails`, componentrecur.py:497-501. -/
def Comp.editDetails (d l : Option (List Char)) (c : Comp) : Comp :=
  { c with props := editProperty .location l (editProperty .description d c.props) }

/-- `VEvent.editStatus`, vevent.py:128-152. -/
def Comp.editStatusEvent (s : Int) (c : Comp) : Comp :=
  if c.status = s then c
  else
    let ps := remove .status c.props
    { c with status := s
             props := if s = 2 then add .status (.text "TENTATIVE".toList) ps
                      else if s = 1 then add .status (.text "CONFIRMED".toList) ps
                      else if s = 3 then add .status (.text "CANCELLED".toList) ps
                      else ps }

/-- `VToDo.editStatus`, vtodo.py:302-329: whether it returned.  To complete it, it calls `setNowUTC`, which
calls `copy_DateTime` (datetime.py:685-686), a method that does not exist. -/
def Comp.editStatusToDo (s : Int) (c : Comp) : Bool × Comp :=
  if c.status = s then (true, c)
  else
    let ps := remove .completed (remove .status c.props)
    let c := { c with status := s, hasCompleted := false, props := ps }
    if s = 3 then (false, c)
    else
      let v : Val :=
        if s = 1 then .text "NEEDS-ACTION".toList
        else if s = 2 then .text "IN-PROCESS".toList
        else if s = 4 then .text "CANCELLED".toList
        else .none
      (true, { c with props := add .status v ps })

/-- `VToDo.editCompleted`, vtodo.py:331-341. -/
def Comp.editCompleted (env : TzEnv) (t : DateTime) (c : Comp) : Comp :=
  { c with hasCompleted := true, completed := PeriodObj.utcOf env t
           props := add .completed (.dateTime (PeriodObj.utcOf env t)) (remove .completed c.props) }

/-- The calls of a client that edits. -/
inductive Call where
  | setUID (uid : List Char)
  | setSeq (n : Int)
  | editSummary (s : Option (List Char))
  | editDetails (d l : Option (List Char))
  | editStatus (s : Int)
  | editCompleted (t : DateTime)
  /-- `initDTSTAMP` (component.py:149-153), `updateLastModified` (155-159) at a time -/
  | stamp (t : DateTime)
  | modified (t : DateTime)

/-- The component after a call (after an exception too, if the client catches it).  `editCompleted` is only
there in to-dos. -/
def Comp.call (env : TzEnv) (k : Kind) (c : Comp) : Call → Bool × Comp
  | .setUID u => c.setUID u
  | .setSeq n => (true, c.setSeq n)
  | .editSummary s => (true, c.editSummary s)
  | .editDetails d l => (true, c.editDetails d l)
  | .editStatus s => match k with | .event => (true, c.editStatusEvent s) | .todo => c.editStatusToDo s
  | .editCompleted t => match k with | .event => (false, c) | .todo => (true, c.editCompleted env t)
  | .stamp t => (true, { c with props := add .dtstamp (.dateTime t) (remove .dtstamp c.props) })
  | .modified t => (true, { c with props := add .lastModified (.dateTime t) (remove .lastModified c.props) })

/-- A history of calls. -/
def Comp.calls (env : TzEnv) (k : Kind) (c : Comp) : List Call → Comp
  | [] => c
  | x :: xs => Comp.calls env k (c.call env k x).2 xs

/-! ### The completion state of a to-do -/

/-- `VToDo.getCompletionState`, vtodo.py:193-210: `none` is `AttributeError`, as `setToday` calls
`copy_ICalendarDateTime` (datetime.py:662-664), which does not exist; `some none` is `None`.  The states:
`OVERDUE` = 0, `DUE_NOW` = 1, `DUE_LATER` = 2, `DONE` = 3, `CANCELLED` = 4.  `hasEnd`: `mHasEnd`. -/
def Comp.completionState (hasEnd : Bool) (c : Comp) : Option (Option Nat) :=
  if c.status = 1 ∨ c.status = 2 then
    if hasEnd then none else some (some 1)
  else if c.status = 3 then some (some 3)
  else if c.status = 4 then some (some 4)
  else some none

/-! ### The name and description of a calendar -/

/-- What a calendar keeps: `mName`, `mDescription`, calendar.py:70-76. -/
structure Cal where
  props : Props := []
  name : List Char := []
  description : List Char := []
deriving DecidableEq

/-- `Calendar.finalise`, calendar.py:162-173. -/
def Cal.finalise (c : Cal) : Cal :=
  { c with name := (loadString .calname c.props).getD c.name
           description := (loadString .caldesc c.props).getD c.description }

/-- `editName`, calendar.py:100-110: whether it returned.  It calls `ddProperty`. -/
def Cal.editName (s : List Char) (c : Cal) : Bool × Cal :=
  if c.name = s then (true, c)
  else (s.isEmpty, { c with name := s, props := remove .calname c.props })

/-- `editDescription`, calendar.py:118-128. -/
def Cal.editDescription (s : List Char) (c : Cal) : Cal :=
  if c.description = s then c
  else
    { c with description := s
             props := if s = [] then remove .caldesc c.props
                      else add .caldesc (.text s) (remove .caldesc c.props) }

end Attr
end PyCal
