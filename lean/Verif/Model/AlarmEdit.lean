import Verif.Model.Alarm
import Verif.Model.DateTimeText
import Verif.Model.Duration

/-!
# Alarms: their properties and what is kept beside them (icalendar/valarm.py)

How an alarm is loaded (`finalise`), edited and duplicated.  What happens when it goes off is in `Alarm`.
-/

namespace PyCal
namespace Alm

/-- The keys of `mProperties` that matter here. -/
inductive Key where
  | action | trigger | «repeat» | duration | alarmStatus | lastTrigger
  | speak | description | summary | attendee | url
  | other (name : List Char)
deriving DecidableEq

/-- `mValue` of a property by its class: `CalAddressValue` is a subclass of `PlainTextValue`
(caladdressvalue.py:24), as are the values of URL; `none` is a property made without a value. -/
inductive Val where
  | text (s : List Char) | address (s : List Char) | int (n : Int) | dateTime (t : DateTime)
  | duration (d : Duration) | another | none
deriving DecidableEq

/-- A property: its value, and its RELATED parameter if there is one (the first value of the first, property.py:132-133). -/
structure P where
  key : Key
  val : Val
  related : Option (List Char) := .none
deriving DecidableEq

/-- `mProperties`: the properties in the order in which they were added. -/
abbrev Props := List P

/-- `findFirstProperty`, componentbase.py:174-175. -/
def first (k : Key) (ps : Props) : Option P := ps.find? fun p => p.key = k

/-- `removeProperties`, componentbase.py:183-185. -/
def remove (k : Key) (ps : Props) : Props := ps.filter fun p => p.key ≠ k

/-- `addProperty`, componentbase.py:165-166. -/
def add (p : P) (ps : Props) : Props := ps ++ [p]

/-- `Property(name, value)` with a text or `None`, icalendar/property.py:187-200. -/
def textVal (s : Option (List Char)) : Val := match s with | some s => .text s | none => .none

/-- `loadValueString`, componentbase.py:479-485. -/
def loadString (k : Key) (ps : Props) : Option (List Char) :=
  match (first k ps).map P.val with
  | some (.text s) => some s
  | some (.address s) => some s
  | _ => none

/-- `loadValueInteger`, componentbase.py:463-477. -/
def loadInt (k : Key) (ps : Props) : Option Int :=
  match (first k ps).map P.val with | some (.int n) => some n | _ => none

/-- `loadValueDateTime`, componentbase.py:487-493. -/
def loadDateTime (k : Key) (ps : Props) : Option DateTime :=
  match (first k ps).map P.val with | some (.dateTime t) => some t | _ => none

/-- `loadValueDuration`, componentbase.py:495-501. -/
def loadDuration (k : Key) (ps : Props) : Option Duration :=
  match (first k ps).map P.val with | some (.duration d) => some d | _ => none

/-- `eAction_VAlarm_...`, definitions.py:303-307, 327, 333. -/
inductive Action where
  | audio | display | email | procedure | unknown | uri | none
deriving DecidableEq

/-- The number of an action. -/
def Action.num : Action → Nat
  | .audio => 0 | .display => 1 | .email => 2 | .procedure => 3 | .unknown => 4 | .uri => 5 | .none => 6

/-- `sActionMap.get(temp, eAction_VAlarm_Unknown)`, valarm.py:29-36, 418-421. -/
def actionOf (s : List Char) : Action :=
  if s = "AUDIO".toList then .audio
  else if s = "DISPLAY".toList then .display
  else if s = "EMAIL".toList then .email
  else if s = "PROCEDURE".toList then .procedure
  else if s = "URI".toList then .uri
  else if s = "NONE".toList then .none
  else .unknown

/-- `sActionValueMap.get(self.mAction, cICalProperty_ACTION_PROCEDURE)`, valarm.py:38-45, 531. -/
def actionText : Action → List Char
  | .audio => "AUDIO".toList
  | .display => "DISPLAY".toList
  | .email => "EMAIL".toList
  | .procedure => "PROCEDURE".toList
  | .uri => "URI".toList
  | .none => "NONE".toList
  | .unknown => "PROCEDURE".toList

/-- The classes of action data, valarm.py:49-296; an argument left out is `none`. -/
inductive Data where
  | audio (speak : Option (List Char))
  | display (description : Option (List Char))
  | email (description summary : Option (List Char)) (attendees : Option (List (List Char)))
  | uri (uri : Option (List Char))
  | unknown
  | none
deriving DecidableEq

/-- The values of the ATTENDEE properties, valarm.py:191-199. -/
def attendees (ps : Props) : List (List Char) :=
  ps.filterMap fun p => if p.key = .attendee then (match p.val with | .address s => some s | _ => Option.none) else Option.none

/-- `loadAction`, valarm.py:623-627, with `load` of the class (94-96, 138-140, 186-199, 269-271). -/
def loadAction (a : Action) (ps : Props) : Data :=
  match a with
  | .audio => .audio (loadString .speak ps)
  | .display => .display (loadString .description ps)
  | .email => .email (loadString .description ps) (loadString .summary ps) (some (attendees ps))
  | .uri => .uri (loadString .url ps)
  | .none => .none
  | .procedure | .unknown => .unknown

/-- `remove` of the class, valarm.py:105-106, 149-150, 215-218, 280-281. -/
def Data.remove (d : Data) (ps : Props) : Props :=
  match d with
  | .audio _ => Alm.remove .speak ps
  | .display _ => Alm.remove .description ps
  | .email .. => Alm.remove .attendee (Alm.remove .summary (Alm.remove .description ps))
  | .uri _ => Alm.remove .url ps
  | .unknown | .none => ps

/-- `add` of the class, valarm.py:98-103, 142-147, 201-213, 273-278: whether it returned.  An iteration over
`None` is a `TypeError`. -/
def Data.add (d : Data) (ps : Props) : Bool × Props :=
  match d with
  | .audio s => (true, Alm.add ⟨.speak, textVal s, Option.none⟩ (d.remove ps))
  | .display s => (true, Alm.add ⟨.description, textVal s, Option.none⟩ (d.remove ps))
  | .email s t att =>
    let ps := Alm.add ⟨.summary, textVal t, Option.none⟩ (Alm.add ⟨.description, textVal s, Option.none⟩ (d.remove ps))
    match att with
    | Option.none => (false, ps)
    | some l => (true, ps ++ l.map fun a => ⟨.attendee, .address a, Option.none⟩)
  | .uri s => (true, Alm.add ⟨.url, textVal s, Option.none⟩ (d.remove ps))
  | .unknown | .none => (true, ps)

/-- `isSpeakText`, valarm.py:108-109: `none` is a `TypeError`. -/
def Data.isSpeakText : Data → Option Bool
  | .audio (some s) => some (s.length != 0)
  | _ => Option.none

/-- What a `VAlarm` keeps, valarm.py:312-338, but for what is in `Alarm`.  `mapKey`: `mMapKey`, which is only there
after `finalise` (`getMapKey` makes a random key if it is not, component.py:72-79). -/
structure VAlarm where
  props : Props := []
  action : Action := .display
  data : Data := .display (some [])
  absolute : Bool := false
  onStart : Bool := true
  triggerOn : DateTime := ⟨1970, 1, 1, 0, 0, 0, false, false, Option.none⟩
  triggerBy : Duration := Duration.ofSeconds 3600
  repeats : Int := 0
  interval : Duration := Duration.ofSeconds 300
  status : AlarmStatus := .pending
  mapKey : Option (List Char) := Option.none
deriving DecidableEq

/-- The texts of the status, definitions.py:370-372. -/
def statusText : AlarmStatus → List Char
  | .pending => "PENDING".toList
  | .completed => "COMPLETED".toList
  | .disabled => "DISABLED".toList

/-- valarm.py:461-469. -/
def statusFrom (s : List Char) : AlarmStatus :=
  if s = "PENDING".toList then .pending
  else if s = "COMPLETED".toList then .completed
  else if s = "DISABLED".toList then .disabled
  else .pending

/-- valarm.py:457. -/
def VAlarm.key (v : VAlarm) : List Char :=
  decNat v.action.num ++ ':' :: (if v.absolute then v.triggerOn.getText else v.triggerBy.generate)

/-- The part of `finalise` that loads the trigger, valarm.py:424-446. -/
def VAlarm.loadTrigger (v : VAlarm) : VAlarm :=
  match first .trigger v.props with
  | none => v
  | some p =>
    match p.val with
    | .dateTime t => { v with absolute := true, triggerOn := t }
    | .duration d =>
      { v with absolute := false, triggerBy := d
               onStart := match p.related with
                 | some r => if r = "START".toList then true else if r = "END".toList then false else v.onStart
                 | Option.none => true }
    | _ => v

/-- `finalise`, valarm.py:413-474, without the last trigger. -/
def VAlarm.finalise (v : VAlarm) : VAlarm :=
  let v := match loadString .action v.props with
    | some s => { v with action := actionOf s, data := loadAction (actionOf s) v.props }
    | none => v
  let v := v.loadTrigger
  let v := { v with repeats := (loadInt .repeat v.props).getD v.repeats
                    interval := (loadDuration .duration v.props).getD v.interval }
  let v := { v with mapKey := some v.key }
  { v with status := ((loadString .alarmStatus v.props).map statusFrom).getD v.status }

/-- A new alarm with the properties given, loaded as the parser does. -/
def VAlarm.fresh (ps : Props) : VAlarm := VAlarm.finalise { props := ps }

/-- `editStatus`, valarm.py:503-518. -/
def VAlarm.editStatus (s : AlarmStatus) (v : VAlarm) : VAlarm :=
  { v with status := s
           props := add ⟨.alarmStatus, .text (statusText s), Option.none⟩ (remove .alarmStatus v.props) }

/-- `editAction`, valarm.py:520-536: whether it returned. -/
def VAlarm.editAction (a : Action) (d : Data) (v : VAlarm) : Bool × VAlarm :=
  let ps := v.data.remove (remove .action v.props)
  let r := d.add (add ⟨.action, .text (actionText a), Option.none⟩ ps)
  (r.1, { v with action := a, data := d, props := r.2 })

/-- `editTriggerOn`, valarm.py:538-548. -/
def VAlarm.editTriggerOn (t : DateTime) (v : VAlarm) : VAlarm :=
  { v with absolute := true, triggerOn := t
           props := add ⟨.trigger, .dateTime t, Option.none⟩ (remove .trigger v.props) }

/-- `editTriggerBy`, valarm.py:550-569. -/
def VAlarm.editTriggerBy (d : Duration) (start : Bool) (v : VAlarm) : VAlarm :=
  { v with absolute := false, triggerBy := d, onStart := start
           props := add ⟨.trigger, .duration d, some (if start then "START".toList else "END".toList)⟩
             (remove .trigger v.props) }

/-- `editRepeats`, valarm.py:571-583. -/
def VAlarm.editRepeats (n : Int) (i : Duration) (v : VAlarm) : VAlarm :=
  let ps := remove .duration (remove .repeat v.props)
  { v with repeats := n, interval := i
           props := if n > 0 then add ⟨.duration, .duration i, Option.none⟩ (add ⟨.repeat, .int n, Option.none⟩ ps)
                    else ps }

/-- `duplicate`, valarm.py:340-359, with componentbase.py:55-64 and icalendar/property.py:233-239: `none` is
`AttributeError`, if a property has no value.  `mMapKey` is not copied. -/
def VAlarm.duplicate (v : VAlarm) : Option VAlarm :=
  if v.props.any fun p => p.val = .none then Option.none else some { v with mapKey := Option.none }

/-- The calls of a client that edits. -/
inductive Call' where
  | editStatus (s : AlarmStatus)
  | editAction (a : Action) (d : Data)
  | editTriggerOn (t : DateTime)
  | editTriggerBy (d : Duration) (start : Bool)
  | editRepeats (n : Int) (i : Duration)

/-- The alarm after a call (after an exception too, if the client catches it). -/
def VAlarm.call (v : VAlarm) : Call' → Bool × VAlarm
  | .editStatus s => (true, v.editStatus s)
  | .editAction a d => v.editAction a d
  | .editTriggerOn t => (true, v.editTriggerOn t)
  | .editTriggerBy d s => (true, v.editTriggerBy d s)
  | .editRepeats n i => (true, v.editRepeats n i)

/-- A history of calls. -/
def VAlarm.calls (v : VAlarm) : List Call' → VAlarm
  | [] => v
  | x :: xs => VAlarm.calls (v.call x).2 xs

end Alm
end PyCal
