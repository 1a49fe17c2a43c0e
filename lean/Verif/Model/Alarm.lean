import Verif.Model.DateTime

/-!
# Alarms: `VAlarm` (icalendar/valarm.py)

`DateTime` (datetime.py) and its base class `ValueMixin` (valueutils.py) have no method `copy`, and
neither `VAlarm` nor its base classes have `getEmbedder`, so calling them raises `AttributeError`.  The
statements after such a call are never reached and are not modelled.
-/

namespace PyCal

/-- `eAlarm_Status_...`. -/
inductive AlarmStatus where
  | pending
  | completed
  | disabled
deriving DecidableEq, Repr

/-- The state of a `VAlarm`, valarm.py:320-335, with the values of its properties ALARM-X-LASTTRIGGER and
ALARM-X-ALARMSTATUS. -/
structure Alarm where
  repeats : Int
  interval : Duration
  absolute : Bool
  status : AlarmStatus
  statusInit : Bool
  done : Int
  lastProp : Option DateTime
  statusProp : Option AlarmStatus

namespace Alarm

/-- `x.copy(y)`: the method that `DateTime` has of this name. -/
def copyMethod : Option (DateTime → DateTime → DateTime) := none

/-- `self.getEmbedder`: the method that `VAlarm` has of this name. -/
def getEmbedder : Option (Alarm → Option (DateTime × DateTime)) := none

/-- `alarmTriggered`, valarm.py:593-621: the result (`none` is `AttributeError`) and the alarm after it.
Both properties are removed first (595-596), then `copy` is called (599). -/
def triggered (a : Alarm) (_dt : DateTime) : Option Bool × Alarm :=
  let a := { a with lastProp := none, statusProp := none }
  match copyMethod with
  | none => (none, a)
  | some _ => (some true, a)

/-- `getFirstTrigger`, valarm.py:664-677: `copy` (668) if the trigger is absolute, else `getEmbedder`
(671). -/
def firstTrigger (a : Alarm) : Option Unit :=
  if a.absolute then copyMethod.map fun _ => () else getEmbedder.map fun _ => ()

/-- `initNextTrigger`, valarm.py:629-662, up to the call of `getFirstTrigger` (643). -/
def initNext (a : Alarm) : Option Unit × Alarm :=
  if a.status = .completed then (some (), a)
  else
    let a := { a with statusInit := true, done := 0 }
    (a.firstTrigger, a)

/-- `getNextTrigger`, valarm.py:588-591. -/
def nextTrigger (a : Alarm) : Option Unit × Alarm :=
  if a.statusInit then (copyMethod.map fun _ => (), a)
  else
    match a.initNext with
    | (none, a) => (none, a)
    | (some _, a) => (copyMethod.map fun _ => (), a)

/-- The calls of a client. -/
inductive Call where
  /-- `alarmTriggered` -/
  | triggered (dt : DateTime)
  /-- `getNextTrigger` -/
  | next
  /-- `changed`, valarm.py:402-411 -/
  | changed

/-- A call: whether it returned, and the alarm after it. -/
def call (a : Alarm) : Call → Bool × Alarm
  | .triggered dt => ((a.triggered dt).1.isSome, (a.triggered dt).2)
  | .next => (a.nextTrigger.1.isSome, a.nextTrigger.2)
  | .changed => (true, { a with statusInit := false })

/-- A history of calls. -/
def calls (a : Alarm) : List Call → Alarm
  | [] => a
  | c :: cs => calls (a.call c).2 cs

end Alarm
end PyCal
