import Verif.Spec.CalendarText

/-!
# What the lines of an alarm say

RFC 5545 section 3.6.6, with 3.8.6 (ACTION, REPEAT, TRIGGER) and 3.2.14 (RELATED).
-/

namespace Spec.AlarmText
open PyCal PropText DateTime EventText CalendarText

/-- When the alarm goes off: at a time, or so many seconds after the start (`true`) or the end. -/
inductive Trigger where
  | at (t : DateTime)
  | by (k : Int) (onStart : Bool)

/-- A TRIGGER: a time in UTC, or a duration, from the start if not said otherwise. -/
inductive TriggerLine (l : ContentLine) : Trigger → Prop
  | at {t} : HasParam l "VALUE".toList (some "DATE-TIME".toList) → HasParam l "TZID".toList none → DateTimeText l.value t →
      t.dateOnly = false → t.utc = true → TriggerLine l (.at t)
  | start {k v} : LengthLine l k → HasParam l "RELATED".toList v → v = none ∨ v = some "START".toList → TriggerLine l (.by k true)
  | stop {k} : LengthLine l k → HasParam l "RELATED".toList (some "END".toList) → TriggerLine l (.by k false)

/-- A number. -/
def NumberLine (l : ContentLine) (n : Int) : Prop :=
  (∃ v, HasParam l "VALUE".toList v ∧ (v = none ∨ v = some "INTEGER".toList)) ∧ Recur.Number l.value n

/-- An address. -/
def AddressLine (l : ContentLine) (s : List Char) : Prop :=
  (∃ v, HasParam l "VALUE".toList v ∧ (v = none ∨ v = some "CAL-ADDRESS".toList)) ∧ l.value = s

/-- What is said of an alarm. -/
structure AlarmDesc where
  action : List Char
  trigger : Trigger
  count : Option Int
  interval : Option Int
  description : Option (List Char)
  summary : Option (List Char)
  attendees : List (List Char)

/-- The lines of an alarm say this. -/
structure Describes (ls : List ContentLine) (d : AlarmDesc) : Prop where
  action : HasLine ls "ACTION".toList TextLine (some d.action)
  trigger : HasLine ls "TRIGGER".toList TriggerLine (some d.trigger)
  count : HasLine ls "REPEAT".toList NumberLine d.count
  interval : HasLine ls "DURATION".toList LengthLine d.interval
  description : HasLine ls "DESCRIPTION".toList TextLine d.description
  summary : HasLine ls "SUMMARY".toList TextLine d.summary
  attendees : List.Forall₂ AddressLine (ls.filter fun l => decide (upper l.name = "ATTENDEE".toList)) d.attendees

end Spec.AlarmText
