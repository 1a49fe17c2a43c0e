import Verif.Spec.ZonedDates
import Verif.Lemmas.DateTime
import Verif.Spec.Escape
import Verif.Spec.DurationGrammar

/-!
# What the lines of the events of a calendar say about their times

RFC 5545 sections 3.6.1 (events), 3.8.2.2 (DTEND), 3.8.2.5 (DURATION), 3.8.4.4 (RECURRENCE-ID), 3.8.4.7 (UID), 3.8.5.3.
-/

namespace Spec.CalendarText
open PyCal PropText DateTime EventText

/-- What is said of an event: its UID, its recurrence (with the start), its end or its length in seconds, and, if it stands for an
instance of the event with this UID, which one. -/
structure EventDesc where
  uid : List Char
  facts : List Fact
  start : DateTime
  dtend : Option DateTime
  dur : Option Int
  rid : Option DateTime

/-- The property, if there is a line of that name (whatever its case); not more than one. -/
inductive HasLine {α : Type} (ls : List ContentLine) (key : List Char) (R : ContentLine → α → Prop) : Option α → Prop
  | none : (∀ l ∈ ls, upper l.name ≠ key) → HasLine ls key R none
  | some (l : ContentLine) (a : α) : l ∈ ls → upper l.name = key → (∀ m ∈ ls, upper m.name = key → m = l) → R l a →
      HasLine ls key R (some a)

/-- A date, or a date-time in UTC, in a zone or floating. -/
def DateLine (l : ContentLine) (t : DateTime) : Prop :=
  ∃ d z t', DateParams l d z ∧ DateTimeText l.value t' ∧ t'.dateOnly = d ∧ (z ≠ none → t'.utc = false) ∧ t = inZone z t'

/-- A duration. -/
def LengthLine (l : ContentLine) (k : Int) : Prop :=
  (∃ v, HasParam l "VALUE".toList v ∧ (v = none ∨ v = some "DURATION".toList)) ∧ Dur.Value l.value k

/-- A text. -/
def TextLine (l : ContentLine) (s : List Char) : Prop :=
  (∃ v, HasParam l "VALUE".toList v ∧ (v = none ∨ v = some "TEXT".toList)) ∧ Denotes l.value s

/-- An instance, and not also later or earlier ones. -/
def InstanceLine (l : ContentLine) (t : DateTime) : Prop := DateLine l t ∧ HasParam l "RANGE".toList none

/-- The lines of an event say this. -/
structure Describes (ls : List ContentLine) (d : EventDesc) : Prop where
  lines : List.Forall₂ Says ls d.facts
  start : startOf d.facts = some d.start
  uid : HasLine ls "UID".toList TextLine (some d.uid)
  dtend : HasLine ls "DTEND".toList DateLine d.dtend
  dur : HasLine ls "DURATION".toList LengthLine d.dur
  rid : HasLine ls "RECURRENCE-ID".toList InstanceLine d.rid

/-- So many seconds later by the clock. -/
def Later (s : DateTime) (k : Int) (u : DateTime) : Prop := u.Valid ∧ SameKind u s ∧ timeNum u.civil = timeNum s.civil + k

/-- When the event ends: with DTEND, or after DURATION, else at the end of the day if it starts with a date, or else when it starts. -/
inductive Ends (d : EventDesc) : DateTime → Prop
  | dtend {t} : d.dtend = some t → Ends d t
  | dur {k u} : d.dtend = none → d.dur = some k → Later d.start k u → Ends d u
  | day {u} : d.dtend = none → d.dur = none → d.start.dateOnly = true → Later d.start 86400 u → Ends d u
  | point : d.dtend = none → d.dur = none → d.start.dateOnly = false → Ends d d.start

/-- The instances from `t` to `u` that the events of a calendar have.  A recurring event has one for each of its dates in the range,
as long as the event itself, other than those for which there is another event; any other event has one with its own times, if it
ends after the range starts and starts before the range ends. -/
def HasInstance (env : TzEnv) (cal : List EventDesc) (range : Period) (d : EventDesc) (t u : DateTime) : Prop :=
  (d.rid = none ∧ Recurs d.facts) ∧ (ZonedDates.IsDate env d.facts d.start t ∧ ZonedDates.In env range t) ∧
    (∀ v ∈ cal, v.uid = d.uid → ∀ r, v.rid = some r → ¬ ZonedDates.Coincide env t r) ∧
    (∃ x, Ends d x ∧ Later t (timeNum x.civil - timeNum d.start.civil) u) ∨
  ¬ (d.rid = none ∧ Recurs d.facts) ∧ (t = d.start ∧ Ends d u) ∧
    ZonedDates.Earlier env range.start u ∧ ZonedDates.Earlier env t range.stop

end Spec.CalendarText
