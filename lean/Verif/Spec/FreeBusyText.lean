import Verif.Spec.CalendarText
import Verif.Spec.FreeBusy

/-!
# What the lines of a free-busy component say

RFC 5545 sections 3.3.9 (periods), 3.6.4 (free-busy components), 3.2.9 (FBTYPE) and 3.8.2.6 (FREEBUSY).
-/

namespace Spec.FreeBusyText
open PyCal PropText DateTime EventText CalendarText

/-- In UTC, as all times of a free-busy component. -/
def InUTC (t : DateTime) : Prop := t.dateOnly = false ∧ t.utc = true

/-- `period`: from one time to another, or for a positive duration. -/
inductive PeriodText : List Char → DateTime × DateTime → Prop
  | ends {a b s u} : DateTimeText a s → DateTimeText b u → InUTC s → InUTC u → PeriodText (a ++ '/' :: b) (s, u)
  | lasts {a b s k u} : DateTimeText a s → InUTC s → Dur.Value b k → 0 < k → Later s k u → PeriodText (a ++ '/' :: b) (s, u)

/-- A FREEBUSY line and the busy periods it lists, with the types. -/
def BusyLine (l : ContentLine) (bs : List (FBType × DateTime × DateTime)) : Prop :=
  (∃ v, HasParam l "VALUE".toList v ∧ (v = none ∨ v = some "PERIOD".toList)) ∧
  ∃ v t ps, HasParam l "FBTYPE".toList v ∧ FB87.Says v t ∧ Recur.Sep ',' PeriodText l.value ps ∧
    bs = if t = .free then [] else ps.map fun p => (t, p)

/-- A time in UTC. -/
def UTCLine (l : ContentLine) (t : DateTime) : Prop := DateLine l t ∧ InUTC t

/-- What is said of a free-busy component: the times it is about, and the busy periods. -/
structure BusyDesc where
  start : Option DateTime
  stop : Option DateTime
  busy : List (FBType × DateTime × DateTime)

/-- The lines of the component say this. -/
structure Describes (ls : List ContentLine) (d : BusyDesc) : Prop where
  start : HasLine ls "DTSTART".toList UTCLine d.start
  stop : HasLine ls "DTEND".toList UTCLine d.stop
  busy : ∃ parts, List.Forall₂ BusyLine (ls.filter fun l => decide (upper l.name = "FREEBUSY".toList)) parts ∧ parts.flatten = d.busy

/-- When what the component is about begins: with DTSTART, or else with the first busy period. -/
def Begins (d : BusyDesc) (t : DateTime) : Prop :=
  d.start = some t ∨ d.start = none ∧ (∃ b ∈ d.busy, b.2.1 = t) ∧ ∀ b ∈ d.busy, timeNum t.civil ≤ timeNum b.2.1.civil

/-- When it ends: with DTEND, or else with the last busy period. -/
def Stops (d : BusyDesc) (t : DateTime) : Prop :=
  d.stop = some t ∨ d.stop = none ∧ (∃ b ∈ d.busy, b.2.2 = t) ∧ ∀ b ∈ d.busy, timeNum b.2.2.civil ≤ timeNum t.civil

end Spec.FreeBusyText
