import Verif.Spec.CalendarText
import Verif.Spec.Rfc5545

/-!
# What the lines of a time zone say about its offsets

RFC 5545 sections 3.3.14 (offsets), 3.6.5 (VTIMEZONE), 3.8.3.3, 3.8.3.4 (TZOFFSETFROM, TZOFFSETTO).
-/

namespace Spec.ZoneText
open PyCal PropText DateTime EventText CalendarText

/-- `utc-offset`: a sign, hours, minutes and perhaps seconds, of two digits each. -/
inductive OffsetText : List Char → Int → Prop
  | minutes {a b : List Char} {h m : Nat} (neg : Bool) : Fixed 2 a h → Fixed 2 b m → h < 24 → m < 60 →
      OffsetText ((if neg then '-' else '+') :: (a ++ b)) ((if neg then -1 else 1) * (h * 3600 + m * 60))
  | seconds {a b c : List Char} {h m s : Nat} (neg : Bool) : Fixed 2 a h → Fixed 2 b m → Fixed 2 c s → h < 24 → m < 60 → s < 60 →
      OffsetText ((if neg then '-' else '+') :: (a ++ b ++ c)) ((if neg then -1 else 1) * (h * 3600 + m * 60 + s))

/-- An offset. -/
def OffsetLine (l : ContentLine) (v : Int) : Prop :=
  (∃ x, HasParam l "VALUE".toList x ∧ (x = none ∨ x = some "UTC-OFFSET".toList)) ∧ OffsetText l.value v

/-- What is said of a change of the offset. -/
structure Observance where
  facts : List Fact
  start : DateTime
  offsetFrom : Int
  offsetTo : Int

/-- The lines of a STANDARD or DAYLIGHT component say this. -/
structure Describes (ls : List ContentLine) (d : Observance) : Prop where
  lines : List.Forall₂ Says ls d.facts
  start : startOf d.facts = some d.start
  offsetFrom : HasLine ls "TZOFFSETFROM".toList OffsetLine (some d.offsetFrom)
  offsetTo : HasLine ls "TZOFFSETTO".toList OffsetLine (some d.offsetTo)

/-- The rule gives this time.  UNTIL is in UTC: it is compared with the clock moved by TZOFFSETFROM.  DTSTART is the first for COUNT. -/
def Falls (r : Rule) (d : Observance) (t : DateTime) : Prop :=
  Rfc.Occurs r d.start t ∧ ¬ Rfc.Before t d.start ∧
    (∀ w, r.useUntil = true → r.untilDate = some w → timeNum t.civil - d.offsetFrom ≤ timeNum w.civil) ∧
    (r.useCount = true → t = d.start ∨ Rfc.FewerBetween r d.start t (r.count - 1))

/-- At this local time (on the clock as it was before) the offset changes. -/
def Onset (d : Observance) (t : DateTime) : Prop :=
  t = d.start ∨ t ∈ datesOf false d.facts ∨ ∃ ps ∈ rulesOf false d.facts, Falls (Recur.rule ps) d t

/-- The offset at the local time `x`: that of the last onset that is not after it. -/
def InForce (ds : List Observance) (x : DateTime) (v : Int) : Prop :=
  ∃ d ∈ ds, ∃ t, Onset d t ∧ ¬ Rfc.Before x t ∧ v = d.offsetTo ∧
    ∀ d' ∈ ds, ∀ t', Onset d' t' → ¬ Rfc.Before x t' → ¬ Rfc.Before t t'

/-- All onsets are after the local time `x`. -/
def Unset (ds : List Observance) (x : DateTime) : Prop := ∀ d ∈ ds, ∀ t, Onset d t → Rfc.Before x t

/-- The time of an onset in UTC. -/
def utcOf (d : Observance) (t : DateTime) : Int := timeNum t.civil - d.offsetFrom

/-- The offset at the time `x` in UTC: that of the last onset that is not after it. -/
def InForceUtc (ds : List Observance) (x : DateTime) (v : Int) : Prop :=
  ∃ d ∈ ds, ∃ t, Onset d t ∧ utcOf d t ≤ timeNum x.civil ∧ v = d.offsetTo ∧
    ∀ d' ∈ ds, ∀ t', Onset d' t' → utcOf d' t' ≤ timeNum x.civil → utcOf d' t' ≤ utcOf d t

/-- All onsets are after the time `x` in UTC. -/
def UnsetUtc (ds : List Observance) (x : DateTime) : Prop := ∀ d ∈ ds, ∀ t, Onset d t → timeNum x.civil < utcOf d t

end Spec.ZoneText
