import Verif.Spec.ZoneText

/-!
# What the lines of a time zone say about its names

RFC 5545 section 3.8.3.2 (TZNAME): the customary designation for a time zone description, at most one in a language; here one.
-/

namespace Spec.ZoneText
open PyCal PropText DateTime EventText CalendarText

/-- At the local time `x` the observance is in force, or another with an onset at the same time. -/
def Current (ds : List Observance) (x : DateTime) (d : Observance) : Prop :=
  d ∈ ds ∧ ∃ t, Onset d t ∧ ¬ Rfc.Before x t ∧ ∀ d' ∈ ds, ∀ t', Onset d' t' → ¬ Rfc.Before x t' → ¬ Rfc.Before t t'

/-- The text that describes an observance: its name in parentheses; if it has none, its offset (if that is in minutes). -/
def Describing (d : Observance) (name : Option (List Char)) (s : List Char) : Prop :=
  (∀ n, name = some n → n ≠ [] → s = "(".toList ++ n ++ ")".toList) ∧
    (name.getD [] = [] → d.offsetTo % 60 = 0 → OffsetText s d.offsetTo)

end Spec.ZoneText
