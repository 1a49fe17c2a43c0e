import Verif.Spec.Rfc5545
import Verif.Spec.EventText

/-!
# The dates of an event

RFC 5545 section 3.8.5: the recurrence set of an event consists of its start, its RDATEs and the instances of its RRULEs, without its
EXDATEs and the instances of its EXRULEs.
-/

namespace Spec.EventDates
open PyCal DateTime EventText

/-- An instance of the rule from the start `s`, which is itself the first for COUNT. -/
def Instance (r : Rule) (s t : DateTime) : Prop :=
  Rfc.OccursAt r s t ∧ ¬ Rfc.Before t s ∧
    (∀ w, r.useUntil = true → r.untilDate = some w → ¬ Rfc.Before w t) ∧
    (r.useCount = true → t = s ∨ Rfc.FewerBetweenAt r s t (r.count - 1))

/-- The lines of the event include the date (`ex = false`) or exclude it. -/
def Names (fs : List Fact) (s : DateTime) (ex : Bool) (t : DateTime) : Prop :=
  t ∈ datesOf ex fs ∨ ∃ ps ∈ rulesOf ex fs, Instance (Recur.rule ps) s t

/-- The dates of the event. -/
def IsDate (fs : List Fact) (s t : DateTime) : Prop := (t = s ∨ Names fs s false t) ∧ ¬ Names fs s true t

end Spec.EventDates
