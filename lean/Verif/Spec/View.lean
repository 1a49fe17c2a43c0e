import Verif.Model.DateTime
import Verif.Spec.Civil

/-! How a model `DateTime` is read as a civil date / time of the specification. -/

namespace PyCal.DateTime
open Spec

/-- The civil date a `DateTime` shows. -/
def date (t : DateTime) : Date := ⟨t.year, t.month, t.day⟩

/-- The civil date and clock time a `DateTime` shows. -/
def civil (t : DateTime) : Time := ⟨t.date, t.hours, t.minutes, t.seconds⟩

/-- A `DateTime` holding a real date and time; a date-only one holds midnight. -/
def Valid (t : DateTime) : Prop :=
  t.civil.Valid ∧ (t.dateOnly = true → t.hours = 0 ∧ t.minutes = 0 ∧ t.seconds = 0)

instance (t : DateTime) : Decidable t.Valid := by unfold Valid; infer_instance

/-- Two `DateTime`s of the same kind: same date-only flag, UTC flag and timezone id. -/
def SameKind (a b : DateTime) : Prop :=
  a.dateOnly = b.dateOnly ∧ a.utc = b.utc ∧ a.tzid = b.tzid

end PyCal.DateTime
