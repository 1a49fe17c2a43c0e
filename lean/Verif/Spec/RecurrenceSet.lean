import Verif.Spec.View
import Verif.Spec.Count

/-!
# When a date matches a BYxxx value

Stated on the fields of a date-time, independent of the functions that search for such dates.
Weekdays are 0 (Sunday) to 6, read off by `DateTime.dayOfWeek` (C05).
-/

namespace Spec
open PyCal

/-- BYMONTHDAY: `n` counts from the start of the month, `-n` from its end. -/
def MonthDayMatch (t : DateTime) (n : Int) : Prop :=
  n > 0 ∧ t.day = n ∨ n < 0 ∧ t.day = monthLen t.year t.month + 1 + n

/-- BYYEARDAY: `n` counts from 1 January, `-n` back from 31 December. -/
def YearDayMatch (t : DateTime) (n : Int) : Prop :=
  n > 0 ∧ t.date = iter nextDay (n.toNat - 1) ⟨t.year, 1, 1⟩ ∨
  n < 0 ∧ ⟨t.year, 12, 31⟩ = iter nextDay ((-n).toNat - 1) t.date

/-- How many days before `t` in its month are on the weekday of `t`. -/
def earlierLikeDays (t : DateTime) : Nat :=
  count (fun k => decide (({ t with day := 1 + k } : DateTime).dayOfWeek = t.dayOfWeek))
    (t.day - 1).toNat

/-- How many days after `t` in its month are on the weekday of `t`. -/
def laterLikeDays (t : DateTime) : Nat :=
  count (fun k => decide (({ t with day := t.day + 1 + k } : DateTime).dayOfWeek = t.dayOfWeek))
    (monthLen t.year t.month - t.day).toNat

/-- BYDAY within a month: any such weekday, the `n`-th one, or the `n`-th from the end. -/
def WeekdayMatch (t : DateTime) (v : Int × Int) : Prop :=
  t.dayOfWeek = v.2 ∧
    (v.1 = 0 ∨ v.1 > 0 ∧ (earlierLikeDays t : Int) = v.1 - 1 ∨
      v.1 < 0 ∧ (laterLikeDays t : Int) = -v.1 - 1)

instance (t : DateTime) (n : Int) : Decidable (MonthDayMatch t n) := by
  unfold MonthDayMatch; infer_instance
instance (t : DateTime) (n : Int) : Decidable (YearDayMatch t n) := by
  unfold YearDayMatch; infer_instance
instance (t : DateTime) (v : Int × Int) : Decidable (WeekdayMatch t v) := by
  unfold WeekdayMatch; infer_instance

/-- A part that limits: absent, or some value of it matches. -/
def Limits {β : Type} (vals : List β) (p : β → Prop) : Prop := vals = [] ∨ ∃ v ∈ vals, p v

/-- A part that expands a field: the old value if the part is absent, else one of its values. -/
def OneOf (vals : List Int) (old new : Int) : Prop := vals = [] ∧ new = old ∨ new ∈ vals

instance (vals : List Int) (old new : Int) : Decidable (OneOf vals old new) := by
  unfold OneOf; infer_instance

end Spec
