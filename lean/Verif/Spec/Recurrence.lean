import Verif.Spec.Civil
import Verif.Spec.Count
import Verif.Model.DateTime

/-!
# What "every `n` seconds / minutes / ... / years" means

The `k`-th repetition, `k = 0, 1, 2, ...`, of a civil time.  For months and years the day of the
month is kept, so the result need not be a date that exists.
-/

namespace Spec
open PyCal.DateTime (Freq)

/-- The `k`-th repetition of `s` at frequency `f` and interval `n`. -/
def repetition (f : Freq) (n : Nat) (s : Time) (k : Nat) : Time :=
  match f with
  | .secondly => iter tick (k * n) s
  | .minutely => iter tick (k * n * 60) s
  | .hourly => iter tick (k * n * 3600) s
  | .daily => { s with date := iter nextDay (k * n) s.date }
  | .weekly => { s with date := iter nextDay (k * n * 7) s.date }
  | .monthly =>
    { s with date := ⟨s.date.y + (s.date.m - 1 + k * n) / 12, (s.date.m - 1 + k * n) % 12 + 1,
        s.date.d⟩ }
  | .yearly => { s with date := ⟨s.date.y + k * n, s.date.m, s.date.d⟩ }

/-- How many of the repetitions before the `k`-th exist. -/
def repetitionsBefore (f : Freq) (n : Nat) (s : Time) (k : Nat) : Nat :=
  count (fun j => decide (repetition f n s j).Valid) k

end Spec
