import Verif.Model.ZonalRule
import Verif.Lemmas.DateTime

/-!
# What the lines of the time zone data say about the clock (zic(8))

Instants are numbers of seconds of UTC: `timeNum` of the fields of a date-time in UTC, which grows by one
with every second of the calendar (`tick_timeNum`).
-/

namespace Spec.Zic
open PyCal PyCal.Zonal

/-- The number of seconds of a reading of a clock. -/
def clockSec (t : DateTime) : Int := timeNum t.civil

/-- The instant of a time of the data, if the offset before it is `off` and the standard offset `std`:
universal time (`u`, `g`, `z`), standard time (`s`), else the time of the clock on the wall. -/
def instantOf (t : TzTime) (off std : Int) : Int :=
  if t.mode = ['u'] ∨ t.mode = ['g'] ∨ t.mode = ['z'] then clockSec t.dt
  else if t.mode = ['s'] then clockSec t.dt - std
  else clockSec t.dt - off

/-- The instants of transitions that follow each other, each read with the offset the one before leads to,
and the offset each leads to. -/
def instants (std : Int) : (off : Int) → List (TzTime × Int × TzRule) → List (Int × Int)
  | _, [] => []
  | off, (t, o, _) :: ts => (instantOf t off std, o) :: instants std o ts

/-- At `v` a list of transitions shows the offset `o`: that of the latest transition not after `v`. -/
def Shown (l : List (Int × Int)) (v o : Int) : Prop :=
  ∃ u, (u, o) ∈ l ∧ u ≤ v ∧ ∀ x ∈ l, x.1 ≤ v → x.1 ≤ u

/-- The offset in force at `v`: that of the latest transition not after `v`; `d` before the first. -/
def InForce (d : Int) (l : List (Int × Int)) (v o : Int) : Prop :=
  Shown l v o ∨ o = d ∧ ∀ x ∈ l, v < x.1

/-- Transitions in the order of time, no two at the same instant. -/
def Ordered (l : List (Int × Int)) : Prop := l.Pairwise fun x y => x.1 < y.1

/-- Local time goes forward from each transition to the next: read with the offset before it, each is later
than the one before it, itself so read, was. -/
def Advances : (last off : Int) → List (Int × Int) → Prop
  | _, _, [] => True
  | last, off, (u, o) :: l => last < u + off ∧ Advances (u + off) o l

end Spec.Zic
