/-!
# Specification: the civil calendar as an odometer

Independent of the model.  Dates are triples; the calendar is defined by "the day
after", the clock by "the second after".  The leap-year rule is the historical British
one the library documents by its constant 1752: every fourth year up to 1752, the
Gregorian rule afterwards.
-/

namespace Spec

/-- Leap years: Gregorian rule, Julian rule up to 1752. -/
def Leap (y : Int) : Prop := y % 4 = 0 ∧ (y ≤ 1752 ∨ y % 100 ≠ 0 ∨ y % 400 = 0)

instance (y : Int) : Decidable (Leap y) := by unfold Leap; infer_instance

/-- Leap years of the plain (proleptic) Gregorian calendar. -/
def GregorianLeap (y : Int) : Prop := y % 4 = 0 ∧ (y % 100 ≠ 0 ∨ y % 400 = 0)

instance (y : Int) : Decidable (GregorianLeap y) := by unfold GregorianLeap; infer_instance

/-- Thirty days hath September ... -/
def monthLen (y m : Int) : Int :=
  if m = 2 then (if Leap y then 29 else 28)
  else if m = 4 ∨ m = 6 ∨ m = 9 ∨ m = 11 then 30
  else 31

/-- A civil date. -/
structure Date where
  y : Int
  m : Int
  d : Int
deriving DecidableEq, Repr

/-- A date that exists. -/
def Date.Valid (x : Date) : Prop := 1 ≤ x.m ∧ x.m ≤ 12 ∧ 1 ≤ x.d ∧ x.d ≤ monthLen x.y x.m

instance (x : Date) : Decidable x.Valid := by unfold Date.Valid; infer_instance

/-- The day after. -/
def nextDay (x : Date) : Date :=
  if x.d < monthLen x.y x.m then { x with d := x.d + 1 }
  else if x.m < 12 then ⟨x.y, x.m + 1, 1⟩
  else ⟨x.y + 1, 1, 1⟩

/-- A civil date with a time of day. -/
structure Time where
  date : Date
  h : Int
  mi : Int
  s : Int
deriving DecidableEq, Repr

/-- A date-time that exists (no leap seconds). -/
def Time.Valid (t : Time) : Prop :=
  t.date.Valid ∧ 0 ≤ t.h ∧ t.h < 24 ∧ 0 ≤ t.mi ∧ t.mi < 60 ∧ 0 ≤ t.s ∧ t.s < 60

instance (x : Time) : Decidable x.Valid := by unfold Time.Valid; infer_instance

/-- One second later. -/
def tick (t : Time) : Time :=
  if t.s < 59 then { t with s := t.s + 1 }
  else if t.mi < 59 then { t with mi := t.mi + 1, s := 0 }
  else if t.h < 23 then { t with h := t.h + 1, mi := 0, s := 0 }
  else ⟨nextDay t.date, 0, 0, 0⟩

/-- `n`-fold iteration. -/
def iter {α : Type _} (f : α → α) : Nat → α → α
  | 0, x => x
  | n + 1, x => iter f n (f x)

/-- Lexicographic order of civil dates. -/
def Date.lt (a b : Date) : Prop := a.y < b.y ∨ a.y = b.y ∧ (a.m < b.m ∨ a.m = b.m ∧ a.d < b.d)

instance (a b : Date) : Decidable (a.lt b) := by unfold Date.lt; infer_instance

end Spec
