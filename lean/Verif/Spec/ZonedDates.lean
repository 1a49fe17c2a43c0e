import Verif.Spec.EventDates

/-!
# The dates of an event in a time zone

As in `Spec.EventDates`, where the date-times of the event and of the range that is asked for may be on different clocks: UTC, a time
zone, floating.  `env` gives the offsets of the zones.
-/

namespace Spec.ZonedDates
open PyCal DateTime EventText

/-- On the same clock: one of them is floating, both are in UTC, or both are in the same zone. -/
def OneClock (a b : DateTime) : Prop :=
  a.floating = true ∨ b.floating = true ∨ a.utc = true ∧ b.utc = true ∨ a.utc = false ∧ b.utc = false ∧ a.tzid = b.tzid

/-- Times on different clocks, which have only their instants in common. -/
def OtherClock (a b : DateTime) : Prop := a.dateOnly = false ∧ b.dateOnly = false ∧ ¬ OneClock a b

/-- `a` is earlier than `b`: by the date, if one of them is a date, by the clock, if they have the same one, else by the instant. -/
def Earlier (env : TzEnv) (a b : DateTime) : Prop :=
  (a.dateOnly = true ∨ b.dateOnly = true) ∧ (∃ k : Nat, b.date = iter nextDay (k + 1) a.date) ∨
  (a.dateOnly = false ∧ b.dateOnly = false) ∧ OneClock a b ∧ Rfc.Before a b ∨
  OtherClock a b ∧ a.posix env < b.posix env

/-- The same date-time, or the same instant on another clock. -/
def Coincide (env : TzEnv) (a b : DateTime) : Prop := a = b ∨ OtherClock a b ∧ a.posix env = b.posix env

/-- An instance of the rule from the start `s`, which is itself the first for COUNT. -/
def Instance (env : TzEnv) (r : Rule) (s t : DateTime) : Prop :=
  Rfc.OccursAt r s t ∧ ¬ Rfc.Before t s ∧
    (∀ w, r.useUntil = true → r.untilDate = some w → ¬ Earlier env w t) ∧
    (r.useCount = true → t = s ∨ Rfc.FewerBetweenAt r s t (r.count - 1))

/-- The rules of the event include the date (`ex = false`) or exclude it. -/
def ByRule (env : TzEnv) (fs : List Fact) (s : DateTime) (ex : Bool) (t : DateTime) : Prop :=
  ∃ ps ∈ rulesOf ex fs, Instance env (Recur.rule ps) s t

/-- The dates of the event. -/
def IsDate (env : TzEnv) (fs : List Fact) (s t : DateTime) : Prop :=
  (t = s ∨ t ∈ datesOf false fs ∨ ByRule env fs s false t) ∧
    ¬ ((∃ u ∈ datesOf true fs, Coincide env t u) ∨ ByRule env fs s true t)

/-- The date-time is in the range. -/
def In (env : TzEnv) (range : Period) (t : DateTime) : Prop := ¬ Earlier env t range.start ∧ Earlier env t range.stop

end Spec.ZonedDates
