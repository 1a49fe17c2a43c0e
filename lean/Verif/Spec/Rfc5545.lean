import Verif.Spec.RecurrenceSet
import Verif.Model.Recurrence

/-!
# RFC 5545 section 3.3.10: when a rule recurs

A date-time is an instance of a rule if it is in one of the intervals (every `INTERVAL` seconds, minutes, ..., years from the
one of the start), matches all BYxxx parts, and agrees with the start wherever the parts say nothing.  BYSETPOS then picks some of
the instances of each interval (`OccursAt`).  BYWEEKNO is not described here.  Of the rule, only the record of its fields is used.
-/

namespace Spec.Rfc
open PyCal DateTime

/-- The weekday of a date, from Sunday = 0: 1 January 1970 was a Thursday. -/
def OnWeekday (d : Date) (w : Int) : Prop :=
  ∃ k : Nat, d = iter nextDay k ⟨1970, 1, 1⟩ ∧ w = (4 + k) % 7 ∨ ⟨1970, 1, 1⟩ = iter nextDay k d ∧ w = (4 - k) % 7

/-- BYDAY: the weekday, and if there is a number, the `n`-th such weekday of the month or year, from the start or the end. -/
def DayMatch (inYear : Prop) (t : DateTime) (v : Int × Int) : Prop :=
  OnWeekday t.date v.2 ∧
    (v.1 = 0 ∨
      ¬ inYear ∧ (v.1 > 0 ∧ (t.day - 1) / 7 + 1 = v.1 ∨ v.1 < 0 ∧ (monthLen t.year t.month - t.day) / 7 + 1 = -v.1) ∨
      inYear ∧ (v.1 > 0 ∧ (∃ k : Nat, t.date = iter nextDay k ⟨t.year, 1, 1⟩ ∧ (k : Int) / 7 + 1 = v.1) ∨
        v.1 < 0 ∧ ∃ k : Nat, ⟨t.year, 12, 31⟩ = iter nextDay k t.date ∧ (k : Int) / 7 + 1 = -v.1))

/-- The week, starting on weekday `ws`, that begins on `f` has the date `d`. -/
def WeekOf (ws : Int) (f d : Date) : Prop := f.Valid ∧ OnWeekday f ws ∧ ∃ i : Nat, i < 7 ∧ d = iter nextDay i f

/-- `t` is in the interval `k * n` after that of `s`. -/
def InStep (f : Freq) (n : Nat) (ws : Int) (s t : DateTime) (k : Nat) : Prop :=
  match f with
  | .secondly => t.civil = iter tick (k * n) s.civil
  | .minutely => { t.civil with s := 0 } = iter tick (k * n * 60) { s.civil with s := 0 }
  | .hourly => { t.civil with mi := 0, s := 0 } = iter tick (k * n * 3600) { s.civil with mi := 0, s := 0 }
  | .daily => t.date = iter nextDay (k * n) s.date
  | .weekly => ∃ f, WeekOf ws f s.date ∧ WeekOf ws (iter nextDay (k * n * 7) f) t.date
  | .monthly => 12 * t.year + t.month = 12 * s.year + s.month + k * n
  | .yearly => t.year = s.year + k * n

/-- Frequencies that leave the second, the minute, the hour open. -/
def aboveSecond : Freq → Prop
  | .secondly => False
  | _ => True
def aboveMinute : Freq → Prop
  | .secondly | .minutely => False
  | _ => True
def aboveHour : Freq → Prop
  | .secondly | .minutely | .hourly => False
  | _ => True

/-- What is neither given by the interval nor by a part is as in the start. -/
structure Kept (r : Rule) (s t : DateTime) : Prop where
  second : aboveSecond r.freq → r.bySeconds = [] → t.seconds = s.seconds
  minute : aboveMinute r.freq → r.byMinutes = [] → t.minutes = s.minutes
  hour : aboveHour r.freq → r.byHours = [] → t.hours = s.hours
  weekday : r.freq = .weekly → r.byDay = [] → ∃ w, OnWeekday s.date w ∧ OnWeekday t.date w
  day : r.freq = .monthly ∨ r.freq = .yearly → r.byMonthDay = [] → r.byYearDay = [] → r.byDay = [] → t.day = s.day
  month : r.freq = .yearly → r.byMonth = [] → r.byMonthDay = [] → r.byYearDay = [] → r.byDay = [] → t.month = s.month

/-- `t` matches all parts of the rule, and what they say nothing about is as in the start `s`. -/
structure Matches (r : Rule) (s t : DateTime) : Prop where
  kind : t.SameKind s
  valid : t.Valid
  byMonth : Limits r.byMonth fun m => t.month = m
  byYearDay : Limits r.byYearDay (YearDayMatch t)
  byMonthDay : Limits r.byMonthDay (MonthDayMatch t)
  byDay : Limits r.byDay (DayMatch (r.freq = .yearly ∧ r.byMonth = []) t)
  byHour : Limits r.byHours fun v => t.hours = v
  byMinute : Limits r.byMinutes fun v => t.minutes = v
  bySecond : Limits r.bySeconds fun v => t.seconds = v
  kept : Kept r s t

/-- `t` is an instance of the rule from the start `s`, apart from COUNT and UNTIL. -/
def Occurs (r : Rule) (s t : DateTime) : Prop :=
  (∃ k, InStep r.freq r.interval.toNat r.weekStart s t k) ∧ Matches r s t

/-- Earlier by the clock, by at least a second. -/
def Before (a b : DateTime) : Prop := ∃ k : Nat, b.civil = iter tick (k + 1) a.civil

/-- `x` is one of the set of instances of interval `k`, before BYSETPOS. -/
def InSet (r : Rule) (s : DateTime) (k : Nat) (x : DateTime) : Prop :=
  InStep r.freq r.interval.toNat r.weekStart s x k ∧ Matches r s x

/-- `t` is at position `p` of the instances of interval `k`: `p - 1` of them come before it, or, for a negative position, `-p - 1`
after it.  No instance is at position 0. -/
def AtPosition (r : Rule) (s : DateTime) (k : Nat) (t : DateTime) (p : Int) : Prop :=
  ∃ l : List DateTime, l.Nodup ∧
    ((∀ x, x ∈ l ↔ InSet r s k x ∧ Before x t) ∧ p = l.length + 1 ∨
      (∀ x, x ∈ l ↔ InSet r s k x ∧ Before t x) ∧ -p = l.length + 1)

/-- `t` is an instance of the rule from the start `s`, apart from COUNT and UNTIL, with BYSETPOS.  The positions are those in the
whole interval, also if the start is in the middle of it. -/
def OccursAt (r : Rule) (s t : DateTime) : Prop :=
  ∃ k, InSet r s k t ∧ Limits r.bySetPos (AtPosition r s k t)

/-- Fewer than `n` instances of the rule lie strictly between the start and `t`. -/
def FewerBetween (r : Rule) (s t : DateTime) (n : Int) : Prop :=
  ∃ l : List DateTime, l.Nodup ∧ (∀ x, x ∈ l ↔ Occurs r s x ∧ Before s x ∧ Before x t) ∧ (l.length : Int) < n

/-- The same with BYSETPOS. -/
def FewerBetweenAt (r : Rule) (s t : DateTime) (n : Int) : Prop :=
  ∃ l : List DateTime, l.Nodup ∧ (∀ x, x ∈ l ↔ OccursAt r s x ∧ Before s x ∧ Before x t) ∧ (l.length : Int) < n

end Spec.Rfc
