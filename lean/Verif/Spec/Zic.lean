import Verif.Spec.View
import Verif.Spec.RecurrenceSet

/-!
# What the lines of the time zone data mean

After the manual page of `zic`: the day on which a rule takes effect in a year, and times and offsets
written in hours, minutes and seconds.
-/

namespace Spec.Zic
open PyCal

/-- The forms of the ON field: `lastSun`, `Sun>=8`, `Sun<=25`, `17`.  Weekdays are 0 (Sunday) to 6. -/
inductive On
  | last (wd : Int)
  | atLeast (wd n : Int)
  | atMost (wd n : Int)
  | day (n : Int)
deriving DecidableEq, Repr

/-- The weekday of a date. -/
def weekday (x : Date) : Int := (DateTime.ofDate x.y x.m x.d).dayOfWeek

/-- `x` is the day of the rule in the given month. -/
def IsDay (y m : Int) : On → Date → Prop
  | .last wd, x => x.Valid ∧ x.y = y ∧ x.m = m ∧ weekday x = wd ∧
      ∀ d, x.d < d → d ≤ monthLen y m → weekday ⟨y, m, d⟩ ≠ wd
  | .atLeast wd n, x => ∃ k : Nat, x = iter nextDay k ⟨y, m, n⟩ ∧ weekday x = wd ∧
      ∀ j : Nat, j < k → weekday (iter nextDay j ⟨y, m, n⟩) ≠ wd
  | .atMost wd n, x => x.Valid ∧ ∃ k : Nat, ⟨y, m, n⟩ = iter nextDay k x ∧ weekday x = wd ∧
      ∀ j : Nat, 0 < j → j ≤ k → weekday (iter nextDay j x) ≠ wd
  | .day n, x => x = ⟨y, m, n⟩

/-- The three letters of a weekday. -/
def weekdayName (wd : Nat) : List Char :=
  (["Sun", "Mon", "Tue", "Wed", "Thu", "Fri", "Sat"].getD wd "").toList

/-- The three letters of a month. -/
def monthName (m : Nat) : List Char :=
  (["", "Jan", "Feb", "Mar", "Apr", "May", "Jun", "Jul", "Aug", "Sep", "Oct", "Nov", "Dec"].getD m "").toList

/-- A text for the ON field. -/
inductive OnText : List Char → On → Prop
  | last (wd : Nat) (h : wd < 7) : OnText ("last".toList ++ weekdayName wd) (.last wd)
  | atLeast (wd n : Nat) (h : wd < 7) : OnText (weekdayName wd ++ ">=".toList ++ decNat n) (.atLeast wd n)
  | atMost (wd n : Nat) (h : wd < 7) : OnText (weekdayName wd ++ "<=".toList ++ decNat n) (.atMost wd n)
  | day (n : Nat) : OnText (decNat n) (.day n)

/-- Two digits. -/
def twoDigits (n : Nat) : List Char := [digitChar (n / 10), digitChar (n % 10)]

/-- A minus sign or nothing. -/
def signText (neg : Bool) : List Char := if neg then ['-'] else []

/-- The amount with its sign. -/
def signed (neg : Bool) (n : Int) : Int := if neg then -n else n

/-- An amount of time, in seconds: `2`, `2:00`, `-4:56:02`. -/
inductive Amount : List Char → Int → Prop
  | hours (neg : Bool) (h : Nat) : Amount (signText neg ++ decNat h) (signed neg (3600 * h))
  | minutes (neg : Bool) (h mi : Nat) (hm : mi < 60) :
      Amount (signText neg ++ decNat h ++ ':' :: twoDigits mi) (signed neg (3600 * h + 60 * mi))
  | seconds (neg : Bool) (h mi s : Nat) (hm : mi < 60) (hs : s < 60) :
      Amount (signText neg ++ decNat h ++ ':' :: (twoDigits mi ++ ':' :: twoDigits s))
        (signed neg (3600 * h + 60 * mi + s))

/-- The letter after a time. -/
def Letter (mode : List Char) : Prop := mode = [] ∨ ∃ c ∈ "wsugz".toList, mode = [c]

/-- A time of day: `2`, `2:00`, `2:00s`, `23:59:59u`. -/
inductive AtText : List Char → (h mi s : Nat) → (mode : List Char) → Prop
  | hours (h : Nat) {mode} (hl : Letter mode) : AtText (decNat h ++ mode) h 0 0 mode
  | minutes (h mi : Nat) {mode} (hm : mi < 60) (hl : Letter mode) :
      AtText (decNat h ++ ':' :: (twoDigits mi ++ mode)) h mi 0 mode
  | seconds (h mi s : Nat) {mode} (hm : mi < 60) (hs : s < 60) (hl : Letter mode) :
      AtText (decNat h ++ ':' :: (twoDigits mi ++ ':' :: (twoDigits s ++ mode))) h mi s mode

/-- The end of a zone line: a year, and then, if given, a month, a day and a time. -/
inductive UntilText : List Char → (y m : Nat) → On → (h mi s : Nat) → (mode : List Char) → Prop
  | year (y : Nat) : UntilText (decNat y) y 1 (.day 1) 0 0 0 []
  | month (y m : Nat) (h1 : 1 ≤ m) (h2 : m ≤ 12) :
      UntilText (decNat y ++ ' ' :: monthName m) y m (.day 1) 0 0 0 []
  | day (y m : Nat) {d on} (h1 : 1 ≤ m) (h2 : m ≤ 12) (hd : OnText d on) :
      UntilText (decNat y ++ ' ' :: (monthName m ++ ' ' :: d)) y m on 0 0 0 []
  | time (y m : Nat) {d on t h mi s mode} (h1 : 1 ≤ m) (h2 : m ≤ 12) (hd : OnText d on)
      (ht : AtText t h mi s mode) :
      UntilText (decNat y ++ ' ' :: (monthName m ++ ' ' :: (d ++ ' ' :: t))) y m on h mi s mode

/-- Nothing, or a comment. -/
def Comment (c : List Char) : Prop := c = [] ∨ ∃ s, c = ' ' :: '#' :: s

end Spec.Zic
