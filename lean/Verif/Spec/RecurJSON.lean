import Verif.Spec.RecurText
import Verif.Model.RecurrenceJSON

/-!
# RFC 7265 section 3.6.10: a recurrence rule in jCal

Each part of the rule is a member of an object, its name in lower case.  Numbers are JSON numbers.  A
part that may have several values is an array or a single value.
-/

namespace Spec.Recur
open PyCal DateTime

/-- The name of a numeric BYxxx part. -/
def By.jsonName : By → List Char
  | .second => "bysecond".toList
  | .minute => "byminute".toList
  | .hour => "byhour".toList
  | .monthDay => "bymonthday".toList
  | .yearDay => "byyearday".toList
  | .weekNo => "byweekno".toList
  | .month => "bymonth".toList
  | .setPos => "bysetpos".toList

/-- A member and the part of the rule it is.  The text of a date is described by the parameter `D`. -/
inductive Member (D : List Char → DateTime → Prop) : List Char × JVal → Part → Prop
  | freq {s f} : FreqWord s f → Member D ("freq".toList, .one (.str s)) (.freq f)
  | upto {s t} : D s t → Member D ("until".toList, .one (.str s)) (.upto t)
  | count {n} : 1 ≤ n → Member D ("count".toList, .one (.num n)) (.count n)
  | interval {n} : 1 ≤ n → Member D ("interval".toList, .one (.num n)) (.interval n)
  | num {k v} : k.Allows v → Member D (k.jsonName, .one (.num v)) (.num k [v])
  | nums {k vals} : vals ≠ [] → (∀ v ∈ vals, k.Allows v) →
      Member D (k.jsonName, .many (vals.map .num)) (.num k vals)
  | day {s v} : DayNum s v → (v.1 ≠ 0 → 1 ≤ v.1 ∧ v.1 ≤ 53 ∨ -53 ≤ v.1 ∧ v.1 ≤ -1) →
      Member D ("byday".toList, .one (.str s)) (.byDay [v])
  | days {ss vals} : vals ≠ [] → List.Forall₂ DayNum ss vals →
      (∀ v ∈ vals, v.1 ≠ 0 → 1 ≤ v.1 ∧ v.1 ≤ 53 ∨ -53 ≤ v.1 ∧ v.1 ≤ -1) →
      Member D ("byday".toList, .many (ss.map .str)) (.byDay vals)
  | wkst {s d} : DayWord s d → Member D ("wkst".toList, .one (.str s)) (.wkst d)

/-- The members of a rule with the given parts: each part once, COUNT and UNTIL not both. -/
def RuleObject (D : List Char → DateTime → Prop) (ms : List (List Char × JVal)) (ps : List Part) : Prop :=
  ps ≠ [] ∧ List.Forall₂ (Member D) ms ps ∧ ps.Pairwise fun a b => ¬ a.Clash b

end Spec.Recur
