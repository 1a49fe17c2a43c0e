import Verif.Model.Recurrence
import Verif.Spec.DurationGrammar

/-!
# RFC 5545 section 3.3.10: the text of a recurrence rule and what it says

```
recur           = recur-rule-part *( ";" recur-rule-part )
recur-rule-part = ( "FREQ" "=" freq ) / ( "UNTIL" "=" enddate ) / ( "COUNT" "=" 1*DIGIT )
                / ( "INTERVAL" "=" 1*DIGIT ) / ( "BYSECOND" "=" byseclist ) / ...
                / ( "WKST" "=" weekday )
byseclist       = ( seconds *("," seconds) )     ; and so on
weekdaynum      = [[plus / minus] ordwk] weekday
```

Each part may occur once, in any order; COUNT and UNTIL exclude each other.  Of the rule, only the
record of its fields is used here.
-/

namespace Spec.Recur
open PyCal DateTime

/-- The BYxxx parts that are lists of numbers. -/
inductive By | second | minute | hour | monthDay | yearDay | weekNo | month | setPos
deriving DecidableEq

/-- A rule part, by what it says. -/
inductive Part where
  | freq (f : Freq)
  | upto (t : DateTime)
  | count (n : Int)
  | interval (n : Int)
  | num (k : By) (vals : List Int)
  | byDay (vals : List (Int × Int))
  | wkst (d : Int)

/-- The word for a frequency. -/
inductive FreqWord : List Char → Freq → Prop
  | secondly : FreqWord "SECONDLY".toList .secondly
  | minutely : FreqWord "MINUTELY".toList .minutely
  | hourly : FreqWord "HOURLY".toList .hourly
  | daily : FreqWord "DAILY".toList .daily
  | weekly : FreqWord "WEEKLY".toList .weekly
  | monthly : FreqWord "MONTHLY".toList .monthly
  | yearly : FreqWord "YEARLY".toList .yearly

/-- `weekday`, numbered from Sunday. -/
inductive DayWord : List Char → Int → Prop
  | su : DayWord "SU".toList 0
  | mo : DayWord "MO".toList 1
  | tu : DayWord "TU".toList 2
  | we : DayWord "WE".toList 3
  | th : DayWord "TH".toList 4
  | fr : DayWord "FR".toList 5
  | sa : DayWord "SA".toList 6

/-- `[plus / minus] 1*DIGIT`. -/
inductive Number : List Char → Int → Prop
  | plain {s n} : Dur.Digits s n → Number s n
  | plus {s n} : Dur.Digits s n → Number ('+' :: s) n
  | minus {s} {n : Nat} : Dur.Digits s n → Number ('-' :: s) (-n)

/-- `weekdaynum`; no number is 0. -/
inductive DayNum : List Char → Int × Int → Prop
  | every {s d} : DayWord s d → DayNum s (0, d)
  | nth {s n w d} : Number s n → n ≠ 0 → DayWord w d → DayNum (s ++ w) (n, d)

/-- One or more items with a separator. -/
inductive Sep {α : Type} (c : Char) (P : List Char → α → Prop) : List Char → List α → Prop
  | one {s a} : P s a → Sep c P s [a]
  | more {s a r l} : P s a → Sep c P r l → Sep c P (s ++ c :: r) (a :: l)

/-- The name of a numeric BYxxx part. -/
def By.name : By → List Char
  | .second => "BYSECOND".toList
  | .minute => "BYMINUTE".toList
  | .hour => "BYHOUR".toList
  | .monthDay => "BYMONTHDAY".toList
  | .yearDay => "BYYEARDAY".toList
  | .weekNo => "BYWEEKNO".toList
  | .month => "BYMONTH".toList
  | .setPos => "BYSETPOS".toList

/-- The values allowed in a numeric BYxxx part. -/
def By.Allows : By → Int → Prop
  | .second, v => 0 ≤ v ∧ v ≤ 60
  | .minute, v => 0 ≤ v ∧ v ≤ 59
  | .hour, v => 0 ≤ v ∧ v ≤ 23
  | .monthDay, v => 1 ≤ v ∧ v ≤ 31 ∨ -31 ≤ v ∧ v ≤ -1
  | .yearDay, v => 1 ≤ v ∧ v ≤ 366 ∨ -366 ≤ v ∧ v ≤ -1
  | .weekNo, v => 1 ≤ v ∧ v ≤ 53 ∨ -53 ≤ v ∧ v ≤ -1
  | .month, v => 1 ≤ v ∧ v ≤ 12
  | .setPos, v => 1 ≤ v ∧ v ≤ 366 ∨ -366 ≤ v ∧ v ≤ -1

/-- `recur-rule-part`.  The text `u` of a date is described by the parameter `D`. -/
inductive PartText (D : List Char → DateTime → Prop) : List Char → Part → Prop
  | freq {s f} : FreqWord s f → PartText D ("FREQ=".toList ++ s) (.freq f)
  | upto {s t} : D s t → PartText D ("UNTIL=".toList ++ s) (.upto t)
  | count {s n} : Number s n → 1 ≤ n → PartText D ("COUNT=".toList ++ s) (.count n)
  | interval {s n} : Number s n → 1 ≤ n → PartText D ("INTERVAL=".toList ++ s) (.interval n)
  | num {s k vals} : Sep ',' Number s vals → (∀ v ∈ vals, k.Allows v) →
      PartText D (k.name ++ '=' :: s) (.num k vals)
  | byDay {s vals} : Sep ',' DayNum s vals →
      (∀ v ∈ vals, v.1 ≠ 0 → 1 ≤ v.1 ∧ v.1 ≤ 53 ∨ -53 ≤ v.1 ∧ v.1 ≤ -1) →
      PartText D ("BYDAY=".toList ++ s) (.byDay vals)
  | wkst {s d} : DayWord s d → PartText D ("WKST=".toList ++ s) (.wkst d)

/-- Parts that may not occur together. -/
def Part.Clash : Part → Part → Prop
  | .freq _, .freq _ => True
  | .upto _, .upto _ => True
  | .upto _, .count _ => True
  | .count _, .upto _ => True
  | .count _, .count _ => True
  | .interval _, .interval _ => True
  | .num k _, .num k' _ => k = k'
  | .byDay _, .byDay _ => True
  | .wkst _, .wkst _ => True
  | _, _ => False

/-- The text of a rule consisting of the given parts. -/
def RuleText (D : List Char → DateTime → Prop) (s : List Char) (ps : List Part) : Prop :=
  Sep ';' (PartText D) s ps ∧ ps.Pairwise fun a b => ¬ a.Clash b

/-- The value of the FREQ part. -/
def freqOf : Part → Option Freq
  | .freq f => some f
  | _ => none

/-- The value of the UNTIL part. -/
def uptoOf : Part → Option DateTime
  | .upto t => some t
  | _ => none

/-- The value of the COUNT part. -/
def countOf : Part → Option Int
  | .count n => some n
  | _ => none

/-- The value of the INTERVAL part. -/
def intervalOf : Part → Option Int
  | .interval n => some n
  | _ => none

/-- The values of the numeric part `k`. -/
def byOf (k : By) : Part → Option (List Int)
  | .num k' v => if k' = k then some v else none
  | _ => none

/-- The values of the BYDAY part. -/
def byDayOf : Part → Option (List (Int × Int))
  | .byDay v => some v
  | _ => none

/-- The value of the WKST part. -/
def wkstOf : Part → Option Int
  | .wkst d => some d
  | _ => none

/-- The rule its parts describe: each field is what the part says, or the default. -/
def rule (ps : List Part) : Rule where
  freq := (ps.findSome? freqOf).getD .yearly
  useCount := (ps.findSome? countOf).isSome
  count := (ps.findSome? countOf).getD 0
  useUntil := (ps.findSome? uptoOf).isSome
  untilDate := ps.findSome? uptoOf
  interval := (ps.findSome? intervalOf).getD 1
  bySeconds := (ps.findSome? (byOf .second)).getD []
  byMinutes := (ps.findSome? (byOf .minute)).getD []
  byHours := (ps.findSome? (byOf .hour)).getD []
  byDay := (ps.findSome? byDayOf).getD []
  byMonthDay := (ps.findSome? (byOf .monthDay)).getD []
  byYearDay := (ps.findSome? (byOf .yearDay)).getD []
  byWeekNo := (ps.findSome? (byOf .weekNo)).getD []
  byMonth := (ps.findSome? (byOf .month)).getD []
  bySetPos := (ps.findSome? (byOf .setPos)).getD []
  weekStart := (ps.findSome? wkstOf).getD 1

end Spec.Recur
