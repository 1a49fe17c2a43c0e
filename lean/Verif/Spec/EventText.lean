import Verif.Spec.ContentLine
import Verif.Spec.RecurText
import Verif.Spec.View
import Verif.Model.RecurLoad

/-!
# What the lines of a component say about its recurrence

RFC 5545 sections 3.3.4, 3.3.5 (dates and date-times), 3.3.10 (rules), 3.8.2.4 (DTSTART), 3.8.5 (RRULE, RDATE, EXDATE); EXRULE is
that of RFC 2445.
-/

namespace Spec.EventText
open PyCal PropText

/-- Exactly `k` digits, with the value `n`. -/
def Fixed (k : Nat) (s : List Char) (n : Nat) : Prop := Dur.Digits s n ∧ s.length = k

/-- `date` and `date-time`: the text and what it says. -/
inductive DateTimeText : List Char → DateTime → Prop
  | date {a b c : List Char} {y m d : Nat} : Fixed 4 a y → Fixed 2 b m → Fixed 2 c d →
      (⟨y, m, d⟩ : Date).Valid → DateTimeText (a ++ b ++ c) ⟨y, m, d, 0, 0, 0, true, false, none⟩
  | time {a b c h mi s : List Char} {y m d hh mm ss : Nat} (utc : Bool) : Fixed 4 a y → Fixed 2 b m → Fixed 2 c d →
      Fixed 2 h hh → Fixed 2 mi mm → Fixed 2 s ss → (⟨⟨y, m, d⟩, hh, mm, ss⟩ : Time).Valid →
      DateTimeText (a ++ b ++ c ++ 'T' :: (h ++ mi ++ s ++ if utc then ['Z'] else []))
        ⟨y, m, d, hh, mm, ss, false, utc, none⟩

/-- The parameter of that name, whatever its case, if there is one: its value. -/
inductive HasParam (l : ContentLine) (key : List Char) : Option (List Char) → Prop
  | none : (∀ p ∈ l.params, upper p.name ≠ key) → HasParam l key none
  | some (p : ShownParam) : p ∈ l.params → upper p.name = key →
      (∀ q ∈ l.params, upper q.name = key → q = p) → HasParam l key (some (rfc6868Decode p.first.inner))

/-- The parameters of a property with dates (`d = true`) or date-times, in UTC or floating (`z = none`) or in the time zone
named `z`. -/
def DateParams (l : ContentLine) (d : Bool) (z : Option (List Char)) : Prop :=
  (∃ v, HasParam l "VALUE".toList v ∧
    (d = true ∧ v = some "DATE".toList ∨ d = false ∧ (v = none ∨ v = some "DATE-TIME".toList))) ∧
  HasParam l "TZID".toList z ∧ (d = true → z = none)

/-- The date-time in the zone, which is not for one in UTC. -/
def inZone (z : Option (List Char)) (t : DateTime) : DateTime :=
  match z with
  | some z => { t with tzid := some (.name (String.ofList z)) }
  | none => t

/-- What a line says of the recurrence. -/
inductive Fact where
  | start (t : DateTime)
  | rule (exclude : Bool) (parts : List Recur.Part)
  | dates (exclude : Bool) (l : List DateTime)
  | other

/-- The names of the properties with rules and with dates. -/
def ruleName (exclude : Bool) : List Char := if exclude then "EXRULE".toList else "RRULE".toList
def datesName (exclude : Bool) : List Char := if exclude then "EXDATE".toList else "RDATE".toList

/-- The properties that matter. -/
def names : List (List Char) :=
  ["DTSTART".toList, "RRULE".toList, "EXRULE".toList, "RDATE".toList, "EXDATE".toList]

/-- What the line says. -/
inductive Says : ContentLine → Fact → Prop
  | start {l d z t} : upper l.name = "DTSTART".toList → DateParams l d z → DateTimeText l.value t → t.dateOnly = d →
      (z ≠ none → t.utc = false) → Says l (.start (inZone z t))
  | rule {l ps} (ex : Bool) : upper l.name = ruleName ex →
      (∃ v, HasParam l "VALUE".toList v ∧ (v = none ∨ v = some "RECUR".toList)) → Recur.RuleText DateTimeText l.value ps →
      Says l (.rule ex ps)
  | dates {l d z ts} (ex : Bool) : upper l.name = datesName ex → DateParams l d z →
      Recur.Sep ',' DateTimeText l.value ts → (∀ t ∈ ts, t.dateOnly = d ∧ (z ≠ none → t.utc = false)) →
      Says l (.dates ex (ts.map (inZone z)))
  | other {l} : upper l.name ∉ names → Says l .other

/-- The start: what the first line about it says. -/
def startOf : List Fact → Option DateTime
  | [] => none
  | .start t :: _ => some t
  | _ :: fs => startOf fs

/-- The rules of the lines that include, or exclude. -/
def rulesOf (ex : Bool) : List Fact → List (List Recur.Part)
  | [] => []
  | .rule x ps :: fs => if x = ex then ps :: rulesOf ex fs else rulesOf ex fs
  | _ :: fs => rulesOf ex fs

/-- The dates of the lines that include, or exclude. -/
def datesOf (ex : Bool) : List Fact → List DateTime
  | [] => []
  | .dates x l :: fs => if x = ex then l ++ datesOf ex fs else datesOf ex fs
  | _ :: fs => datesOf ex fs

/-- There are lines about recurrence. -/
def Recurs (fs : List Fact) : Prop := ∃ f ∈ fs, (∃ ex ps, f = .rule ex ps) ∨ ∃ ex l, f = .dates ex l

end Spec.EventText
