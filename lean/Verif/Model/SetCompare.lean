import Verif.Model.RecurrenceText
import Verif.Model.RecurrenceSet

/-!
# Copies of rules, comparison of recurrence sets and what a dialog asks of them

`Recurrence.duplicate`, `isSimpleRule` and `isAdvancedRule` (icalendar/recurrence.py), and `duplicate`,
`equals...`, `isSimpleUI`, `isAdvancedUI` and `getUIDescription` of `RecurrenceSet`
(icalendar/recurrenceset.py).
-/

namespace PyCal
open DateTime (TzEnv)

namespace Rule

/-- `duplicate`, recurrence.py:102-143, with the cache: `none` is the `AttributeError` of `None.duplicate()`.
(Lists of the copy are new lists; a cached list that is empty is shared.) -/
def duplicate (r : Rule) (c : Cache) : Option (Rule × Cache) :=
  if r.useUntil then
    match r.untilDate with
    | none => none
    | some t => some ({ r with untilDate := some t }, c)
  else some ({ r with untilDate := none }, c)

/-- `isSimpleRule`, recurrence.py:770-772, with `hasBy`, 757-768. -/
def isSimpleRule (r : Rule) : Bool :=
  !(decide (r.bySeconds.length ≠ 0) || decide (r.byMinutes.length ≠ 0) || decide (r.byHours.length ≠ 0) ||
    decide (r.byDay.length ≠ 0) || decide (r.byMonthDay.length ≠ 0) || decide (r.byYearDay.length ≠ 0) ||
    decide (r.byWeekNo.length ≠ 0) || decide (r.byMonth.length ≠ 0) || decide (r.bySetPos.length ≠ 0))

/-- The loop over BYDAY, recurrence.py:801-816: `number` is `None` as long as `first` is true. -/
def dayNumbersOk : Option Int → List (Int × Int) → Bool
  | _, [] => true
  | none, d :: l => if d.1 > 4 ∨ d.1 < -2 then false else dayNumbersOk (some d.1) l
  | some n, d :: l => if n ≠ d.1 then false else dayNumbersOk (some n) l

/-- `isAdvancedRule`, recurrence.py:774-825. -/
def isAdvancedRule (r : Rule) : Bool :=
  if r.bySeconds.length ≠ 0 ∨ r.byMinutes.length ≠ 0 ∨ r.byHours.length ≠ 0 ∨ r.byYearDay.length ≠ 0 ∨
      r.byWeekNo.length ≠ 0 then false
  else if r.byMonthDay.any fun d => decide (d < -7 ∨ d > 31 ∨ d = 0) then false
  else if !dayNumbersOk none r.byDay then false
  else if r.bySetPos.length > 1 then false
  else
    match r.bySetPos with
    | [n] => !(decide (n ≠ -1) && decide (n ≠ 1))
    | _ => true

end Rule

namespace RecurrenceSet

/-- The copies of rules, recurrenceset.py:33-34. -/
def duplicateRules : List (Rule × Rule.Cache) → Option (List (Rule × Rule.Cache))
  | [] => some []
  | r :: l => (r.1.duplicate r.2).bind fun x => (duplicateRules l).map (x :: ·)

/-- `duplicate`, recurrenceset.py:31-39. -/
def duplicate (s : RecurrenceSet) : Option RecurrenceSet :=
  (duplicateRules s.rrules).bind fun r => (duplicateRules s.exrules).map fun e =>
    { s with rrules := r, exrules := e }

/-- The loop of `equalsRules`, recurrenceset.py:84-98.  `temp2.remove(r2)` takes out the first rule that is
`r2` or equals it. -/
def equalsRulesLoop (env : TzEnv) : List Rule → List Rule → Bool
  | [], _ => true
  | r1 :: rules1, temp2 =>
    match temp2.find? fun r2 => r1.equals env r2 with
    | none => false
    | some r2 => equalsRulesLoop env rules1 (temp2.eraseP fun x => x.equals env r2)

/-- `equalsRules`, recurrenceset.py:72-98. -/
def equalsRules (env : TzEnv) (rules1 rules2 : List Rule) : Bool :=
  if rules1.length ≠ rules2.length then false
  else if rules1.length = 0 then true
  else equalsRulesLoop env rules1 rules2

/-- `equalsDates`, recurrenceset.py:100-114, and `equalsPeriods`, 116-130: `none` is the `AttributeError`
of `equal`, which no list has. -/
def equalsDates {α : Type} (dates1 dates2 : List α) : Option Bool :=
  if dates1.length ≠ dates2.length then some false else if dates1.length = 0 then some true else none

/-- `equals`, recurrenceset.py:48-70: the first thing asked for is the attribute `self` of a
`RecurrenceSet`, which there is none. -/
def equals (_s _comp : RecurrenceSet) : Option Bool := none

/-- `isSimpleUI`, recurrenceset.py:251-263, and `isAdvancedUI`, 265-275, for which a rule is asked: `none`
is the `AttributeError` of `firstElement`, which no list has. -/
def isSimpleUI (s : RecurrenceSet) : Option Bool :=
  if s.rrules.length > 1 ∨ s.exrules.length > 0 ∨ s.rdates.length > 0 ∨ s.rperiods.length > 0 then some false
  else if s.rrules.length = 1 then none
  else some true

/-- `hasRecurrence`, recurrenceset.py:41-46. -/
def hasAny (s : RecurrenceSet) : Bool :=
  decide (s.rrules.length ≠ 0) || decide (s.rdates.length ≠ 0) || decide (s.rperiods.length ≠ 0) ||
    decide (s.exrules.length ≠ 0) || decide (s.exdates.length ≠ 0) || decide (s.experiods.length ≠ 0)

/-- `getUIRecurrence`, recurrenceset.py:277-281. -/
def getUIRecurrence (s : RecurrenceSet) : Option Rule :=
  match s.rrules with
  | [r] => some r.1
  | _ => none

/-- `getUIDescription`, recurrenceset.py:283-295: `none` is an `AttributeError` again. -/
def getUIDescription (s : RecurrenceSet) : Option (List Char) :=
  if !s.hasAny then some "No Recurrence".toList
  else if s.rrules.length = 1 ∧ s.exrules.length = 0 ∧ s.rdates.length = 0 ∧ s.exdates.length = 0 ∧
      s.rperiods.length = 0 ∧ s.experiods.length = 0 then none
  else some "Multiple recurrence rules, dates or exclusions".toList

end RecurrenceSet
end PyCal
