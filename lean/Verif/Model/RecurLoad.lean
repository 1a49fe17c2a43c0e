import Verif.Model.RecurrenceSet

/-!
# The recurrence set of a component

`_resetRecurrenceSet` and `isRecurring` (icalendar/componentrecur.py), `loadValueRRULE` and
`loadValueRDATE` (componentbase.py), and the expansion of what they load
(icalendar/recurrenceset.py).
-/

namespace PyCal
namespace RecurLoad
open DateTime (TzEnv)

/-- A value in a list of values. -/
inductive Item where
  | date (t : DateTime)
  | period (p : Period)
  | text (s : List Char)
  | other

/-- The value of a property: a rule (with the cache of its `Recurrence`), a list of values (`MultiValue`),
or another. -/
inductive PVal where
  | recur (r : Rule) (c : Rule.Cache)
  | multi (l : List Item)
  | other

/-- The values of the properties of a component with these names, in order. -/
structure Props where
  rrule : List PVal := []
  rdate : List PVal := []
  exrule : List PVal := []
  exdate : List PVal := []

/-- The `RecurrenceSet`, recurrenceset.py:23-29.  What is in `mRperiods` and `mExperiods` is no `Period`
but its start: `addPeriod(obj.getValue().getStart())`, componentbase.py:539-543. -/
structure Loaded where
  rrules : List (Rule × Rule.Cache) := []
  exrules : List (Rule × Rule.Cache) := []
  rdates : List DateTime := []
  exdates : List DateTime := []
  rperiods : List DateTime := []
  experiods : List DateTime := []

/-- The loop of `loadValueRRULE`, componentbase.py:515-521: the rules that are added (or subtracted). -/
def loadRules : List PVal → List (Rule × Rule.Cache)
  | [] => []
  | .recur r c :: vs => (r, c) :: loadRules vs
  | _ :: vs => loadRules vs

/-- The loop over the values of one property, componentbase.py:532-543: the dates, and the starts of
periods, that are added. -/
def loadItems : List Item → List DateTime × List DateTime
  | [] => ([], [])
  | .date t :: l => (t :: (loadItems l).1, (loadItems l).2)
  | .period p :: l => ((loadItems l).1, p.start :: (loadItems l).2)
  | _ :: l => loadItems l

/-- The loop of `loadValueRDATE`, componentbase.py:529-543. -/
def loadDates : List PVal → List DateTime × List DateTime
  | [] => ([], [])
  | .multi l :: vs => ((loadItems l).1 ++ (loadDates vs).1, (loadItems l).2 ++ (loadDates vs).2)
  | _ :: vs => loadDates vs

/-- `_resetRecurrenceSet`, componentrecur.py:350-372: `mRecurrences`. -/
def reset (p : Props) : Option Loaded :=
  if p.rrule.length ≠ 0 ∨ p.rdate.length ≠ 0 ∨ p.exrule.length ≠ 0 ∨ p.exdate.length ≠ 0 then
    some { rrules := loadRules p.rrule
           rdates := (loadDates p.rdate).1
           rperiods := (loadDates p.rdate).2
           exrules := loadRules p.exrule
           exdates := (loadDates p.exdate).1
           experiods := (loadDates p.exdate).2 }
  else none

/-- `hasRecurrence`, recurrenceset.py:41-46. -/
def Loaded.hasRecurrence (s : Loaded) : Bool :=
  decide (s.rrules.length ≠ 0) || decide (s.rdates.length ≠ 0) || decide (s.rperiods.length ≠ 0) ||
    decide (s.exrules.length ≠ 0) || decide (s.exdates.length ≠ 0) || decide (s.experiods.length ≠ 0)

/-- `isRecurring`, componentrecur.py:194-195. -/
def isRecurring (s : Option Loaded) : Bool :=
  match s with
  | none => false
  | some s => s.hasRecurrence

/-- How an expansion ends. -/
inductive Result where
  | dates (items : List DateTime) (limited : Bool)
  | tooMany
  | attributeError
deriving DecidableEq

/-- `expand`, recurrenceset.py:168-228; `none`: still running.  `range.isPeriodOverlap(iter)` calls
`getEnd` (period.py:173), which a `DateTime` does not have. -/
def Loaded.expand (env : TzEnv) (o : SetOrder) (fuel : Nat) (s : Loaded) (start : DateTime)
    (range : Period) (off : Int := 0) (max : Option Int := none) : Option Result :=
  let inRange := range.isDateWithin env start
  match RecurrenceSet.expandRules env fuel start range off max s.rrules (if inRange then [start] else [])
      (!inRange) with
  | none => none
  | some (.tooMany _) => some .tooMany
  | some (.dates items limited _) =>
    match (s.rdates.map fun t => (t, range.isDateWithin env t)).foldlM (RecurrenceSet.addOne max)
        (items, limited) with
    | none => some .tooMany
    | some (items, limited) =>
      match s.rperiods with
      | _ :: _ => some .attributeError
      | [] =>
        match RecurrenceSet.expandRules env fuel start range off none s.exrules [] false with
        | none => none
        | some (.tooMany _) => some .tooMany
        | some (.dates ex _ _) =>
          match s.experiods with
          | _ :: _ => some .attributeError
          | [] =>
            some (.dates
              (setDifference env o (uniqueSorted env o items)
                (uniqueSorted env o (ex ++ s.exdates.filter fun t => range.isDateWithin env t)))
              limited)

end RecurLoad
end PyCal
