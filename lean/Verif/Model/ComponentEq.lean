import Verif.Model.RecurrenceText
import Verif.Model.PropertyText
import Verif.Model.Compare

/-!
# Equality of components

`ComponentBase.__eq__`, `compareComponents`, `compareProperties` (componentbase.py), `Property.__eq__`,
`__hash__` (icalendar/property.py), `Value.__eq__`, `__hash__` (value.py) and `Parameter.__eq__`
(parameter.py).
-/

namespace PyCal
namespace CompEq

/-- The value of a property: a text (any of the types that hold a `str`), a recurrence rule or a date or
date-time.  Values of the other types are left out. -/
inductive PVal where
  | text (s : List Char)
  | rule (r : Rule)
  | date (t : DateTime)
deriving DecidableEq

/-- A property: `mName`, `mParameters` and `mValue`.  `mParameters` has under each key the parameters of
that (upper case) name in order; here they are in one list. -/
structure EProp where
  name : List Char
  params : List PropText.Param := []
  value : PVal
deriving DecidableEq

/-- The values of the parameters under a key of `mParameters`. -/
def under (ps : List PropText.Param) (key : List Char) : List (List (List Char)) :=
  (ps.filter fun p => decide (p.key = key)).map PropText.Param.values

/-- `self.mParameters == other.mParameters`, icalendar/property.py:251: the same keys, and under each the
same list (`Parameter.__eq__`, parameter.py:50-53: upper case names and values). -/
def paramsEq (ps qs : List PropText.Param) : Bool :=
  (ps ++ qs).all fun p => decide (under ps p.key = under qs p.key)

instance (env : DateTime.TzEnv) (r s : Rule) : Decidable (r.hashKey env = s.hashKey env) :=
  decidable_of_iff (r.freq = s.freq ∧ r.useCount = s.useCount ∧ r.count = s.count ∧
    r.useUntil = s.useUntil ∧
    r.untilDate.map (DateTime.hashKey env) = s.untilDate.map (DateTime.hashKey env) ∧
    r.interval = s.interval ∧ r.bySeconds = s.bySeconds ∧ r.byMinutes = s.byMinutes ∧
    r.byHours = s.byHours ∧ r.byDay = s.byDay ∧ r.byMonthDay = s.byMonthDay ∧
    r.byYearDay = s.byYearDay ∧ r.byWeekNo = s.byWeekNo ∧ r.byMonth = s.byMonth ∧
    r.bySetPos = s.bySetPos ∧ r.weekStart = s.weekStart) (by simp only [Rule.hashKey, Prod.mk.injEq])

/-- Equal hash and `==`, as a `set` compares: value.py:56-65.  The type is that of the Python value, and
DATE or DATE-TIME for a `DateTimeValue` (datetimevalue.py).  A hash is identified with what is hashed. -/
def sameVal (env : DateTime.TzEnv) : PVal → PVal → Bool
  | .text s, .text t => decide (s = t)
  | .rule r, .rule s => decide (r.hashKey env = s.hashKey env) && r.equals env s
  | .date t, .date u =>
    decide (t.dateOnly = u.dateOnly) && decide (t.hashKey env = u.hashKey env) && t.eq env u
  | _, _ => false

/-- Equal hash and `==` of two properties: icalendar/property.py:241-251.  Equal parameters have equal
hashes. -/
def sameProp (env : DateTime.TzEnv) (p q : EProp) : Bool :=
  decide (p.name = q.name) && sameVal env p.value q.value && paramsEq p.params q.params

/-- A component: `getType()`, the properties in `mProperties` and `mComponents`. -/
inductive Tree (π : Type) where
  | mk (type : List Char) (props : List π) (subs : List (Tree π))

namespace Tree
variable {π : Type}

def type : Tree π → List Char
  | mk t _ _ => t

def props : Tree π → List π
  | mk _ ps _ => ps

def subs : Tree π → List (Tree π)
  | mk _ _ ss => ss

end Tree

variable {π : Type}

/-- The elements of the `set` made of a list. -/
def asSet (same : π → π → Bool) (l : List π) : List π :=
  l.foldl (fun s x => if s.any fun y => same y x then s else s ++ [x]) []

/-- `compareProperties`, componentbase.py:150-157: `==` of two sets. -/
def compareProps (same : π → π → Bool) (ps qs : List π) : Bool :=
  decide ((asSet same ps).length = (asSet same qs).length) &&
    (asSet same ps).all fun p => (asSet same qs).any fun q => same q p

mutual

/-- `__eq__`, componentbase.py:72-75. -/
def eqTree (same : π → π → Bool) : Tree π → Tree π → Bool
  | .mk t ps ss, .mk t' qs ss' =>
    decide (t = t') && compareProps same ps qs && matchAll same ss ss'
termination_by a => (sizeOf a, 0)

/-- `compareComponents`, componentbase.py:95-106.  Components have no `__hash__` of their own, so a set of
them has each object once; here the objects in the list are different.  The sets are run through in the
order of the lists (`C61_order`: any other order gives the same). -/
def matchAll (same : π → π → Bool) : List (Tree π) → List (Tree π) → Bool
  | [], theirs => theirs.isEmpty
  | c :: cs, theirs =>
    match removeEq same c theirs with
    | none => false
    | some rest => matchAll same cs rest
termination_by a => (sizeOf a, 0)

/-- The inner loop, componentbase.py:100-105: the first that is `==` is removed, `none` if there is
none. -/
def removeEq (same : π → π → Bool) (c : Tree π) : List (Tree π) → Option (List (Tree π))
  | [] => none
  | d :: ds => if eqTree same c d then some ds else (removeEq same c ds).map (d :: ·)
termination_by l => (sizeOf c, l.length + 1)

end

end CompEq
end PyCal
