import Verif.Model.Recurrence

/-!
# `pycalendar.icalendar.recurrenceset.RecurrenceSet`: expansion

Simplification: the start of the recurrence is already normal.  (`Recurrence.expand` normalises it
in place, recurrence.py:842, which would change the element already put into the list.)  The rules
are distinct objects.
-/

namespace PyCal
open DateTime (TzEnv)

/-! ### Python sets of `DateTime` -/

/-- Two keys are one for a `set`: equal hash and `==` (CPython compares the stored hash first). -/
def sameKey (env : TzEnv) (a b : DateTime) : Bool :=
  decide (a.hashKey env = b.hashKey env) && a.eq env b

/-- `set.add`: nothing happens if the key is there. -/
def setInsert (env : TzEnv) (s : List DateTime) (x : DateTime) : List DateTime :=
  if s.any fun y => sameKey env y x then s else s ++ [x]

/-- The elements of `set(l)`, in order of insertion. -/
def setOf (env : TzEnv) (l : List DateTime) : List DateTime := l.foldl (setInsert env) []

/-- The order in which a `set` is iterated: unspecified, so any. -/
structure SetOrder (α : Type := DateTime) where
  run : List α → List α
  perm : ∀ l, (run l).Perm l

/-- `[x for x in set(l)]`, then `sort(key=getPosixTime)`, recurrenceset.py:203-204, 222-223. -/
def uniqueSorted (env : TzEnv) (o : SetOrder) (l : List DateTime) : List DateTime :=
  (o.run (setOf env l)).insertionSort fun a b => a.posix env ≤ b.posix env

/-- `set_difference`, utils.py:513-520. -/
def setDifference (env : TzEnv) (o : SetOrder) (v1 v2 : List DateTime) : List DateTime :=
  if v1 = [] ∨ v2 = [] then v1
  else o.run ((setOf env v1).filter fun x => !(setOf env v2).any fun y => sameKey env y x)

/-! ### The set -/

/-- `RecurrenceSet`, recurrenceset.py:23-29: rules with their caches. -/
structure RecurrenceSet where
  rrules : List (Rule × Rule.Cache) := []
  exrules : List (Rule × Rule.Cache) := []
  rdates : List DateTime := []
  exdates : List DateTime := []
  rperiods : List Period := []
  experiods : List Period := []

namespace RecurrenceSet

/-- The result of expanding a list of rules into `items`. -/
inductive RulesResult where
  | dates (items : List DateTime) (limited : Bool) (rules : List (Rule × Rule.Cache))
  | tooMany (rules : List (Rule × Rule.Cache))

/-- The loops over `mRrules` and `mExrules`, recurrenceset.py:182-184, 210-211; `none`: still
running.  When a rule raises, the rules after it keep their caches. -/
def expandRules (env : TzEnv) (fuel : Nat) (start : DateTime) (range : Period) (off : Int)
    (max : Option Int) : List (Rule × Rule.Cache) → List DateTime → Bool → Option RulesResult
  | [], items, limited => some (.dates items limited [])
  | (r, c) :: rs, items, limited =>
    match r.expand env fuel c start range off max with
    | none => none
    | some (.tooMany, c') => some (.tooMany ((r, c') :: rs))
    | some (.dates ds lim, c') =>
      match expandRules env fuel start range off max rs (items ++ ds) (limited || lim) with
      | none => none
      | some (.tooMany rs') => some (.tooMany ((r, c') :: rs'))
      | some (.dates items' limited' rs') => some (.dates items' limited' ((r, c') :: rs'))

/-- One element of the loops over `mRdates` and `mRperiods`, recurrenceset.py:187-200: `within` says
if it is in the range; `none` is `TooManyInstancesError`. -/
def addOne (max : Option Int) (acc : List DateTime × Bool) (v : DateTime × Bool) :
    Option (List DateTime × Bool) :=
  if v.2 then
    if Rule.exceeds max (acc.1 ++ [v.1]) then none else some (acc.1 ++ [v.1], acc.2)
  else some (acc.1, true)

/-- `mRdates` and `mRperiods` with the tests made on them, recurrenceset.py:187-200. -/
def rdateTests (env : TzEnv) (range : Period) (s : RecurrenceSet) : List (DateTime × Bool) :=
  s.rdates.map (fun t => (t, range.isDateWithin env t)) ++
  s.rperiods.map fun p => (p.start, range.isOverlap env p)

/-- The same for `mExdates` and `mExperiods`, recurrenceset.py:214-219, as the list appended. -/
def exdateList (env : TzEnv) (range : Period) (s : RecurrenceSet) : List DateTime :=
  (s.exdates.filter fun t => range.isDateWithin env t) ++
  (s.experiods.filter fun p => range.isOverlap env p).map Period.start

/-- The outcome of `expand` with the new caches. -/
inductive Result where
  | dates (items : List DateTime) (limited : Bool) (s : RecurrenceSet)
  | tooMany (s : RecurrenceSet)

/-- `expand`, recurrenceset.py:168-228, with an empty list `items` (it is only extended). -/
def expand (env : TzEnv) (o : SetOrder) (fuel : Nat) (s : RecurrenceSet) (start : DateTime)
    (range : Period) (off : Int := 0) (max : Option Int := none) : Option Result :=
  let inRange := range.isDateWithin env start
  match expandRules env fuel start range off max s.rrules (if inRange then [start] else [])
      (!inRange) with
  | none => none
  | some (.tooMany rs) => some (.tooMany { s with rrules := rs })
  | some (.dates items limited rs) =>
    match (s.rdateTests env range).foldlM (addOne max) (items, limited) with
    | none => some (.tooMany { s with rrules := rs })
    | some (items, limited) =>
      match expandRules env fuel start range off none s.exrules [] false with
      | none => none
      | some (.tooMany es) => some (.tooMany { s with rrules := rs, exrules := es })
      | some (.dates ex _ es) =>
        some (.dates
          (setDifference env o (uniqueSorted env o items)
            (uniqueSorted env o (ex ++ s.exdateList env range)))
          limited { s with rrules := rs, exrules := es })

end RecurrenceSet
end PyCal
