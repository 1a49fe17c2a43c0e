import Verif.Model.Recurrence

/-!
# Changing a rule: the setters of `Recurrence`

`_setAndclearIfChanged` and the `set…` methods of icalendar/recurrence.py, with the cache of the rule.
-/

namespace PyCal.Rule
open DateTime (TzEnv Freq)

/-- A call of a setter, recurrence.py:274-331, with its argument (`setUntil` may be given `None`). -/
inductive Change where
  | freq (v : Freq)
  | useUntil (v : Bool)
  | untilDate (v : Option DateTime)
  | useCount (v : Bool)
  | count (v : Int)
  | interval (v : Int)
  | byMonth (v : List Int)
  | byMonthDay (v : List Int)
  | byYearDay (v : List Int)
  | byDay (v : List (Int × Int))
  | bySetPos (v : List Int)
deriving DecidableEq, Repr

/-- `self.mUntil != value`: `DateTime.__ne__` (datetime.py:176-177) is the negation of `==`, and a date-time differs
from `None` (datetime.py:192-193). -/
def untilDiffers (env : TzEnv) : Option DateTime → Option DateTime → Bool
  | none, none => false
  | some u, some t => !u.eq env t
  | _, _ => true

/-- `_setAndclearIfChanged`, recurrence.py:262-265: `differs` is the outcome of the comparison, `put` the assignment. -/
def setIfChanged (differs : Bool) (put : Rule) (s : Rule × Cache) : Rule × Cache :=
  if differs then (put, s.2.clear) else s

/-- The setters, recurrence.py:270-331.  A list that is `None` and an empty list are the same here, as in `Rule`; in Python
setting an empty list where there is `None` also clears the cache. -/
def change (env : TzEnv) (s : Rule × Cache) : Change → Rule × Cache
  | .freq v => setIfChanged (s.1.freq != v) { s.1 with freq := v } s
  | .useUntil v => setIfChanged (s.1.useUntil != v) { s.1 with useUntil := v } s
  | .untilDate v => setIfChanged (untilDiffers env s.1.untilDate v) { s.1 with untilDate := v } s
  | .useCount v => setIfChanged (s.1.useCount != v) { s.1 with useCount := v } s
  | .count v => setIfChanged (s.1.count != v) { s.1 with count := v } s
  | .interval v => setIfChanged (s.1.interval != v) { s.1 with interval := v } s
  | .byMonth v => setIfChanged (s.1.byMonth != v) { s.1 with byMonth := v } s
  | .byMonthDay v => setIfChanged (s.1.byMonthDay != v) { s.1 with byMonthDay := v } s
  | .byYearDay v => setIfChanged (s.1.byYearDay != v) { s.1 with byYearDay := v } s
  | .byDay v => setIfChanged (s.1.byDay != v) { s.1 with byDay := v } s
  | .bySetPos v => setIfChanged (s.1.bySetPos != v) { s.1 with bySetPos := v } s

/-- What the cache becomes when the caller changes the date-time it has passed to `expand` as `start`: recurrence.py:869
keeps that very object as `mCacheStart`. -/
def Cache.startChanged (c : Cache) (t : DateTime) : Cache :=
  { c with start := c.start.map fun _ => t }

end PyCal.Rule
