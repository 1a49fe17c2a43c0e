import Verif.Model.Period
import Verif.Model.PropertyText
import Mathlib.Data.List.Sort

/-! # Free-busy components: `icalendar.vfreebusy.VFreeBusy` and `icalendar.freebusy.FreeBusy` -/

namespace PyCal
open DateTime (TzEnv)
open PropText (upper)

/-- `FreeBusy.FREE`, `BUSYTENTATIVE`, `BUSYUNAVAILABLE`, `BUSY`, freebusy.py:22-25. -/
inductive FBType where
  | free | tentative | unavailable | busy
deriving Repr, DecidableEq

/-- A FREEBUSY property: the FBTYPE parameter (its first value) and the periods of its value.  A property
whose value is not a list of periods is skipped (vfreebusy.py:266-277), as is one with no periods. -/
structure FBProperty where
  fbtype : Option (List Char) := none
  periods : List Period
deriving Repr

/-- An entry of `mBusyTime`: a `FreeBusy`, freebusy.py:27-30. -/
structure Busy where
  type : FBType
  period : Period
deriving Repr

/-- `FreeBusy.__init__`, freebusy.py:27-30, on what `expandPeriodFB` gives it: the type of the new object
is whatever was given as `type` (an object is true, so it is kept), and no period is given. -/
structure FBOut where
  type : FBType ⊕ Busy
  period : Option Period
deriving Repr

/-- `VFreeBusy`, vfreebusy.py:46-56: `start` is `mStart` if `mHasStart`, `stop` is `mEnd` if `mHasEnd`,
`duration` the DURATION property; `cached` is `mBusyTime` with `mSpanPeriod` if `mCachedBusyTime`. -/
structure VFreeBusy where
  start : Option DateTime := none
  stop : Option DateTime := none
  duration : Option Duration := none
  freebusy : List FBProperty := []
  cached : Option (Option (List Busy × Period)) := none
deriving Repr

namespace VFreeBusy

/-- `VFreeBusy.finalise`, vfreebusy.py:76-100: DTEND, if there is one, hides DURATION; `mHasEnd` is set for
DTEND only. -/
def finalise (dtstart dtend : Option DateTime) (duration : Option Duration)
    (freebusy : List FBProperty) : VFreeBusy :=
  match dtend with
  | some e => { start := dtstart, stop := some e, freebusy }
  | none => { start := dtstart, duration, freebusy }

/-- What FBTYPE says, vfreebusy.py:236-262: `is_busy` and `type`. -/
def typeOf (fbtype : Option (List Char)) : Bool × FBType :=
  match fbtype with
  | some s =>
    if upper s = "BUSY".toList then (true, .busy)
    else if upper s = "BUSY-UNAVAILABLE".toList then (true, .unavailable)
    else if upper s = "BUSY-TENTATIVE".toList then (true, .tentative)
    else (false, .free)
  | none => (true, .busy)

/-- `min_start` and `max_end` with one more period, vfreebusy.py:283-292; `none`: there was none yet. -/
def widen (env : TzEnv) (p : Period) : Option (DateTime × DateTime) → DateTime × DateTime
  | none => (p.start, p.stop)
  | some (lo, hi) => (if lo.gt env p.start then p.start else lo,
      if hi.lt env p.stop then p.stop else hi)

/-- The loop over the values of one property, vfreebusy.py:270-292: `mBusyTime`, and `min_start` and
`max_end`, which are set once there is an entry. -/
def addPeriods (env : TzEnv) (type : FBType) :
    List Busy × Option (DateTime × DateTime) → List Period → List Busy × Option (DateTime × DateTime)
  | acc, [] => acc
  | (busy, ends), p :: ps =>
    addPeriods env type (busy ++ [⟨type, p⟩], some (widen env p ends)) ps

/-- The loop over the FREEBUSY properties, vfreebusy.py:230-292. -/
def addProperties (env : TzEnv) :
    List Busy × Option (DateTime × DateTime) → List FBProperty → List Busy × Option (DateTime × DateTime)
  | acc, [] => acc
  | acc, p :: ps =>
    addProperties env (if (typeOf p.fbtype).1 then addPeriods env (typeOf p.fbtype).2 acc p.periods
      else acc) ps

/-- `self.mBusyTime.sort(cmp=…)`, vfreebusy.py:302: by start; Python's sort is stable.  (For starts that
`compareDateTime` does not order consistently Python's result is unspecified.) -/
def sortBusy (env : TzEnv) (l : List Busy) : List Busy :=
  l.insertionSort fun x y => ¬ y.period.start.compare env x.period.start < 0

/-- `VFreeBusy.cacheBusyTime`, vfreebusy.py:221-318: `None` if nothing is busy, else the sorted entries
and `mSpanPeriod`. -/
def busyTime (env : TzEnv) (v : VFreeBusy) : Option (List Busy × Period) :=
  match addProperties env ([], none) v.freebusy with
  | (_, none) => none
  | (busy, some (lo, hi)) => some (sortBusy env busy, .ofEnd (v.start.getD lo) (v.stop.getD hi))

/-- `if not self.mCachedBusyTime: self.cacheBusyTime()`, vfreebusy.py:203-205. -/
def withCache (env : TzEnv) (v : VFreeBusy) : VFreeBusy :=
  match v.cached with
  | some _ => v
  | none => { v with cached := some (busyTime env v) }

/-- The cached value: nothing before the first query. -/
def cachedTime (v : VFreeBusy) : Option (List Busy × Period) := v.cached.getD none

/-- `VFreeBusy.expandPeriodComp`, vfreebusy.py:202-209: whether the component is appended. -/
def expandPeriodComp (env : TzEnv) (period : Period) (v : VFreeBusy) : Bool × VFreeBusy :=
  match (v.withCache env).cachedTime with
  | none => (false, v.withCache env)
  | some (_, span) => (period.isOverlap env span, v.withCache env)

/-- `VFreeBusy.expandPeriodFB`, vfreebusy.py:211-219: the objects appended. -/
def expandPeriodFB (env : TzEnv) (period : Period) (v : VFreeBusy) : List FBOut × VFreeBusy :=
  match (v.withCache env).cachedTime with
  | none => ([], v.withCache env)
  | some (busy, span) =>
    (if period.isOverlap env span then busy.map fun fb => ⟨.inr fb, none⟩ else [], v.withCache env)

/-- `Component.addProperty` with a FREEBUSY property, component.py (`addProperty`): the cached busy time
is not touched.  The property is put behind the others of its name. -/
def addFreeBusy (p : FBProperty) (v : VFreeBusy) : VFreeBusy := { v with freebusy := v.freebusy ++ [p] }

/-- `Component.removeProperties` of FREEBUSY: the cached busy time is not touched. -/
def removeFreeBusy (v : VFreeBusy) : VFreeBusy := { v with freebusy := [] }

/-- `VFreeBusy.duplicate`, vfreebusy.py:58-67: the copy has nothing cached. -/
def duplicate (v : VFreeBusy) : VFreeBusy := { v with cached := none }

end VFreeBusy
end PyCal
