import Verif.Model.RecurrenceSet

/-!
# `pycalendar.icalendar.vtimezone` and `vtimezoneelement`: UTC offsets

Numbers of iterations `fuel` and iteration orders of sets as in `Verif.Model.RecurrenceSet`; `none`
is "still running".
-/

namespace PyCal
open DateTime (TzEnv)

/-- `bisect.bisect_right` and `VTimezone.tuple_bisect_right`, vtimezone.py:212-226, between `lo`
and `hi`; `less e` is the comparison `x < e`. -/
def bisectRight {α : Type} (less : α → Bool) (a : List α) (lo hi : Nat) : Nat :=
  if h : lo < hi then
    match a[(lo + hi) / 2]? with
    | none => lo
    | some e =>
      if less e then bisectRight less a lo ((lo + hi) / 2)
      else bisectRight less a ((lo + hi) / 2 + 1) hi
  else lo
termination_by hi - lo

/-- `RecurrenceSet.hasRecurrence`, recurrenceset.py:41-46. -/
def RecurrenceSet.hasRecurrence (s : RecurrenceSet) : Bool :=
  !s.rrules.isEmpty || !s.rdates.isEmpty || !s.rperiods.isEmpty || !s.exrules.isEmpty ||
  !s.exdates.isEmpty || !s.experiods.isEmpty

/-- `VTimezoneElement` after `finalise`, vtimezoneelement.py:41-49, with the values of DTSTART,
TZOFFSETFROM, TZOFFSETTO (both present), TZNAME and the recurrences; `below` and `items` are
`mCachedExpandBelow` and `mCachedExpandBelowItems`. -/
structure TzElement where
  start : DateTime
  offsetFrom : Int
  offsetTo : Int
  name : List Char := []
  recurrences : RecurrenceSet := {}
  below : Option DateTime := none
  items : Option (List DateTime) := none

namespace TzElement

/-- The cached expansion in `expandBelow` and `expandAll`, vtimezoneelement.py:130-138, 190-198:
`temp` is 1 January of the year asked for, `stop` the end of the period expanded. -/
def fill (env : TzEnv) (o : SetOrder) (fuel : Nat) (e : TzElement) (temp stop : DateTime) :
    Option TzElement :=
  let e : TzElement :=
    { e with items := some (e.items.getD []), below := some (e.below.getD e.start) }
  if temp.gt env (e.below.getD e.start) then
    match e.recurrences.expand env o fuel e.start (.ofEnd e.start stop) e.offsetFrom none with
    | some (.dates l _ s) => some { e with items := some l, below := some temp, recurrences := s }
    | _ => none
  else some e

/-- `DateTime(year, 1, 1, 0, 0, 0)`, vtimezoneelement.py:127, 187. -/
def newYear (year : Int) : DateTime := ⟨year, 1, 1, 0, 0, 0, false, false, none⟩

/-- `expandBelow`, vtimezoneelement.py:110-150. -/
def expandBelow (env : TzEnv) (o : SetOrder) (fuel : Nat) (e : TzElement) (below : DateTime) :
    Option (DateTime × TzElement) :=
  if !e.recurrences.hasRecurrence || e.start.gt env below then some (e.start, e)
  else
    (fill env o fuel e (newYear below.year) (newYear below.year)).map fun e' =>
      let items := e'.items.getD []
      let i := bisectRight (fun t => below.lt env t) items 0 items.length
      ((if i ≠ 0 then items[i - 1]? else items[0]?).getD e.start, e')

/-- `expandAll` with `with_name=False`, vtimezoneelement.py:152-211. -/
def expandAll (env : TzEnv) (o : SetOrder) (fuel : Nat) (e : TzElement) (start : Option DateTime)
    (stop : DateTime) : Option (List (DateTime × Int × Int) × TzElement) :=
  let start := start.getD e.start
  if e.start.gt env stop then some ([], e)
  else if !e.recurrences.hasRecurrence then
    some (if e.start.ge env start then [(e.start, e.offsetFrom, e.offsetTo)] else [], e)
  else
    (fill env o fuel e (newYear stop.year) stop).map fun e' =>
      (((e'.items.getD []).filter fun t => t.ge env start && t.lt env stop).map
        fun t => (t, e.offsetFrom, e.offsetTo), e')

end TzElement

/-- One element of the list made by `VTimezone.expandAll`: local time, UTC time, offsets. -/
structure Transition where
  loc : DateTime
  utc : DateTime
  offsetFrom : Int
  offsetTo : Int
deriving DecidableEq, Repr

/-- `VTimezone`, vtimezone.py:40-45: its elements, sorted by DTSTART (`finalise`), and the caches.
`mCachedExpandAll` does not exist while `mCachedExpandAllMaxYear` is `None`. -/
structure Zone where
  elements : List TzElement
  all : List Transition := []
  maxYear : Option Int := none
  offsets : List ((Int × Int × Int × Int × Int × Bool) × Nat) := []

namespace Zone

/-- Two tuples are one for `set`, see `sameKey`. -/
def sameTuple (env : TzEnv) (a b : DateTime × Int × Int) : Bool :=
  sameKey env a.1 b.1 && decide (a.2 = b.2)

/-- The elements of `set(results)`. -/
def tupleSet (env : TzEnv) (l : List (DateTime × Int × Int)) : List (DateTime × Int × Int) :=
  l.foldl (fun s x => if s.any fun y => sameTuple env y x then s else s ++ [x]) []

/-- The UTC time added to a tuple, vtimezone.py:264-270. -/
def withUtc (v : DateTime × Int × Int) : Transition :=
  ⟨v.1, { v.1.offsetSeconds (-v.2.1) with utc := true }, v.2.1, v.2.2⟩

/-- `results.extend(item.expandAll(...))` for all elements, vtimezone.py:259-261. -/
def expandElements (env : TzEnv) (o : SetOrder) (fuel : Nat) (start : Option DateTime)
    (stop : DateTime) :
    List TzElement → Option (List (DateTime × Int × Int) × List TzElement)
  | [] => some ([], [])
  | e :: es =>
    match e.expandAll env o fuel start stop with
    | none => none
    | some (l, e') => (expandElements env o fuel start stop es).map fun v => (l ++ v.1, e' :: v.2)

/-- `expandAll`, vtimezone.py:258-272. -/
def expandAll (env : TzEnv) (o : SetOrder) (o' : SetOrder (DateTime × Int × Int)) (fuel : Nat)
    (z : Zone) (start : Option DateTime) (stop : DateTime) : Option (List Transition × Zone) :=
  (expandElements env o fuel start stop z.elements).map fun v =>
    (((o'.run (tupleSet env v.1)).map withUtc).insertionSort
      (fun a b => a.loc.posix env ≤ b.loc.posix env), { z with elements := v.2 })

/-- `temp`: the time asked about without its time zone, vtimezone.py:150-151. -/
def asLocal (t : DateTime) : DateTime := { t with utc := false, tzid := none }

/-- `cacheMax`, vtimezone.py:155-159. -/
def cacheMax (t : DateTime) : DateTime :=
  { ({ t with hours := 0, minutes := 0, seconds := 0 }).offsetYear 2 with month := 1, day := 1 }

/-- The expansion of all transitions when needed, vtimezone.py:154-162. -/
def recache (env : TzEnv) (o : SetOrder) (o' : SetOrder (DateTime × Int × Int)) (fuel : Nat)
    (z : Zone) (temp : DateTime) : Option Zone :=
  if z.maxYear.all (fun y => decide (temp.year ≥ y)) then
    (z.expandAll env o o' fuel none (cacheMax temp)).map fun v =>
      { v.2 with all := v.1, maxYear := some (cacheMax temp).year, offsets := [] }
  else some z

/-- `cacheKey`, vtimezone.py:166. -/
def cacheKey (t : DateTime) (rel : Bool) : Int × Int × Int × Int × Int × Bool :=
  (t.year, t.month, t.day, t.hours, t.minutes, rel)

/-- The search in the transitions, vtimezone.py:169, 212-226. -/
def search (env : TzEnv) (all : List Transition) (temp : DateTime) (rel : Bool) : Nat :=
  bisectRight (fun v => temp.lt env (if rel then v.utc else v.loc)) all 0 all.length

/-- `UTCOFFSET_CACHE_MAX_ENTRIES`, vtimezone.py:36. -/
def cacheEntries : Nat := 100000

/-- The lookup with its cache, vtimezone.py:165-176. -/
def lookup (env : TzEnv) (z : Zone) (temp : DateTime) (rel : Bool) : Int × Zone :=
  if z.all = [] then (0, z)
  else
    let found := z.offsets.find? fun v => decide (v.1 = cacheKey temp rel)
    let i := match found with
      | some v => v.2
      | none => search env z.all temp rel
    let z' := match found with
      | some _ => z
      | none => { z with offsets :=
          (if z.offsets.length ≥ cacheEntries then [] else z.offsets) ++ [(cacheKey temp rel, i)] }
    (if i ≠ 0 then (z.all[i - 1]?.map (·.offsetTo)).getD 0 else 0, z')

/-- `getTimezoneOffsetSeconds`, vtimezone.py:129-176. -/
def offsetSeconds (env : TzEnv) (o : SetOrder) (o' : SetOrder (DateTime × Int × Int)) (fuel : Nat)
    (z : Zone) (t : DateTime) (rel : Bool) : Option (Int × Zone) :=
  (recache env o o' fuel z (asLocal t)).map fun z => z.lookup env (asLocal t) rel

/-- The loop in `findTimezoneElement`, vtimezone.py:243-254. -/
def findLoop (env : TzEnv) (o : SetOrder) (fuel : Nat) (temp : DateTime) :
    List TzElement → Option (TzElement × DateTime) →
      Option (Option (TzElement × DateTime) × List TzElement)
  | [], found => some (found, [])
  | e :: es, found =>
    match e.expandBelow env o fuel temp with
    | none => none
    | some (t, e') =>
      let found' := if temp.ge env t then
          match found with
          | some (f, tf) => if t.gt env tf then some (e', t) else some (f, tf)
          | none => some (e', t)
        else found
      (findLoop env o fuel temp es found').map fun v => (v.1, e' :: v.2)

/-- `findTimezoneElement`, vtimezone.py:228-256. -/
def findElement (env : TzEnv) (o : SetOrder) (fuel : Nat) (z : Zone) (t : DateTime) :
    Option (Option TzElement × Zone) :=
  (findLoop env o fuel (asLocal t) z.elements none).map fun v =>
    (v.1.map (·.1), { z with elements := v.2 })

end Zone
end PyCal
