import Verif.Model.Timezone
import Verif.Model.ZonalZone

/-!
# `zonal/tzverify.py` and `zonal/tzdump.py`: comparing and showing the transitions of time zones

What is printed is returned.  Reading the files, the options of the commands, and the lines that only say what is
being done are left out.  Times are compared as in `Verif.Model.RecurrenceSet`.
-/

namespace PyCal
open DateTime (TzEnv)

namespace Verify

/-- What `CalendarZonesWrapper.expandTransitions` returns, tzverify.py:99-103: of a calendar the tuples of four made by
`VTimezone.expandAll`, of time zone data tuples of three (`tzconvert.expandZone`, tzconvert.py:133-139): local time,
offset before and after. -/
inductive Item where
  | four (t : Transition)
  | three (dt : DateTime) (offsetFrom offsetTo : Int)
deriving DecidableEq, Repr

namespace Item

/-- `i[0]`. -/
def date : Item → DateTime
  | four t => t.loc
  | three dt _ _ => dt

/-- `i[2]`, `i[3]`: `none` is the `IndexError`. -/
def offsets : Item → Option (Int × Int)
  | four t => some (t.offsetFrom, t.offsetTo)
  | three _ _ _ => none

/-- Two tuples are one for a `set`, see `sameKey`. -/
def same (env : TzEnv) : Item → Item → Bool
  | four a, four b =>
    sameKey env a.loc b.loc && sameKey env a.utc b.utc && decide (a.offsetFrom = b.offsetFrom) &&
      decide (a.offsetTo = b.offsetTo)
  | three a f t, three b f' t' => sameKey env a b && decide (f = f') && decide (t = t')
  | _, _ => false

end Item

/-- `tzconvert.expandZone`, zonal/tzconvert.py:133-139. -/
def expandZone (zn : Zonal.Zone) (rules : List Char → Option (List Zonal.RuleObj)) (minYear maxYear : Int) :
    Option (List Item) :=
  (zn.expand rules minYear maxYear).map fun l => l.map fun t => .three t.dt t.offsetFrom t.offsetTo

/-- The elements of `set(l)`. -/
def itemSet (env : TzEnv) (l : List Item) : List Item :=
  l.foldl (fun s x => if s.any fun y => y.same env x then s else s ++ [x]) []

/-- `set1.difference(set2)`. -/
def difference (env : TzEnv) (s1 s2 : List Item) : List Item := s1.filter fun x => !s2.any fun y => y.same env x

/-- `d.discard(i)`. -/
def discard (env : TzEnv) (d : List Item) (i : Item) : List Item := d.filter fun x => !x.same env i

/-- The loop over the differences of the first calendar, tzverify.py:130-135; `none` is an `IndexError`. -/
def loop1 (env : TzEnv) (start : DateTime) : List Item → List Item → Option (List Item)
  | [], d => some d
  | i :: is, d =>
    if i.date.eq env start then some (discard env d i)
    else
      match i.offsets with
      | none => none
      | some (f, t) => loop1 env start is (if f = t then discard env d i else d)

/-- The loop over the differences of the second, tzverify.py:137-139. -/
def loop2 (env : TzEnv) : List Item → List Item → Option (List Item)
  | [], d => some d
  | i :: is, d =>
    match i.offsets with
    | none => none
    | some (f, t) => loop2 env is (if f = t then discard env d i else d)

/-- What is reported of one time zone, tzverify.py:127-145: the transitions only in the first, and only in the second
calendar.  `o` is the order in which sets are run through. -/
def compareZone (env : TzEnv) (o : SetOrder Item) (start : DateTime) (dates1 dates2 : List Item) :
    Option (List Item × List Item) :=
  let set1 := itemSet env dates1
  let set2 := itemSet env dates2
  let d1 := difference env set1 set2
  let d2 := difference env set2 set1
  (loop1 env start (o.run d1) d1).bind fun d1 => (loop2 env (o.run d2) d2).map fun d2 => (d1, d2)

/-- The order of `sorted`. -/
def sortNames (l : List (List Char)) : List (List Char) := l.insertionSort (· ≤ ·)

/-- The loop over the time zones, tzverify.py:118-146: the time zones checked so far with what is reported of them, and
whether an exception stopped it. -/
def zonesLoop (env : TzEnv) (o : SetOrder Item) (start : DateTime) (filter : List (List Char))
    (dates1 dates2 : List Char → List Item) :
    List (List Char) → List (List Char × List Item × List Item) × Bool
  | [] => ([], true)
  | z :: zs =>
    if filter ≠ [] ∧ z ∉ filter then zonesLoop env o start filter dates1 dates2 zs
    else
      match compareZone env o start (dates1 z) (dates2 z) with
      | none => ([], false)
      | some r =>
        let rest := zonesLoop env o start filter dates1 dates2 zs
        ((z, r) :: rest.1, rest.2)

/-- `compareCalendars`, tzverify.py:106-146: the TZIDs said to be missing, and the result of the loop.  `tzids1` and
`tzids2` are the TZIDs of the calendars, without repetitions; `dates1` and `dates2` the transitions of each. -/
def compareCalendars (env : TzEnv) (o : SetOrder Item) (start : DateTime) (filter tzids1 tzids2 : List (List Char))
    (dates1 dates2 : List Char → List Item) :
    List (List Char) × List (List Char × List Item × List Item) × Bool :=
  (sortNames (tzids1.filter fun z => z ∉ tzids2),
    zonesLoop env o start filter dates1 dates2 (sortNames (tzids1.filter fun z => z ∈ tzids2)))

/-- `secondsToTime`, tzverify.py:175-187, tzdump.py:59-71.  (The seconds are not negative where they are divided.) -/
def secondsToTime (seconds : Int) : List Char :=
  let n := seconds.natAbs
  (if seconds < 0 then ['-'] else []) ++ padNat 2 (n / 3600 % 60) ++ ':' :: padNat 2 (n / 60 % 60) ++
    if n % 60 ≠ 0 then ':' :: padNat 2 (n % 60) else []

end Verify
end PyCal
