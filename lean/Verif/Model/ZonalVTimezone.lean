import Verif.Model.ZonalZone

/-!
# The time zone compiler: `zonal.zone.Zone.vtimezone` and the components it writes
-/

namespace PyCal
namespace Zonal

/-- A STANDARD or DAYLIGHT component as `Rule.vtimezone` and `ZoneRule.vtimezone` write it.  `rdates` are the
RDATE properties, each with one value; `rrule` the parts of the RRULE, a yearly one, and its UNTIL. -/
structure Observance where
  daylight : Bool
  offsetFrom : Int
  offsetTo : Int
  name : List Char
  start : DateTime
  rdates : List DateTime := []
  rrule : Option (Parts × Option DateTime) := none
deriving DecidableEq, Repr

/-- `fmt % (arg,)`, rule.py:463, zone.py:508, for a format with one `%s`.  Other formats with a `%` are taken to
raise (`%%`, which tzdata does not use, would not always). -/
def percentFormat (fmt arg : List Char) : Option (List Char) :=
  match fmt.dropWhile (· ≠ '%') with
  | '%' :: 's' :: tail =>
    if '%' ∈ tail then none else some (fmt.takeWhile (· ≠ '%') ++ arg ++ tail)
  | _ => none

/-- TZNAME, rule.py:461-468. -/
def ruleName (r : TzRule) (z : ZoneRule) (dst : Int) : Option (List Char) :=
  if '%' ∈ z.format then percentFormat z.format (if r.letter ≠ ['-'] then r.letter else [])
  else
    match splitOn '/' z.format with
    | a :: b :: _ => some (if dst = 0 then a else b)
    | _ => some z.format

/-- How `vtimezone` reads the day, rule.py:485-547. -/
def readOnDayVt (s : List Char) : Option OnDay :=
  match readOnDay s with
  | some (.next wd n) => if (splitGe s).length = 2 then some (.next wd n) else none
  | r => r

/-- The RRULE, rule.py:480-557: its parts and UNTIL, which is the last instance in UTC. -/
def ruleRecurrence (r : TzRule) (z : ZoneRule) (start stop : DateTime) (offsetFrom : Int) :
    Option (Parts × Option DateTime) :=
  match monthPos r.inMonth, readOnDayVt r.onDay with
  | some month, some on =>
    match ruleParts month start on, z.getUntilDate, r.endYear with
    | some p, some u, some e =>
      some (p, if u.dt.year < 9999 ∨ e < 9999 then
        some { stop.offsetSeconds (-offsetFrom) with utc := true } else none)
    | _, _, _ => none
  | _, _ => none

/-- `Rule.vtimezone`, rule.py:430-562 (`none`: an exception).  (`endYear` is not called, and so cannot raise, if
the line has an end; here it then must be readable all the same.) -/
def TzRule.vtimezone (r : TzRule) (z : ZoneRule) (start stop : DateTime) (offsetFrom offsetTo : Int)
    (count : Nat) : Option Observance :=
  match r.getOffset with
  | none => none
  | some dst =>
    match ruleName r z dst with
    | none => none
    | some name =>
      if r.toYear ≠ "only".toList ∧ (if start.cmpFields stop = 0 then 1 else count) ≠ 1 then
        match ruleRecurrence r z start stop offsetFrom with
        | none => none
        | some rr => some ⟨decide (dst ≠ 0), offsetFrom, offsetTo, name, start, [], some rr⟩
      else some ⟨decide (dst ≠ 0), offsetFrom, offsetTo, name, start, [start], none⟩

/-- `ZoneRule.vtimezone`, zone.py:492-521. -/
def ZoneRule.vtimezone (z : ZoneRule) (start : DateTime) (offsetFrom offsetTo : Int) : Option Observance :=
  match z.isNumericOffset, (if z.isNumericOffset = some true then z.getNumericOffset else some 0) with
  | some _, some save =>
    match (if '%' ∈ z.format then percentFormat z.format ['S'] else some z.format) with
    | none => none
    | some name => some ⟨decide (save ≠ 0), offsetFrom, offsetTo, name, start, [start], none⟩
  | _, _ => none

/-- An item of `rulemap`, zone.py:245: the local time and the offsets before and after. -/
structure Row where
  dt : DateTime
  offsetFrom : Int
  offsetTo : Int
deriving DecidableEq, Repr

/-- The loop that accumulates rows with the same pair of offsets, zone.py:198-216, as the slices from
`startIndex` to `index`; `cur` is the slice so far. -/
def offsetRuns : (first : Row) → (cur : List Row) → List Row → List (Row × List Row)
  | first, cur, [] => [(first, cur)]
  | first, cur, r :: rs =>
    if r.offsetFrom = first.offsetFrom ∧ r.offsetTo = first.offsetTo then offsetRuns first (cur ++ [r]) rs
    else (first, cur) :: offsetRuns r [] rs

/-- One call of `Rule.vtimezone`, for a slice that begins with `first` and goes on with `rest`. -/
def runObservance (r : TzRule) (z : ZoneRule) (count : Nat) (g : Row × List Row) : Option Observance :=
  r.vtimezone z g.1.dt (g.2.getLastD g.1).dt g.1.offsetFrom g.1.offsetTo count

/-- The calls for the slices of one rule, zone.py:201-224: the last one is given the number of all rows. -/
def runsObservances (r : TzRule) (z : ZoneRule) (total : Nat) :
    List (Row × List Row) → Option (List Observance)
  | [] => some []
  | [g] => (runObservance r z total g).map ([·])
  | g :: gs =>
    match runObservance r z (g.2.length + 1) g, runsObservances r z total gs with
    | some o, some os => some (o :: os)
    | _, _ => none

/-- `ruleorder` with `rulemap`: the rules (or `None`) in the order of their first rows, with the rows.  Rules are
told apart by their fields (in the code two rules with the same fields would share a place in
`ruleorder` but not in `rulemap`). -/
abbrev RuleMap := List (Option TzRule × List Row)

/-- zone.py:243-245. -/
def addRow (k : Option TzRule) (row : Row) : RuleMap → RuleMap
  | [] => [(k, [row])]
  | (k', rows) :: m => if k' = k then (k', rows ++ [row]) :: m else (k', rows) :: addRow k row m

/-- The components for one entry of `ruleorder`, zone.py:192-233. -/
def entryObservances (z : ZoneRule) : Option TzRule × List Row → Option (List Observance)
  | (_, []) => some []
  | (some r, row :: rows) => runsObservances r z (rows.length + 1) (offsetRuns row [] rows)
  | (none, row :: _) => (z.vtimezone row.dt row.offsetFrom row.offsetTo).map ([·])

/-- `_generateRuleData`, zone.py:189-235. -/
def generateRuleData (z : ZoneRule) (m : RuleMap) : Option (List Observance) :=
  (m.mapM (entryObservances z)).map List.flatten

/-- The loop over the transitions and what is left over, zone.py:237-249.  `last` is `lastZoneRule`. -/
def vtLoop : Option ZoneRule → RuleMap → List Transition → Option (List Observance)
  | none, _, [] => some []
  | some z, m, [] => generateRuleData z m
  | last, m, t :: ts =>
    if t.zone.format ≠ "LMT".toList then
      match last with
      | some z =>
        if z ≠ t.zone then
          match generateRuleData z m, vtLoop (some t.zone) (addRow t.rule ⟨t.dt, t.offsetFrom, t.offsetTo⟩ []) ts with
          | some os, some os' => some (os ++ os')
          | _, _ => none
        else vtLoop (some t.zone) (addRow t.rule ⟨t.dt, t.offsetFrom, t.offsetTo⟩ m) ts
      | none => vtLoop (some t.zone) (addRow t.rule ⟨t.dt, t.offsetFrom, t.offsetTo⟩ m) ts
    else vtLoop (some t.zone) m ts

/-- The key of `similarMap`, zone.py:270-275, of components with RDATE. -/
def Observance.similar (a b : Observance) : Bool :=
  decide (a.rdates ≠ []) && decide (b.rdates ≠ []) && decide (a.daylight = b.daylight) &&
    decide (a.name = b.name) && decide (a.offsetTo = b.offsetTo) && decide (a.offsetFrom = b.offsetFrom)

/-- One component in `_compressRDateComponents`: the first RDATE of a component goes to the first similar one,
if there is one before it. -/
def mergeInto (o : Observance) : List Observance → List Observance
  | [] => [o]
  | x :: xs =>
    if x.similar o then { x with rdates := x.rdates ++ o.rdates.take 1 } :: xs else x :: mergeInto o xs

/-- `_compressRDateComponents`, zone.py:257-289, here component by component and not key by key.  (`remove`
takes out the first component that is equal; the model takes out the component itself, which makes a
difference only if there are equal ones.) -/
def compressRDates (l : List Observance) : List Observance := l.foldl (fun acc o => mergeInto o acc) []

/-- `Zone.vtimezone`, zone.py:172-255: the components of the VTIMEZONE.  (`finalise` and the properties of the
VTIMEZONE itself are left out.) -/
def Zone.vtimezone (zn : Zone) (rules : List Char → Option (List RuleObj)) (minYear maxYear : Int) :
    Option (List Observance) :=
  match zn.expand rules minYear maxYear with
  | none => none
  | some ts => (vtLoop none [] ts).map compressRDates

end Zonal
end PyCal
