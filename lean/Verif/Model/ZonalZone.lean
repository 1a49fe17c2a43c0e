import Verif.Model.ZonalRule
import Verif.Model.Compare

/-!
# Zones of the time zone data: `src/zonal/zone.py`

Failed assertions and other exceptions are `none`.  All date-times here are floating.
-/

namespace PyCal
namespace Zonal

/-- `ZoneRule.__init__`, zonal/zone.py:298-306, without the caches of the values computed from these
texts, and without the zone, which is used only in a message. -/
structure ZoneRule where
  gmtoff : List Char
  rule : List Char
  format : List Char
  until_ : Option (List Char) := none
deriving DecidableEq, Repr

/-- `" ".join(items)`. -/
def joinSpaces (l : List (List Char)) : List Char := joinFields ' ' l

/-- `ZoneRule.parse`, zonal/zone.py:322-335.  The offset is 0 for the first line of a zone and 2 for the
others. -/
def ZoneRule.parse (line : List Char) (first : Bool) : Option ZoneRule :=
  match if first then (fields line).drop 2 else fields line with
  | gmtoff :: rule :: format :: rest =>
    some ⟨gmtoff, rule, format, if rest = [] then none else some (joinSpaces rest)⟩
  | _ => none

/-- `ZoneRule.generate`, zonal/zone.py:337-350. -/
def ZoneRule.generate (z : ZoneRule) : List Char :=
  joinFields '\t' ([z.gmtoff, z.rule, z.format] ++
    match z.until_ with
    | some u => if u = [] then [] else [u]
    | none => [])

/-- `Zone.__init__`, zonal/zone.py:42-44. -/
structure Zone where
  name : List Char
  rules : List ZoneRule
deriving DecidableEq, Repr

/-- The lines after the first, zonal/zone.py:76-82. -/
def Zone.parseRest : List (List Char) → Option (List ZoneRule)
  | [] => some []
  | line :: ls =>
    if line = [] then Zone.parseRest ls
    else
      match ZoneRule.parse line false, Zone.parseRest ls with
      | some z, some zs => some (if z.gmtoff ≠ "#".toList then z :: zs else zs)
      | _, _ => none

/-- `Zone.parse`, zonal/zone.py:58-82. -/
def Zone.parse (lines : List Char) : Option Zone :=
  match splitOn '\n' lines with
  | [] => none
  | line :: ls =>
    match fields line, ZoneRule.parse line true, Zone.parseRest ls with
    | _ :: name :: _, some z, some zs => some ⟨name, z :: zs⟩
    | _, _, _ => none

/-- `Zone.generate`, zonal/zone.py:84-106. -/
def Zone.generate (zn : Zone) : List Char :=
  joinFields '\n' (match zn.rules with
    | [] => []
    | z :: zs => joinFields '\t' ["Zone ".toList ++ zn.name, z.generate] ::
        zs.map fun z => joinFields '\t' [[], [], [], z.generate])

/-! ### Offsets -/

/-- `ZoneRule.getUTCOffset`, zonal/zone.py:406-418. -/
def ZoneRule.getUTCOffset (z : ZoneRule) : Option Int :=
  match splitOn ':' z.gmtoff with
  | [] => none
  | [] :: _ => none
  | (c :: s) :: rest =>
    match pyInt (if c ≠ '-' then c :: s else s),
        (match rest with | m :: _ => pyInt m | [] => some 0),
        (match rest with | _ :: sec :: _ => pyInt sec | _ => some 0) with
    | some hours, some minutes, some seconds =>
      let n := ((hours * 60) + minutes) * 60 + seconds
      some (if c = '-' then -n else n)
    | _, _, _ => none

/-- `ZoneRule.isNumericOffset`, zonal/zone.py:475-481. -/
def ZoneRule.isNumericOffset (z : ZoneRule) : Option Bool :=
  match z.rule with
  | [] => none
  | c :: s =>
    if c = '-' ∧ s = [] then some true
    else some (isDigit c || (c = '-' && match s with | d :: _ => isDigit d | [] => false))

/-- `ZoneRule.getNumericOffset`, zonal/zone.py:483-490. -/
def ZoneRule.getNumericOffset (z : ZoneRule) : Option Int :=
  if z.rule = ['-'] then some 0
  else
    match splitOn ':' z.rule with
    | [] => none
    | h :: rest =>
      match pyInt h, (match rest with | m :: _ => pyInt m | [] => some 0) with
      | some hours, some minutes => some (60 * 60 * hours + 60 * minutes)
      | _, _ => none

/-! ### The end of a line -/

/-- `len(splits) > n and not splits[n].startswith("#")`. -/
def present : Option (List Char) → Option (List Char)
  | some ('#' :: _) => none
  | s => s

/-- The day of the until field, zonal/zone.py:374-390. -/
def untilDay (year month : Int) (s : List Char) : Option Int :=
  let dt : DateTime := .ofDate year month 1
  if s = "lastSun".toList then some (dt.setDayOfWeekInMonth (-1) 0).day
  else if s = "lastSat".toList then some (dt.setDayOfWeekInMonth (-1) 6).day
  else if s = "Sun>=1".toList then some (dt.setNextDayOfWeek 1 0).day
  else if s = "Sun>=8".toList then some (dt.setNextDayOfWeek 8 0).day
  else pyInt s

/-- The time of the until field, zonal/zone.py:392-400: hours, minutes, seconds and the letters. -/
def untilTime (s : List Char) : Option (Int × Int × Int × List Char) :=
  match splitOn ':' s with
  | h :: m :: rest =>
    match pyInt h, pyInt (m.take 2), (match rest with | sec :: _ => pyInt sec | [] => some 0) with
    | some h, some mi, some sec => some (h, mi, sec, m.drop 2)
    | _, _, _ => none
  | _ => none

/-- `ZoneRule.getUntilDate`, zonal/zone.py:352-404. -/
def ZoneRule.getUntilDate (z : ZoneRule) : Option TzTime :=
  let mk (y m d h mi s : Int) (mode : List Char) : TzTime :=
    ⟨{ year := y, month := m, day := d, hours := h, minutes := mi, seconds := s }, mode⟩
  match z.until_ with
  | none => some (mk 9999 12 1 0 0 0 [])
  | some u =>
    if u = [] ∨ u.head? = some '#' then some (mk 9999 12 1 0 0 0 [])
    else
      let splits := splitOn ' ' u
      match pyInt (splits.headD []) with
      | none => none
      | some year =>
        match present splits[1]? with
        | none => some (mk year 1 1 0 0 0 [])
        | some ms =>
          match monthPos ms with
          | none => none
          | some month =>
            match present splits[2]? with
            | none => some (mk year month 1 0 0 0 [])
            | some ds =>
              match untilDay year month ds with
              | none => none
              | some day =>
                match present splits[3]? with
                | none => some (mk year month day 0 0 0 [])
                | some ts =>
                  match untilTime ts with
                  | none => none
                  | some (h, mi, s, mode) => some (mk year month day h mi s mode)

/-! ### Expansion -/

/-- One transition: the time in UTC, the offset after it, the line and the rule it comes from. -/
structure Entry where
  dt : DateTime
  offset : Int
  zone : ZoneRule
  rule : Option TzRule
deriving DecidableEq, Repr

/-- The loop of `ZoneRule.expand`, zonal/zone.py:441-461: the transitions appended, the offset and standard
offset at the end, and `found_start`. -/
def ruleLoop (z : ZoneRule) (std : Int) (finalUntil : TzTime) (lastUntil : DateTime) :
    List (TzTime × Int × TzRule) → (foundOne foundStart : Bool) → (off stdoff : Int) → Option TzRule →
      List Entry × Int × Int × Bool
  | [], _, foundStart, off, stdoff, _ => ([], off, stdoff, foundStart)
  | (dt, toOffset, r) :: rest, foundOne, foundStart, off, stdoff, lastRule =>
    let u := dt.getUTC off stdoff
    if u.cmpFields lastUntil ≥ 0 then
      let insert := !foundStart && decide (u.cmpFields lastUntil ≠ 0)
      let restart := insert && !foundOne
      let off' := if restart then std else off
      let stdoff' := if restart then std else stdoff
      let u' := if restart then dt.getUTC off' stdoff' else u
      let start : List Entry := if insert then [⟨lastUntil, off', z, lastRule⟩] else []
      if u'.cmpFields (finalUntil.getUTC off' stdoff') ≥ 0 then (start, off', stdoff', true)
      else
        let res := ruleLoop z std finalUntil lastUntil rest true true toOffset std (some r)
        (start ++ ⟨u', toOffset, z, some r⟩ :: res.1, res.2)
    else ruleLoop z std finalUntil lastUntil rest true foundStart toOffset std (some r)

/-- `RuleSet.expand`, zonal/rule.py:87-100.  The caches the rules keep are not passed on: they would be
used again only with the same last year (`C71_cache`). -/
def expandRules (rules : List RuleObj) (std maxYear : Int) : Option (List (TzTime × Int × TzRule)) :=
  (rules.mapM fun (o : RuleObj) => (o.expand std maxYear).map (·.1)).map List.flatten

/-- `ZoneRule.expand`, zonal/zone.py:420-466, with `expand_norule`, 468-473.  (With an offset that cannot be read the code
can still succeed if none of the rules is used; this is `none` here.)  `rules` gives the rule sets
by name. -/
def ZoneRule.expand (z : ZoneRule) (rules : List Char → Option (List RuleObj)) (lastUntil : DateTime)
    (lastOffset lastStd maxYear : Int) : Option (List Entry × Int × Int) :=
  match z.isNumericOffset, z.getUTCOffset with
  | some true, some std =>
    match z.getNumericOffset with
    | some save => some ([⟨lastUntil, std + save, z, none⟩], std + save, std)
    | none => none
  | some false, some std =>
    match rules z.rule with
    | none => none
    | some rs =>
      match expandRules rs std maxYear, z.getUntilDate with
      | some temp, some finalUntil =>
        let res := ruleLoop z std finalUntil lastUntil
          (temp.mergeSort fun a b => decide (a.1.dt.cmpFields b.1.dt ≤ 0)) false false lastOffset lastStd none
        some (if res.2.2.2 then res.1 else res.1 ++ [⟨lastUntil, res.2.1, z, none⟩], res.2.1, res.2.2.1)
      | _, _ => none
  | _, _ => none

/-- The loop over the lines in `Zone.expand`, zonal/zone.py:139-147, without the emptying of the list
after the first line: the transitions of each line. -/
def linesLoop (rules : List Char → Option (List RuleObj)) (maxYear : Int) :
    List ZoneRule → DateTime → (off stdoff : Int) → Option (List (List Entry))
  | [], _, _, _ => some []
  | z :: zs, lastUntil, off, stdoff =>
    match z.expand rules lastUntil off stdoff maxYear, z.getUntilDate with
    | some (es, off', stdoff'), some u =>
      (linesLoop rules maxYear zs (u.getUTC off' stdoff') off' stdoff').map (es :: ·)
    | _, _ => none

/-- 1 January 1800, zonal/zone.py:128. -/
def zoneStart : DateTime := { year := 1800, month := 1, day := 1, hours := 0, minutes := 0, seconds := 0 }

/-- One result of `Zone.expand`: local time, offset before and after, line and rule. -/
structure Transition where
  dt : DateTime
  offsetFrom : Int
  offsetTo : Int
  zone : ZoneRule
  rule : Option TzRule
deriving DecidableEq, Repr

/-- The scan for the changes, zonal/zone.py:153-168.  `last` is the local time and the offset after the
last transition, `startOffset` the third item of `last_transition`. -/
def scan (minYear startOffset : Int) :
    List Entry → (last : DateTime × Int) → List Transition → List Transition
  | [], _, results => results
  | e :: es, last, results =>
    let dt := e.dt.offsetSeconds last.2
    let results' :=
      if e.dt.year ≥ minYear then
        if dt.cmpFields last.1 > 0 then results ++ [⟨dt, last.2, e.offset, e.zone, e.rule⟩]
        else
          match results.getLast? with
          | some x => results.dropLast ++ [⟨x.dt, x.offsetFrom, e.offset, e.zone, none⟩]
          | none => [⟨last.1, last.2, startOffset, e.zone, none⟩]
      else results
    scan minYear startOffset es (dt, e.offset) results'

/-- `Zone.expand`, zonal/zone.py:108-170. -/
def Zone.expand (zn : Zone) (rules : List Char → Option (List RuleObj)) (minYear maxYear : Int) :
    Option (List Transition) :=
  match zn.rules with
  | [] => none
  | z :: _ =>
    match z.getUTCOffset with
    | none => none
    | some startOffset =>
      match linesLoop rules maxYear zn.rules zoneStart startOffset startOffset with
      | none => none
      | some ess =>
        let transitions := (if zn.rules.length > 1 then ess.drop 1 else ess).flatten
        some (scan minYear startOffset
          (transitions.mergeSort fun a b => decide (a.dt.cmpFields b.dt ≤ 0)) (zoneStart, startOffset) [])

end Zonal
end PyCal
