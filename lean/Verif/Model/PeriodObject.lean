import Verif.Model.Period
import Verif.Model.DateTimeText

/-!
# `pycalendar.period.Period` as an object: texts, lazily stored values

`Verif.Model.Period` keeps only what a period was made from.  Here the four attributes of the
object are modelled, so that the order of calls matters where it does in the code.
-/

namespace PyCal
open DateTime (TzEnv)

/-- The attributes of a `Period`, period.py:26-42: `mStart`, `mEnd`, `mDuration`,
`mUseDuration`.  The `DateTime` objects are taken to be owned by the period (no aliases). -/
structure PeriodObj where
  start : DateTime
  stop : Option DateTime
  duration : Option Duration
  useDuration : Bool
deriving DecidableEq, Repr

namespace PeriodObj

/-- What the calls below raise. -/
inductive Err where
  | value
  | attribute
deriving DecidableEq, Repr

/-- `Period(start, end)`, period.py:30-33. -/
def ofEnd (s e : DateTime) : PeriodObj := ⟨s, some e, none, false⟩

/-- `Period(start, duration=d)`, period.py:34-37. -/
def ofDuration (s : DateTime) (d : Duration) : PeriodObj := ⟨s, none, some d, true⟩

/-- `Period()`, period.py:28, 38-42, around the `DateTime()` of 1970-01-01T00:00:00. -/
def fresh : PeriodObj := ⟨{}, some {}, none, false⟩

/-- `data.split('/', 1)`, period.py:77: the texts before and after the first slash; `none` if there
is no slash. -/
def splitSlash : List Char → Option (List Char × List Char)
  | [] => none
  | c :: s => if c = '/' then some ([], s) else (splitSlash s).map fun r => (c :: r.1, r.2)

/-- `Period.parse`, period.py:75-94: the new value of the object `self` (what an exception leaves
behind is not modelled).  An empty end raises the `IndexError` that is turned into a `ValueError`;
`self.mEnd` is `None` in a period that was given a duration (`AttributeError`).  `sr`, `strict`:
the `ParserContext` settings of `DateTime.parse` and `Duration.parse`. -/
def parse (sr strict : Bool) (self : PeriodObj) (data : List Char) (fullISO : Bool) :
    Except Err PeriodObj :=
  match splitSlash data with
  | none => .error .value
  | some (a, b) =>
    match DateTime.parse sr self.start a fullISO with
    | none => .error .value
    | some s =>
      match b with
      | [] => .error .value
      | c :: _ =>
        if c = 'P' then
          match Duration.parseText strict b with
          | none => .error .value
          | some d => .ok ⟨s, none, some d, true⟩
        else
          match self.stop with
          | none => .error .attribute
          | some e =>
            match DateTime.parse sr e b fullISO with
            | none => .error .value
            | some e => .ok ⟨s, some e, none, false⟩

/-- `Period.parseText`, period.py:69-73 (and `PeriodValue.parse` on a new value). -/
def parseText (sr strict : Bool) (data : List Char) (fullISO : Bool := false) :
    Except Err PeriodObj :=
  parse sr strict fresh data fullISO

/-- The end or duration as `Period.generate` and `writeJSON` print it, period.py:100-103, 129-133:
`text` prints a `DateTime`.  In an object whose `mUseDuration` names a missing value `generate`
swallows the `AttributeError` and leaves the text at the slash; such objects do not arise (see
`PeriodObj.Ok` in the proofs). -/
def secondText (text : DateTime → List Char) (p : PeriodObj) : List Char :=
  if p.useDuration then (p.duration.map Duration.generate).getD []
  else (p.stop.map text).getD []

/-- `Period.generate`, period.py:96-105; also `getText`. -/
def generate (p : PeriodObj) : List Char :=
  p.start.getText ++ '/' :: p.secondText DateTime.getText

/-- `Period.writeJSON`, period.py:124-133: the pair appended. -/
def writeJSON (p : PeriodObj) : List Char × List Char :=
  (p.start.getXMLText, p.secondText DateTime.getXMLText)

/-- `Period.parseJSON`, period.py:117-122. -/
def parseJSON (sr strict : Bool) (self : PeriodObj) (j : List Char × List Char) :
    Except Err PeriodObj :=
  parse sr strict self (j.1 ++ '/' :: j.2) true

/-- `Period.getEnd`, period.py:139-142: the value (`none`: `TypeError` of adding `None`) and the
object after the call. -/
def getEnd (p : PeriodObj) : Option DateTime × PeriodObj :=
  match p.stop, p.duration with
  | some e, _ => (some e, p)
  | none, some d => (some (p.start.add d), { p with stop := some (p.start.add d) })
  | none, none => (none, p)

/-- `Period.getDuration`, period.py:144-147. -/
def getDuration (env : TzEnv) (p : PeriodObj) : Option Duration × PeriodObj :=
  match p.duration, p.stop with
  | some d, _ => (some d, p)
  | none, some e => (some (e.subDateTime env p.start),
      { p with duration := some (e.subDateTime env p.start) })
  | none, none => (none, p)

/-- `Period.setUseDuration`, period.py:152-157. -/
def setUseDuration (env : TzEnv) (p : PeriodObj) (use : Bool) : PeriodObj :=
  let p := { p with useDuration := use }
  if use then (p.getDuration env).2 else p.getEnd.2

/-- `Period.duplicate`, period.py:44-49 (`none`: `AttributeError` of the missing value). -/
def duplicate (p : PeriodObj) : Option PeriodObj :=
  if p.useDuration then p.duration.map (ofDuration p.start) else p.stop.map (ofEnd p.start)

/-- `DateTime.adjustToUTC`, datetime.py:636-654, on the value alone (its caches: C19). -/
def utcOf (env : TzEnv) (t : DateTime) : DateTime :=
  if t.isLocal && !t.dateOnly then
    ({ t with utc := true, tzid := none } : DateTime).offsetSeconds (-t.tzOffset env)
  else t

/-- `Period.adjustToUTC`, period.py:175-177: the end is looked up after the start has changed. -/
def adjustToUTC (env : TzEnv) (p : PeriodObj) : PeriodObj :=
  let p := { p with start := utcOf env p.start }.getEnd.2
  { p with stop := p.stop.map (utcOf env) }

end PeriodObj
end PyCal
