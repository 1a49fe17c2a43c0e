import Verif.Model.Compare

/-! # `pycalendar.period.Period` -/

namespace PyCal

/-- `Period`, `Period.__init__`, period.py:26-42: `mEnd` and `mDuration` are `None` until needed
(at least one of them is set, `mUseDuration` tells which one was given).  The model keeps what was
given; the lazily stored other value is always recomputed from it (`getEnd`, `getDuration`). -/
inductive Period where
  | ofEnd (start stop : DateTime)
  | ofDuration (start : DateTime) (duration : Duration)
deriving Repr

namespace Period
open DateTime (TzEnv)

/-- `Period.getStart`, period.py:136-137. -/
def start : Period → DateTime
  | ofEnd s _ => s
  | ofDuration s _ => s

/-- `Period.getEnd`, period.py:139-142. -/
def stop : Period → DateTime
  | ofEnd _ e => e
  | ofDuration s d => s.add d

/-- `Period.getDuration`, period.py:144-147. -/
def duration (env : TzEnv) : Period → Duration
  | ofEnd s e => e.subDateTime env s
  | ofDuration _ d => d

/-- `Period.isDateWithinPeriod`, period.py:159-161. -/
def isDateWithin (env : TzEnv) (p : Period) (t : DateTime) : Bool :=
  t.ge env p.start && t.lt env p.stop

/-- `Period.isDateBeforePeriod`, period.py:163-165. -/
def isDateBefore (env : TzEnv) (p : Period) (t : DateTime) : Bool := t.lt env p.start

/-- `Period.isDateAfterPeriod`, period.py:167-169. -/
def isDateAfter (env : TzEnv) (p : Period) (t : DateTime) : Bool := t.ge env p.stop

/-- `Period.isPeriodOverlap`, period.py:171-173. -/
def isOverlap (env : TzEnv) (p q : Period) : Bool :=
  !(p.start.ge env q.stop || p.stop.le env q.start)

/-- `Period.__eq__`, period.py:59-60. -/
def eq (env : TzEnv) (p q : Period) : Bool := p.start.eq env q.start && p.stop.eq env q.stop

/-- `Period.__lt__`, period.py:65-67. -/
def lt (env : TzEnv) (p q : Period) : Bool :=
  p.start.lt env q.start || p.start.eq env q.start && p.stop.lt env q.stop

/-- A Python value handed to `DateTime.compareDateTime`. -/
inductive Arg where
  | dateTime (t : DateTime)
  | period (p : Period)

/-- `comp.mDateOnly`: `Period` has no such attribute (`none`: `AttributeError`). -/
def Arg.dateOnly : Arg → Option Bool
  | .dateTime t => some t.dateOnly
  | .period _ => none

/-- The remaining attributes `compareDateTime` reads (`mYear` first), which only a `DateTime`
has. -/
def Arg.fields : Arg → Option DateTime
  | .dateTime t => some t
  | .period _ => none

/-- `DateTime.compareDateTime`, datetime.py:191-220, on an arbitrary argument: the test
`self.mDateOnly or comp.mDateOnly` reads `comp.mDateOnly` only if `self.mDateOnly` is false. -/
def compareArg (env : TzEnv) (self : DateTime) (comp : Arg) : Option Int :=
  if self.dateOnly then comp.fields.map fun t => self.compare env t
  else match comp.dateOnly with
    | none => none
    | some _ => comp.fields.map fun t => self.compare env t

/-- `Period.__gt__`, period.py:62-63: `self.mStart > comp` hands the whole `Period` to
`DateTime.compareDateTime` (`none`: `AttributeError`). -/
def gt (env : TzEnv) (p q : Period) : Option Bool :=
  (compareArg env p.start (.period q)).map fun c => decide (c > 0)

end Period
end PyCal
