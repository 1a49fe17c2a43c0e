import Verif.Model.DateTime

/-! # Comparison and hashing of `DateTime` -/

namespace PyCal

/-- Python 2 `cmp` on integers. -/
def cmpInt (a b : Int) : Int := if a < b then -1 else if a = b then 0 else 1

/-- `stringutils.compareStringsSafe`, stringutils.py:91-97, on timezone ids: `None` equals only
`None`; a `str` never equals an `int`. -/
def compareTzSafe (a b : Option TzId) : Bool := decide (a = b)

/-- `Timezone.is_float`, timezone.py:72-74. -/
def tzIsFloat (utc : Bool) (tzid : Option TzId) : Bool := !utc && !tzTruthy tzid

/-- `Timezone.same`, timezone.py:62-70. -/
def tzSame (utc1 : Bool) (tzid1 : Option TzId) (utc2 : Bool) (tzid2 : Option TzId) : Bool :=
  if tzIsFloat utc1 tzid1 || tzIsFloat utc2 tzid2 then true
  else if utc1 != utc2 then false
  else utc1 || compareTzSafe tzid1 tzid2

namespace DateTime

/-- The date part of `DateTime.compareDateTime`, datetime.py:196-201. -/
def cmpDate (a b : DateTime) : Int :=
  if cmpInt a.year b.year = 0 then
    if cmpInt a.month b.month = 0 then cmpInt a.day b.day else cmpInt a.month b.month
  else cmpInt a.year b.year

/-- The field by field comparison in `DateTime.compareDateTime`, datetime.py:206-217. -/
def cmpFields (a b : DateTime) : Int :=
  if cmpInt a.year b.year = 0 then
    if cmpInt a.month b.month = 0 then
      if cmpInt a.day b.day = 0 then
        if cmpInt a.hours b.hours = 0 then
          if cmpInt a.minutes b.minutes = 0 then cmpInt a.seconds b.seconds
          else cmpInt a.minutes b.minutes
        else cmpInt a.hours b.hours
      else cmpInt a.day b.day
    else cmpInt a.month b.month
  else cmpInt a.year b.year

/-- `DateTime.compareDateTime`, datetime.py:191-220, for an argument that is not `None`; the
posix times are taken without their cache (see `Verif.Model.DateTimeObject`). -/
def compare (env : TzEnv) (a b : DateTime) : Int :=
  if a.dateOnly || b.dateOnly then cmpDate a b
  else if tzSame a.utc a.tzid b.utc b.tzid then cmpFields a b
  else cmpInt (a.posix env) (b.posix env)

/-- `DateTime.__eq__`, datetime.py:173-174. -/
def eq (env : TzEnv) (a b : DateTime) : Bool := decide (compare env a b = 0)
/-- `DateTime.__lt__`, datetime.py:188-189. -/
def lt (env : TzEnv) (a b : DateTime) : Bool := decide (compare env a b < 0)
/-- `DateTime.__gt__`, datetime.py:185-186. -/
def gt (env : TzEnv) (a b : DateTime) : Bool := decide (compare env a b > 0)
/-- `DateTime.__ge__`, datetime.py:179-180. -/
def ge (env : TzEnv) (a b : DateTime) : Bool := decide (compare env a b ≥ 0)
/-- `DateTime.__le__`, datetime.py:182-183. -/
def le (env : TzEnv) (a b : DateTime) : Bool := decide (compare env a b ≤ 0)

/-- The integer that `DateTime.__hash__` hashes, datetime.py:118-119. -/
def hashKey (env : TzEnv) (t : DateTime) : Int := t.posix env

end DateTime
end PyCal
