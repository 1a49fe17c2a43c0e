import Verif.Model.Text

/-!
# `pycalendar.duration.Duration`
-/

namespace PyCal

/-- `Duration` fields, duration.py:24-32.  The five magnitudes are natural numbers: every
assignment in the class stores a remainder or quotient of a non-negative number
(duration.py:77-97) or a number read by `strtoul` (duration.py:149-215). -/
structure Duration where
  forward : Bool := true
  weeks : Nat := 0
  days : Nat := 0
  hours : Nat := 0
  minutes : Nat := 0
  seconds : Nat := 0
deriving DecidableEq, Repr

namespace Duration

/-- `Duration.getTotalSeconds`, duration.py:63-65. -/
def totalSeconds (d : Duration) : Int :=
  (if d.forward then 1 else -1) *
    ((d.seconds : Int) + (d.minutes + (d.hours + (d.days + d.weeks * 7) * 24) * 60) * 60)

/-- `Duration.setDuration`, duration.py:67-97 (all fields are overwritten, so the old object
does not matter). -/
def ofSeconds (seconds : Int) : Duration :=
  let remainder := seconds.natAbs
  if remainder % (7 * 24 * 60 * 60) = 0 then
    { forward := decide (seconds ≥ 0), weeks := remainder / (7 * 24 * 60 * 60) }
  else
    let s := remainder % 60
    let r1 := (remainder - s) / 60
    let m := r1 % 60
    let r2 := (r1 - m) / 60
    let h := r2 % 24
    let r3 := r2 - h
    { forward := decide (seconds ≥ 0), weeks := 0, days := r3 / 24, hours := h,
      minutes := m, seconds := s }

/-- `Duration.__init__` with keyword amounts, duration.py:24-36. -/
def ofAmounts (weeks days hours minutes seconds : Int) : Duration :=
  ofSeconds ((((weeks * 7 + days) * 24 + hours) * 60 + minutes) * 60 + seconds)

/-- `Duration.__eq__`, duration.py:54-55. -/
def eq (a b : Duration) : Bool := decide (a.totalSeconds = b.totalSeconds)
/-- `Duration.__gt__`, duration.py:57-58. -/
def gt (a b : Duration) : Bool := decide (a.totalSeconds > b.totalSeconds)
/-- `Duration.__lt__`, duration.py:60-61. -/
def lt (a b : Duration) : Bool := decide (a.totalSeconds < b.totalSeconds)

/-- `Duration.generate`, duration.py:227-253. -/
def generate (d : Duration) : List Char :=
  (if !d.forward && (d.weeks ≠ 0 || d.days ≠ 0 || d.hours ≠ 0 || d.minutes ≠ 0 || d.seconds ≠ 0)
    then ['-'] else []) ++ ['P'] ++
  (if d.weeks ≠ 0 then decNat d.weeks ++ ['W']
   else
    (if d.days ≠ 0 then decNat d.days ++ ['D'] else []) ++
    (if d.hours ≠ 0 ∨ d.minutes ≠ 0 ∨ d.seconds ≠ 0 then
      ['T'] ++
      (if d.hours ≠ 0 then decNat d.hours ++ ['H'] else []) ++
      (if d.minutes ≠ 0 ∨ (d.hours ≠ 0 ∧ d.seconds ≠ 0) then decNat d.minutes ++ ['M'] else []) ++
      (if d.seconds ≠ 0 then decNat d.seconds ++ ['S'] else [])
     else if d.days = 0 then ['T', '0', 'S'] else []))

/-- Seconds stage of `Duration.parse`, duration.py:212-222. -/
def parseSec (d : Duration) (num : Nat) (s : List Char) : Option Duration :=
  match s with
  | 'S' :: [] => some { d with seconds := num }
  | _ => none

/-- Minutes stage of `Duration.parse`, duration.py:199-210. -/
def parseMin (d : Duration) (num : Nat) (s : List Char) : Option Duration :=
  match s with
  | 'M' :: s' =>
    let d := { d with minutes := num }
    if s' = [] then some d
    else match strtoul s' with
      | none => none
      | some (num', s'') => parseSec d num' s''
  | _ => parseSec d num s

/-- Time part of `Duration.parse`, duration.py:174-197; `strict` is
`ParserContext.INVALID_DURATION_VALUE == PARSER_RAISE` (default false). -/
def parseTime (strict : Bool) (d : Duration) (s : List Char) : Option Duration :=
  if s = [] then (if strict then none else some d)
  else match strtoul s with
    | none => none
    | some (num, 'H' :: s') =>
      let d := { d with hours := num }
      if s' = [] then some d
      else match strtoul s' with
        | none => none
        | some (num', s'') => parseMin d num' s''
    | some (num, s') => parseMin d num s'

/-- Week or day stage of `Duration.parse`, duration.py:151-172 (`num` has been read). -/
def parseDate (strict : Bool) (d : Duration) (num : Nat) (s : List Char) : Option Duration :=
  match s with
  | 'W' :: s' => if s' ≠ [] ∧ strict then none else some { d with weeks := num }
  | 'D' :: [] => some { d with days := num }
  | 'D' :: 'T' :: s' => parseTime strict { d with days := num } s'
  | _ => none

/-- `Duration.parse` after the sign, duration.py:136-172. -/
def parseBody (strict : Bool) (d : Duration) (s : List Char) : Option Duration :=
  match s with
  | 'P' :: 'T' :: s' => parseTime strict d s'
  | 'P' :: s' =>
    match strtoul s' with
    | none => none
    | some (num, s'') => parseDate strict d num s''
  | _ => none

/-- `Duration.parse`, duration.py:123-225, as the new value of the object `self`; `none` is
`ValueError` (the partly assigned object left behind by the exception is not modelled).
Fields that the text does not mention keep the value they had in `self`. -/
def parse (strict : Bool) (self : Duration) (data : List Char) : Option Duration :=
  match data with
  | '-' :: s => parseBody strict { self with forward := false } s
  | '+' :: s => parseBody strict { self with forward := true } s
  | s => parseBody strict { self with forward := true } s

/-- `Duration.parseText`, duration.py:117-121: parse into a fresh object. -/
def parseText (strict : Bool) (data : List Char) : Option Duration :=
  parse strict (ofSeconds 0) data

end Duration
end PyCal
