import Verif.Model.DateTime
import Verif.Model.Text

/-!
# Text forms of `DateTime` and `UTCOffsetValue`
-/

namespace PyCal

/-- `data[i:j]`. -/
def slice (data : List Char) (i j : Nat) : List Char := (data.drop i).take (j - i)

namespace DateTime

/-- The date part shared by `getText` (separator empty) and `getXMLText` (separator `-`),
datetime.py:843-853, 858-868. -/
def dateText (sep : List Char) (t : DateTime) : List Char :=
  padInt 4 t.year ++ sep ++ padInt 2 t.month ++ sep ++ padInt 2 t.day

/-- The time part, same lines. -/
def timeText (sep : List Char) (t : DateTime) : List Char :=
  padInt 2 t.hours ++ sep ++ padInt 2 t.minutes ++ sep ++ padInt 2 t.seconds

/-- The zone suffix, datetime.py:846-853, 861-868: `Z`, a numeric offset, or nothing. -/
def zoneText (sep : List Char) (t : DateTime) : List Char :=
  if t.utc then ['Z']
  else match t.tzid with
    | some (.fixed n) =>
      [if n < 0 then '-' else '+'] ++ padInt 2 (n.natAbs / 3600 : Nat) ++ sep ++
        padInt 2 (n.natAbs / 60 % 60 : Nat)
    | _ => []

/-- `DateTime.getText`, datetime.py:840-853. -/
def getText (t : DateTime) : List Char :=
  if t.dateOnly then dateText [] t
  else dateText [] t ++ ['T'] ++ timeText [] t ++ zoneText [] t

/-- `DateTime.getXMLText`, datetime.py:855-868 (also `getJSONText`, 870). -/
def getXMLText (t : DateTime) : List Char :=
  if t.dateOnly then dateText ['-'] t
  else dateText ['-'] t ++ ['T'] ++ timeText [':'] t ++ zoneText [':'] t

/-- `if fullISO and data[index] == c: index += 1` (datetime.py:882, 887, 905, 910); `none` is
`IndexError`. -/
def skipSep (data : List Char) (fullISO : Bool) (c : Char) (index : Nat) : Option Nat :=
  if fullISO then
    match data[index]? with
    | none => none
    | some d => some (if d = c then index + 1 else index)
  else some index

/-- `DateTime.parseDate`, datetime.py:878-899; `spaceRaise` is
`INVALID_DATETIME_LEADINGSPACE == PARSER_RAISE`. -/
def parseDate (spaceRaise : Bool) (self : DateTime) (data : List Char) (fullISO : Bool) :
    Option (DateTime × Nat) := do
  let year ← pyInt (slice data 0 4)
  let index ← skipSep data fullISO '-' 4
  let month ← pyInt (slice data index (index + 2))
  let index ← skipSep data fullISO '-' (index + 2)
  let day ← pyInt (slice data index (index + 2))
  let index := index + 2
  if (data.take index).contains ' ' && spaceRaise then none
  else if year < 0 ∨ month < 0 ∨ day < 0 then none
  else some ({ self with year := year, month := month, day := day }, index)

/-- `DateTime.parseTime`, datetime.py:901-918. -/
def parseTime (self : DateTime) (data : List Char) (index : Nat) (fullISO : Bool) :
    Option (DateTime × Nat) := do
  let hours ← pyInt (slice data index (index + 2))
  let index ← skipSep data fullISO ':' (index + 2)
  let minutes ← pyInt (slice data index (index + 2))
  let index ← skipSep data fullISO ':' (index + 2)
  let seconds ← pyInt (slice data index (index + 2))
  some ({ self with hours := hours, minutes := minutes, seconds := seconds }, index + 2)

/-- The fraction, datetime.py:922-927: the index after it. -/
def skipFraction (data : List Char) (index : Nat) : Option Nat :=
  match data[index]? with
  | none => none
  | some ',' =>
    match data[index + 1]? with
    | none => none
    | some d => if isDigit d then some (index + 1 + ((data.drop (index + 1)).takeWhile isDigit).length)
        else none
  | some _ => some index

/-- The numeric offset, datetime.py:936-955: from the index after the sign to the offset in seconds
and the index after it. -/
def parseOffset (sign : Int) (data : List Char) (index : Nat) : Option (Int × Nat) := do
  let hoursOffset ← pyInt (slice data index (index + 2))
  let index ← skipSep data true ':' (index + 2)
  let minutesOffset ← pyInt (slice data index (index + 2))
  some (sign * (hoursOffset * 60 + minutesOffset) * 60, index + 2)

/-- `DateTime.parseFractionalAndUTCOffset`, datetime.py:920-957. -/
def parseFracOffset (self : DateTime) (data : List Char) (index : Nat) : Option (DateTime × Nat) :=
  match skipFraction data index with
  | none => none
  | some index =>
    match data[index]? with
    | none => some (self, index)
    | some c =>
      if c = 'Z' then
        if index + 1 < data.length then none else some ({ self with utc := true }, index + 1)
      else if c = '+' ∨ c = '-' then
        match parseOffset (if c = '+' then 1 else -1) data (index + 1) with
        | none => none
        | some (n, index) =>
          if index < data.length then none else some ({ self with tzid := some (.fixed n) }, index)
      else none

/-- `DateTime.parse`, datetime.py:959-1001: the new field values of the object `self`; `none` is
`ValueError` (what the exception leaves behind is not modelled).  `mTZUTC`, `mTZID` and, for a
date, the time of day keep their old value where the code does not assign them. -/
def parse (spaceRaise : Bool) (self : DateTime) (data : List Char) (fullISO : Bool) :
    Option DateTime :=
  match parseDate spaceRaise self data fullISO with
  | none => none
  | some (t, index) =>
    match data[index]? with
    | none => some { t with dateOnly := true }
    | some c =>
      if c ≠ 'T' then none
      else match parseTime t data (index + 1) fullISO with
        | none => none
        | some (t, index) =>
          let t := { t with dateOnly := false }
          if index < data.length then
            if fullISO then (parseFracOffset t data index).map (·.1)
            else if data[index]? ≠ some 'Z' then none
            else if index + 1 < data.length then none
            else some { t with utc := true }
          else some { t with utc := false }

/-- `DateTime.parseText`, datetime.py:872-876: parse into a fresh object. -/
def parseText (spaceRaise : Bool) (data : List Char) (fullISO : Bool := false) : Option DateTime :=
  parse spaceRaise {} data fullISO

end DateTime

/-- `UTCOffsetValue.generate`, utcoffsetvalue.py:66-87. -/
def utcOffsetGenerate (fullISO : Bool) (v : Int) : List Char :=
  let a := v.natAbs
  let sep := if fullISO then [':'] else []
  (if v < 0 then ['-'] else ['+']) ++ padInt 2 (a / 3600 : Nat) ++ sep ++ padInt 2 (a / 60 % 60 : Nat) ++
    (if a % 60 ≠ 0 then sep ++ padInt 2 (a % 60 : Nat) else [])

/-- `UTCOffsetValue.parse`, utcoffsetvalue.py:35-63; `fullISO` is `variant == "vcard"`. -/
def utcOffsetParse (fullISO : Bool) (data : List Char) : Option Int :=
  let n := data.length
  if ¬ (if fullISO then n = 6 ∨ n = 9 else n = 5 ∨ n = 7) then none
  else
    match data[0]? with
    | none => none
    | some c =>
      if c ≠ '+' ∧ c ≠ '-' then none
      else
        (pyInt (slice data 1 3)).bind fun hours =>
        (pyInt (slice data (if fullISO then 4 else 3) ((if fullISO then 4 else 3) + 2))).bind fun mins =>
        (if n > 6 then pyInt (data.drop (if fullISO then 7 else 5)) else some 0).bind fun secs =>
        some (if c = '+' then (hours * 60 + mins) * 60 + secs else -((hours * 60 + mins) * 60 + secs))

end PyCal
