import Mathlib.Data.Int.Log
import Mathlib.Data.Rat.Floor
import Verif.Model.RecurrenceText
import Verif.Model.PropertyText

/-!
# INTEGER, FLOAT and GEO values

`integervalue.py`, `floatvalue.py`, `geovalue.py`, with `float(text)` and `str(x)` of Python 2.7.  A float is its sign and the
rational number that it stands for.  The range of the exponent is not limited: overflow to infinity, and the fewer digits of
numbers below the smallest normal one, are left out.
-/

namespace PyCal
namespace Num

/-- A Python `float`. -/
inductive PyNum where
  | nan
  | inf (neg : Bool)
  | fin (neg : Bool) (mag : ℚ)
deriving DecidableEq

/-- The integer nearest to `x`, of two the even one: the rounding of both `strtod` and `dtoa` of Python 2.7 (Python/dtoa.c). -/
def roundEven (x : ℚ) : ℤ :=
  if x - ⌊x⌋ < 1 / 2 then ⌊x⌋
  else if x - ⌊x⌋ > 1 / 2 then ⌊x⌋ + 1
  else if ⌊x⌋ % 2 = 0 then ⌊x⌋ else ⌊x⌋ + 1

/-- The double nearest to `q ≥ 0`: 53 binary digits. -/
def double (q : ℚ) : ℚ :=
  if q = 0 then 0
  else roundEven (q / 2 ^ (Int.log 2 q - 52)) * 2 ^ (Int.log 2 q - 52)

/-- The exponent of a number: nothing, or `e` and an integer. -/
def readExp : List Char → Option ℤ
  | [] => some 0
  | c :: r =>
    if c = 'e' ∨ c = 'E' then
      match r with
      | '-' :: ds => (readDigits ds).map fun n => -(n : ℤ)
      | '+' :: ds => (readDigits ds).map fun n => (n : ℤ)
      | ds => (readDigits ds).map fun n => (n : ℤ)
    else none

/-- The digits after the point, if there is one, and what follows. -/
def readFrac : List Char → List Char × List Char
  | '.' :: r => (r.takeWhile isDigit, r.dropWhile isDigit)
  | r => ([], r)

/-- The number that a text without a sign says: digits, perhaps with a point, and perhaps an exponent. -/
def readDecimal (s : List Char) : Option ℚ :=
  let a := s.takeWhile isDigit
  let (b, r) := readFrac (s.dropWhile isDigit)
  if a = [] ∧ b = [] then none
  else (readExp r).map fun x => (readNat (a ++ b) : ℚ) * 10 ^ (x - (b.length : ℤ))

/-- The sign of a text, and what follows. -/
def readSign : List Char → Bool × List Char
  | '-' :: r => (true, r)
  | '+' :: r => (false, r)
  | r => (false, r)

/-- `float(data)` of Python 2.7 for a text (Objects/floatobject.c, Python/pystrtod.c); `none` is the `ValueError`. -/
def readFloat (data : List Char) : Option PyNum :=
  let (neg, s) := readSign (strip data)
  if PropJSON.lower s = "inf".toList ∨ PropJSON.lower s = "infinity".toList then some (.inf neg)
  else if PropJSON.lower s = "nan".toList then some .nan
  else (readDecimal s).map fun q => .fin neg (double q)

/-- The twelve significant decimal digits of `x > 0` as an integer, and the exponent of the first one. -/
def digits12 (x : ℚ) : ℤ × ℤ :=
  let e := Int.log 10 x
  let m := roundEven (x / 10 ^ (e - 11))
  if m = 10 ^ 12 then (10 ^ 11, e + 1) else (m, e)

/-- Without the zeros at the end. -/
def stripZeros (s : List Char) : List Char := (s.reverse.dropWhile fun c => decide (c = '0')).reverse

/-- The text of the digits `ds` with the point after the first `n` of them, and at least one digit on each side. -/
def positional (ds : List Char) (n : ℤ) : List Char :=
  if n ≤ 0 then '0' :: '.' :: (List.replicate (-n).toNat '0' ++ ds)
  else
    ds.take n.toNat ++ List.replicate (n.toNat - ds.length) '0' ++
      '.' :: (if ds.length ≤ n.toNat then ['0'] else ds.drop n.toNat)

/-- The text of the digits `ds` with the point after the first and an exponent of at least two digits. -/
def exponential (ds : List Char) (e : ℤ) : List Char :=
  ds.take 1 ++ (if ds.length ≤ 1 then [] else '.' :: ds.drop 1) ++
    'e' :: (if e < 0 then '-' else '+') :: padNat 2 e.natAbs

/-- `str(x)` of Python 2.7 for a float (`float_str`, Objects/floatobject.c, and `format_float_short`, Python/pystrtod.c, with the
format `g`, the precision 12 and `Py_DTSF_ADD_DOT_0`): an exponent is written if there would be more than three zeros
after the point or more than eleven digits before it. -/
def writeFloat : PyNum → List Char
  | .nan => "nan".toList
  | .inf neg => (if neg then ['-'] else []) ++ "inf".toList
  | .fin neg x =>
    (if neg then ['-'] else []) ++
      if x = 0 then "0.0".toList
      else
        let (k, e) := digits12 x
        let ds := stripZeros (decNat k.toNat)
        if -4 < e + 1 ∧ e + 1 ≤ 11 then positional ds (e + 1) else exponential ds e

/-- `float(n)` for an integer. -/
def ofInt (n : Int) : PyNum := .fin (decide (n < 0)) (double n.natAbs)

/-- `int(x)` for a float: what is before the point; `none` is the `ValueError` or `OverflowError`. -/
def truncate : PyNum → Option Int
  | .fin neg x => some (if neg then -⌊x⌋ else ⌊x⌋)
  | _ => none

/-- `IntegerValue.parse`, integervalue.py:34-35. -/
def parseInteger (data : List Char) : Option Int := pyInt data

/-- `IntegerValue.generate`, integervalue.py:38-42, `writeXML`, 44-46. -/
def writeInteger (n : Int) : List Char := decInt n

/-- `FloatValue.parse`, floatvalue.py:34-35. -/
def parseFloat (data : List Char) : Option PyNum := readFloat data

/-- `FloatValue.generate`, floatvalue.py:38-42, `writeXML`, 44-46. -/
def generateFloat (x : PyNum) : List Char := writeFloat x

/-- What `GeoValue.parse` does: the two numbers, or `InvalidData`, or `IndexError`. -/
inductive GeoResult where
  | ok (lat long : PyNum)
  | invalid
  | index
deriving DecidableEq

/-- The two numbers, or `ValueError`. -/
def twoFloats (a b : List Char) : Option (PyNum × PyNum) :=
  match readFloat a, readFloat b with
  | some x, some y => some (x, y)
  | _, _ => none

/-- `GeoValue.parse`, geovalue.py:44-58. -/
def parseGeo (data : List Char) : GeoResult :=
  match splitOn ';' data with
  | [a, b] =>
    match twoFloats a b with
    | some (x, y) => .ok x y
    | none =>
      match a.getLast? with
      | none => .index
      | some c =>
        if c = '\\' then
          match twoFloats a.dropLast b with
          | some (x, y) => .ok x y
          | none => .invalid
        else .invalid
  | _ => .invalid

/-- `GeoValue.generate`, geovalue.py:61-62. -/
def writeGeo (lat long : PyNum) : List Char := writeFloat lat ++ ';' :: writeFloat long

end Num
end PyCal
