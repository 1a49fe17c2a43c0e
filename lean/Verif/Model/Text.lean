/-!
# Python string primitives used by the code

`str` is modelled by `List Char`.  These are the Python 2 built-ins the modelled
functions call: `"%d" % n`, `"%02d" % n`, `int(s)`, and
`pycalendar.stringutils.strtoul`.
-/

namespace PyCal

/-- The character of a decimal digit (`'0' + n`). -/
def digitChar (n : Nat) : Char := Char.ofNat (48 + n)

/-- `c in "0123456789"`, stringutils.py:55. -/
def isDigit (c : Char) : Bool := decide (48 ≤ c.toNat) && decide (c.toNat ≤ 57)

/-- Value of a decimal digit character. -/
def digitVal (c : Char) : Nat := c.toNat - 48

/-- Python `"%d" % n` for `n ≥ 0`. -/
def decNat (n : Nat) : List Char :=
  if n < 10 then [digitChar n] else decNat (n / 10) ++ [digitChar (n % 10)]
termination_by n
decreasing_by omega

/-- Python `"%0wd" % n` for `n ≥ 0`. -/
def padNat (w n : Nat) : List Char :=
  List.replicate (w - (decNat n).length) '0' ++ decNat n

/-- Python `"%d" % n`. -/
def decInt (n : Int) : List Char :=
  if n < 0 then '-' :: decNat n.natAbs else decNat n.natAbs

/-- Python `"%0wd" % n`: the sign counts towards the width. -/
def padInt (w : Nat) (n : Int) : List Char :=
  if n < 0 then '-' :: padNat (w - 1) n.natAbs else padNat w n.natAbs

/-- Value of a digit string. -/
def readNat (s : List Char) : Nat := s.foldl (fun a c => a * 10 + digitVal c) 0

/-- `stringutils.strtoul(s, offset)`, stringutils.py:49-65, for `offset > 0`; the argument is
the text from `offset` on and the result carries the text after the number.  `none` is the
`ValueError` of `int("")`. -/
def strtoul (s : List Char) : Option (Nat × List Char) :=
  let ds := s.takeWhile isDigit
  if ds = [] then none else some (readNat ds, s.dropWhile isDigit)

/-- ASCII whitespace stripped by Python's `int()` and `str.strip()`. -/
def isSpace (c : Char) : Bool :=
  c = ' ' || c = '\t' || c = '\n' || c = '\r' || c.toNat = 11 || c.toNat = 12

/-- `str.strip()`. -/
def strip (s : List Char) : List Char :=
  (((s.dropWhile isSpace).reverse).dropWhile isSpace).reverse

/-- Digits only, at least one. -/
def readDigits (s : List Char) : Option Nat :=
  if s ≠ [] ∧ s.all isDigit = true then some (readNat s) else none

/-- Python 2 `int(s)` for a `str` argument: surrounding whitespace, an optional sign and at
least one decimal digit; `none` is `ValueError`. -/
def pyInt (s : List Char) : Option Int :=
  match strip s with
  | '-' :: ds => (readDigits ds).map fun n => -(n : Int)
  | '+' :: ds => (readDigits ds).map fun n => (n : Int)
  | ds => (readDigits ds).map fun n => (n : Int)

end PyCal
