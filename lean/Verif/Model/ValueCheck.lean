import Verif.Model.ValueType
import Verif.Model.DateTimeProperty
import Verif.Model.PropertyJSON
import Verif.Model.Validate

/-!
# `validation.py`, `icalendar/validation.py`: the checks of single values; the control characters of `validator.py`
-/

namespace PyCal
open PropJSON (lower)
open ValueType

/-- The value of a property as far as the checks look at it: a `PlainTextValue` (texts, URIs, calendar addresses, binary
and unknown values), an `IntegerValue`, a `DateTimeValue`, or of another class. -/
inductive PropValue where
  | plain (s : List Char)
  | integer (n : Int)
  | dateTime (t : DateTime)
  | other
deriving DecidableEq, Repr

namespace ValueCheck

/-- `PropertyValueChecks.stringValue`, validation.py:36-44. -/
def stringValue (text : List Char) : PropValue → Bool
  | .plain s => decide (lower s = lower text)
  | _ => false

/-- `alwaysUTC`, validation.py:46-54. -/
def alwaysUTC : PropValue → Bool
  | .dateTime t => t.utc
  | _ => false

/-- `numericRange`, validation.py:56-64. -/
def numericRange (low high : Int) : PropValue → Bool
  | .integer n => decide (n ≥ low) && decide (n ≤ high)
  | _ => false

/-- `positiveIntegerOrZero`, validation.py:66-74. -/
def positiveIntegerOrZero : PropValue → Bool
  | .integer n => decide (n ≥ 0)
  | _ => false

/-- `ICALENDAR_VALUE_CHECKS`, icalendar/validation.py:20-38. -/
def table : List (String × (PropValue → Bool)) :=
  [("CALSCALE", stringValue "GREGORIAN".toList), ("VERSION", stringValue "2.0".toList),
   ("PERCENT-COMPLETE", numericRange 0 100), ("PRIORITY", numericRange 0 9), ("COMPLETED", alwaysUTC),
   ("REPEAT", positiveIntegerOrZero), ("CREATED", alwaysUTC), ("DTSTAMP", alwaysUTC), ("LAST-MODIFIED", alwaysUTC),
   ("SEQUENCE", positiveIntegerOrZero), ("ACKNOWLEDGED", alwaysUTC)]

/-- Whether a property with this (upper case) name and value passes, componentbase.py:219-220. -/
def passes (name : String) (v : PropValue) : Bool :=
  match table.lookup name with
  | some f => f v
  | none => true

/-- The value of a property (that is not one of several values) read from text, property.py:521-541, with
`_postCreateValue`, icalendar/property.py:260-278; `none` is `InvalidProperty`.  `value` and `tzid` are the parameters,
`colon` and `bad` say what is done with a backslash before a colon and before another character, `fix` whether
backslashes are decoded in URIs, `sr` whether spaces in dates raise.  That values of other classes may not be readable is
left out. -/
def readValue (colon bad : PMode) (fix sr : Bool) (name : String) (value : Option String) (tzid : Option TzId)
    (data : List Char) : Option PropValue :=
  let t := determine ical name value
  match t with
  | .text => (decodeText colon bad data).map .plain
  | .uri => (readURI fix colon bad data).map .plain
  | .unknown | .calAddress | .binary | .boolean | .time | .vcard => some (.plain data)
  | .integer => (pyInt data).map .integer
  | .date | .dateTime =>
    (DateTime.parseText sr data).map fun d => .dateTime ((applyTzid t tzid [d]).headD d)
  | _ => some .other

/-- The characters of `validator.py`:60, 62. -/
def controls : List Nat := [0, 1, 2, 3, 4, 5, 6, 7, 8, 0x0B, 0x0C, 0x0E, 0x0F, 0x10, 0x11, 0x12, 0x13, 0x14, 0x15, 0x16,
  0x17, 0x18, 0x19, 0x1A, 0x1B, 0x1C, 0x1D, 0x1E, 0x1F]

/-- The loop of the control character check, validator.py:61-63: characters (bytes) with their positions, from `ctr`. -/
def controlLoop (ctr : Nat) : List Nat → List (Nat × Nat)
  | [] => []
  | i :: data => if i ∈ controls then (i, ctr) :: controlLoop (ctr + 1) data else controlLoop (ctr + 1) data

/-- The control character check, validator.py:58-63. -/
def controlCheck (data : List Nat) : List (Nat × Nat) :=
  if (data.filter (· ∉ controls)).length ≠ data.length then controlLoop 0 data else []

end ValueCheck
end PyCal
