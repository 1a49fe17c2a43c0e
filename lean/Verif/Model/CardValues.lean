import Verif.Model.ValueType
import Verif.Model.PropertyText
import Verif.Model.PropertyJSON

/-!
# Names, addresses and organisations of cards

`vcard/n.py`, `vcard/adr.py`, `vcard/orgvalue.py` with `valueutils.py`: reading and writing in jCard, the full name, the
setters and the copies.  Their texts are in `Model/Escape.lean`.
-/

namespace PyCal
namespace CardVal
open ValueType (VType)

/-- JSON data; `other` stands for numbers and truth values.  Objects are left out. -/
inductive Json where
  | null
  | str (s : List Char)
  | arr (l : List Json)
  | other

/-- The element of `list(self.mValue)`, n.py:104-105, adr.py:105-106: a `str` or a tuple. -/
def compJson : Comp → Json
  | .str s => .str s
  | .tup l => .arr (l.map .str)

/-- `writeJSON` of N and ADR, n.py:104-105, adr.py:105-106. -/
def writeComps (v : List Comp) : Json := .arr (v.map compJson)

/-- `OrgValue.writeJSONValue`, orgvalue.py:46-47: `list` of a `str` is the list of its characters. -/
def writeOrg : Comp → Json
  | .str s => .arr (s.map fun c => .str [c])
  | .tup l => .arr (l.map .str)

/-- A property in JSON: name, type and value, property.py:488-502; the parameters are left out. -/
structure JCard where
  name : List Char
  type : Json
  value : Json

/-- `Value._jsonMap` of N, ADR and ORG: each is registered with `None` (nvalue.py:29, adrvalue.py:29, orgvalue.py:55), so the
type that `Value.writeJSON` (value.py:113-115) appends is `null`. -/
def writtenType : Json := .null

/-- `generateValueJSON`, property.py:486-502, of an N or ADR property. -/
def writeCompsProp (name : List Char) (v : List Comp) : JCard := ⟨PropJSON.lower name, writtenType, writeComps v⟩

/-- `generateValueJSON`, property.py:486-502, of an ORG property. -/
def writeOrgProp (v : Comp) : JCard := ⟨"org".toList, writtenType, writeOrg v⟩

/-- A text; arrays, `null` and numbers have no `encode`. -/
def Json.text : Json → Option (List Char)
  | .str s => some s
  | _ => none

/-- `tuple(map(lambda x: x.encode("utf-8"), jobject))`, n.py:101-102, adr.py:102-103, orgvalue.py:43-44; `none` is an exception
(`null` and numbers cannot be iterated). -/
def encodeAll : Json → Option (List (List Char))
  | .str s => some (s.map fun c => [c])
  | .arr l => l.mapM Json.text
  | _ => none

/-- `parseJSON` of a property called N, ADR or ORG, property.py:422-472, up to the value: the type is looked up by its upper case
text (446); if it is the default one (TEXT), or none that is known, the value is a structured one (504-519).  `none` is
`InvalidProperty`; another type gives another kind of value, `some none`. -/
def readProp (j : JCard) : Option (Option (List (List Char))) :=
  match j.type with
  | .str t =>
    if (ValueType.vcard.byName.lookup (String.ofList (PropText.upper t))).getD .text = .text then
      (encodeAll j.value).map some
    else some none
  | _ => none

/-- `_stringOrList`, n.py:84-85. -/
def stringOrList : Comp → List Char
  | .str s => s
  | .tup l => joinSep ' ' l

/-- `getFullName`, n.py:82-93; `none` is the `IndexError` if there are less than five elements.  The order is PREFIX, FIRST,
MIDDLE, LAST, SUFFIX (n.py:28-35). -/
def fullName (v : List Comp) : Option (List Char) :=
  match v with
  | last :: first :: middle :: prefix' :: suffix :: _ =>
    some (joinSep ' ' (([prefix', first, middle, last, suffix].map stringOrList).filter fun s => decide (s ≠ [])))
  | _ => none

/-- `setFirst` and the others, n.py:55-56, 61-62, 67-68, 73-74, 79-80, and those of ADR, adr.py:57-58, 63-64, 69-70, 75-76, 81-82,
87-88, 93-94: an element of a tuple cannot be assigned, `TypeError` (`false`). -/
def setItem (_ : Nat) (_ : Comp) (v : List Comp) : Bool × List Comp := (false, v)

/-- `N(*self.mValue)`, n.py:37-41, and `Adr(*self.mValue)`, adr.py:39-43, with `n` arguments that are the empty text if they are
not given; `none` is the `TypeError` for too many. -/
def duplicate (n : Nat) (v : List Comp) : Option (List Comp) :=
  if v.length ≤ n then some (v ++ List.replicate (n - v.length) (.str [])) else none

end CardVal
end PyCal
