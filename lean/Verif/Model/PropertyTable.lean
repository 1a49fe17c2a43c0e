import Verif.Model.PropertyText

/-!
# The properties of a component

`addProperty`, `removeProperty`, `removeProperties`, `editProperty`, `loadPrivateValue` and what asks for
properties (componentbase.py), with `Property.setName` (property.py).
-/

namespace PyCal
namespace Table

/-- A property object. -/
abbrev Obj := Nat

/-- `mProperties`: the keys with the objects under each.  The order of the keys, which is that of a
`dict`, is not observed by anything here. -/
abbrev Dict := List (List Char × List Obj)

/-- A component with `mProperties`, and the `mName` of each property object. -/
structure St where
  dict : Dict
  name : Obj → List Char

/-- What else there is of the property objects at some time.  `same names a b` is `a == b` (icalendar/property.py:248-251)
when the names are `names`, of which nothing is assumed; `text` is what `getTextValue()` has
(property.py:199-204), `none` if the value is not a text. -/
structure Heap where
  same : (Obj → List Char) → Obj → Obj → Bool
  text : Obj → Option (List Char)

/-- `d.get(key)`. -/
def lookup (key : List Char) : Dict → Option (List Obj)
  | [] => none
  | (k, ps) :: d => if k = key then some ps else lookup key d

/-- `d[key] = ps`. -/
def store (key : List Char) (ps : List Obj) : Dict → Dict
  | [] => [(key, ps)]
  | (k, qs) :: d => if k = key then (k, ps) :: d else (k, qs) :: store key ps d

/-- `del d[key]`, if it is there. -/
def drop (key : List Char) : Dict → Dict
  | [] => []
  | (k, qs) :: d => if k = key then d else (k, qs) :: drop key d

/-- `list.remove(p)`: the first that is the same object or `==`; `none` is `ValueError`. -/
def removeFirst (same : Obj → Obj → Bool) (p : Obj) : List Obj → Option (List Obj)
  | [] => none
  | q :: qs =>
    if q = p ∨ same q p = true then some qs else (removeFirst same p qs).map (q :: ·)

/-- `addProperty`, componentbase.py:165-166. -/
def addProperty (p : Obj) (st : St) : St :=
  let key := PropText.upper (st.name p)
  { st with dict := store key ((lookup key st.dict).getD [] ++ [p]) st.dict }

/-- `removeProperty`, componentbase.py:177-181; `none` is `ValueError`, and nothing has changed. -/
def removeProperty (h : Heap) (p : Obj) (st : St) : Option St :=
  let key := PropText.upper (st.name p)
  match lookup key st.dict with
  | none => some st
  | some ps =>
    match removeFirst (h.same st.name) p ps with
    | none => none
    | some qs =>
      if qs.length = 0 then some { st with dict := drop key (store key qs st.dict) }
      else some { st with dict := store key qs st.dict }

/-- `removeProperties`, componentbase.py:183-185. -/
def removeProperties (propname : List Char) (st : St) : St :=
  if (lookup (PropText.upper propname) st.dict).isSome then
    { st with dict := drop (PropText.upper propname) st.dict }
  else st

/-- `editProperty`, componentbase.py:651-658.  `p` is the property object that is made, `none` if
`propvalue` is false. -/
def editProperty (propname : List Char) (p : Option Obj) (st : St) : St :=
  let st := removeProperties propname st
  match p with
  | none => st
  | some p => addProperty p { st with name := fun q => if q = p then propname else st.name q }

/-- `hasProperty`, componentbase.py:168-169. -/
def hasProperty (propname : List Char) (st : St) : Bool :=
  (lookup (PropText.upper propname) st.dict).isSome

/-- `countProperty`, componentbase.py:171-172. -/
def countProperty (propname : List Char) (st : St) : Nat :=
  ((lookup (PropText.upper propname) st.dict).getD []).length

/-- `findFirstProperty`, componentbase.py:174-175: the outer `none` is `IndexError`, the inner one
`None`. -/
def findFirstProperty (propname : List Char) (st : St) : Option (Option Obj) :=
  match lookup (PropText.upper propname) st.dict with
  | none => some none
  | some ps => ps.head?.map some

/-- What `getProperties` returns. -/
inductive Found where
  | list (ps : List Obj)
  | dict (d : Dict)

/-- `getProperties`, componentbase.py:159-160. -/
def getProperties (propname : Option (List Char)) (st : St) : Found :=
  match propname with
  | none => .dict st.dict
  | some n => if n ≠ [] then .list ((lookup (PropText.upper n) st.dict).getD []) else .dict st.dict

/-- `loadValueString`, componentbase.py:479-485; the outer `none` is an exception. -/
def loadValueString (h : Heap) (name : List Char) (st : St) : Option (Option (List Char)) :=
  if hasProperty name st then
    match findFirstProperty name st with
    | some (some p) => some (h.text p)
    | _ => none
  else some none

/-- `loadPrivateValue`, componentbase.py:639-645; `none` is an exception. -/
def loadPrivateValue (h : Heap) (name : List Char) (st : St) : Option (Option (List Char) × St) :=
  match loadValueString h name st with
  | none => none
  | some none => some (none, st)
  | some (some v) => some (some v, removeProperties name st)

/-- The calls. -/
inductive Op where
  | add (p : Obj)
  | remove (p : Obj)
  | removeAll (propname : List Char)
  | edit (propname : List Char) (p : Option Obj)
  | loadPrivate (name : List Char)
  /-- `p.setName(name)`, property.py:119-120, of any property. -/
  | rename (p : Obj) (name : List Char)

/-- One call; `none` is an exception, and then nothing has changed. -/
def apply (h : Heap) : Op → St → Option St
  | .add p, st => some (addProperty p st)
  | .remove p, st => removeProperty h p st
  | .removeAll n, st => some (removeProperties n st)
  | .edit n p, st => some (editProperty n p st)
  | .loadPrivate n, st => (loadPrivateValue h n st).map (·.2)
  | .rename p n, st => some { st with name := fun q => if q = p then n else st.name q }

/-- The calls in turn, each with the values that the properties then have; those that raise are
caught. -/
def run : List (Heap × Op) → St → St
  | [], st => st
  | (h, op) :: ops, st => run ops ((apply h op st).getD st)

/-- A new component: `self.mProperties = {}`, componentbase.py:45. -/
def new (name : Obj → List Char) : St := ⟨[], name⟩

end Table
end PyCal
