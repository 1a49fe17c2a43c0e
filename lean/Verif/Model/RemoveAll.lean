import Verif.Model.CalendarIndex
import Verif.Model.PropertyText

/-!
# Removing all components of a name

`getComponents`, `countComponents`, `hasComponent`, `removeComponent` and `removeAllComponent` of
`ComponentBase` (componentbase.py), and `removeAllComponent` of a `Calendar`, whose `removeComponent` is
another (icalendar/calendar.py).
-/

namespace PyCal
namespace RemoveAll

/-- The components, numbered: `getType()` and `a == b` (componentbase.py:72-75). -/
structure Heap where
  type : Nat → List Char
  eq : Nat → Nat → Bool

/-- `getComponents(compname)`, componentbase.py:108-110. -/
def getComponents (type : Nat → List Char) (compname : Option (List Char)) (comps : List Nat) : List Nat :=
  match compname with
  | none => comps
  | some n =>
    if n = [] then comps
    else comps.filter fun c => decide (PropText.upper (type c) = PropText.upper n)

/-- `countComponents`, componentbase.py:132-133. -/
def countComponents (type : Nat → List Char) (compname : List Char) (comps : List Nat) : Nat :=
  (getComponents type (some compname) comps).length

/-- `hasComponent`, componentbase.py:129-130. -/
def hasComponent (type : Nat → List Char) (compname : List Char) (comps : List Nat) : Bool :=
  decide (countComponents type compname comps ≠ 0)

/-- `removeComponent`, componentbase.py:135-136: `list.remove` takes the first that is the same object or
`==`; `none` is `ValueError`. -/
def removeComponent (h : Heap) (c : Nat) : List Nat → Option (List Nat)
  | [] => none
  | d :: ds => if d = c ∨ h.eq d c = true then some ds else (removeComponent h c ds).map (d :: ·)

/-- The loop over `tuple(self.mComponents)`, componentbase.py:141-143. -/
def removeLoop (h : Heap) (name : List Char) : List Nat → List Nat → Option (List Nat)
  | [], comps => some comps
  | c :: tuple, comps =>
    if PropText.upper (h.type c) = name then
      match removeComponent h c comps with
      | none => none
      | some comps => removeLoop h name tuple comps
    else removeLoop h name tuple comps

/-- `removeAllComponent`, componentbase.py:138-145. -/
def removeAllComponent (h : Heap) (compname : Option (List Char)) (comps : List Nat) : Option (List Nat) :=
  match compname with
  | none => some []
  | some n => if n = [] then some [] else removeLoop h (PropText.upper n) comps comps

/-- The loop, componentbase.py:141-143, of a calendar. -/
def removeLoopCal (h : Index.Heap) (name : List Char) : List Nat → Index.St → Option Index.St
  | [], st => some st
  | c :: tuple, st =>
    if PropText.upper (h.attr c).type = name then
      match Index.remove h c st with
      | none => none
      | some st => removeLoopCal h name tuple st
    else removeLoopCal h name tuple st

/-- `removeAllComponent`, componentbase.py:138-145, of a calendar; `none` is an exception. -/
def removeAllCal (h : Index.Heap) (compname : Option (List Char)) (st : Index.St) : Option Index.St :=
  match compname with
  | none => some { st with comps := [] }
  | some n =>
    if n = [] then some { st with comps := [] } else removeLoopCal h (PropText.upper n) st.comps st

end RemoveAll
end PyCal
