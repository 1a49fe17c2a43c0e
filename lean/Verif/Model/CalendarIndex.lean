import Verif.Model.Text

/-!
# The calendar's components by UID

`Calendar.addComponent`, `removeComponent` and `changeUID` (icalendar/calendar.py).
-/

namespace PyCal
namespace Index

abbrev UID := List Char

/-- What does not change of a component object: `getType()`, whether it is a `ComponentRecur`, whether it
has a RECURRENCE-ID, and all of its content but the UID (`__eq__` compares it). -/
structure Attr where
  type : List Char
  recur : Bool
  rid : Bool
  content : Nat
deriving DecidableEq, Repr

/-- `mComponents` (the objects are numbered), `mOverriddenComponentsByUID`,
`mMasterComponentsByTypeAndUID` (calendar.py:75-76), the UID of each object, and the counter of
`setUID`. -/
structure St where
  comps : List Nat
  over : UID → Option (List Nat)
  masters : List Char → UID → Option Nat
  uid : Nat → UID
  ctr : Nat

/-- The attributes of the objects, and the UID that `setUID` makes of the counter. -/
structure Heap where
  attr : Nat → Attr
  fresh : Nat → UID

/-- A new calendar. -/
def empty (uid : Nat → UID) : St := ⟨[], fun _ => none, fun _ _ => none, uid, 0⟩

/-- Whether `list.remove` takes the one for the other: the same object, or `==`
(componentbase.py:72-75; the UID property has the object's UID). -/
def same (h : Heap) (uid : Nat → UID) (a b : Nat) : Bool :=
  decide (a = b ∨ h.attr a = h.attr b ∧ uid a = uid b)

/-- `list.remove`; `none` is `ValueError`. -/
def removeFirst (h : Heap) (uid : Nat → UID) (c : Nat) : List Nat → Option (List Nat)
  | [] => none
  | d :: ds => if same h uid d c then some ds else (removeFirst h uid c ds).map (d :: ·)

/-- `addComponent`, calendar.py:308-320. -/
def add (h : Heap) (c : Nat) (st : St) : St :=
  let st := { st with comps := st.comps ++ [c] }
  if (h.attr c).recur then
    if (h.attr c).rid then
      { st with over := fun u =>
          if u = st.uid c then some ((st.over u).getD [] ++ [c]) else st.over u }
    else
      { st with masters := fun t u =>
          if t = (h.attr c).type ∧ u = st.uid c then some c else st.masters t u }
  else st

/-- `removeComponent`, calendar.py:322-334; `none` is `ValueError` or `KeyError`. -/
def remove (h : Heap) (c : Nat) (st : St) : Option St :=
  match removeFirst h st.uid c st.comps with
  | none => none
  | some comps =>
    let st := { st with comps := comps }
    if (h.attr c).recur then
      if (h.attr c).rid then
        match removeFirst h st.uid c ((st.over (st.uid c)).getD []) with
        | none => none
        | some l => some { st with over := fun u => if u = st.uid c then some l else st.over u }
      else
        match st.masters (h.attr c).type (st.uid c) with
        | none => none
        | some _ => some { st with masters := fun t u =>
            if t = (h.attr c).type ∧ u = st.uid c then none else st.masters t u }
    else some st

/-- The loop of `changeUID` over `mComponents`, calendar.py:149-151, with `setUID`
(icalendar/component.py:90-125). -/
def setUIDs (h : Heap) (old new : UID) : List Nat → (Nat → UID) → Nat → (Nat → UID) × Nat
  | [], uid, ctr => (uid, ctr)
  | c :: cs, uid, ctr =>
    if uid c = old then
      if new = [] then setUIDs h old new cs (fun d => if d = c then h.fresh ctr else uid d) (ctr + 1)
      else setUIDs h old new cs (fun d => if d = c then new else uid d) ctr
    else setUIDs h old new cs uid ctr

/-- `d[new] = d[old]; del d[old]` if `old` is there, calendar.py:154-160. -/
def moveKey {α : Type} (old new : UID) (d : UID → Option α) : UID → Option α :=
  match d old with
  | none => d
  | some v => fun u => if u = old then none else if u = new then some v else d u

/-- `changeUID`, calendar.py:136-160. -/
def changeUID (h : Heap) (old new : UID) (st : St) : St :=
  let r := setUIDs h old new st.comps st.uid st.ctr
  { st with
    uid := r.1
    ctr := r.2
    over := moveKey old new st.over
    masters := fun t => moveKey old new (st.masters t) }

/-- What is recorded for a UID, calendar.py:490-496. -/
def instances (st : St) (u : UID) : List Nat := (st.over u).getD []

/-- The operations. -/
inductive Op where
  | add (c : Nat)
  | remove (c : Nat)
  | changeUID (old new : UID)

def apply (h : Heap) : Op → St → Option St
  | .add c, st => some (add h c st)
  | .remove c, st => remove h c st
  | .changeUID old new, st => some (changeUID h old new st)

def applyAll (h : Heap) : List Op → St → Option St
  | [], st => some st
  | op :: ops, st =>
    match apply h op st with
    | none => none
    | some st => applyAll h ops st

end Index
end PyCal
