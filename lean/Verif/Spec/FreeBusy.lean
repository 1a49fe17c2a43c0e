import Verif.Model.FreeBusy

/-!
# What a free-busy component says (RFC 5545, 3.2.9 and 3.8.2.6)

Independent of how `VFreeBusy` collects it.
-/

namespace PyCal.FB87
open DateTime (TzEnv)
open PropText (upper)

/-- RFC 5545, 3.2.9, the values the standard defines: FREE, BUSY, BUSY-UNAVAILABLE, BUSY-TENTATIVE, in any
case; the default is BUSY; other values must be treated like BUSY. -/
def Says : Option (List Char) → FBType → Prop
  | none, t => t = .busy
  | some s, t =>
    (t = .free ∧ upper s = "FREE".toList) ∨ (t = .unavailable ∧ upper s = "BUSY-UNAVAILABLE".toList) ∨
    (t = .tentative ∧ upper s = "BUSY-TENTATIVE".toList) ∨
    (t = .busy ∧ upper s ≠ "FREE".toList ∧ upper s ≠ "BUSY-UNAVAILABLE".toList ∧
      upper s ≠ "BUSY-TENTATIVE".toList)

/-- The values the standard defines. -/
def Standard (fbtype : Option (List Char)) : Prop :=
  ∀ s, fbtype = some s → upper s ∈ ["FREE".toList, "BUSY".toList, "BUSY-UNAVAILABLE".toList,
    "BUSY-TENTATIVE".toList]

/-- The entries of the properties in order: each period of a property that is not free, with what the
property says of it. -/
inductive Lists : List FBProperty → List Busy → Prop
  | nil : Lists [] []
  | free {p ps l} (h : Says p.fbtype .free) (r : Lists ps l) : Lists (p :: ps) l
  | busy {p ps l} (t : FBType) (h : Says p.fbtype t) (hf : t ≠ .free) (r : Lists ps l) :
      Lists (p :: ps) (p.periods.map (Busy.mk t) ++ l)

end PyCal.FB87
