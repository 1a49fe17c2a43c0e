import Verif.Model.Container

/-!
# Properly nested data
-/

namespace Spec
open PyCal Cont

def Begins (line : List Char) : Prop := "BEGIN:".toList <+: line
def Ends (line : List Char) : Prop := "END:".toList <+: line

instance (line : List Char) : Decidable (Begins line) := by unfold Begins; infer_instance
instance (line : List Char) : Decidable (Ends line) := by unfold Ends; infer_instance

/-- Lines in which every `BEGIN:` has its `END:`, properly nested. -/
inductive Nested : List (List Char) → Prop
  | nil : Nested []
  | line {l : List Char} {ls} (hb : ¬ Begins l) (he : ¬ Ends l) : Nested ls → Nested (l :: ls)
  | comp (t : List Char) {body ls} : Nested body → Nested ls →
      Nested (("BEGIN:".toList ++ t) :: (body ++ ("END:".toList ++ t) :: ls))

/-- Blank lines. -/
def Blank (ls : List (List Char)) : Prop := ∀ l ∈ ls, l = []

/-- One complete object of the type, blank lines before and after it. -/
def Complete (t : List Char) (ls : List (List Char)) : Prop :=
  ∃ b1 body b2, ls = b1 ++ ("BEGIN:".toList ++ t) :: (body ++ ("END:".toList ++ t) :: b2) ∧
    Blank b1 ∧ Nested body ∧ Blank b2

mutual
/-- How many components there are in a component, itself included. -/
def compCount : Component → Nat
  | .mk _ _ ss => 1 + compCountL ss

def compCountL : List Component → Nat
  | [] => 0
  | c :: cs => compCount c + compCountL cs
end

mutual
/-- The keys of the properties anywhere in a component. -/
def keysIn : Component → List (List Char)
  | .mk _ ps ss => ps.map CProp.key ++ keysInL ss

def keysInL : List Component → List (List Char)
  | [] => []
  | c :: cs => keysIn c ++ keysInL cs
end

/-- Which components may be in which: alarms in events and to-dos, the two kinds of observances in time
zones, `AVAILABLE` in availabilities, `VOTE` in voters.  Nothing is said about the others. -/
def Takes (parent child : List Char) : Prop :=
  (parent = "VEVENT".toList → child = "VALARM".toList) ∧
  (parent = "VTODO".toList → child = "VALARM".toList) ∧
  (parent = "VTIMEZONE".toList → child = "STANDARD".toList ∨ child = "DAYLIGHT".toList) ∧
  (parent = "VAVAILABILITY".toList → child = "AVAILABLE".toList) ∧
  (parent = "VVOTER".toList → child = "VOTE".toList)

instance (parent child : List Char) : Decidable (Takes parent child) := by unfold Takes; infer_instance

/-- A component everywhere in which the components are where they may be. -/
inductive Placed : Component → Prop
  | mk {t ps cs} (ha : ∀ c ∈ cs, Takes t c.type) (hs : ∀ c ∈ cs, Placed c) : Placed (.mk t ps cs)

/-- What properly nested lines within a component of type `t` say: its properties and components.  The
lines of properties can be read (and are valid in the container, `top`), each component can be
finished and is taken by the one around it, and none has the type of the container or the type
`UNKNOWN`. -/
inductive Body (env : Env) : Bool → List Char → List (List Char) → List CProp → List Component → Prop
  | nil {top t} : Body env top t [] [] []
  | blank {top t ls ps ss} (h : env.blankRaise = false) : Body env top t ls ps ss →
      Body env top t ([] :: ls) ps ss
  | prop {top t l p ls ps ss} (h0 : l ≠ []) (hb : ¬ Begins l) (he : ¬ Ends l)
      (hp : env.parseProp l = some p) (hv : top = true → env.valid p = true) :
      Body env top t ls ps ss → Body env top t (l :: ls) (p :: ps) ss
  | comp {top t} (t' : List Char) {body ps' ss' c ls ps ss} (hc : t' ≠ env.container)
      (hu : t' ≠ "UNKNOWN".toList) (hf : env.finalise (.mk t' ps' ss') = some c)
      (ha : Takes t c.type) : Body env false t' body ps' ss' → Body env top t ls ps ss →
      Body env top t (("BEGIN:".toList ++ t') :: (body ++ ("END:".toList ++ t') :: ls)) ps (c :: ss)

/-- The same component but for the order of properties with different names and the order of
components. -/
inductive Same : Component → Component → Prop
  | mk {t ps ps' cs l cs'} (hp : ∀ key, ps'.filter (fun p => decide (p.key = key)) =
        ps.filter fun p => decide (p.key = key)) (hl : l.Perm cs) (hs : List.Forall₂ Same l cs') :
      Same (.mk t ps cs) (.mk t ps' cs')

/-- A property whose line is read as that property. -/
def ReadBack (env : Env) (p : CProp) : Prop :=
  p.text ≠ [] ∧ ¬ Begins p.text ∧ ¬ Ends p.text ∧ env.parseProp p.text = some p

/-- A component all of whose properties are read back, with no component in it of the container's type
or of the type `UNKNOWN`, or that the one around it does not take. -/
inductive Writable (env : Env) : Component → Prop
  | mk {t ps cs} (hc : t ≠ env.container) (hu : t ≠ "UNKNOWN".toList) (hp : ∀ p ∈ ps, ReadBack env p)
      (ha : ∀ c ∈ cs, Takes t c.type) (hs : ∀ c ∈ cs, Writable env c) : Writable env (.mk t ps cs)

end Spec
