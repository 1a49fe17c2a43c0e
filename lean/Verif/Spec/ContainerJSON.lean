import Verif.Spec.Container
import Verif.Model.ContainerJSON

/-!
# Components in jCal
-/

namespace Spec
open PyCal Cont

/-- RFC 7265, section 3.3: the array for a component has its type in lower case, the properties and the
components, in any order. -/
inductive TreeForm {J : Type} (env : JEnv J) : Component → JComp J → Prop
  | mk {t ps cs qs js l subs} (hq : qs.Perm ps) (hj : List.Forall₂ (fun p j => env.write p = some j) qs js)
      (hl : l.Perm cs) (hs : List.Forall₂ (TreeForm env) l subs) :
      TreeForm env (.mk t ps cs) (.mk (t.map Char.toLower) js subs)

/-- The same component, if `R` says which properties are the same: for each name the properties are the
same in the same order, and the components are the same in some order. -/
inductive SameBy (R : CProp → CProp → Prop) : Component → Component → Prop
  | mk {t ps ps' cs l cs'} (hp : ∀ key, List.Forall₂ R (ps.filter fun p => decide (p.key = key))
        (ps'.filter fun p => decide (p.key = key))) (hl : l.Perm cs)
      (hs : List.Forall₂ (SameBy R) l cs') : SameBy R (.mk t ps cs) (.mk t ps' cs')

/-- A property that is read from what is written for it. -/
def Kept {J : Type} (env : JEnv J) (R : CProp → CProp → Prop) (p : CProp) : Prop :=
  ∃ j q, env.write p = some j ∧ env.read j = some q ∧ R p q

/-- A component all of whose properties are kept, with types in upper case other than `UNKNOWN`, each
component being taken by the one around it. -/
inductive WritableJSON {J : Type} (env : JEnv J) (R : CProp → CProp → Prop) : Component → Prop
  | mk {t ps cs} (hc : t.map Char.toUpper = t) (hu : t ≠ "UNKNOWN".toList) (hp : ∀ p ∈ ps, Kept env R p)
      (ha : ∀ c ∈ cs, Takes t c.type) (hs : ∀ c ∈ cs, WritableJSON env R c) : WritableJSON env R (.mk t ps cs)

end Spec
