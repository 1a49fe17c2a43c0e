import Verif.Model.OutputFilter

/-!
# What the calls on an output filter ask for
-/

namespace Spec.OFilter
open PyCal Cont PyCal.OFilter

/-- All properties are asked for. -/
def AllProps (calls : List Call) : Prop := Call.allProps ∈ calls

/-- The property with this name is asked for, and `novalue` is what the last call for it says.  Names are
the same if they are so in capital letters. -/
inductive Named (name : List Char) (novalue : Bool) : List Call → Prop
  | mk {before after n} (hn : PropText.upper n = PropText.upper name)
      (hlast : ∀ m b, Call.addProp m b ∈ after → PropText.upper m ≠ PropText.upper name) :
      Named name novalue (before ++ .addProp n novalue :: after)

/-- `q` is what is to be written of the property `p`. -/
inductive Wanted (bare : CProp → CProp) (calls : List Call) (p : CProp) : CProp → Prop
  | all : AllProps calls → Wanted bare calls p p
  | value : ¬ AllProps calls → Named p.name false calls → Wanted bare calls p p
  | bare : ¬ AllProps calls → Named p.name true calls → Wanted bare calls p (bare p)

/-- `qs` is what is to be written of the properties `ps`. -/
inductive WantedAll (bare : CProp → CProp) (calls : List Call) : List CProp → List CProp → Prop
  | nil : WantedAll bare calls [] []
  | keep {p q ps qs} : Wanted bare calls p q → WantedAll bare calls ps qs →
      WantedAll bare calls (p :: ps) (q :: qs)
  | leave {p ps qs} : (∀ q, ¬ Wanted bare calls p q) → WantedAll bare calls ps qs →
      WantedAll bare calls (p :: ps) qs

/-- All components are asked for. -/
def AllSubs (calls : List Call) : Prop := Call.allSubs ∈ calls

/-- No components are asked for. -/
def NoSubs (calls : List Call) : Prop := Call.allSubs ∉ calls ∧ ∀ f, Call.addSub f ∉ calls

/-- `d` is what is to be written of the component `c`, if all or no components are asked for. -/
inductive Part (bare : CProp → CProp) (calls : List Call) : Component → Component → Prop
  | all {t ps qs cs} : WantedAll bare calls ps qs → AllSubs calls →
      Part bare calls (.mk t ps cs) (.mk t qs cs)
  | none {t ps qs cs} : WantedAll bare calls ps qs → NoSubs calls →
      Part bare calls (.mk t ps cs) (.mk t qs [])

end Spec.OFilter
