import Verif.Model.PropertyJSON
import Verif.Spec.RecurJSON
import Verif.Spec.DurationGrammar

/-!
# What jCal should keep of a property
-/

namespace Spec.PropJSON
open PyCal PropText ValueType PyCal.PropJSON

/-- The values of the parameters with a name (in upper case), one list for each parameter. -/
def paramsOf (ps : List Param) (key : List Char) : List (List (List Char)) :=
  (ps.filter fun p => decide (upper p.name = key)).map Param.values

/-- The same value in JSON: the members of an object have no order. -/
inductive SameData : JData → JData → Prop
  | refl (d) : SameData d d
  | obj {ms ms'} : ms'.Perm ms → SameData (.obj ms) (.obj ms')

/-- The same array in JSON. -/
structure SameJSON (j j' : JProp) : Prop where
  name : j'.name = j.name
  params : j'.params.Perm j.params
  type : j'.type = j.type
  data : List.Forall₂ SameData j.data j'.data

/-- Two values that say the same: durations of the same length may be put differently. -/
inductive SameVal : PVal → PVal → Prop
  | refl (x) : SameVal x x
  | duration {d d'} : d'.totalSeconds = d.totalSeconds → SameVal (.duration d) (.duration d')

/-- Two properties that say the same: the name but for case, the type of the value, the values and the
parameters other than VALUE. -/
structure SameProp (p q : Prop') : Prop where
  name : upper q.name = upper p.name
  type : q.type = p.type
  values : List.Forall₂ SameVal p.values q.values
  params : ∀ key, key ≠ "VALUE".toList → paramsOf q.params key = paramsOf p.params key

/-! ## RFC 7265, sections 3.4 to 3.6: the form of a property -/

/-- Two digits. -/
def two (n : Nat) : List Char := [Char.ofNat (48 + n / 10), Char.ofNat (48 + n % 10)]

/-- An offset from UTC: "+hh:mm" or "-hh:mm", then ":ss" unless the seconds are zero. -/
def OffsetText (text : List Char) (n : Int) : Prop :=
  ∃ h m s : Nat, h < 100 ∧ m < 60 ∧ s < 60 ∧ n.natAbs = h * 3600 + m * 60 + s ∧
    text = (if n < 0 then '-' else '+') :: (two h ++ ':' :: (two m ++ if s = 0 then [] else ':' :: two s))

/-- The type identifiers of the values modelled here. -/
def identifier : VType → Option String
  | .text | .requestStatus => some "text"
  | .uri => some "uri"
  | .binary => some "binary"
  | .calAddress => some "cal-address"
  | .integer => some "integer"
  | .float | .geo => some "float"
  | .duration => some "duration"
  | .utcOffset => some "utc-offset"
  | .recur => some "recur"
  | .unknown => some "unknown"
  | _ => none

/-- A value as RFC 7265 has it; `D` is the form of a date. -/
inductive ValueForm (D : List Char → DateTime → Prop) : PVal → JData → Prop
  | plain (s) : ValueForm D (.plain s) (.item (.str s))
  | int (n) : ValueForm D (.int n) (.item (.num n))
  | float (x) : ValueForm D (.float x) (.real x)
  | geo (x y) : ValueForm D (.geo [x, y]) (.reals [x, y])
  | duration {d text} : Spec.Dur.Value text d.totalSeconds → ValueForm D (.duration d) (.item (.str text))
  | offset {n text} : OffsetText text n → ValueForm D (.offset n) (.item (.str text))
  | status (l) : ValueForm D (.status l) (.arr (l.map .str))
  | recur {ms ps} : Recur.RuleObject D ms ps → ValueForm D (.recur (Recur.rule ps)) (.obj ms)

/-- A property as RFC 7265 has it: its name in lower case; an object with the parameters, their names in
lower case, without VALUE; the type; the values. -/
structure PropertyForm (D : List Char → DateTime → Prop) (p : Prop') (j : JProp) : Prop where
  name : j.name = p.name.map Char.toLower
  params : ∀ key v, (key, JParam.one v) ∈ j.params ↔
    ∃ q ∈ p.params, key = q.name.map Char.toLower ∧ upper q.name ≠ "VALUE".toList ∧ q.values = [v]
  object : (j.params.map Prod.fst).Nodup ∧ ∀ m ∈ j.params, ∃ v, m.2 = .one v
  type : j.type = identifier p.type ∧ j.type.isSome
  data : List.Forall₂ (ValueForm D) p.values j.data

end Spec.PropJSON
