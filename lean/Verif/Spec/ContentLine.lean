import Verif.Spec.Line

/-!
# Content lines as the standards define them
-/

namespace Spec
open PyCal PropText

/-- A value of a parameter as it stands in a line: `paramtext` or `quoted-string`, RFC 5545 section 3.1. -/
inductive Shown where
  | plain (s : List Char)
  | quoted (s : List Char)
deriving DecidableEq

/-- The characters in the line. -/
def Shown.text : Shown → List Char
  | plain s => s
  | quoted s => '"' :: s ++ ['"']

/-- What is between the quotes, if there are any. -/
def Shown.inner : Shown → List Char
  | plain s => s
  | quoted s => s

/-- `CONTROL`: the control characters but for the tab. -/
def isControl (c : Char) : Bool := (c.toNat < 32 && c.toNat ≠ 9) || c.toNat = 127

/-- `*SAFE-CHAR` and `*QSAFE-CHAR`. -/
def Shown.Allowed : Shown → Prop
  | plain s => ∀ c ∈ s, isControl c = false ∧ c ∉ ['"', ';', ':', ',']
  | quoted s => ∀ c ∈ s, isControl c = false ∧ c ≠ '"'

/-- A parameter of a line: it has at least one value. -/
structure ShownParam where
  name : List Char
  first : Shown
  more : List Shown

/-- All its values. -/
def ShownParam.values (p : ShownParam) : List Shown := p.first :: p.more

/-- `param-name "=" param-value *("," param-value)`. -/
def ShownParam.text (p : ShownParam) : List Char :=
  p.name ++ '=' :: (p.first.text ++ p.more.flatMap fun v => ',' :: v.text)

/-- `name`, `group`: letters, digits and hyphens. -/
def Name (s : List Char) : Prop := s ≠ [] ∧ ∀ c ∈ s, c.isAlphanum = true ∨ c = '-'

/-- A line, unfolded. -/
structure ContentLine where
  group : Option (List Char) := none
  name : List Char
  params : List ShownParam
  value : List Char

/-- `[group "."] name *(";" param) ":" value`, RFC 5545 section 3.1 (without a group) and RFC 2425 section 5.8.2. -/
def ContentLine.text (l : ContentLine) : List Char :=
  (match l.group with
    | some g => g ++ ['.']
    | none => []) ++ l.name ++ (l.params.flatMap fun p => ';' :: p.text) ++ ':' :: l.value

/-- A line that the standards allow; only cards have groups. -/
structure ContentLine.Allowed (l : ContentLine) (vcard : Bool) : Prop where
  name : Name l.name
  group : ∀ g, l.group = some g → vcard = true ∧ Name g
  params : ∀ p ∈ l.params, Name p.name ∧ ∀ v ∈ p.values, v.Allowed

/-- What the parameter says, with RFC 6868. -/
def ShownParam.meaning (p : ShownParam) : Param := ⟨p.name, p.values.map fun v => rfc6868Decode v.inner⟩

/-- The values that the library reads: one without quotes does not begin with a space, one in quotes does not end in an odd
number of backslashes. -/
def Shown.Readable : Shown → Prop
  | plain s => s.head? ≠ some ' '
  | quoted s => trailingBackslashes s % 2 = 0

instance (v : Shown) : Decidable v.Readable := by cases v <;> unfold Shown.Readable <;> infer_instance

end Spec
