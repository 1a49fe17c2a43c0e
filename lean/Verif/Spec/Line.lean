import Verif.Model.PropertyText
import Verif.Spec.Escape

/-!
# Vocabulary for property lines
-/

namespace Spec
open PyCal PropText

/-- A name of a property or parameter: not empty, no delimiter, quote or space in it.  The names
of RFC 5545 and RFC 6350 (letters, digits, hyphens) are such names. -/
def Token (s : List Char) : Prop :=
  s ≠ [] ∧ ∀ c ∈ s, c ∉ [' ', '"', '=', ':', ';', ',', '.']

instance (s : List Char) : Decidable (Token s) := inferInstanceAs (Decidable (_ ∧ _))

/-- The number of backslashes at the end. -/
def trailingBackslashes (s : List Char) : Nat := (s.reverse.takeWhile fun c => decide (c = '\\')).length

/-- The parameter values whose text is read back as it was written: without a delimiter they must not
begin with a space; with one they must not end in an odd number of backslashes. -/
def ValueOk (v : List Char) : Prop :=
  if ':' ∈ v ∨ ';' ∈ v ∨ ',' ∈ v then trailingBackslashes v % 2 = 0 else v.head? ≠ some ' '

instance (v : List Char) : Decidable (ValueOk v) := by unfold ValueOk; infer_instance

/-- The same parameter up to the order of its values, line breaks being LF; in the same order if they
were in ascending order. -/
def SameParam (p p' : Param) : Prop :=
  p'.name = p.name ∧ p'.values.Perm (p.values.map normaliseBreaks) ∧
    (p.values.Pairwise (· ≤ ·) → p'.values = p.values.map normaliseBreaks)

/-- For each key the same parameters in the same order. -/
def SameParams (ps ps' : List Param) : Prop :=
  ∀ key, List.Forall₂ SameParam (ps.filter fun p => decide (p.key = key))
    (ps'.filter fun p => decide (p.key = key))

end Spec
