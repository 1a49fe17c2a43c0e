import Verif.Spec.ContentLine

/-!
# Texts as RFC 5545 defines them
-/

namespace Spec

/-- `text`, RFC 5545 section 3.3.11, and what it says: no control characters (but for the tab), the characters `\ ; ,` with a
backslash before them, line breaks as `\n` or `\N`. -/
inductive TextValue : List Char → List Char → Prop
  | nil : TextValue [] []
  | safe (c : Char) {e s : List Char} : isControl c = false → c ∉ ['\\', ';', ','] → TextValue e s → TextValue (c :: e) (c :: s)
  | escaped (c : Char) {e s : List Char} : c ∈ ['\\', ';', ','] → TextValue e s → TextValue ('\\' :: c :: e) (c :: s)
  | break_ (c : Char) {e s : List Char} : c = 'n' ∨ c = 'N' → TextValue e s → TextValue ('\\' :: c :: e) ('\n' :: s)

end Spec
