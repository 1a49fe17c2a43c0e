/-!
# RFC 5545 section 3.1: unfolding, and UTF-8 characters
-/

namespace Spec

/-- "any sequence of CRLF followed immediately by a single linear white-space character is
ignored" -/
def unfold : List Nat → List Nat
  | 13 :: 10 :: 32 :: s => unfold s
  | 13 :: 10 :: 9 :: s => unfold s
  | c :: s => c :: unfold s
  | [] => []

/-- Shape of the UTF-8 encoding of a character: a byte that is not of the form `10xxxxxx`, followed
by at most three that are. -/
def Utf8Char (c : List Nat) : Prop :=
  ∃ lead conts, c = lead :: conts ∧ lead / 64 ≠ 2 ∧ conts.length ≤ 3 ∧ ∀ b ∈ conts, b / 64 = 2

/-- A sequence of encoded characters. -/
def Utf8 (s : List Nat) : Prop := ∃ cs : List (List Nat), s = cs.flatten ∧ ∀ c ∈ cs, Utf8Char c

end Spec
