/-!
# What escaped texts look like
-/

namespace Spec

/-- Escaped texts: no raw line break, no comma, semicolon or backslash except as part of one of
the escape sequences `\\ \; \, \n \r`. -/
inductive Escaped : List Char → Prop
  | nil : Escaped []
  | plain (c : Char) (s : List Char) (h : c ≠ '\r' ∧ c ≠ '\n' ∧ c ≠ ',' ∧ c ≠ ';' ∧ c ≠ '\\') :
      Escaped s → Escaped (c :: s)
  | esc (c : Char) (s : List Char) (h : c = '\\' ∨ c = ';' ∨ c = ',' ∨ c = 'n' ∨ c = 'r') :
      Escaped s → Escaped ('\\' :: c :: s)

/-- Line breaks (CRLF, CR or LF) turned into LF. -/
def normaliseBreaks : List Char → List Char
  | '\r' :: '\n' :: s => '\n' :: normaliseBreaks s
  | '\r' :: s => '\n' :: normaliseBreaks s
  | c :: s => c :: normaliseBreaks s
  | [] => []

/-- RFC 5545 section 3.3.11 (and RFC 6350 section 3.4): the meaning of an escaped TEXT value.
`\\n` and `\\N` are line breaks; `\\r` is accepted as a carriage return. -/
inductive Denotes : List Char → List Char → Prop
  | nil : Denotes [] []
  | plain (c : Char) {e s : List Char} (h : c ≠ '\\') : Denotes e s → Denotes (c :: e) (c :: s)
  | break_ (c : Char) {e s : List Char} (h : c = 'n' ∨ c = 'N') :
      Denotes e s → Denotes ('\\' :: c :: e) ('\n' :: s)
  | return_ {e s : List Char} : Denotes e s → Denotes ('\\' :: 'r' :: e) ('\r' :: s)
  | literal (c : Char) {e s : List Char} (h : c = '\\' ∨ c = ';' ∨ c = ',') :
      Denotes e s → Denotes ('\\' :: c :: e) (c :: s)

/-- RFC 6868 section 3.2: decoding a parameter value. -/
def rfc6868Decode : List Char → List Char
  | '^' :: 'n' :: s => '\n' :: rfc6868Decode s
  | '^' :: '^' :: s => '^' :: rfc6868Decode s
  | '^' :: '\'' :: s => '"' :: rfc6868Decode s
  | c :: s => c :: rfc6868Decode s
  | [] => []

end Spec
