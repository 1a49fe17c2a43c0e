import Verif.Spec.RecurText

/-!
# Which texts are read as numbers, date-times and UTC offsets

The texts that the code accepts, by a grammar of what comes after what.  It is wider than that of RFC 5545: Python's `int` allows
blanks and a sign in every field, and the last field may be cut short.
-/

namespace Spec.Reading
open PyCal

/-- Blanks. -/
def Blank (s : List Char) : Prop :=
  ∀ c ∈ s, c = ' ' ∨ c = '\t' ∨ c = '\n' ∨ c = '\r' ∨ c = Char.ofNat 11 ∨ c = Char.ofNat 12

/-- A number with blanks around it. -/
def Number (s : List Char) (n : Int) : Prop := ∃ a t b, s = a ++ t ++ b ∧ Blank a ∧ Blank b ∧ Recur.Number t n

/-- A field of `w` characters, or of what is left if that is less; and what comes after it. -/
def Field (w : Nat) (s : List Char) (n : Int) (rest : List Char) : Prop := Number (s.take w) n ∧ rest = s.drop w

/-- The separator that the longer format may have: if it is there it is skipped.  In this format something must come after a
field. -/
inductive Sep (iso : Bool) (c : Char) : List Char → List Char → Prop
  | skip {s} : iso = true → Sep iso c (c :: s) s
  | other {d s} : d ≠ c → Sep iso c (d :: s) (d :: s)
  | short {s} : iso = false → Sep iso c s s

/-- Three fields, the first of `w` characters. -/
inductive Three (iso : Bool) (c : Char) (w : Nat) : List Char → Int → Int → Int → List Char → Prop
  | mk {s x r1 r2 y r3 r4 z rest} : Field w s x r1 → Sep iso c r1 r2 → Field 2 r2 y r3 → Sep iso c r3 r4 → Field 2 r4 z rest →
      Three iso c w s x y z rest

/-- A date `p` and what comes after it; `strict`: without spaces. -/
inductive Date (strict iso : Bool) : List Char → Int → Int → Int → List Char → Prop
  | mk {p y m d rest} : Three iso '-' 4 (p ++ rest) y m d rest → 0 ≤ y → 0 ≤ m → 0 ≤ d → (strict = true → ' ' ∉ p) →
      Date strict iso (p ++ rest) y m d rest

/-- A fraction of a second, which is skipped, or none. -/
inductive Fraction : List Char → List Char → Prop
  | some {ds n rest} : Dur.Digits ds n → (∀ k < 10, rest.head? ≠ some (Char.ofNat (48 + k))) → Fraction (',' :: ds ++ rest) rest
  | none {d s} : d ≠ ',' → Fraction (d :: s) (d :: s)

/-- `hh[:]mm` to the end, in seconds. -/
inductive Offset : List Char → Int → Prop
  | mk {s h r1 r2 m} : Field 2 s h r1 → Sep true ':' r1 r2 → Field 2 r2 m [] → Offset s (60 * (60 * h + m))

/-- What comes after the time, and what it says about the zone: `x` is the flag for UTC and the zone that the object had before. -/
inductive Zone (iso : Bool) (x : Bool × Option TzId) : List Char → Bool × Option TzId → Prop
  | none : Zone iso x [] (false, x.2)
  | utc : Zone iso x ['Z'] (true, x.2)
  | fraction {s} : iso = true → Fraction s [] → Zone iso x s x
  | fractionUtc {s} : iso = true → Fraction s ['Z'] → Zone iso x s (true, x.2)
  | plus {s r n} : iso = true → Fraction s ('+' :: r) → Offset r n → Zone iso x s (x.1, some (.fixed n))
  | minus {s r n} : iso = true → Fraction s ('-' :: r) → Offset r n → Zone iso x s (x.1, some (.fixed (-n)))

/-- The text is read as a date or date-time into the object `old`. -/
inductive Reads (strict iso : Bool) (old : DateTime) : List Char → DateTime → Prop
  | date {s y m d} : Date strict iso s y m d [] → Reads strict iso old s { old with year := y, month := m, day := d, dateOnly := true }
  | time {s y m d r h mi se r' u z} : Date strict iso s y m d ('T' :: r) → Three iso ':' 2 r h mi se r' →
      Zone iso (old.utc, old.tzid) r' (u, z) → Reads strict iso old s ⟨y, m, d, h, mi, se, false, u, z⟩

/-- The text is read as a UTC offset in seconds: a sign, hours, minutes and perhaps seconds of two characters each; in the longer
format any one character is allowed between them. -/
inductive UtcOffset (iso : Bool) : List Char → Int → Prop
  | minutes {a x b h m} (neg : Bool) : a.length = 2 → b.length = 2 → x.length = (if iso then 1 else 0) → Number a h → Number b m →
      UtcOffset iso ((if neg then '-' else '+') :: (a ++ x ++ b)) ((if neg then -1 else 1) * (60 * (60 * h + m)))
  | seconds {a x b y c h m s} (neg : Bool) : a.length = 2 → b.length = 2 → c.length = 2 → x.length = (if iso then 1 else 0) →
      y.length = (if iso then 1 else 0) → Number a h → Number b m → Number c s →
      UtcOffset iso ((if neg then '-' else '+') :: (a ++ x ++ b ++ y ++ c)) ((if neg then -1 else 1) * (60 * (60 * h + m) + s))

end Spec.Reading
