/-!
# Line folding: property.py generateValue, utils.py readFoldedLine

Python 2 `str` is a byte string; bytes are modelled by natural numbers.
-/

namespace PyCal

/-- A byte string. -/
abbrev Bytes := List Nat

/-- `(ord(b) & 0xC0) == 0x80`, property.py:377 (the other conjunct, `temp[offset] > 0x7F`, compares
a `str` with an `int`, which is always true in Python 2). -/
def isCont (b : Nat) : Bool := (b &&& 0xC0) == 0x80

/-- The loop `while ... : offset -= 1`, property.py:377-379.  At offset 0 the code would go on with
a negative index; the model stops there (only possible if the text starts with a continuation
byte). -/
def stepBack (temp : Bytes) : Nat → Nat
  | 0 => 0
  | o + 1 => if isCont (temp.getD (o + 1) 0) then stepBack temp o else o + 1

/-- The loop `while written < len(temp)`, property.py:368-387 (`written` always equals `start`);
`none` stands for non-termination, which happens when an iteration makes no progress. -/
def foldLoop (temp : Bytes) (start lineWrap : Nat) : Option Bytes :=
  if start + lineWrap ≥ temp.length then some (temp.drop start)
  else if _h : start < stepBack temp (start + lineWrap) ∧
      stepBack temp (start + lineWrap) < temp.length then
    (foldLoop temp (stepBack temp (start + lineWrap)) 73).map (fun r =>
      (temp.drop start).take (stepBack temp (start + lineWrap) - start) ++ [13, 10, 32] ++ r)
  else none
termination_by temp.length - start
decreasing_by omega

/-- `generateValue` after the content line `temp` has been assembled, property.py:359-390. -/
def foldLine (temp : Bytes) : Option Bytes :=
  if temp.length < 75 then some (temp ++ [13, 10])
  else (foldLoop temp 0 74).map (· ++ [13, 10])

/-- `ins.readline()`: the text up to and including the first LF, and the rest. -/
def readline (s : Bytes) : Bytes × Bytes :=
  match s with
  | [] => ([], [])
  | c :: s => if c = 10 then ([10], s) else let r := readline s; (c :: r.1, r.2)

/-- Removal of the line ending, utils.py:32-40, 54-62. -/
def chomp (l : Bytes) : Bytes :=
  match l.reverse with
  | 10 :: 13 :: r => r.reverse
  | 10 :: r => r.reverse
  | 13 :: r => r.reverse
  | _ => l

/-- `str.isspace` of a one-byte string. -/
def isSpaceByte (b : Nat) : Bool := b == 32 || (9 ≤ b && b ≤ 13)

theorem readline_length (s : Bytes) : (readline s).1 ≠ [] → (readline s).2.length < s.length := by
  induction s with
  | nil => simp [readline]
  | cons c s ih =>
    intro _
    simp only [readline]
    split
    · simp
    · simp only [List.length_cons]
      cases s with
      | nil => simp [readline]
      | cons d s =>
        have : (readline (d :: s)).1 ≠ [] := by simp only [readline]; split <;> simp
        have := ih this
        simp at this ⊢; omega

/-- The look-ahead loop of `readFoldedLine`, utils.py:49-79: from the current line and the stream
to the unfolded line, the line looked ahead (`none` at the end) and the rest of the stream. -/
def readAhead (line : Bytes) (s : Bytes) : Bytes × Option Bytes × Bytes :=
  if h : (readline s).1 = [] then (line, none, (readline s).2)
  else
    match chomp (readline s).1 with
    | [] => (line, some [], (readline s).2)
    | c :: next =>
      if isSpaceByte c then readAhead (line ++ next) (readline s).2
      else (line, some (c :: next), (readline s).2)
termination_by s.length
decreasing_by exact readline_length s h

/-- `readFoldedLine(ins, lines)`, utils.py:21-81; `ahead` is `lines[1]` and the result has the
unfolded line `lines[0]`, the new `lines[1]` and the rest of the stream.  `none` is the result
`False`. -/
def readFolded (ahead : Option Bytes) (s : Bytes) : Option (Bytes × Option Bytes × Bytes) :=
  match ahead with
  | some l => some (readAhead l s)
  | none => if (readline s).1 = [] then none else some (readAhead (chomp (readline s).1) (readline s).2)

end PyCal
