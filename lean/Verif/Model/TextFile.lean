import Verif.Model.Container
import Verif.Model.Folding

/-!
# Calendar data as bytes

The byte strings of Python 2 are UTF-8 texts; the modules about lines and properties have characters,
`Model/Folding.lean` has bytes.  Here they are put together.
-/

namespace PyCal
namespace TextFile
open Cont

/-- The UTF-8 encoding of a character. -/
def utf8Char (c : Char) : Bytes :=
  let n := c.toNat
  if n < 0x80 then [n]
  else if n < 0x800 then [0xC0 + n / 64, 0x80 + n % 64]
  else if n < 0x10000 then [0xE0 + n / 4096, 0x80 + n / 64 % 64, 0x80 + n % 64]
  else [0xF0 + n / 262144, 0x80 + n / 4096 % 64, 0x80 + n / 64 % 64, 0x80 + n % 64]

def utf8 (s : List Char) : Bytes := s.flatMap utf8Char

/-- What is written for a line of `generate`, with its end: a `BEGIN:` or `END:` line as it is
(componentbase.py:271-272, 281-282), a property folded (property.py:359-390).  Properties called `BEGIN`
or `END` are taken for such lines.  `none`: the writer does not end. -/
def lineText (l : List Char) : Option Bytes :=
  if beginText.isPrefixOf l || endText.isPrefixOf l then some (utf8 l ++ [13, 10]) else foldLine (utf8 l)

/-- `getText` of a component, componentbase.py:264-282; `none` is an exception or no end. -/
def writeText (o : Order) (c : Component) : Option Bytes :=
  match generate o c with
  | some ls => (ls.mapM lineText).map List.flatten
  | none => none

/-- The loop `while readFoldedLine(ins, lines)`, containerbase.py:128-130: the values of `lines[0]`. -/
def readLines (fuel : Nat) (ahead : Option Bytes) (s : Bytes) : Option (List Bytes) :=
  match fuel with
  | 0 => none
  | fuel + 1 =>
    match readFolded ahead s with
    | none => some []
    | some (l, ahead, s) => (readLines fuel ahead s).map (l :: ·)

end TextFile
end PyCal
