import Verif.Model.Text

/-!
# Text escaping, parameter encoding and list values: utils.py

`StringIO` outputs are modelled by the text written.  Raising `ValueError` is `none`.
-/

namespace PyCal

/-- `ParserContext` settings, parser.py:24-29. -/
inductive PMode | allow | ignore | fix | raise
  deriving DecidableEq, Repr

/-- `"\r\n;\\,"`, utils.py:100. -/
def isEscapee (c : Char) : Bool :=
  c = '\r' || c = '\n' || c = ';' || c = '\\' || c = ','

/-- The escape letter, utils.py:108-118. -/
def escapeLetter (c : Char) : Char :=
  if c = '\r' then 'r' else if c = '\n' then 'n' else c

theorem dropWhile_cons_lt {p : Char → Bool} {s : List Char} {c : Char} {r : List Char}
    (h : s.dropWhile p = c :: r) : r.length < s.length := by
  have := (List.dropWhile_sublist (l := s) p).length_le
  rw [h] at this; simp at this; omega

/-- `writeTextValue` / `escapeTextValue`, utils.py:91-131: the segment loop.  The argument is the
text from `start_pos` on; `find_first_of` (utils.py:84-88) splits it into the segment before the
first special character and the rest. -/
def escapeText (value : List Char) : List Char :=
  value.takeWhile (fun c => !isEscapee c) ++
  match h : value.dropWhile (fun c => !isEscapee c) with
  | [] => []
  | c :: rest => '\\' :: escapeLetter c :: escapeText rest
termination_by value.length
decreasing_by exact dropWhile_cons_lt h

/-- What is written for an escaped character, utils.py:150-178; `none` is `ValueError`.  `colon`
is `INVALID_COLON_ESCAPE_SEQUENCE` and `other` is `INVALID_ESCAPE_SEQUENCES`. -/
def unescape (colon other : PMode) (c : Char) : Option (List Char) :=
  if c = 'r' then some ['\r']
  else if c = 'n' then some ['\n']
  else if c = 'N' then some ['\n']
  else if c = '\\' then some ['\\']
  else if c = ',' then some [',']
  else if c = ';' then some [';']
  else if c = ':' then
    match colon with
    | .raise => none
    | .fix => some [':']
    | _ => some []
  else
    match other with
    | .raise => none
    | .fix => some [c]
    | _ => some []

/-- `decodeTextValue`, utils.py:134-192: the segment loop, the argument being the text from
`start_pos` on.  A lone trailing backslash is dropped. -/
def decodeText (colon other : PMode) (value : List Char) : Option (List Char) :=
  match h : value.dropWhile (fun c => c ≠ '\\') with
  | [] => some (value.takeWhile (fun c => c ≠ '\\'))
  | [_] => some (value.takeWhile (fun c => c ≠ '\\'))
  | _ :: c :: rest =>
    match unescape colon other c with
    | none => none
    | some w => (decodeText colon other rest).map
        (fun r => value.takeWhile (fun c => c ≠ '\\') ++ w ++ r)
termination_by value.length
decreasing_by
  have := dropWhile_cons_lt h
  simp at this; omega

/-- `encodeParameterValue`, utils.py:195-226, the loop with the previous character `last`
(`none` is `''`).  The quick exit when nothing needs encoding (utils.py:202-207, 226) returns what
the loop would. -/
def encodeParamLoop (last : Option Char) : List Char → List Char
  | [] => []
  | c :: rest =>
    (if c = '\r' then ['^', 'n']
     else if c = '\n' then (if last ≠ some '\r' then ['^', 'n'] else [])
     else if c = '"' then ['^', '\'']
     else if c = '^' then ['^', '^']
     else [c]) ++ encodeParamLoop (some c) rest

/-- `encodeParameterValue`, utils.py:195-226. -/
def encodeParam (value : List Char) : List Char :=
  if value.any (fun c => c = '\r' || c = '\n' || c = '"' || c = '^') then
    encodeParamLoop none value
  else value

/-- `decodeParameterValue`, utils.py:229-259, the loop with the previous character `last`
(`none` is `''`). -/
def decodeParamLoop (last : Option Char) : List Char → List Char
  | [] => if last = some '^' then ['^'] else []
  | c :: rest =>
    if last = some '^' then
      if c = 'n' then '\n' :: decodeParamLoop (some c) rest
      else if c = '\'' then '"' :: decodeParamLoop (some c) rest
      else if c = '^' then '^' :: decodeParamLoop none rest
      else '^' :: c :: decodeParamLoop (some c) rest
    else if c ≠ '^' then c :: decodeParamLoop (some c) rest
    else decodeParamLoop (some c) rest

/-- `decodeParameterValue`, utils.py:229-259 (argument not `None`). -/
def decodeParam (value : List Char) : List Char :=
  if '^' ∈ value then decodeParamLoop none value else value

/-- The splitting loop of `parseTextList`, utils.py:267-276: the raw items.  `pre` is `pre_s` and
`item` the characters collected so far. -/
def splitList (sep : Char) (pre : Option Char) (item : List Char) : List Char → List (List Char)
  | [] => [item]
  | s :: rest =>
    if s = sep ∧ pre ≠ some '\\' then item :: splitList sep (some s) [] rest
    else splitList sep (some s) (item ++ [s]) rest

/-- `parseTextList`, utils.py:263-280, as the list of results; the caller gets the bare string
instead when there is one result and `always_list` is false. -/
def parseTextList (colon other : PMode) (sep : Char) (data : List Char) :
    Option (List (List Char)) :=
  (splitList sep none [] data).mapM (decodeText colon other)

/-- `sep.join(...)`. -/
def joinSep (sep : Char) : List (List Char) → List Char
  | [] => []
  | [a] => a
  | a :: b :: r => a ++ sep :: joinSep sep (b :: r)

/-- `generateTextList`, utils.py:283-293 (a bare string is a one-element list). -/
def generateTextList (sep : Char) (data : List (List Char)) : List Char :=
  joinSep sep (data.map escapeText)

/-- A component of an `N` or `ADR` value: a string or a tuple of strings. -/
inductive Comp
  | str (s : List Char)
  | tup (l : List (List Char))
  deriving DecidableEq, Repr

/-- The splitting loop of `parseDoubleNestedList`, utils.py:297-322: the raw items.  `items` are
the finished items of the current component, `item` is `items[-1]`. -/
def splitNested (pre : Option Char) (items : List (List Char)) (item : List Char) :
    List Char → List (List (List Char))
  | [] => [items ++ [item]]
  | s :: rest =>
    if s = ';' ∧ pre ≠ some '\\' then (items ++ [item]) :: splitNested (some s) [] [] rest
    else if s = ',' ∧ pre ≠ some '\\' then splitNested (some s) (items ++ [item]) [] rest
    else splitNested (some s) items (item ++ [s]) rest

/-- One component from its raw items, utils.py:304-309 and 317-322. -/
def nestedComp (colon other : PMode) (items : List (List Char)) : Option Comp :=
  match items with
  | [] => some (.str [])
  | [a] => (decodeText colon other a).map .str
  | l => (l.mapM (decodeText colon other)).map .tup

/-- `parseDoubleNestedList`, utils.py:297-334; `over` is `INVALID_ADR_N_VALUES`. -/
def parseNested (colon other over : PMode) (maxsize : Nat) (data : List Char) :
    Option (List Comp) :=
  match (splitNested none [] [] data).mapM (nestedComp colon other) with
  | none => none
  | some results =>
    let results := results ++ List.replicate (maxsize - results.length) (.str [])
    if results.length > maxsize then
      match over with
      | .fix => some (results.take maxsize)
      | .raise => none
      | _ => some results
    else some results

/-- `_writeElement`, utils.py:339-347. -/
def writeElement : Comp → List Char
  | .str s => escapeText s
  | .tup l => joinSep ',' (l.map escapeText)

/-- `generateDoubleNestedList`, utils.py:337-355. -/
def generateNested (data : List Comp) : List Char :=
  joinSep ';' (data.map writeElement)

end PyCal
