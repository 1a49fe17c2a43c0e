import Verif.Model.ZonalZone
import Mathlib.Data.List.Sort

/-!
# The time zone compiler: files of time zone data and files of calendar data

`src/zonal/tzconvert.py`, and `RuleSet` of `src/zonal/rule.py`.  Exceptions are `none`.
-/

namespace PyCal
namespace Zonal

/-! ### Rule sets -/

/-- The loop of `RuleSet.parse`, zonal/rule.py:67-76, with the name so far.  The name is the second item of
`split(" ")`, which may be empty. -/
def ruleSetLoop : (name : List Char) → List (List Char) → Option (List Char × List TzRule)
  | name, [] => some (name, [])
  | name, line :: ls =>
    match splitOn ' ' (expandTabs line) with
    | _ :: n :: _ =>
      if n = [] then none
      else if (if name = [] then n else name) ≠ n then none
      else
        match TzRule.parse line, ruleSetLoop (if name = [] then n else name) ls with
        | some r, some (m, rs) => some (m, r :: rs)
        | _, _ => none
    | _ => none

/-- `RuleSet.parse` on a new object, zonal/rule.py:58-76. -/
def ruleSetParse (lines : List Char) : Option (List Char × List TzRule) :=
  ruleSetLoop [] (splitOn '\n' lines)

/-- `RuleSet.generate`, zonal/rule.py:78-85. -/
def ruleSetGenerate (rules : List TzRule) : List Char := joinFields '\n' (rules.map TzRule.generate)

/-! ### Files of time zone data -/

/-- `for line in f`: the lines with their ends; the last line may be without. -/
def fileLines : List Char → List (List Char)
  | [] => []
  | c :: s =>
    if c = '\n' then ['\n'] :: fileLines s
    else
      match fileLines s with
      | [] => [[c]]
      | l :: ls => (c :: l) :: ls

/-- White space in `split()` and `strip()`. -/
def isSpace (c : Char) : Bool :=
  c = ' ' || c = '\t' || c = '\n' || c = '\r' || c = '\x0b' || c = '\x0c'

/-- `s.split()`; `cur` is the word so far. -/
def wordsLoop : (cur : List Char) → List Char → List (List Char)
  | cur, [] => if cur = [] then [] else [cur]
  | cur, c :: s =>
    if isSpace c then (if cur = [] then wordsLoop [] s else cur :: wordsLoop [] s)
    else wordsLoop (cur ++ [c]) s

/-- `tzconvert.__init__`, tzconvert.py:44-48.  The dictionaries are lists of their items; of a `RuleSet`
only its rules are used. -/
structure TzData where
  rules : List (List Char × List TzRule) := []
  zones : List (List Char × Zone) := []
  links : List (List Char × List Char) := []
deriving DecidableEq, Repr

/-- `d[k] = v`. -/
def setItem {α : Type} (k : List Char) (v : α) : List (List Char × α) → List (List Char × α)
  | [] => [(k, v)]
  | x :: d => if x.1 = k then (k, v) :: d else x :: setItem k v d

/-- `parseRule` after the line has been read, tzconvert.py:81-84: the rule goes behind the others of its
name. -/
def TzData.addRule (r : TzRule) (st : TzData) : TzData :=
  { st with rules := setItem r.name ((st.rules.lookup r.name).getD [] ++ [r]) st.rules }

/-- The loop of `parseZone`, tzconvert.py:86-99: the lines of the zone, and those from the next line on that
is not one. -/
def zoneBlock : List (List Char) → List (List Char) × List (List Char)
  | [] => ([], [])
  | line :: ls =>
    if "\t".toList.isPrefixOf line || " ".toList.isPrefixOf line then
      (line :: (zoneBlock ls).1, (zoneBlock ls).2)
    else if "#".toList.isPrefixOf line || line.isEmpty then zoneBlock ls
    else ([], line :: ls)

theorem zoneBlock_length (ls : List (List Char)) : (zoneBlock ls).2.length ≤ ls.length := by
  induction ls with
  | nil => simp [zoneBlock]
  | cons l ls ih =>
    unfold zoneBlock
    split
    · simp only [List.length_cons]; omega
    · split
      · simp only [List.length_cons]; omega
      · simp

/-- The loops of `parse`, tzconvert.py:57-76 (`parseLink`: 107-112), on lines without their ends.  The line after a zone, which
`parseZone` has read, goes through the inner loop. -/
def parseLoop (st : TzData) (lines : List (List Char)) : Option TzData :=
  match lines with
  | [] => some st
  | line :: rest =>
    if "#".toList.isPrefixOf line || line.isEmpty then parseLoop st rest
    else if "Rule".toList.isPrefixOf line then
      match TzRule.parse line with
      | some r => parseLoop (st.addRule r) rest
      | none => none
    else if "Zone".toList.isPrefixOf line then
      match Zone.parse (joinFields '\n' (line :: (zoneBlock rest).1)) with
      | some z => parseLoop { st with zones := setItem z.name z st.zones } (zoneBlock rest).2
      | none => none
    else if "Link".toList.isPrefixOf line then
      match wordsLoop [] line with
      | _ :: from_ :: to_ :: _ => parseLoop { st with links := setItem to_ from_ st.links } rest
      | _ => none
    else if wordsLoop [] line ≠ [] then none
    else parseLoop st rest
termination_by lines.length
decreasing_by
  all_goals simp only [List.length_cons]
  all_goals have := zoneBlock_length rest
  all_goals omega

/-- `parse`, tzconvert.py:53-79, of a file with the text given: `line[:-1]` is the line without its end. -/
def TzData.parse (st : TzData) (text : List Char) : Option TzData :=
  parseLoop st ((fileLines text).map List.dropLast)

/-! ### Files of calendar data -/

/-- The loop of `s.replace(old, new)` for an `old` that is not empty; `skip` is what is left of an
occurrence. -/
def replaceLoop (old new : List Char) : (skip : Nat) → List Char → List Char
  | _, [] => []
  | skip + 1, _ :: s => replaceLoop old new skip s
  | 0, c :: s =>
    if old.isPrefixOf (c :: s) then new ++ replaceLoop old new (old.length - 1) s
    else c :: replaceLoop old new 0 s

/-- `s.replace(old, new)`. -/
def replaceText (old new s : List Char) : List Char := replaceLoop old new 0 s

/-- The files in `outputdir` called like a zone with `.ics`, by the name of the zone.  (Names that lead to
other directories, and names that are directories, are not told apart.) -/
abbrev Files := List (List Char × List Char)

/-- The files of the zones, tzconvert.py:157-181, in a directory just emptied.  `text` is what `getText`
makes of a zone. -/
def zoneFiles (text : Zone → List Char) (zones : List (List Char × Zone)) : Files :=
  zones.foldl (fun fs z => setItem z.2.name (text z.2) fs) []

/-- `parseWindowsAliases`, tzconvert.py:123-129: each `mapZone` by its `territory`, `other` and `type`. -/
def addAliases (links : List (List Char × List Char)) (l : List (List Char × List Char × List Char)) :
    List (List Char × List Char) :=
  l.foldl (fun ls m =>
    if m.1 = "001".toList then
      (if (ls.lookup m.2.1).isNone then ls ++ [(m.2.1, m.2.2)] else ls)
    else ls) links

/-- The loop over the links, tzconvert.py:187-208: the files, and `link_list` by its pairs. -/
def linkLoop : Files → List (List Char × List Char) → Files × List (List Char × List Char)
  | files, [] => (files, [])
  | files, (to_, from_) :: ls =>
    match files.lookup from_ with
    | none => linkLoop files ls
    | some t =>
      ((linkLoop (setItem to_ (replaceText from_ to_ t) files) ls).1,
       (to_, from_) :: (linkLoop (setItem to_ (replaceText from_ to_ t) files) ls).2)

/-- `generateZoneinfoFiles`, tzconvert.py:155-213, with links and without `filterzones`: the files, and the
pairs of names in `links.txt`. -/
def zoneinfoFiles (text : Zone → List Char) (st : TzData)
    (aliases : List (List Char × List Char × List Char)) : Files × List (List Char × List Char) :=
  linkLoop (zoneFiles text st.zones) ((addAliases st.links aliases).insertionSort fun a b => a.1 ≤ b.1)

end Zonal
end PyCal
