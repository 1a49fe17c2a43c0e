import Mathlib.Data.List.Sort
import Mathlib.Data.String.Basic
import Verif.Model.Text
import Verif.Model.Escape

/-!
# The text of a property: name, parameters and value

`PropertyBase.parseText`/`generateValue` (property.py), `Parameter` (parameter.py), the vCard
variant of `parseTextParameters` (vcard/property.py) and `strduptokenstr` (stringutils.py).
The folding of the generated line is in `Model/Folding.lean`, the values of each type elsewhere: here
the value is its text.
-/

namespace PyCal
namespace PropText

/-- The loop over a quoted string in `strduptokenstr`, stringutils.py:31-37; the result is the
quoted text and what follows the closing quote, `none` if there is none. -/
def scanQuoted (skip : Bool) : List Char → Option (List Char × List Char)
  | [] => none
  | s :: rest =>
    if skip then (scanQuoted false rest).map fun v => (s :: v.1, v.2)
    else if s = '"' then some ([], rest)
    else (scanQuoted (decide (s = '\\')) rest).map fun v => (s :: v.1, v.2)

/-- `strduptokenstr`, stringutils.py:20-46.  The outer `none` is the `IndexError` on an empty
text, the inner one the result `None`. -/
def dupToken (txt tokens : List Char) : Option (Option (List Char) × List Char) :=
  match txt with
  | [] => none
  | c :: _ =>
    let txt := if c = ' ' then txt.dropWhile isSpace else txt
    match txt with
    | [] => some (none, [])
    | '"' :: rest =>
      match scanQuoted false rest with
      | some (v, after) => some (some v, after)
      | none => some (none, '"' :: rest)
    | txt => some (some (txt.takeWhile fun c => decide (c ∉ tokens)),
                   txt.dropWhile fun c => decide (c ∉ tokens))

/-- `Parameter`, parameter.py:28-37. -/
structure Param where
  name : List Char
  values : List (List Char)
deriving DecidableEq, Repr

/-- The key in `mParameters`: `name.upper()` (ASCII letters). -/
def upper (s : List Char) : List Char := s.map Char.toUpper

def Param.key (p : Param) : List Char := upper p.name

/-- `Parameter.generateValue`, parameter.py:100-109. -/
def genValue (v : List Char) : List Char :=
  let e := encodeParam v
  if ':' ∈ e ∨ ';' ∈ e ∨ ',' ∈ e then '"' :: e ++ ['"'] else e

/-- `Parameter.generate`, parameter.py:77-98. -/
def genParam (p : Param) : List Char :=
  p.name ++ if p.values = [] then [] else
    '=' :: joinSep ',' ((p.values.insertionSort (· ≤ ·)).map genValue)

/-- A property: group (vCard only), name, parameters and the text of the value.  The dictionary
`mParameters` has under each key the parameters with that key, in order; here they are in one
list. -/
structure Line where
  group : Option (List Char) := none
  name : List Char
  params : List Param
  value : List Char
deriving DecidableEq, Repr

/-- `PropertyBase.generateValue` up to the folding, property.py:337-363, with `novalue` false and
after `setupValueParameter`.  Keys in ascending order; for each the parameters in their order. -/
def generate (l : Line) : List Char :=
  (match l.group with
    | some g => if g = [] then [] else g ++ ['.']
    | none => []) ++
  l.name ++ ((l.params.insertionSort fun a b => a.key ≤ b.key).flatMap fun p => ';' :: genParam p) ++
  ':' :: l.value

/-- The rest after a token is no longer than the text. -/
theorem scanQuoted_length {txt : List Char} : ∀ {skip : Bool} {v rest : List Char},
    scanQuoted skip txt = some (v, rest) → rest.length < txt.length := by
  induction txt with
  | nil => intro skip v rest h; simp [scanQuoted] at h
  | cons c t ih =>
    intro skip v rest h
    rw [scanQuoted] at h
    split_ifs at h with h1 h2
    · simp only [Option.map_eq_some_iff, Prod.mk.injEq] at h
      obtain ⟨⟨a, b⟩, hb, -, rfl⟩ := h
      have := ih hb
      simp only [List.length_cons]
      omega
    · simp only [Option.some.injEq, Prod.mk.injEq] at h
      obtain ⟨-, rfl⟩ := h
      simp
    · simp only [Option.map_eq_some_iff, Prod.mk.injEq] at h
      obtain ⟨⟨a, b⟩, hb, -, rfl⟩ := h
      have := ih hb
      simp only [List.length_cons]
      omega

theorem length_dropWhile_le (p : Char → Bool) (l : List Char) :
    (l.dropWhile p).length ≤ l.length := (List.dropWhile_suffix p).length_le

theorem dupToken_length {txt tokens : List Char} {v : Option (List Char)} {rest : List Char}
    (h : dupToken txt tokens = some (v, rest)) : rest.length ≤ txt.length := by
  cases txt with
  | nil => simp [dupToken] at h
  | cons c t =>
    simp only [dupToken] at h
    have hl : (if c = ' ' then (c :: t).dropWhile isSpace else c :: t).length ≤ (c :: t).length := by
      split
      · exact length_dropWhile_le _ _
      · exact le_rfl
    generalize (if c = ' ' then (c :: t).dropWhile isSpace else c :: t) = d at h hl
    split at h
    · simp only [Option.some.injEq, Prod.mk.injEq] at h
      obtain ⟨-, rfl⟩ := h
      simp
    · split at h
      · rename_i hq
        simp only [Option.some.injEq, Prod.mk.injEq] at h
        obtain ⟨-, rfl⟩ := h
        have := scanQuoted_length hq
        simp only [List.length_cons] at hl ⊢
        omega
      · simp only [Option.some.injEq, Prod.mk.injEq] at h
        obtain ⟨-, rfl⟩ := h
        exact hl
    · simp only [Option.some.injEq, Prod.mk.injEq] at h
      obtain ⟨-, rfl⟩ := h
      exact le_trans (length_dropWhile_le _ _) hl

/-- The additional values of a parameter, property.py:304-309; `none` when an exception is
raised. -/
def parseValues (txt : List Char) : Option (List (List Char) × List Char) :=
  match txt with
  | [] => none
  | c :: t =>
    if c = ',' then
      match h : dupToken t [':', ';', ','] with
      | some (some v, t') => (parseValues t').map fun r => (decodeParam v :: r.1, r.2)
      | _ => none
    else some ([], c :: t)
termination_by txt.length
decreasing_by
  have := dupToken_length h
  simp only [List.length_cons]
  omega

theorem parseValues_length {txt : List Char} {r : List (List Char) × List Char}
    (h : parseValues txt = some r) : r.2.length ≤ txt.length := by
  induction hn : txt.length using Nat.strong_induction_on generalizing txt r with
  | _ n ih =>
    rw [parseValues.eq_def] at h
    split at h
    · simp at h
    · rename_i c t
      split_ifs at h with h1
      · split at h
        · rename_i v t' hd
          simp only [Option.map_eq_some_iff] at h
          obtain ⟨r', hr', rfl⟩ := h
          have h2 := dupToken_length hd
          simp only [List.length_cons] at hn
          have := ih t'.length (by omega) hr' rfl
          simp only
          omega
        · simp at h
      · simp only [Option.some.injEq] at h
        subst h
        exact hn.le

/-- What parsing a line ends in: a result (the value is `none` if the text ended before it), an
exception, or it does not end. -/
inductive Parse (α : Type) where
  | ok (v : α)
  | invalid
  | hang
deriving DecidableEq, Repr

/-- The settings of `ParserContext` that matter here, parser.py:42-45. -/
structure Config where
  noValues : PMode := .allow
  base64 : PMode := .fix

/-- What one parameter gives: name and first value (`none`: without a value), the text after them,
and whether the spaces of the value are to be removed.  The outer `none` is an exception.
property.py:286-297 and vcard/property.py:216-244. -/
def parseParam (vcard : Bool) (cfg : Config) (txt : List Char) :
    Option ((List Char × Option (List Char)) × List Char × Bool) :=
  if vcard then
    match dupToken txt ['=', ':', ';'] with
    | some (some name, t) =>
      match t with
      | [] => none
      | '=' :: t =>
        match dupToken t [':', ';', ','] with
        | some (some v, t) => some ((name, some (decodeParam v)), t, false)
        | _ => none
      | t =>
        if cfg.noValues = .allow then
          if upper name = "BASE64".toList ∧ cfg.base64 = .fix then
            some (("ENCODING".toList, some ['b']), t, true)
          else some ((name, none), t, false)
        else none
    | _ => none
  else
    match dupToken txt ['='] with
    | some (some name, t) =>
      match dupToken t.tail [':', ';', ','] with
      | some (some v, t) => some ((name, some (decodeParam v)), t, false)
      | _ => none
    | _ => none

theorem parseParam_length {vcard : Bool} {cfg : Config} {txt : List Char}
    {r : (List Char × Option (List Char)) × List Char × Bool}
    (h : parseParam vcard cfg txt = some r) : r.2.1.length ≤ txt.length := by
  rw [parseParam] at h
  split at h
  · split at h
    · rename_i name t hd
      have h1 := dupToken_length hd
      split at h
      · simp at h
      · rename_i t'
        split at h
        · rename_i v t'' hd'
          have h2 := dupToken_length hd'
          simp only [Option.some.injEq] at h
          subst h
          simp only [List.length_cons] at h1
          simp only
          omega
        · simp at h
      · split_ifs at h with h2 h3
        · simp only [Option.some.injEq] at h
          subst h
          exact h1
        · simp only [Option.some.injEq] at h
          subst h
          exact h1
    · simp at h
  · split at h
    · rename_i name t hd
      have h1 := dupToken_length hd
      split at h
      · rename_i v t'' hd'
        have h2 := dupToken_length hd'
        simp only [Option.some.injEq] at h
        subst h
        simp only [List.length_tail] at h2
        simp only
        omega
      · simp at h
    · simp at h

/-- `parseTextParameters`, property.py:277-317 and vcard/property.py:206-265: the loop.  In the vCard
variant nothing happens when the text goes on with another character, so the loop does not end. -/
def parseParams (vcard : Bool) (cfg : Config) (strip : Bool) (txt : List Char) :
    Parse (List Param × Option (List Char)) :=
  match txt with
  | [] => .ok ([], none)
  | c :: t =>
    if c = ';' then
      match hp : parseParam vcard cfg t with
      | none => .invalid
      | some ((name, v), t1, s) =>
        match hv : parseValues t1 with
        | none => .invalid
        | some (vs, t2) =>
          match parseParams vcard cfg (strip || s) t2 with
          | .ok (ps, value) => .ok (⟨name, v.toList ++ vs⟩ :: ps, value)
          | .invalid => .invalid
          | .hang => .hang
    else if c = ':' then
      .ok ([], some (if vcard && strip then t.filter (fun c => decide (c ≠ ' ')) else t))
    else if vcard then .hang else .invalid
termination_by txt.length
decreasing_by
  have h1 := parseParam_length hp
  have h2 := parseValues_length hv
  simp only [List.length_cons]
  simp only at h1 h2
  omega

/-- `prop_name.split(".", 1)`, property.py:240-249. -/
def splitGroup (name : List Char) : Option (List Char) × List Char :=
  if '.' ∈ name then
    (some (name.takeWhile (fun c => decide (c ≠ '.'))), (name.dropWhile (fun c => decide (c ≠ '.'))).tail)
  else (none, name)

/-- `PropertyBase.parseText`, property.py:221-254, up to the value: group, name, parameters and the
text that is given to the value's `parse`. -/
def parseText (vcard : Bool) (cfg : Config) (data : List Char) :
    Parse (Option (List Char) × List Char × List Param × Option (List Char)) :=
  match dupToken data [';', ':'] with
  | some (some name, txt) =>
    if name = [] then .invalid
    else
      match parseParams vcard cfg false txt with
      | .ok (ps, value) =>
        let gn := if vcard then splitGroup name else (none, name)
        .ok (gn.1, gn.2, ps, value)
      | .invalid => .invalid
      | .hang => .hang
  | _ => .invalid

end PropText
/-- `name.lower()` (ASCII letters). -/
def PropJSON.lower (s : List Char) : List Char := s.map Char.toLower

end PyCal
