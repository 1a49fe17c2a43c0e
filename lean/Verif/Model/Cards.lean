import Verif.Model.Container

/-!
# Several cards in one text, and components added to a calendar

`Card.parseMultipleTextData` (vcard/card.py) and `Calendar.parseComponent` (icalendar/calendar.py) with
`TimezoneDatabase.cacheTimezone` (timezonedb.py).  As in `Model/Container.lean` lines are unfolded and a
property is its name and its line.
-/

namespace PyCal
namespace Cards
open Cont

/-- What reading can end with; `hang`: it does not end. -/
inductive Res (α : Type) where
  | ok (v : α)
  | invalidData
  | invalidProperty
  | hang
deriving DecidableEq, Repr

def Res.map {α β : Type} (f : α → β) : Res α → Res β
  | .ok v => .ok (f v)
  | .invalidData => .invalidData
  | .invalidProperty => .invalidProperty
  | .hang => .hang

/-- The settings: whether `BLANK_LINES_IN_DATA` is `PARSER_RAISE`, `Property.parseText` and
`validProperty`. -/
structure Env where
  blankRaise : Bool
  parseProp : List Char → PropText.Parse CProp
  valid : CProp → Bool

def vcard : List Char := "VCARD".toList

/-- `parseMultipleTextData`, vcard/card.py:79-157.  `look` is `state == LOOK_FOR_VCARD`, `props` the
properties of `card`, which is new after each `END:VCARD`. -/
def loop (env : Env) (look : Bool) (props : List CProp) (results : List Component) :
    List (List Char) → Res (List Component)
  | [] => if look then .ok results else .invalidData
  | line :: lines =>
    if look then
      if line = beginText ++ vcard then loop env false props results lines
      else if line = [] then
        if env.blankRaise then .invalidData else loop env look props results lines
      else .invalidData
    else if line = endText ++ vcard then
      if !(props.any fun p => decide (p.key = "VERSION".toList)) then .invalidData
      else loop env true [] (results ++ [.mk vcard props []]) lines
    else if line = [] then
      if env.blankRaise then .invalidData else loop env look props results lines
    else
      match env.parseProp line with
      | .invalid => .invalidProperty
      | .hang => .hang
      | .ok p =>
        if !env.valid p then .invalidData else loop env look (props ++ [p]) results lines

def parseMultiple (env : Env) (lines : List (List Char)) : Res (List Component) :=
  loop env true [] [] lines

/-- `Property.parseText` of vCard up to the value, property.py:221-254 and vcard/property.py:206-265.
That the value can be read by its class is not in it; the group is part of the line. -/
def readProp (line : List Char) : PropText.Parse CProp :=
  match PropText.parseText true {} line with
  | .ok (_, name, _, _) => .ok ⟨name, line⟩
  | .invalid => .invalid
  | .hang => .hang

/-- The text value of a property's line, with the default settings of `ParserContext`.  A VALUE parameter is not looked
at. -/
def textValue (line : List Char) : Option (List Char) :=
  match PropText.parseText true {} line with
  | .ok (_, _, _, some v) => decodeText .fix .raise v
  | _ => none

/-- `Card.validProperty`, vcard/card.py:176-183. -/
def validCard (p : CProp) : Bool :=
  if p.name = "VERSION".toList then decide (textValue p.text = some "3.0".toList) else true

/-- `Card` with the default settings. -/
def cardEnv : Env where
  blankRaise := false
  parseProp := readProp
  valid := validCard

end Cards

namespace AddTo
open Cont

/-- `LOOK_FOR_VCALENDAR`, `GET_PROPERTY_OR_COMPONENT`, `GOT_VCALENDAR`: calendar.py:207-209. -/
inductive Mode where
  | look
  | get
  | got
deriving DecidableEq, Repr

/-- The state of the loop of `parseComponent`: the calendar (which has components already) and the
components being read, the innermost first. -/
structure St where
  mode : Mode
  root : Frame
  stack : List Frame

/-- The end of a component, calendar.py:262-269. -/
def close (env : Cont.Env) (st : St) (f : Frame) (rest : List Frame) : Except Err St :=
  match env.finalise (.mk f.type f.props f.subs) with
  | none => .error .valueError
  | some c =>
    match rest with
    | [] => (addSub st.root c).map fun r => { st with root := r, stack := [] }
    | g :: rest => (addSub g c).map fun g => { st with stack := g :: rest }

def blank (env : Cont.Env) (st : St) : Except Err St :=
  if env.blankRaise then .error .invalidData else .ok st

/-- The body of the loop, calendar.py:220-292. -/
def step (env : Cont.Env) (st : St) (line : List Char) : Except Err St :=
  match st.mode with
  | .got => .ok st
  | .look =>
    if line = beginText ++ env.container then .ok { st with mode := .get }
    else if line = [] then blank env st
    else .error .invalidData
  | .get =>
    if beginText.isPrefixOf line then
      .ok { st with stack := ⟨makeType (line.drop 6), [], []⟩ :: st.stack }
    else if line = endText ++ env.container then .ok { st with mode := .got }
    else
      match st.stack with
      | [] => if line = [] then blank env st else .ok st
      | f :: rest =>
        if line = endText ++ f.type then close env st f rest
        else if line = [] then blank env st
        else
          match env.parseProp line with
          | none => .error .invalidProperty
          | some p => .ok { st with stack := { f with props := f.props ++ [p] } :: rest }

/-- The loop, calendar.py:220-296: an exception leaves the calendar as it is then; after
`GOT_VCALENDAR` no line is read. -/
def run (env : Cont.Env) : St → List (List Char) → St × Option Err
  | st, [] => (st, none)
  | st, line :: lines =>
    if st.mode = .got then (st, none)
    else
      match step env st line with
      | .ok st => run env st lines
      | .error e => (st, some e)

/-- `result`, calendar.py:246-248: the first component begun, with all that was read into it.  It is
begun in the calendar, so that it is the outermost of those being read or the first that was added to
the calendar, which had `n` components. -/
def first (n : Nat) (st : St) : Option Component :=
  match st.root.subs[n]? with
  | some c => some c
  | none => st.stack.getLast?.map fun f => .mk f.type f.props f.subs

/-- `Calendar.parseComponent`, calendar.py:203-306: the calendar afterwards, and the result or the
exception.  Not in it: the merging of time zones into the database (`TzDb.merge`). -/
def parseComponent (env : Cont.Env) (cal : Frame) (lines : List (List Char)) :
    Frame × Except Err (Option Component) :=
  let r := run env ⟨.look, cal, []⟩ lines
  match r.2 with
  | some e => (r.1.root, .error e)
  | none => (r.1.root, .ok (first cal.subs.length r.1))

/-- How `cacheTimezone` ends. -/
inductive Cached where
  | done
  | noTimezone
  | other (e : Err)
deriving DecidableEq, Repr

/-- `cacheTimezone` after the path was found to be in the database, timezonedb.py:119-126: the calendar
of the database afterwards.  `file` are the lines of the file, `none` if it is no file or cannot be
read.  `InvalidProperty` and `ValueError` are not caught. -/
def cacheFile (env : Cont.Env) (cal : Frame) (file : Option (List (List Char))) : Frame × Cached :=
  match file with
  | none => (cal, .noTimezone)
  | some lines =>
    match parseComponent env cal lines with
    | (cal, .ok _) => (cal, .done)
    | (cal, .error .invalidData) => (cal, .noTimezone)
    | (cal, .error e) => (cal, .other e)

end AddTo
end PyCal
