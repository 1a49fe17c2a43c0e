import Mathlib.Data.List.Sort
import Mathlib.Data.String.Basic
import Verif.Model.Escape
import Verif.Model.PropertyText

/-!
# Components and the container: reading and writing

`ContainerBase.parse` (containerbase.py), `ComponentBase.generate` and the order in which properties and
components are written (componentbase.py).  A line is unfolded (`Model/Folding.lean` has the folding) and
a property is its name and the text of its line (`Model/PropertyText.lean` has what is in it).
-/

namespace PyCal
namespace Cont

/-- A property: its name and its line. -/
structure CProp where
  name : List Char
  text : List Char
deriving DecidableEq, Repr

/-- The key in `mProperties`: `getName().upper()`, componentbase.py:165-166. -/
def CProp.key (p : CProp) : List Char := PropText.upper p.name

/-- A component: `getType()`, `mProperties` and `mComponents`.  The dictionary has under each key the
properties with that key in order; here they are in one list. -/
inductive Component where
  | mk (type : List Char) (props : List CProp) (subs : List Component)
deriving Repr

namespace Component

def type : Component → List Char
  | mk t _ _ => t

def props : Component → List CProp
  | mk _ ps _ => ps

def subs : Component → List Component
  | mk _ _ ss => ss

end Component

mutual
def decEqComponent : (a b : Component) → Decidable (a = b)
  | .mk t ps ss, .mk t' ps' ss' =>
    match decEqComponents ss ss' with
    | .isTrue h => if h' : t = t' ∧ ps = ps' then .isTrue (by rw [h, h'.1, h'.2])
        else .isFalse fun e => h' (by injection e with e1 e2; exact ⟨e1, e2⟩)
    | .isFalse h => .isFalse fun e => h (by injection e)

def decEqComponents : (a b : List Component) → Decidable (a = b)
  | [], [] => .isTrue rfl
  | [], _ :: _ => .isFalse (by simp)
  | _ :: _, [] => .isFalse (by simp)
  | a :: as, b :: bs =>
    match decEqComponent a b, decEqComponents as bs with
    | .isTrue h, .isTrue h' => .isTrue (by rw [h, h'])
    | .isFalse h, _ => .isFalse fun e => h (by injection e)
    | _, .isFalse h => .isFalse fun e => h (by injection e)
end

instance : DecidableEq Component := decEqComponent

deriving instance DecidableEq for Except

/-! ## The order of writing -/

/-- `sortedPropertyKeys` from the sorted keys, componentbase.py:553-559: the loop over
`sortedPropertyKeyOrder()`. -/
def keyLoop : List (List Char) → List (List Char) → List (List Char)
  | [], keys => keys
  | skey :: order, keys =>
    if skey ∈ keys then skey :: keyLoop order (keys.erase skey) else keyLoop order keys

/-- The keys of `mProperties`, sorted: componentbase.py:549-550. -/
def sortedKeys (ps : List CProp) : List (List Char) :=
  ((ps.map CProp.key).dedup).insertionSort (· ≤ ·)

/-- `sortedPropertyKeys`, componentbase.py:548-559. -/
def sortedPropertyKeys (order : List (List Char)) (ps : List CProp) : List (List Char) :=
  keyLoop order (sortedKeys ps)

/-- The properties in the order in which `writeProperties` writes them, componentbase.py:564-570. -/
def writtenProps (order : List (List Char)) (ps : List CProp) : List CProp :=
  (sortedPropertyKeys order ps).flatMap fun k => ps.filter fun p => decide (p.key = k)

/-- A component with its position in `mComponents`, so that the same object can be told from an equal
one. -/
abbrev Tagged := Nat × Component

/-- What the classes say about the order, by type: `sortedPropertyKeyOrder`, `sortedComponentNames`,
`sortSubComponents`, and whether `sortedComponents` is overridden (VPOLL, VVOTER) to sort all components
by one key.  Of `__eq__` and of the keys nothing is assumed (the key of a component without UID is
random). -/
structure Order where
  keyOrder : List Char → List (List Char)
  names : List Char → List (List Char)
  sortSubs : List Char → Bool
  whole : List Char → Bool
  eq : Component → Component → Bool
  sortKey : Tagged → List Char
  wholeLe : Tagged → Tagged → Bool

/-- `components.remove(component)`: the first that is the same object or `==` is removed; `none` is
`ValueError`. -/
def remove (eq : Component → Component → Bool) (x : Tagged) : List Tagged → Option (List Tagged)
  | [] => none
  | c :: cs =>
    if c.1 = x.1 ∨ eq c.2 x.2 = true then some cs else (remove eq x cs).map (c :: ·)

/-- The loop over `tuple(components)` for one name, componentbase.py:381-385: the components with that
name, and those left. -/
def nameLoop (eq : Component → Component → Bool) (name : List Char) :
    List Tagged → List Tagged → Option (List Tagged × List Tagged)
  | [], components => some ([], components)
  | c :: tuple, components =>
    if PropText.upper c.2.type = name then
      match remove eq c components with
      | some components => (nameLoop eq name tuple components).map fun r => (c :: r.1, r.2)
      | none => none
    else nameLoop eq name tuple components

/-- The loop over `sortedComponentNames()`, componentbase.py:377-387. -/
def namesLoop (o : Order) : List (List Char) → List Tagged → Option (List Tagged × List Tagged)
  | [], components => some ([], components)
  | name :: names, components =>
    match nameLoop o.eq name components components with
    | some (named, components) =>
      (namesLoop o names components).map fun r =>
        (named.insertionSort (fun a b => o.sortKey a ≤ o.sortKey b) ++ r.1, r.2)
    | none => none

/-- The order by `(getType().upper(), getSortKey())`, componentbase.py:391. -/
def remainderLe (o : Order) (a b : Tagged) : Bool :=
  decide (PropText.upper a.2.type < PropText.upper b.2.type) ||
    (decide (PropText.upper a.2.type = PropText.upper b.2.type) && decide (o.sortKey a ≤ o.sortKey b))

/-- `sortedComponents` of the component with type `t`, componentbase.py:371-398, vpoll.py:67-80 and
vvoter.py:59-65. -/
def sortedTagged (o : Order) (t : List Char) (components : List Tagged) : Option (List Tagged) :=
  if o.whole t then some (components.insertionSort fun a b => o.wholeLe a b = true)
  else
    (namesLoop o (o.names t) components).map fun r =>
      r.1 ++ if o.sortSubs t then r.2.insertionSort (fun a b => remainderLe o a b = true) else r.2

/-- The components with their positions. -/
def tag (cs : List Component) : List Tagged := cs.zipIdx.map fun c => (c.2, c.1)

def sortedComponents (o : Order) (t : List Char) (cs : List Component) : Option (List Component) :=
  (sortedTagged o t (tag cs)).map fun l => l.map Prod.snd

mutual
/-- `ComponentBase.generate`, componentbase.py:269-282, with `writeProperties` (564-570) and
`writeComponents` (which writes `sortedComponents()` in order): the lines written, not folded.  `none` is
an exception.  The lines of the components are made first here and then put in order. -/
def generate (o : Order) : Component → Option (List (List Char))
  | .mk t ps cs =>
    match generateAll o cs, sortedTagged o t (tag cs) with
    | some subs, some l =>
      some (("BEGIN:".toList ++ t) :: ((writtenProps (o.keyOrder t) ps).map CProp.text ++
        (l.flatMap fun x => subs.getD x.1 []) ++ ["END:".toList ++ t]))
    | _, _ => none

def generateAll (o : Order) : List Component → Option (List (List (List Char)))
  | [] => some []
  | c :: cs =>
    match generate o c, generateAll o cs with
    | some ls, some lss => some (ls :: lss)
    | _, _ => none
end

/-! ## Reading -/

/-- The exceptions. -/
inductive Err where
  | invalidData
  | invalidProperty
  | valueError
  | attributeError
deriving DecidableEq, Repr

/-- A component being read. -/
structure Frame where
  type : List Char
  props : List CProp
  subs : List Component
deriving Repr

/-- The container's type, whether it has components (`sComponentType is not None`), whether
`BLANK_LINES_IN_DATA` is `PARSER_RAISE`, `Property.parseText` (`none` is an exception),
`validProperty`, and the components' `finalise` (`none` is an exception; what the classes cache is not
in the model, but `VTimezone.finalise` sorts the components). -/
structure Env where
  container : List Char
  nested : Bool
  blankRaise : Bool
  parseProp : List Char → Option CProp
  valid : CProp → Bool
  finalise : Component → Option Component

/-- `"BEGIN:"` and `"END:"`, componentbase.py:82-86. -/
def beginText : List Char := "BEGIN:".toList
def endText : List Char := "END:".toList

/-- `makeComponent(compname, parent).getType()`, icalendar/component.py:40-45: the registered classes
answer with their name and an unregistered one becomes an `UnknownComponent` of that type, but
`UnknownComponent` itself is registered as `UNKNOWN` and then has the type `""`. -/
def makeType (compname : List Char) : List Char :=
  if compname = "UNKNOWN".toList then [] else compname

/-- Whether `addComponent` of a component of type `parent` takes one of type `child`:
vevent.py:69-74, vtodo.py:140-145, vtimezone.py:60-66, vavailability.py:88-93, vvoter.py:47-52. -/
def admits (parent child : List Char) : Bool :=
  if parent = "VEVENT".toList ∨ parent = "VTODO".toList then decide (child = "VALARM".toList)
  else if parent = "VTIMEZONE".toList then
    decide (child = "STANDARD".toList ∨ child = "DAYLIGHT".toList)
  else if parent = "VAVAILABILITY".toList then decide (child = "AVAILABLE".toList)
  else if parent = "VVOTER".toList then decide (child = "VOTE".toList)
  else true

/-- The state of the loop, containerbase.py:118-128: `state == LOOK_FOR_CONTAINER`, `result`, the
container and the components being read, the innermost first. -/
structure PSt where
  look : Bool
  result : Bool
  root : Frame
  stack : List Frame
deriving Repr

/-- `addComponent` of a component that was read to the one around it (`ValueError` if not taken). -/
def addSub (f : Frame) (c : Component) : Except Err Frame :=
  if admits f.type c.type then .ok { f with subs := f.subs ++ [c] } else .error .valueError

/-- A line in the state `GET_PROPERTY_OR_COMPONENT` that is the end of the component `f`,
containerbase.py:172-180. -/
def closeFrame (env : Env) (st : PSt) (f : Frame) (rest : List Frame) : Except Err PSt :=
  match env.finalise (.mk f.type f.props f.subs) with
  | none => .error .valueError
  | some c =>
    match rest with
    | [] => (addSub st.root c).map fun r => { st with root := r, stack := [] }
    | g :: rest => (addSub g c).map fun g => { st with stack := g :: rest }

/-- A line that is a property, containerbase.py:189-202. -/
def propLine (env : Env) (st : PSt) (line : List Char) : Except Err PSt :=
  match env.parseProp line with
  | none => .error .invalidProperty
  | some p =>
    match st.stack with
    | [] =>
      if env.valid p then .ok { st with root := { st.root with props := st.root.props ++ [p] } }
      else .error .invalidData
    | f :: rest => .ok { st with stack := { f with props := f.props ++ [p] } :: rest }

/-- A blank line. -/
def blankLine (env : Env) (st : PSt) : Except Err PSt :=
  if env.blankRaise then .error .invalidData else .ok st

/-- The body of the loop, containerbase.py:131-202. -/
def step (env : Env) (st : PSt) (line : List Char) : Except Err PSt :=
  if st.look then
    if line = beginText ++ env.container then .ok { st with look := false, result := true }
    else if line = [] then blankLine env st
    else .error .invalidData
  else if beginText.isPrefixOf line && env.nested then
    .ok { st with stack := ⟨makeType (line.drop 6), [], []⟩ :: st.stack }
  else if line = endText ++ env.container then .ok { st with look := true }
  else
    match st.stack with
    | f :: rest =>
      if line = endText ++ f.type then closeFrame env st f rest
      else if line = [] then blankLine env st
      else propLine env st line
    | [] => if line = [] then blankLine env st else propLine env st line

def run (env : Env) : PSt → List (List Char) → Except Err PSt
  | st, [] => .ok st
  | st, line :: lines =>
    match step env st line with
    | .ok st => run env st lines
    | .error e => .error e

def start (env : Env) : PSt := ⟨true, false, ⟨env.container, [], []⟩, []⟩

/-- `ContainerBase.parse` of a new container, containerbase.py:110-212: the container if the result is
`True`, `none` if `False`.  The container's own `finalise` only caches. -/
def parse (env : Env) (lines : List (List Char)) : Except Err (Option Component) :=
  match run env (start env) lines with
  | .error e => .error e
  | .ok st =>
    if !st.look then .error .invalidData
    else if st.result && !(st.root.props.any fun p => p.key = "VERSION".toList) then .error .invalidData
    else .ok (if st.result then some (.mk env.container st.root.props st.root.subs) else none)

/-- `Calendar.parse`, icalendar/calendar.py:193-201, with `mergeTimezones`, timezonedb.py:196-218, which asks all the calendar's
time zones for their `getID`; a component whose type differs from VTIMEZONE in case is among them (`getComponents`,
componentbase.py:108-110), but is an `UnknownComponent` (component.py:40-45), which has no such method.  What becomes of the data
base is in `TimezoneDb`. -/
def parseCalendar (env : Env) (lines : List (List Char)) : Except Err (Option Component) :=
  match parse env lines with
  | .ok (some c) =>
    if c.subs.all fun d => decide (PropText.upper d.type = "VTIMEZONE".toList → d.type = "VTIMEZONE".toList) then .ok (some c)
    else .error .attributeError
  | r => r

/-- `Property.parseText` up to the value (property.py:221-254): the line's name.  That the value can be
read by its class is not in it. -/
def readProp (line : List Char) : Option CProp :=
  match PropText.parseText false {} line with
  | .ok (_, name, _, _) => some ⟨name, line⟩
  | _ => none

/-- The text value of a property's line, with the default settings of `ParserContext`. -/
def textValue (line : List Char) : Option (List Char) :=
  match PropText.parseText false {} line with
  | .ok (_, _, _, some v) => decodeText .fix .raise v
  | _ => none

/-- `Calendar.validProperty`, icalendar/calendar.py:624-637. -/
def validCalendar (p : CProp) : Bool :=
  if p.name = "VERSION".toList then decide (textValue p.text = some "2.0".toList)
  else if p.name = "CALSCALE".toList then decide (textValue p.text = some "GREGORIAN".toList)
  else true

/-- `Calendar` with the default settings; `finalise` only caches. -/
def calendarEnv : Env where
  container := "VCALENDAR".toList
  nested := true
  blankRaise := false
  parseProp := readProp
  valid := validCalendar
  finalise := some

end Cont
end PyCal
