import Verif.Model.Cards
import Verif.Model.TextFile

/-!
# Writing the photo of a card, and new cards

`Property.generateValue`, `__init__` and `duplicate` of vCard (vcard/property.py), `Card.addDefaultProperties`
(vcard/card.py), `ContainerBase.__init__` (containerbase.py) and `ComponentBase.duplicate` (componentbase.py).
-/

namespace PyCal
namespace CardWrite
open TextFile (utf8)

/-- The loop over the value and what follows it, vcard/property.py:289-299. -/
def photoLoop (value : Bytes) (offset valueLen : Nat) : Bytes :=
  if valueLen > 72 then
    [32] ++ (value.drop offset).take 72 ++ [13, 10] ++ photoLoop value (offset + 72) (valueLen - 72)
  else [32] ++ value.drop offset
termination_by valueLen

/-- `generateValue` for a property called `PHOTO` with a binary value, vcard/property.py:271-301; `head` is the text up to and
with the colon. -/
def photoText (head value : Bytes) : Bytes := head ++ [13, 10] ++ photoLoop value 0 value.length ++ [13, 10]

/-- `Property.generateValue` of vCard, vcard/property.py:268-303, after `setupValueParameter`, for a property that has a value;
`binary`: `self.mValue.getType() == Value.VALUETYPE_BINARY`.  `none`: it does not end. -/
def generateValue (l : PropText.Line) (binary novalue : Bool) : Option Bytes :=
  if PropText.upper l.name = "PHOTO".toList ∧ binary = true then
    some (photoText (utf8 (PropText.generate { l with value := [] })) (utf8 l.value))
  else foldLine (utf8 (PropText.generate (if novalue then { l with value := [] } else l)))

/-- A property of a card: `mGroup`, `mName` and `mValue` (here a text), which is `None` if none was given. -/
structure NewProp where
  group : Option (List Char)
  name : List Char
  value : Option (List Char)
deriving DecidableEq, Repr

/-- `Property.__init__` of vCard, vcard/property.py:142-157, property.py:85-89, for no value or a `str`. -/
def newProperty (group name value : Option (List Char)) : NewProp :=
  ⟨group, name.getD [], value⟩

/-- `Property.duplicate`, vcard/property.py:180-186: `self.mValue.duplicate()`, `AttributeError` (`none`) if there is none. -/
def NewProp.duplicate (p : NewProp) : Option NewProp :=
  p.value.map fun v => { newProperty p.group (some p.name) none with value := some v }

/-- `addDefaultProperties`, vcard/card.py:172-174.  The arguments of `Property` are the group, the name and the value: here a
name and a value are given for the first two. -/
def defaultProperties (prodid : List Char) : List NewProp :=
  [newProperty (some "PRODID".toList) (some prodid) none, newProperty (some "VERSION".toList) (some "3.0".toList) none]

/-- `Card(add_defaults)`, containerbase.py:49-53: its properties.  `prodid` is `sProdID`. -/
def newCard (prodid : List Char) (addDefaults : Bool) : List NewProp :=
  if addDefaults then defaultProperties prodid else []

/-- `hasProperty`, componentbase.py:168-169: the keys are the upper case names (165-166). -/
def hasProperty (card : List NewProp) (name : List Char) : Bool :=
  card.any fun p => decide (PropText.upper p.name = PropText.upper name)

/-- `duplicate` of a card, componentbase.py:55-64: the default properties of the new card are replaced by copies. -/
def duplicate (prodid : List Char) (card : List NewProp) : Option (List NewProp) :=
  let _other := newCard prodid true
  card.mapM NewProp.duplicate

/-- The line of a property, property.py:337-363: nothing is written for a value that is `None`. -/
def NewProp.line (p : NewProp) : List Char :=
  PropText.generate ⟨p.group, p.name, [], p.value.getD []⟩

/-- The unfolded lines of a card (`generate`, componentbase.py:264-282), but for the order of the properties. -/
def cardLines (card : List NewProp) : List (List Char) :=
  ["BEGIN:VCARD".toList] ++ card.map NewProp.line ++ ["END:VCARD".toList]

end CardWrite
end PyCal
