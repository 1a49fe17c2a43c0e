import Verif.Model.Text

/-!
# Copies of components, properties and values

The objects of a calendar or card are numbered; an object that can be reached in two ways is one number.
Changing an object changes it wherever it can be reached from.
-/

namespace PyCal
namespace Copy

/-- The classes, by what their `duplicate` does.  `plain`: text, integer, float, UTC offset and the classes
derived from them.  `wrapper`: date-time, duration, period and recurrence values, names and addresses.
`listed`: GEO and REQUEST-STATUS.  `list`: the `list` object that such a value or a parameter has.
`leaf`: `DateTime` and `Duration`.  `structured`: `N` and `Adr`.  `container`: `Calendar` and `Card`.
`element`: STANDARD, DAYLIGHT and components of unknown type. -/
inductive Cls where
  | container | component | element
  | property | parameter
  | plain | wrapper | listed | org | multi
  | list | leaf | period | rule | structured
deriving DecidableEq, Repr

/-- An object: its number, `mParentComponent`, its class, its name (`getType()` of a component or a value,
`getName()` of a property or a parameter), its own data, and the objects it holds, each with the slot that
holds it.  The data of a component is what `getMapKey` (icalendar/component.py:72-79,
componentrecur.py:142-146) gives without making a new key: the UID or the map key, empty if there is none;
of a property the group; of a value what it stands for.  A `structured` object holds those of its parts
that are lists.  Not in the model: the attributes that components keep beside their properties
(`AlarmEdit`, `FreeBusyEdit`, `Slave` and `TimezoneRead` have their copies), among them `mMaster`, and what
rules have cached. -/
inductive Node where
  | mk (id : Nat) (parent : Option Nat) (cls : Cls) (name data : List Char)
      (kids : List (List Char × Node))

namespace Node

def id : Node → Nat
  | mk i _ _ _ _ _ => i

def parent : Node → Option Nat
  | mk _ p _ _ _ _ => p

def cls : Node → Cls
  | mk _ _ c _ _ _ => c

def name : Node → List Char
  | mk _ _ _ n _ _ => n

def data : Node → List Char
  | mk _ _ _ _ d _ => d

def kids : Node → List (List Char × Node)
  | mk _ _ _ _ _ ks => ks

end Node

/-- The slot of the value of a property. -/
def valueSlot : List Char := "value".toList

/-- Whether the copy gets the very objects that the original holds: `OrgValue(self.mValue)`,
vcard/orgvalue.py:31-32, `N(*self.mValue)`, vcard/n.py:40-41, and `Adr(*self.mValue)`,
vcard/adr.py:42-43. -/
def Cls.shares : Cls → Bool
  | .org | .structured => true
  | _ => false

/-- Whether it is a component (`parent` is given to its copy, componentbase.py:59). -/
def Cls.isComponent : Cls → Bool
  | .container | .component | .element => true
  | _ => false

/-- Whether the property has no value (`mValue` is `None`; `None.duplicate()` raises). -/
def lacksValue (cls : Cls) (kids : List (List Char × Node)) : Bool :=
  decide (cls = .property) && !(kids.any fun k => decide (k.1 = valueSlot))

mutual
/-- `duplicate` with the parent given; `next` is the first number not used.  `none` is `AttributeError`.
componentbase.py:55-64 (the properties of a new calendar or card are thrown away, and the copies of
components are added in order), icalendar/component.py:55-64, icalendar/calendar.py:85-89,
icalendar/vunknown.py:32-33, vcard/card.py:57-58; icalendar/property.py:233-239, vcard/property.py:180-186;
parameter.py:39-42; plaintextvalue.py:27-28, integervalue.py:28-29, floatvalue.py:28-29,
utcoffsetvalue.py:29-30; valueutils.py:71-72; geovalue.py:38-39, icalendar/requeststatusvalue.py:38-39;
multivalue.py:30-33; datetime.py:96-108, period.py:43-48, icalendar/recurrence.py:102-143. -/
def dup (parent : Option Nat) : Node → Nat → Option (Node × Nat)
  | .mk _ _ cls name data kids, next =>
    if lacksValue cls kids then none
    else if cls.shares then some (.mk next parent cls name data kids, next + 1)
    else (dupKids next kids (next + 1)).map fun r => (.mk next parent cls name data r.1, r.2)

/-- The copies of what an object holds. -/
def dupKids (owner : Nat) :
    List (List Char × Node) → Nat → Option (List (List Char × Node) × Nat)
  | [], next => some ([], next)
  | (slot, k) :: ks, next =>
    match dup (if k.cls.isComponent then some owner else none) k next with
    | none => none
    | some (k', next) => (dupKids owner ks next).map fun r => ((slot, k') :: r.1, r.2)
end

mutual
/-- An object is changed: it gets other data and holds other objects (for instance `setValue`, `addProperty`,
`addValue`, or a change of the list that `getValue` gave). -/
def write (a : Nat) (data : List Char) (kids : List (List Char × Node)) : Node → Node
  | .mk i p cls name d ks =>
    if i = a then .mk i p cls name data kids else .mk i p cls name d (writeKids a data kids ks)

def writeKids (a : Nat) (data : List Char) (kids : List (List Char × Node)) :
    List (List Char × Node) → List (List Char × Node)
  | [] => []
  | (slot, k) :: ks => (slot, write a data kids k) :: writeKids a data kids ks
end

/-- Several changes, one after the other. -/
def writes (l : List (Nat × List Char × List (List Char × Node))) (t : Node) : Node :=
  l.foldl (fun t w => write w.1 w.2.1 w.2.2 t) t

/-- `getSortKey`, icalendar/component.py:81-82, vtimezoneelement.py:92-96, vunknown.py:50-54: a component
without UID gets a random key, `fresh`, that its copy does not get (`hasattr(self, "mMapKey")`,
icalendar/component.py:72-79). -/
def sortKey (fresh : Nat → List Char) (t : Node) : List Char :=
  if t.cls = .element then [] else if t.data = [] then fresh t.id else t.data

end Copy
end PyCal
