import Verif.Model.ValueType

/-!
# Properties made from Python values

The constructors of the two `Property` classes (icalendar/property.py, vcard/property.py), the
`_init_attr_value_...` methods, the accessors `get...Value` and `generate` (property.py), and `duplicate`.
Objects are numbers, so that one sees whether a property keeps the object it was given.  The TZID parameter of
date-times is in `Verif.Model.DateTimeProperty`, the texts of values are in other files.
-/

namespace PyCal
namespace NewProp
open ValueType

/-- An element of a list: a `DateTime` with its `isDateOnly()`, a `Period`, or something else, taken to have
no method `isDateOnly`. -/
inductive Item where
  | dateTime (o : Nat) (dateOnly : Bool)
  | period (o : Nat)
  | other (o : Nat)
deriving DecidableEq, Repr

/-- The argument `value`.  `utcOffset n` is a `UTCOffsetValue` with `getValue() = n`; a `unicode` is given by its
UTF-8 encoding; a `bool` is an `int`; `other` is anything else (`long`, `float`, `dict`, ...). -/
inductive Arg where
  | none
  | str (s : List Char)
  | unicode (s : List Char)
  | int (n : Int)
  | dateTime (o : Nat) (dateOnly : Bool)
  | duration (o : Nat)
  | recur (o : Nat)
  | period (o : Nat)
  | list (o : Nat) (items : List Item)
  | tuple (o : Nat) (items : List Item)
  | utcOffset (n : Int)
  | adr (o : Nat)
  | name (o : Nat)
  | other (o : Nat)
deriving DecidableEq, Repr

/-- A value object.  `plain t s` is a `PlainTextValue` of the class for the type `t` (TEXT, URI, CAL-ADDRESS, BINARY,
UNKNOWN) with the string `s`; `fresh t` is a new object of the class for one of the other types that was not given
anything; `dates t l` and `periods l` are a `MultiValue` with a `DateTimeValue` or a `PeriodValue` for each element. -/
inductive Val where
  | plain (t : VType) (s : List Char)
  | fresh (t : VType)
  | int (n : Int)
  | dateTime (o : Nat) (dateOnly : Bool)
  | duration (o : Nat)
  | recur (o : Nat)
  | period (o : Nat)
  | dates (t : VType) (l : List Item)
  | periods (l : List Item)
  | reqStatus (o : Nat)
  | utcOffset (n : Int)
  | adr (o : Nat)
  | name (o : Nat)
  | org (o : Nat)
deriving DecidableEq, Repr

/-- `getType()`; for a new `DateTimeValue` the type is DATE-TIME (datetimevalue.py:28-29, datetime.py:81-95). -/
def Val.type : Val → VType
  | .plain t _ => t
  | .fresh t => if t = .date then .dateTime else t
  | .int _ => .integer
  | .dateTime _ d => if d then .date else .dateTime
  | .duration _ => .duration
  | .recur _ => .recur
  | .period _ => .period
  | .dates t _ => t
  | .periods _ => .period
  | .reqStatus _ => .requestStatus
  | .utcOffset _ => .utcOffset
  | .adr _ => .adr
  | .name _ => .n
  | .org _ => .org

/-- The classes of values (`class ...(...)` in the modules of the values). -/
inductive Cls where
  | value | plainText | text | uri | calAddress | binary | unknown | integer | dateTime | duration | recurrence
  | period | multi | requestStatus | utcOffset | float | geo | adr | name | org
deriving DecidableEq, Repr

/-- The class and its base classes: textvalue.py:24, urivalue.py:25, caladdressvalue.py:24, binaryvalue.py:24,
unknownvalue.py:24 extend `PlainTextValue` (plaintextvalue.py:22); the others extend `Value` only. -/
def Cls.bases (c : Cls) : List Cls :=
  if c ∈ [.text, .uri, .calAddress, .binary, .unknown] then [c, .plainText, .value] else [c, .value]

/-- The class registered for a type, `Value._typeMap` (value.py:67-71); for the others `createFromType`
(value.py:73-80) takes `UnknownValue`. -/
def classOf : VType → Cls
  | .adr => .adr
  | .binary => .binary
  | .calAddress => .calAddress
  | .date | .dateTime => .dateTime
  | .duration => .duration
  | .float => .float
  | .geo => .geo
  | .integer => .integer
  | .n => .name
  | .org => .org
  | .period => .period
  | .recur => .recurrence
  | .requestStatus => .requestStatus
  | .text => .text
  | .uri => .uri
  | .utcOffset => .utcOffset
  | .boolean | .time | .vcard | .unknown => .unknown

/-- The class of a value object. -/
def Val.cls : Val → Cls
  | .plain t _ => classOf t
  | .fresh t => classOf t
  | .int _ => .integer
  | .dateTime _ _ => .dateTime
  | .duration _ => .duration
  | .recur _ => .recurrence
  | .period _ => .period
  | .dates _ _ => .multi
  | .periods _ => .multi
  | .reqStatus _ => .requestStatus
  | .utcOffset _ => .utcOffset
  | .adr _ => .adr
  | .name _ => .name
  | .org _ => .org

/-- `isinstance`. -/
def Val.isInstance (v : Val) (c : Cls) : Bool := decide (c ∈ v.cls.bases)

/-- A property: `mName` in upper case, `mValue` and the VALUE parameter. -/
structure P where
  pname : String
  value : Option Val
  param : Option String
deriving DecidableEq, Repr

/-- The last part of each `_init_attr_value_...`: `setupValueParameter`, property.py:575-594. -/
def withValue (S : Tables) (name : String) (v : Val) : P := ⟨name, some v, writtenValue S name v.type⟩

/-- `Value.createFromType(value_type)` followed by `setValue(txt)` if it takes a string, property.py:605-608; a
type without a class gives an `UnknownValue` (value.py:79-80). -/
def textVal (t : VType) (s : List Char) : Val :=
  if Cls.plainText ∈ (classOf t).bases then .plain (if registered t then t else .unknown) s else .fresh t

/-- `valuetype if valuetype else ...`: the type ADR is the number 0 (value.py:24-48). -/
def chosen (valuetype : Option VType) (d : VType) : VType :=
  match valuetype with
  | some .adr => d
  | some t => t
  | none => d

/-- `_init_attr_value_datetimelist`, icalendar/property.py:302-321; `none` is the `AttributeError` of
`isDateOnly`. -/
def dateList (S : Tables) (name : String) (items : List Item) : Option P :=
  match items with
  | [] => some (withValue S name (.dates .dateTime []))
  | .dateTime o d :: l => some (withValue S name (.dates (if d then .date else .dateTime) (.dateTime o d :: l)))
  | _ :: _ => none

/-- `Property(name, value, valuetype)` of iCalendar, icalendar/property.py:187-232, with
`_init_attr_value_int`, `_text`, `_datetime`, `_utcoffset` (property.py:597-626) and `_requeststatus`, `_datetime`,
`_periodlist`, `_duration`, `_period`, `_recur` (icalendar/property.py:281-353); `name` is in upper case.  `none`
is an exception. -/
def makeIcal (S : Tables) (name : String) (value : Arg) (valuetype : Option VType) : Option P :=
  match value with
  | .none => some ⟨name, none, none⟩
  | .str s | .unicode s => some (withValue S name (textVal (chosen valuetype ((S.defaultOf name).getD .unknown)) s))
  | .dateTime o d => some (withValue S name (.dateTime o d))
  | .duration o => some (withValue S name (.duration o))
  | .recur o => some (withValue S name (.recur o))
  | .period o => some (withValue S name (.period o))
  | .int n => some (withValue S name (.int n))
  | .list o items =>
    if name = "REQUEST-STATUS" then some (withValue S name (.reqStatus o))
    else
      match items with
      | .period p :: l => some (withValue S name (.periods (.period p :: l)))
      | items => dateList S name items
  | .utcOffset n => some (withValue S name (.utcOffset n))
  | .tuple _ _ | .adr _ | .name _ | .other _ => some ⟨name, none, none⟩

/-- `Property(group, name, value, valuetype)` of vCard, vcard/property.py:143-178, with property.py:597-626 and
vcard/property.py:307-326; `name` is in upper case.  `_init_attr_value_geo` and `_init_attr_value_text_list`, which
it calls (172, 175), exist nowhere: `none` is the `AttributeError`. -/
def makeVcard (S : Tables) (name : String) (value : Arg) (valuetype : Option VType) : Option P :=
  match value with
  | .int n => some (withValue S name (.int n))
  | .str s => some (withValue S name (textVal (chosen valuetype ((S.defaultOf name).getD .text)) s))
  | .dateTime o d => some (withValue S name (.dateTime o d))
  | .adr o => some (withValue S name (.adr o))
  | .name o => some (withValue S name (.name o))
  | .list o _ | .tuple o _ => if name = "ORG" then some (withValue S name (.org o)) else none
  | .utcOffset n => some (withValue S name (.utcOffset n))
  | .none | .unicode _ | .duration _ | .recur _ | .period _ | .other _ => some ⟨name, none, none⟩

/-- The accessors: property.py:150-218 and `getRecurrenceValue` (icalendar/property.py:253-258), which only iCalendar
has. -/
inductive Accessor where
  | getBinary | getCalAddress | getDateTime | getDuration | getInteger | getMulti | getPeriod | getText | getURI
  | getUTCOffset | getRecurrence
deriving DecidableEq, Repr

/-- The class that an accessor looks for. -/
def Accessor.cls : Accessor → Cls
  | .getBinary => .binary
  | .getCalAddress => .calAddress
  | .getDateTime => .dateTime
  | .getDuration => .duration
  | .getInteger => .integer
  | .getMulti => .multi
  | .getPeriod => .period
  | .getText => .plainText
  | .getURI => .uri
  | .getUTCOffset => .utcOffset
  | .getRecurrence => .recurrence

/-- An accessor, property.py:150-218: `mValue` or `None`. -/
def P.get (p : P) (a : Accessor) : Option Val :=
  match p.value with
  | some v => if v.isInstance a.cls then some v else none
  | none => none

/-- `duplicate`, icalendar/property.py:233-239, vcard/property.py:180-186, as far as it is defined: a property
without a value raises (`None.duplicate()`). -/
def P.copies (p : P) : Bool := p.value.isSome

end NewProp
end PyCal
