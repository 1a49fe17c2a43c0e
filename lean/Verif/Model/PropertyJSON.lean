import Verif.Model.RecurrenceJSON
import Verif.Model.DateTimeProperty
import Verif.Model.PropertyText
import Verif.Model.Numbers
import Verif.Model.Duration

/-!
# Properties in jCal

`PropertyBase.parseJSON` and `generateValueJSON` (property.py), `Parameter.writeJSON` (parameter.py) and the
JSON of texts, integers, floating point numbers, coordinates, durations, offsets from UTC, request statuses and
recurrence rules.  Date-times and periods are in `Model/DateTimeProperty.lean` and `Model/PeriodObject.lean`.
-/

namespace PyCal
namespace PropJSON
open PropText ValueType

/-- A value: a text of any class derived from `PlainTextValue`, an `IntegerValue`, a `FloatValue`, a `GeoValue` (a
list of numbers, of which there should be two), a `DurationValue`, a `UTCOffsetValue`, a `RequestStatusValue` or a
`RecurrenceValue`. -/
inductive PVal where
  | plain (s : List Char)
  | int (n : Int)
  | float (x : Num.PyNum)
  | geo (l : List Num.PyNum)
  | duration (d : Duration)
  | offset (n : Int)
  | status (l : List (List Char))
  | recur (r : Rule)
deriving DecidableEq

/-- A property: the parameters of the dictionary `mParameters` in one list, `mValue.getType()` and the
value, or the values of a `MultiValue`. -/
structure Prop' where
  group : Option (List Char) := none
  name : List Char
  params : List Param
  type : VType
  values : List PVal
deriving DecidableEq

/-- A value in JSON.  `real` is a number with a point or an exponent, `reals` an array of numbers of which one has
these; in such an array an integer is the floating point number for it. -/
inductive JData where
  | item (i : JItem)
  | real (x : Num.PyNum)
  | reals (l : List Num.PyNum)
  | arr (l : List JItem)
  | obj (ms : List (List Char × JVal))
deriving DecidableEq

/-- The value of a parameter in JSON. -/
inductive JParam where
  | one (v : List Char)
  | many (vs : List (List Char))
deriving DecidableEq, Repr

/-- The array `[name, parameters, type, values...]`; the type may be `null`.  The members of the object
are in the order in which the dictionary is gone through. -/
structure JProp where
  name : List Char
  params : List (List Char × JParam)
  type : Option String
  data : List JData
deriving DecidableEq

/-- `d[k] = v`. -/
def setKey (k : List Char) (v : JParam) : List (List Char × JParam) → List (List Char × JParam)
  | [] => [(k, v)]
  | m :: d => if m.1 = k then (k, v) :: d else m :: setKey k v d

/-- The value written for a parameter, parameter.py:118. -/
def paramJSON (p : Param) : JParam :=
  match p.values with
  | [v] => .one v
  | vs => .many vs

/-- The parameters of `generateValueJSON`, property.py:494-498: keys in ascending order, VALUE left out. -/
def writeParams (ps : List Param) : List (List Char × JParam) :=
  ((ps.insertionSort fun a b => a.key ≤ b.key).filter fun p => lower p.name ≠ "value".toList).foldl
    (fun d p => setKey (lower p.name) (paramJSON p) d) []

/-- `writeJSONValue`: plaintextvalue.py:49-50, integervalue.py:51-52, floatvalue.py:51-52,
geovalue.py:76-77, duration.py:261-262, utcoffsetvalue.py:102-107, icalendar/requeststatusvalue.py:96-100, icalendar/recurrence.py:706-758; `none` is an exception. -/
def writeValue : PVal → Option JData
  | .plain s => some (.item (.str s))
  | .int n => some (.item (.num n))
  | .float x => some (.real x)
  | .geo l => some (.reals l)
  | .duration d => some (.item (.str d.generate))
  | .offset n => some (.item (.str (utcOffsetGenerate true n)))
  | .status (a :: b :: l) =>
    some (.arr ((if l.length = 1 then a :: b :: l else [a, b]).map JItem.str))
  | .status _ => none
  | .recur r => r.writeJSON.map .obj

/-- `generateValueJSON`, property.py:486-502, with `novalue` false, and `Value.writeJSON`,
value.py:113-115.  The group of a vCard property is not written. -/
def writeProp (p : Prop') : Option JProp :=
  match jsonName p.type, p.values.mapM writeValue with
  | some ty, some data => some ⟨lower p.name, writeParams p.params, ty, data⟩
  | _, _ => none

/-- The parameters read, property.py:439-444; an array has no `encode`. -/
def readParams (ms : List (List Char × JParam)) : Option (List Param) :=
  ms.mapM fun m =>
    match m.2 with
    | .one v => some ⟨upper m.1, [v]⟩
    | .many _ => none

/-- `parseJSONValue` of the class for the type `t` (value.py:73-80): plaintextvalue.py:46-47,
integervalue.py:48-49 (`int` leaves out what is after the point), floatvalue.py:48-49, geovalue.py:73-74 (anything
is taken; only arrays of numbers are in this model), duration.py:258-259, utcoffsetvalue.py:99-100,
icalendar/requeststatusvalue.py:93-94 (`map` goes over the characters of a text and the keys of an object),
icalendar/recurrence.py:686-704.  `strict` is the setting for durations.  `none` is an exception, or a type that is
not in this model. -/
def readValue (sr strict : Bool) (t : VType) (d : JData) : Option PVal :=
  match t, d with
  | .text, .item (.str s) | .uri, .item (.str s) | .unknown, .item (.str s)
  | .binary, .item (.str s) | .calAddress, .item (.str s)
  | .boolean, .item (.str s) | .time, .item (.str s) | .vcard, .item (.str s) => some (.plain s)
  | .integer, .item (.num n) => some (.int n)
  | .integer, .item (.str s) => (pyInt s).map .int
  | .integer, .real x => (Num.truncate x).map .int
  | .float, .item (.num n) => some (.float (Num.ofInt n))
  | .float, .item (.str s) => (Num.readFloat s).map .float
  | .float, .real x => some (.float x)
  | .geo, .reals l => some (.geo l)
  | .geo, .arr l =>
    (l.mapM fun i => match i with
      | JItem.num n => some (Num.ofInt n)
      | JItem.str _ => none).map .geo
  | .duration, .item i => (Duration.parseText strict i.text).map .duration
  | .utcOffset, .item i => (utcOffsetParse true i.text).map .offset
  | .requestStatus, .item (.str s) => some (.status (s.map fun c => [c]))
  | .requestStatus, .arr l =>
    (l.mapM fun i => match i with
      | JItem.str s => some s
      | JItem.num _ => none).map .status
  | .requestStatus, .obj ms => some (.status (ms.map Prod.fst))
  | .recur, .obj ms => (Rule.parseJSON sr ms).map .recur
  | _, _ => none

/-- The first value of the first VALUE parameter, property.py:509-511. -/
def valueParam (ps : List Param) : Option (List Char) :=
  (ps.find? fun p => p.key = "VALUE".toList).bind fun p => p.values.head?

/-- `prop.mParameters.setdefault(cls.sValue, []).append(attrvalue)`, property.py:449-451. -/
def addValue (ps : List Param) (value : Option String) : List Param :=
  match value with
  | some v => ps ++ [⟨"VALUE".toList, [v.toList]⟩]
  | none => ps

/-- `parseJSON`, property.py:421-472 (the last part, for date-times, is not in this model); `none` is
`InvalidProperty`. -/
def readProp (S : Tables) (sr strict : Bool) (j : JProp) : Option Prop' :=
  let name := upper j.name
  match readParams j.params, j.type with
  | some ps, some v =>
    let ps := addValue ps (jsonValue S (String.ofList name) v)
    let t := determine S (String.ofList name) ((valueParam ps).map String.ofList)
    let values :=
      if String.ofList name ∈ S.multi then j.data.mapM (readValue sr strict t)
      else j.data.head?.bind fun d => (readValue sr strict t d).map fun x => [x]
    values.map fun vs => ⟨none, name, ps, valueType S (String.ofList name) false t, vs⟩
  | _, _ => none

end PropJSON
end PyCal
