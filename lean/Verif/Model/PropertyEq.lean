import Verif.Model.ComponentEq
import Verif.Model.ValueType
import Verif.Model.Period
import Mathlib.Data.List.Dedup

/-!
# Equality and hash of properties with values of all types

`Property.__eq__`, `__hash__` of iCalendar (icalendar/property.py) and of vCard (vcard/property.py),
`Value.__eq__`, `__hash__` (value.py) and those of the kinds of values, `Parameter.__hash__`
(parameter.py).
-/

namespace PyCal
namespace PropEq
open ValueType (VType)
open PropText (Param upper)

/-- A single value.  `str`: the types with a `str` (text, URI, binary, ...); `int`: INTEGER and UTC-OFFSET;
`comps`: N and ADR, whose value is a tuple of `str` and tuples of `str`.  A `float` is the rational number it is;
`nan` and the infinities are left out. -/
inductive Leaf where
  | str (type : VType) (s : List Char)
  | int (type : VType) (n : Int)
  | float (q : Rat)
  | geo (lat lon : Rat)
  | status (l : List (List Char))
  | org (c : Comp)
  | comps (type : VType) (l : List Comp)
  | duration (d : Duration)
  | period (p : Period)
  | rule (r : Rule)
  | date (t : DateTime)

namespace Leaf

/-- `getType` of each class; of a `DateTimeValue`: datetimevalue.py:28-29. -/
def type : Leaf → VType
  | str t _ => t
  | int t _ => t
  | float _ => .float
  | geo .. => .geo
  | status _ => .requestStatus
  | org _ => .org
  | comps t _ => t
  | duration _ => .duration
  | period _ => .period
  | rule _ => .recur
  | date t => if t.dateOnly then .date else .dateTime

/-- `Value.__eq__`, value.py:62-65: the types and the values.  The values are compared by the `__eq__` of N (n.py:49-50),
ADR (adr.py:51-52), `Duration` (duration.py:54-55), `Period` (period.py:59-60), `Recurrence` (recurrence.py:195-216) and
`DateTime` (datetime.py:173-174). -/
def eq (env : DateTime.TzEnv) (a b : Leaf) : Bool :=
  decide (a.type = b.type) &&
    match a, b with
    | str _ s, str _ t => decide (s = t)
    | int _ n, int _ k => decide (n = k)
    | float q, float r => decide (q = r)
    | geo a b, geo c d => decide (a = c) && decide (b = d)
    | status l, status m => decide (l = m)
    | org c, org d => decide (c = d)
    | comps _ l, comps _ m => decide (l = m)
    | duration d, duration e => d.eq e
    | period p, period q => p.eq env q
    | rule r, rule s => r.equals env s
    | date t, date u => t.eq env u
    | _, _ => false

end Leaf

/-- What a hash is made from.  Hashes of different such things are different, but for collisions. -/
inductive Key where
  | str (s : List Char)
  | int (n : Int)
  | float (q : Rat)
  | type (t : VType)
  | recur (r : Freq × Bool × Int × Bool × Option Int × Int × List Int × List Int × List Int × List (Int × Int) ×
      List Int × List Int × List Int × List Int × List Int × Int)
  | none
  | tuple (l : List Key)

/-- The hash of a `str` or a tuple of `str`. -/
def compKey : Comp → Key
  | .str s => .str s
  | .tup l => .tuple (l.map .str)

namespace Leaf

/-- `__hash__` of a value: `Value.__hash__`, value.py:56-57, but for GEO (geovalue.py:35-36) and REQUEST-STATUS
(requeststatusvalue.py:35-36); with that of N (n.py:43-44), ADR (adr.py:45-46), `Duration` (duration.py:51-52), `Period`
(period.py:50-51), `Recurrence` (recurrence.py:172-190) and `DateTime` (datetime.py:118-119). -/
def key (env : DateTime.TzEnv) (a : Leaf) : Key :=
  match a with
  | str t s => .tuple [.type t, .str s]
  | int t n => .tuple [.type t, .int n]
  | float q => .tuple [.type .float, .float q]
  | geo a b => .tuple [.float a, .float b]
  | status l => .tuple (l.map .str)
  | org c => .tuple [.type .org, compKey c]
  | comps t l => .tuple [.type t, .tuple (l.map compKey)]
  | duration d => .tuple [.type .duration, .int d.totalSeconds]
  | period p => .tuple [.type .period, .tuple [.int (p.start.hashKey env), .int (p.stop.hashKey env)]]
  | rule r => .tuple [.type .recur, .recur (r.hashKey env)]
  | date t => .tuple [.type (date t).type, .int (t.hashKey env)]

end Leaf

/-- The value of a property: a single one or a `MultiValue` with its `mType` (multivalue.py:20-25). -/
inductive Val where
  | one (v : Leaf)
  | multi (type : VType) (l : List Leaf)

/-- `==` of two lists of values. -/
def listEq (env : DateTime.TzEnv) (l m : List Leaf) : Bool :=
  decide (l.length = m.length) && (l.zip m).all fun p => p.1.eq env p.2

/-- `Value.__eq__` of two values, value.py:62-65; `getType` and `getValue` of a `MultiValue` are `mType` and the list
(multivalue.py:35-42).  A single value and a `MultiValue` are taken as unequal: whether it is one depends on the name, which is
compared before. -/
def Val.eq (env : DateTime.TzEnv) : Val → Val → Bool
  | .one a, .one b => a.eq env b
  | .multi t l, .multi u m => decide (t = u) && listEq env l m
  | _, _ => false

/-- `__hash__` of a value; of a `MultiValue`: multivalue.py:27-28. -/
def Val.key (env : DateTime.TzEnv) : Val → Key
  | .one a => a.key env
  | .multi _ l => .tuple (l.map (Leaf.key env))

/-- A property: `mGroup` (vCard only), `mName`, `mParameters` (see `CompEq.EProp`) and `mValue`. -/
structure VProp where
  group : Option (List Char) := none
  name : List Char
  params : List Param := []
  value : Val

/-- `Property.__eq__` of iCalendar, icalendar/property.py:248-251. -/
def icalEq (env : DateTime.TzEnv) (p q : VProp) : Bool :=
  decide (p.name = q.name) && p.value.eq env q.value && CompEq.paramsEq p.params q.params

/-- `Property.__eq__` of vCard, vcard/property.py:196-204: `self.mGroup` is compared with itself. -/
def vcardEq (env : DateTime.TzEnv) (p q : VProp) : Bool :=
  decide (p.group = p.group) && decide (p.name = q.name) && p.value.eq env q.value && CompEq.paramsEq p.params q.params

/-- `Parameter.__hash__`, parameter.py:44-45. -/
def paramKey (p : Param) : Key := .tuple [.str (upper p.name), .tuple (p.values.map .str)]

/-- `sorted(self.mParameters.keys())`. -/
def sortedKeys (ps : List Param) : List (List Char) := (ps.map Param.key).dedup.insertionSort (· ≤ ·)

/-- The part of `__hash__` with the parameters, icalendar/property.py:244, vcard/property.py:192. -/
def paramsKey (ps : List Param) : Key :=
  .tuple ((sortedKeys ps).map fun k => .tuple ((ps.filter fun p => decide (p.key = k)).map paramKey))

/-- `Property.__hash__` of iCalendar, icalendar/property.py:241-246. -/
def icalKey (env : DateTime.TzEnv) (p : VProp) : Key := .tuple [.str p.name, paramsKey p.params, p.value.key env]

/-- `Property.__hash__` of vCard, vcard/property.py:188-194. -/
def vcardKey (env : DateTime.TzEnv) (p : VProp) : Key :=
  .tuple [(match p.group with | some g => .str g | none => .none), .str p.name, paramsKey p.params, p.value.key env]

/-- An object: which one it is, and its value. -/
structure Obj (α : Type) where
  id : Nat
  val : α

/-- `!=` of two objects of a class that has `__eq__` but neither `__ne__` nor `__cmp__`: in Python 2 they are compared by
identity.  Such are `Duration` (duration.py:22-61), `Period` (period.py:24-67), N (n.py:25-50) and ADR (adr.py:25-52). -/
def Obj.ne {α : Type} (a b : Obj α) : Bool := decide (a.id ≠ b.id)

end PropEq
end PyCal
