import Verif.Model.Timezone
import Verif.Model.Text

/-!
# `pycalendar.icalendar.vtimezone` and `pycalendar.timezone`: the text that describes a time zone

Numbers of iterations `fuel` and iteration orders of sets as in `Verif.Model.Timezone`; `none` is
"still running".
-/

namespace PyCal
open DateTime (TzEnv)

namespace Zone

/-- A number below 10 gets a leading zero, vtimezone.py:194-199. -/
def twoDigits (n : Nat) : List Char := (if n < 10 then ['0'] else []) ++ decNat n

/-- The text of an offset, vtimezone.py:187-199; the divisions are of numbers that are not
negative. -/
def offsetText (v : Int) : List Char :=
  (if v < 0 then ['-'] else ['+']) ++ twoDigits (v.natAbs / 3600) ++
    twoDigits (v.natAbs / 60 % 60)

/-- The text of an element, vtimezone.py:186-203. -/
def elementText (e : TzElement) : List Char :=
  if e.name.length = 0 then offsetText e.offsetTo else '(' :: e.name ++ [')']

/-- `getTimezoneDescriptor`, vtimezone.py:178-205. -/
def descriptor (env : TzEnv) (o : SetOrder) (fuel : Nat) (z : Zone) (t : DateTime) :
    Option (List Char × Zone) :=
  (z.findElement env o fuel t).map fun v =>
    (match v.1 with
      | none => []
      | some e => elementText e, v.2)

/-- `getUTCOffsetSortKey`, vtimezone.py:110-127; the field `mUTCOffsetSortKey` that keeps it is left
out (the elements of a time zone do not change). -/
def sortKey (z : Zone) : Int :=
  match z.elements with
  | [] => 0
  | [e] => (e.offsetTo + e.offsetTo) / 2
  | e :: e' :: _ => (e.offsetTo + e'.offsetTo) / 2

/-- `sortByUTCOffsetComparator`, vtimezone.py:281-288; `none` is the `AttributeError` of
`compareToIgnoreCase`, which no string has. -/
def compareOffset (a b : Zone) : Option Int :=
  if a.sortKey = b.sortKey then none else some (if a.sortKey < b.sortKey then -1 else 1)

end Zone

/-- The text of a numeric time zone, timezone.py:110-114. -/
def fixedText (v : Int) : List Char :=
  (if v < 0 then ['-'] else ['+']) ++ padInt 2 (v.natAbs / 3600 : Nat) ++
    padInt 2 (v.natAbs / 60 % 60 : Nat)

/-- `DateTime.timeZoneDescriptor`, datetime.py:1111-1113, with `Timezone.timeZoneDescriptor`,
timezone.py:105-117, and `TimezoneDatabase.getTimezoneDescriptor`, timezonedb.py:92-99.  `db` gives
the time zones of the database (`none` is the ID `None`), `dflt` is the ID of the default time zone. -/
def DateTime.timeZoneDescriptor (env : TzEnv) (o : SetOrder) (fuel : Nat)
    (db : Option String → Option Zone) (dflt : Option String) (t : DateTime) :
    Option (List Char) :=
  let ask (id : Option String) : Option (List Char) :=
    match db id with
    | none => some []
    | some z => (z.descriptor env o fuel t).map (·.1)
  if t.utc then some "(UTC)".toList
  else match t.tzid with
    | none => ask dflt
    | some (.fixed v) => some (fixedText v)
    | some (.name s) => ask (some s)

end PyCal
