import Verif.Model.Compare
import Verif.Model.PropertyJSON

/-!
# Time zone objects and the default time zone

`Timezone` (timezone.py) and `CalendarManager` (manager.py).  `Timezone.same`, `is_float` are in `Model/Compare.lean`.
-/

namespace PyCal

/-- `Timezone`, timezone.py:33-48: `mUTC` and `mTimezone`. -/
structure TzObj where
  utc : Bool
  zone : Option TzId
deriving DecidableEq, Repr

namespace TzObj

/-- `tzid.lower() == 'utc'`, timezone.py:39. -/
def isUtcName (s : String) : Bool := decide (PropJSON.lower s.toList = "utc".toList)

/-- `Timezone(utc, tzid)`, timezone.py:33-48; `dflt` is `sDefaultTimezone`.  A number has no `lower`: `none` is the
`AttributeError`. -/
def new (dflt : Option TzObj) : Option Bool → Option TzId → Option TzObj
  | some u, t => some ⟨u, t⟩
  | none, some (.name s) => if isUtcName s then some ⟨true, none⟩ else some ⟨false, some (.name s)⟩
  | none, some (.fixed _) => none
  | none, none =>
    match dflt with
    | none => some ⟨true, none⟩
    | some d => some ⟨d.utc, d.zone⟩

/-- `duplicate`, timezone.py:50-51. -/
def duplicate (z : TzObj) : Option TzObj := new none (some z.utc) z.zone

/-- `floating`, timezone.py:88-89. -/
def floating (z : TzObj) : Bool := !z.utc && z.zone.isNone

/-- `hasTZID`, timezone.py:91-92. -/
def hasTZID (z : TzObj) : Bool := !z.utc && z.zone.isSome

/-- `equals`, timezone.py:53-60. -/
def equals (a b : TzObj) : Bool :=
  if a.floating || b.floating then true
  else if a.utc != b.utc then false
  else a.utc || compareTzSafe a.zone b.zone

/-- `timeZoneSecondsOffset`, timezone.py:94-103, for one `dt` and `relative_to_utc`: `ask` is
`TimezoneDatabase.getTimezoneOffsetSeconds` (timezonedb.py:83-90), `dflt` is `sDefaultTimezone`. -/
def offset (ask : Option TzId → Int) (z dflt : TzObj) : Int :=
  if z.utc then 0
  else match z.zone with
    | none => ask dflt.zone
    | some (.fixed n) => n
    | some (.name s) => ask (some (.name s))

/-- `setDefaultTimezoneID`, manager.py:34-41, with `setDefaultTimezone`, manager.py:43-44: the new default time zone. -/
def setDefaultID (tzid : Option TzId) : Option TzObj :=
  if tzid = some (.name "UTC") then new none (some true) none else new none (some false) tzid

/-- `getDefaultTimezoneID`, manager.py:46-50; `d` is the default time zone. -/
def getDefaultID (d : TzObj) : Option TzId := if d.utc then some (.name "UTC") else d.zone

/-- `CalendarManager()`, manager.py:24-25, when the default time zone is `d`: the new default time zone. -/
def newManager (d : Option TzObj) : Option TzObj := new d none none

end TzObj
end PyCal
