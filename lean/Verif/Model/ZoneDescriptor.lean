import Verif.Model.ZoneLines
import Verif.Model.TimezoneText

/-!
# The text that describes a time zone of a calendar at a time
-/

namespace PyCal
namespace CalendarRead
open DateTime (TzEnv)

/-- `Calendar.getTimezoneDescriptor` and `getTimezone`, icalendar/calendar.py:606-617: the text, and the time zones with the caches
that this leaves.  `none`: the calculation does not end (in so many steps). -/
def descriptorIn (env : TzEnv) (o : SetOrder) (fuel : Nat) (tzid : List Char) (x : DateTime) :
    List (List Char × Zone) → Option (List Char × List (List Char × Zone))
  | [] => some ([], [])
  | (id, z) :: zs =>
    if id = tzid then (z.descriptor env o fuel x).map fun v => (v.1, (id, v.2) :: zs)
    else (descriptorIn env o fuel tzid x zs).map fun v => (v.1, (id, z) :: v.2)

end CalendarRead
end PyCal
