import Verif.Model.ZonalVTimezone
import Verif.Model.RecurrenceText
import Verif.Model.Container
import Verif.Model.Escape

/-!
# The time zone compiler: the components as they are written

The properties that `vtimezone` of a rule, of a line and of a zone add to the components (zonal/rule.py, zonal/zone.py), with the
texts of their lines, for `Cont.generate`.
-/

namespace PyCal
namespace Zonal
open Cont (CProp Component)

/-- A property without parameters and its line, property.py:337-356; `Property(name, value)` gives none of these properties a
parameter (icalendar/property.py:187-232: no VALUE, as the type is the default one, and no TZID, as the times are floating). -/
def zoneProp (name : String) (value : List Char) : CProp := ⟨name.toList, name.toList ++ ':' :: value⟩

/-- The `Recurrence` of the RRULE, rule.py:481-556. -/
def recurrenceOf (rr : Parts × Option DateTime) : Rule where
  freq := .yearly
  useUntil := rr.2.isSome
  untilDate := rr.2
  byMonth := rr.1.byMonth
  byDay := rr.1.byDay
  byMonthDay := rr.1.byMonthDay
  byYearDay := rr.1.byYearDay

/-- The properties of a component, in the order of `addProperty`: rule.py:457-559, zone.py:500-518, and those that
`_compressRDateComponents` adds, zone.py:260-290.  The texts are those of `UTCOffsetValue.generate`, `TextValue.generate`
(textvalue.py:34-39), `DateTimeValue.generate` and `RecurrenceValue.generate`. -/
def Observance.props (o : Observance) : List CProp :=
  [zoneProp "TZOFFSETFROM" (utcOffsetGenerate false o.offsetFrom), zoneProp "TZOFFSETTO" (utcOffsetGenerate false o.offsetTo),
    zoneProp "TZNAME" (escapeText o.name), zoneProp "DTSTART" o.start.getText] ++
  (match o.rrule with
    | some rr => [zoneProp "RRULE" (recurrenceOf rr).generate]
    | none => []) ++
  o.rdates.map fun t => zoneProp "RDATE" t.getText

/-- The component, rule.py:450-455, zone.py:494-498. -/
def Observance.component (o : Observance) : Component :=
  .mk (if o.daylight then "DAYLIGHT".toList else "STANDARD".toList) o.props []

/-- The VTIMEZONE of a zone with this name, zone.py:185-189, 257; the value of `X-LIC-LOCATION` is an `UnknownValue`
(`plaintextvalue.py:35-40`).  (`finalise` sorts the components by their start, vtimezone.py:77-78; here they are in
the order in which they are added.) -/
def zoneComponent (name : List Char) (os : List Observance) : Component :=
  .mk "VTIMEZONE".toList [zoneProp "TZID" (escapeText name), zoneProp "X-LIC-LOCATION" name] (os.map Observance.component)

end Zonal
end PyCal
