import Verif.Model.ZoneLines
import Verif.Model.TimezoneDb

/-!
# The time zone database with its time zones

`TimezoneDatabase` (timezonedb.py) as in `TimezoneDb`, where the numbers of the objects are places in the list of the time zones
that they are.  There is no directory of files (`dbpath` is `None`).
-/

namespace PyCal
open DateTime (TzEnv)

/-- The database, and the `VTimezone` objects in it. -/
structure ZoneData where
  db : TzDb := {}
  objects : List Zone := []

namespace ZoneData

/-- `mergeTimezone` of a time zone with this TZID, timezonedb.py:212-218, with `addTimezone`, 128-138. -/
def merge (s : ZoneData) (v : List Char × Zone) : ZoneData :=
  let tzid := String.ofList v.1
  { db := s.db.merge ⟨tzid, s.objects.length⟩ [] s.objects.length
    objects := if (s.db.getTimezone (some tzid) []).1 = none then s.objects ++ [v.2.duplicate] else s.objects }

/-- `mergeTimezones` of a calendar that is not the database's own, timezonedb.py:196-210. -/
def mergeAll (s : ZoneData) (zs : List (List Char × Zone)) : ZoneData := zs.foldl merge s

/-- `TimezoneDatabase.getTimezoneOffsetSeconds`, timezonedb.py:83-90.  `none`: still running (there is an object for each number, see
`C139_objects`). -/
def offset (env : TzEnv) (o : SetOrder) (o' : SetOrder (DateTime × Int × Int)) (fuel : Nat) (s : ZoneData) (tzid : Option String)
    (x : DateTime) (rel : Bool) : Option (Int × ZoneData) :=
  match s.db.getTimezone tzid [] with
  | (none, db) => some (0, { s with db := db })
  | (some tz, db) =>
    (s.objects[tz.obj]?).bind fun z =>
      (z.offsetSeconds env o o' fuel x rel).map fun v => (v.1, ⟨db, s.objects.set tz.obj v.2⟩)

/-- `Calendar.parseText` of unfolded lines, containerbase.py:110-212, icalendar/calendar.py:193-201: the calendar, and the database
with which the time zones of the calendar are merged.  When `AttributeError` is raised by the merging (see `parseCalendar`), the
time zones before it have been merged, which is left out. -/
def read (env : TzEnv) (s : CalendarRead.Settings) (d : ZoneData) (lines : List (List Char)) :
    Except Cont.Err (Option Cont.Component) × ZoneData :=
  match CalendarRead.read s lines with
  | .ok (some c) => (.ok (some c), d.mergeAll ((CalendarRead.zonesOf env s.toEnv c).getD []))
  | r => (r, d)

end ZoneData
end PyCal
