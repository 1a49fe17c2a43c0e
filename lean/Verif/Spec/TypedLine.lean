import Verif.Spec.CalendarText
import Verif.Spec.FreeBusyText
import Verif.Spec.ZoneText
import Verif.Model.ValueType

/-!
# Lines whose value is of the type that RFC 5545 gives to the property
-/

namespace Spec.CalendarText
open PyCal PropText DateTime EventText ValueType

/-- The properties with a text (RFC 5545, 3.7 and 3.8, and names that are in use for calendars and alarms). -/
def textNames : List (List Char) :=
  (["CALSCALE", "METHOD", "PRODID", "VERSION", "CLASS", "COMMENT", "DESCRIPTION", "LOCATION", "STATUS", "SUMMARY", "TRANSP", "TZID", "TZNAME",
    "CONTACT", "RELATED-TO", "UID", "ACTION", "X-WR-CALNAME", "X-WR-CALDESC", "X-WR-ALARMUID", "X-MULBERRY-SPEAK-TEXT", "X-MULBERRY-ALARM-STATUS"] : List String).map String.toList

/-- The properties with a date, or with a date and a time (RFC 5545, 3.8, and RFC 9074, 6.1). -/
def dateNames : List (List Char) :=
  (["DTSTART", "DTEND", "DUE", "COMPLETED", "CREATED", "DTSTAMP", "LAST-MODIFIED", "ACKNOWLEDGED",
    "X-MULBERRY-LAST-TRIGGER"] : List String).map String.toList

/-- The properties with a number. -/
def numberNames : List (List Char) := (["PERCENT-COMPLETE", "PRIORITY", "REPEAT", "SEQUENCE"] : List String).map String.toList

/-- The properties with values of types about which nothing is said here, the types, and their names. -/
def openNames : List (String × String × VType) :=
  [("GEO", "FLOAT", .geo), ("REQUEST-STATUS", "TEXT", .requestStatus)]

/-- The type of the value is not given, or is this one. -/
def SaysType (l : ContentLine) (ty : String) : Prop := ∃ v, HasParam l "VALUE".toList v ∧ (v = none ∨ v = some ty.toList)

/-- The text of a value in a list of texts; a comma in it (written `\,`) is not treated here. -/
def TextItem (s v : List Char) : Prop := Denotes s v ∧ ',' ∉ s

/-- A line with a value of its type; `ok`: what is a value of a type about which nothing is said here; `free`: the names to which no type
is given. -/
inductive TypedLine (ok : VType → List Char → Prop) (free : List Char → Prop) (l : ContentLine) : Prop
  | text {s} : upper l.name ∈ textNames → TextLine l s → TypedLine ok free l
  | date {t} : upper l.name ∈ dateNames → DateLine l t → TypedLine ok free l
  | length {k} : upper l.name = "DURATION".toList ∨ upper l.name = "TRIGGER".toList → LengthLine l k → TypedLine ok free l
  | rule {ps} (ex : Bool) : upper l.name = ruleName ex → SaysType l "RECUR" → Recur.RuleText DateTimeText l.value ps → TypedLine ok free l
  | dates {d z ts} (ex : Bool) : upper l.name = datesName ex → DateParams l d z → Recur.Sep ',' DateTimeText l.value ts →
      (∀ t ∈ ts, t.dateOnly = d ∧ (z ≠ none → t.utc = false)) → TypedLine ok free l
  | periods {ps} : upper l.name = "FREEBUSY".toList → SaysType l "PERIOD" → Recur.Sep ',' FreeBusyText.PeriodText l.value ps →
      '+' ∉ l.value → TypedLine ok free l
  | address : upper l.name = "ATTENDEE".toList ∨ upper l.name = "ORGANIZER".toList → SaysType l "CAL-ADDRESS" → TypedLine ok free l
  | uri : upper l.name = "ATTACH".toList ∨ upper l.name = "TZURL".toList ∨ upper l.name = "URL".toList → SaysType l "URI" →
      '\\' ∉ l.value → '\n' ∉ l.value → TypedLine ok free l
  | number {n} : upper l.name ∈ numberNames → SaysType l "INTEGER" → Recur.Number l.value n → TypedLine ok free l
  | offset {v} : upper l.name = "TZOFFSETFROM".toList ∨ upper l.name = "TZOFFSETTO".toList → ZoneText.OffsetLine l v → TypedLine ok free l
  | at {t} : upper l.name = "TRIGGER".toList → HasParam l "VALUE".toList (some "DATE-TIME".toList) → HasParam l "TZID".toList none →
      DateTimeText l.value t → t.dateOnly = false → TypedLine ok free l
  | left {key nm : String} {ty} : (key, nm, ty) ∈ openNames → upper l.name = key.toList → SaysType l nm → ok ty l.value → TypedLine ok free l
  | texts {vs} : upper l.name = "CATEGORIES".toList ∨ upper l.name = "RESOURCES".toList → SaysType l "TEXT" →
      Recur.Sep ',' TextItem l.value vs → TypedLine ok free l
  | extra : (upper l.name).take 2 = "X-".toList → free (upper l.name) → HasParam l "VALUE".toList none → TypedLine ok free l

end Spec.CalendarText
