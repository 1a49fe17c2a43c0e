import Verif.Model.ValueType

/-!
# The types of values in the standards
-/

namespace Spec
open PyCal.ValueType

/-- What a standard says of the value of a property: its type, the name of that type, the types that a VALUE parameter may
ask for instead, and whether there may be several values with commas between them. -/
structure Typed where
  name : String
  type : VType
  typeName : String
  others : List (String × VType) := []
  list : Bool := false

/-- The VALUE parameters that a property may have (or none) and what they mean. -/
def Typed.options (p : Typed) : List (Option String × VType) :=
  (none, p.type) :: (some p.typeName, p.type) :: p.others.map fun x => (some x.1, x.2)

/-- Properties whose value is a text. -/
def texts (names : List String) : List Typed := names.map fun n => { name := n, type := .text, typeName := "TEXT" }

/-- RFC 5545 sections 3.7 and 3.8.  The values of GEO and REQUEST-STATUS have types of their own in the library. -/
def rfc5545Types : List Typed :=
  texts ["CALSCALE", "METHOD", "PRODID", "VERSION", "CLASS", "COMMENT", "DESCRIPTION", "LOCATION", "STATUS", "SUMMARY",
    "TRANSP", "TZID", "TZNAME", "CONTACT", "RELATED-TO", "UID", "ACTION"] ++ [
  { name := "ATTACH", type := .uri, typeName := "URI", others := [("BINARY", .binary)] },
  { name := "CATEGORIES", type := .text, typeName := "TEXT", list := true },
  { name := "GEO", type := .geo, typeName := "FLOAT" },
  { name := "PERCENT-COMPLETE", type := .integer, typeName := "INTEGER" },
  { name := "PRIORITY", type := .integer, typeName := "INTEGER" },
  { name := "RESOURCES", type := .text, typeName := "TEXT", list := true },
  { name := "COMPLETED", type := .dateTime, typeName := "DATE-TIME" },
  { name := "DTEND", type := .dateTime, typeName := "DATE-TIME", others := [("DATE", .date)] },
  { name := "DUE", type := .dateTime, typeName := "DATE-TIME", others := [("DATE", .date)] },
  { name := "DTSTART", type := .dateTime, typeName := "DATE-TIME", others := [("DATE", .date)] },
  { name := "DURATION", type := .duration, typeName := "DURATION" },
  { name := "FREEBUSY", type := .period, typeName := "PERIOD", list := true },
  { name := "TZOFFSETFROM", type := .utcOffset, typeName := "UTC-OFFSET" },
  { name := "TZOFFSETTO", type := .utcOffset, typeName := "UTC-OFFSET" },
  { name := "TZURL", type := .uri, typeName := "URI" },
  { name := "ATTENDEE", type := .calAddress, typeName := "CAL-ADDRESS" },
  { name := "ORGANIZER", type := .calAddress, typeName := "CAL-ADDRESS" },
  { name := "RECURRENCE-ID", type := .dateTime, typeName := "DATE-TIME", others := [("DATE", .date)] },
  { name := "URL", type := .uri, typeName := "URI" },
  { name := "EXDATE", type := .dateTime, typeName := "DATE-TIME", others := [("DATE", .date)], list := true },
  { name := "RDATE", type := .dateTime, typeName := "DATE-TIME", others := [("DATE", .date), ("PERIOD", .period)],
    list := true },
  { name := "RRULE", type := .recur, typeName := "RECUR" },
  { name := "REPEAT", type := .integer, typeName := "INTEGER" },
  { name := "TRIGGER", type := .duration, typeName := "DURATION", others := [("DATE-TIME", .dateTime)] },
  { name := "CREATED", type := .dateTime, typeName := "DATE-TIME" },
  { name := "DTSTAMP", type := .dateTime, typeName := "DATE-TIME" },
  { name := "LAST-MODIFIED", type := .dateTime, typeName := "DATE-TIME" },
  { name := "SEQUENCE", type := .integer, typeName := "INTEGER" },
  { name := "REQUEST-STATUS", type := .requestStatus, typeName := "TEXT" }]

/-- RFC 2426 section 3, where the names of types are in small letters; here they are in capitals.  Telephone numbers are
texts.  The values of N, ADR, GEO and ORG have types of their own in the library. -/
def rfc2426Types : List Typed :=
  texts ["NAME", "PROFILE", "FN", "LABEL", "TEL", "EMAIL", "MAILER", "TITLE", "ROLE", "NOTE", "PRODID", "SORT-STRING",
    "UID", "VERSION", "CLASS"] ++ [
  { name := "SOURCE", type := .uri, typeName := "URI" },
  { name := "N", type := .n, typeName := "TEXT" },
  { name := "NICKNAME", type := .text, typeName := "TEXT", list := true },
  { name := "PHOTO", type := .binary, typeName := "BINARY", others := [("URI", .uri)] },
  { name := "BDAY", type := .date, typeName := "DATE", others := [("DATE-TIME", .dateTime)] },
  { name := "ADR", type := .adr, typeName := "TEXT" },
  { name := "TZ", type := .utcOffset, typeName := "UTC-OFFSET", others := [("TEXT", .text)] },
  { name := "GEO", type := .geo, typeName := "FLOAT" },
  { name := "LOGO", type := .binary, typeName := "BINARY", others := [("URI", .uri)] },
  { name := "AGENT", type := .vcard, typeName := "VCARD", others := [("TEXT", .text), ("URI", .uri)] },
  { name := "ORG", type := .org, typeName := "TEXT" },
  { name := "CATEGORIES", type := .text, typeName := "TEXT", list := true },
  { name := "REV", type := .dateTime, typeName := "DATE-TIME", others := [("DATE", .date)] },
  { name := "SOUND", type := .binary, typeName := "BINARY", others := [("URI", .uri)] },
  { name := "URL", type := .uri, typeName := "URI" },
  { name := "KEY", type := .binary, typeName := "BINARY", others := [("TEXT", .text)] }]

/-- A text that may be the value: `isDate` for a date, not for a date and time; of other values nothing is asked. -/
def Fits (isDate : Bool) (t : VType) : Prop := (t = .date → isDate = true) ∧ (t = .dateTime → isDate = false)

end Spec
