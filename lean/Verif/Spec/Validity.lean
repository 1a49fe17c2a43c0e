import Verif.Model.Validate

/-!
# When a component is valid
-/

namespace Spec
open PyCal Cont Valid PropText

/-- The number of properties of that name, without regard to case. -/
def occurrences (ps : List CProp) (name : List Char) : Nat :=
  (ps.filter fun p => decide (p.key = upper name)).length

/-- That there is a property of that name. -/
def Present (ps : List CProp) (name : String) : Prop := ∃ p ∈ ps, p.key = upper name.toList

/-- What the classes require beyond the numbers of properties: not both an end and a duration, a start
where there must be one, a duration and a repetition together, and an observance in a time zone.  `parent`
are the properties of the component around it, `subs` the types of the components in it. -/
def ExtraRules (k : Kind) (parent : Option (List CProp)) (subs : List (List Char)) (ps : List CProp) : Prop :=
  match k with
  | .other => True
  | .event => ¬ (Present ps "DTEND" ∧ Present ps "DURATION") ∧
      ∀ pp, parent = some pp → ¬ Present pp "METHOD" → Present ps "DTSTART"
  | .todo => ¬ (Present ps "DUE" ∧ Present ps "DURATION") ∧ (Present ps "DURATION" → Present ps "DTSTART")
  | .avail => ¬ (Present ps "DTEND" ∧ Present ps "DURATION")
  | .timezone => "STANDARD".toList ∈ subs ∨ "DAYLIGHT".toList ∈ subs
  | .alarm => Present ps "DURATION" ↔ Present ps "REPEAT"

/-- A component that meets the requirements of its class, as do all those in it: the numbers of
properties, the values, the kind of UNTIL, and the extra rules. -/
inductive Meets (v : Values) : Option (List CProp) → VComp → Prop
  | mk {parent t k tb st us ps cs}
      (one : ∀ n ∈ tb.one, occurrences ps n = 1)
      (fixEmpty : ∀ n ∈ tb.fixEmpty, occurrences ps n = 1)
      (zeroOne : ∀ n ∈ tb.zeroOne, occurrences ps n ≤ 1)
      (oneMore : ∀ n ∈ tb.oneMore, 1 ≤ occurrences ps n)
      (status : ∀ n ∈ tb.statusFix, occurrences ps n ≤ 1)
      (values : ∀ p ∈ ps, v.ok p = true)
      (untils : ∀ dateOnly, st = some dateOnly → ∀ u ∈ us, u = dateOnly)
      (extra : ExtraRules k parent (cs.map VComp.type) ps)
      (subs : ∀ c ∈ cs, Meets v (some ps) c) : Meets v parent (.mk t k tb st us ps cs)

/-- How often properties may occur in a component: "REQUIRED, and MUST NOT occur more than once",
"MUST NOT occur more than once", "REQUIRED, and MAY occur more than once". -/
structure Numbers where
  once : List String
  atMostOnce : List String := []
  atLeastOnce : List String := []

/-- RFC 5545 sections 3.4, 3.6.1 to 3.6.6 (for VALARM, by its action).  The DTSTART of an event is apart,
`C84_fails_dtstart`. -/
def rfc5545 : List (String × Numbers) := [
  ("VCALENDAR", { once := ["PRODID", "VERSION"], atMostOnce := ["CALSCALE", "METHOD"] }),
  ("VEVENT", {
    once := ["DTSTAMP", "UID"]
    atMostOnce := ["CLASS", "CREATED", "DESCRIPTION", "GEO", "LAST-MODIFIED", "LOCATION", "ORGANIZER",
      "PRIORITY", "SEQUENCE", "STATUS", "SUMMARY", "TRANSP", "URL", "RECURRENCE-ID", "DTEND", "DURATION"] }),
  ("VTODO", {
    once := ["DTSTAMP", "UID"]
    atMostOnce := ["CLASS", "COMPLETED", "CREATED", "DESCRIPTION", "DTSTART", "GEO", "LAST-MODIFIED",
      "LOCATION", "ORGANIZER", "PERCENT-COMPLETE", "PRIORITY", "RECURRENCE-ID", "SEQUENCE", "STATUS",
      "SUMMARY", "URL", "DUE", "DURATION"] }),
  ("VJOURNAL", {
    once := ["DTSTAMP", "UID"]
    atMostOnce := ["CLASS", "CREATED", "DTSTART", "LAST-MODIFIED", "ORGANIZER", "RECURRENCE-ID",
      "SEQUENCE", "STATUS", "SUMMARY", "URL"] }),
  ("VFREEBUSY", {
    once := ["DTSTAMP", "UID"]
    atMostOnce := ["CONTACT", "DTSTART", "DTEND", "ORGANIZER", "URL"] }),
  ("VTIMEZONE", { once := ["TZID"], atMostOnce := ["LAST-MODIFIED", "TZURL"] }),
  ("STANDARD", { once := ["DTSTART", "TZOFFSETTO", "TZOFFSETFROM"] }),
  ("AUDIO", { once := ["ACTION", "TRIGGER"], atMostOnce := ["DURATION", "REPEAT", "ATTACH"] }),
  ("DISPLAY", { once := ["ACTION", "DESCRIPTION", "TRIGGER"], atMostOnce := ["DURATION", "REPEAT"] }),
  ("EMAIL", {
    once := ["ACTION", "DESCRIPTION", "TRIGGER", "SUMMARY"]
    atMostOnce := ["DURATION", "REPEAT"]
    atLeastOnce := ["ATTENDEE"] })]

/-- Properties in such numbers. -/
def Numbers.Hold (r : Numbers) (ps : List CProp) : Prop :=
  (∀ n ∈ r.once, occurrences ps n.toList = 1) ∧ (∀ n ∈ r.atMostOnce, occurrences ps n.toList ≤ 1) ∧
  ∀ n ∈ r.atLeastOnce, 1 ≤ occurrences ps n.toList

end Spec
