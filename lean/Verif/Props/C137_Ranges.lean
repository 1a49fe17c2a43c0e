import Verif.Props.C137_Calendar

/-!
# Instances of the events of a calendar: RECURRENCE-ID with RANGE, DURATION of another type
-/

namespace PyCal
open DateTime CalendarRead L137

/-- An event every day, with these other events for instances of it. -/
def L137.dailyWith (l : List String) : List (List Char) :=
  doc (["BEGIN:VEVENT", "UID:1", "DTSTART:20200302T150000Z", "DTEND:20200302T160000Z", "RRULE:FREQ=DAILY;COUNT=4", "END:VEVENT"] ++ l)

/-- C137 fails: an event for an instance and all later ones (RANGE=THISANDFUTURE) stands for that instance only. -/
theorem C137_fails_range : instancesOf (dailyWith ["BEGIN:VEVENT", "UID:1", "RECURRENCE-ID;RANGE=THISANDFUTURE:20200303T150000Z",
      "DTSTART:20200303T170000Z", "DTEND:20200303T180000Z", "END:VEVENT"]) .empty L136.inSpring =
    some (some [(L136.utcTime 3 2 15, L136.utcTime 3 2 16), (L136.utcTime 3 4 15, L136.utcTime 3 4 16),
      (L136.utcTime 3 5 15, L136.utcTime 3 5 16), (L136.utcTime 3 3 17, L136.utcTime 3 3 18)]) := by
  decide +kernel

/-- C137 fails: with two such events, or two with RANGE=THISANDPRIOR, `getVEvents` raises; with one of each it does not. -/
theorem C137_fails_ranges (a b : String) (ha : a ∈ ["THISANDFUTURE", "THISANDPRIOR"]) (hb : b ∈ ["THISANDFUTURE", "THISANDPRIOR"]) :
    instancesOf (dailyWith ["BEGIN:VEVENT", "UID:1", "RECURRENCE-ID;RANGE=" ++ a ++ ":20200303T150000Z",
      "DTSTART:20200303T170000Z", "END:VEVENT", "BEGIN:VEVENT", "UID:1", "RECURRENCE-ID;RANGE=" ++ b ++ ":20200304T150000Z",
      "DTSTART:20200304T170000Z", "END:VEVENT"]) .empty L136.inSpring =
    some (if a = b then none else some [(L136.utcTime 3 2 15, L136.utcTime 3 2 16), (L136.utcTime 3 5 15, L136.utcTime 3 5 16),
      (L136.utcTime 3 3 17, L136.utcTime 3 3 17), (L136.utcTime 3 4 17, L136.utcTime 3 4 17)]) := by
  simp only [List.mem_cons, List.not_mem_nil, or_false] at ha hb
  rcases ha with rfl | rfl <;> rcases hb with rfl | rfl <;> decide +kernel

/-- C137 fails: a task, a journal entry or an AVAILABLE with the UID of an event and a RECURRENCE-ID takes the place of an instance of
the event; other components do not. -/
theorem C137_fails_types (a : String) (ha : a ∈ ["VTODO", "VJOURNAL", "AVAILABLE", "VFREEBUSY", "VAVAILABILITY", "X-A"]) :
    instancesOf (dailyWith ["BEGIN:" ++ a, "UID:1", "RECURRENCE-ID:20200303T150000Z", "END:" ++ a]) .empty L136.inSpring =
    some (some ((L136.utcTime 3 2 15, L136.utcTime 3 2 16) ::
      ((if a ∈ ["VTODO", "VJOURNAL", "AVAILABLE"] then [] else [(L136.utcTime 3 3 15, L136.utcTime 3 3 16)]) ++
        [(L136.utcTime 3 4 15, L136.utcTime 3 4 16), (L136.utcTime 3 5 15, L136.utcTime 3 5 16)]))) := by
  simp only [List.mem_cons, List.not_mem_nil, or_false] at ha
  rcases ha with rfl | rfl | rfl | rfl | rfl | rfl <;> decide +kernel

/-- C137 fails: a DURATION with VALUE=TEXT is accepted, and the event is as long as if there were no DURATION. -/
theorem C137_fails_length : instancesOf (doc ["BEGIN:VEVENT", "UID:1", "DTSTART;VALUE=DATE:20200302",
      "DURATION;VALUE=TEXT:P2D", "END:VEVENT"]) .empty L136.inSpring =
    some (some [(DateTime.ofDate 2020 3 2, DateTime.ofDate 2020 3 3)]) ∧
    instancesOf (doc ["BEGIN:VEVENT", "UID:1", "DTSTART;VALUE=DATE:20200302", "DURATION:P2D", "END:VEVENT"]) .empty L136.inSpring =
    some (some [(DateTime.ofDate 2020 3 2, DateTime.ofDate 2020 3 4)]) :=
  ⟨by decide +kernel, by decide +kernel⟩

end PyCal
