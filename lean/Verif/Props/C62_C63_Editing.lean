import Verif.Model.Editing
import Verif.Props.C01_C05_Arithmetic
import Verif.Props.C17_C18_Compare

/-!
# C62, C63: editing the times and the recurrences of a component
-/

namespace PyCal
open DateTime (TzEnv)

namespace Timing

/-- What a component tells of its times is what a new component with the same properties tells. -/
def Agrees (read : Timing → Timing) (c : Timing) : Prop :=
  (read c.blank).hasStart = c.hasStart ∧ (c.hasStart = true → (read c.blank).start = c.start) ∧
  (read c.blank).hasEnd = c.hasEnd ∧ (read c.blank).stop = c.stop ∧
  (read c.blank).useDuration = c.useDuration

/-- As `Agrees`, but not whether there is an end and whether it is by a duration. -/
def AgreesOnTimes (read : Timing → Timing) (c : Timing) : Prop :=
  (read c.blank).hasStart = c.hasStart ∧ (c.hasStart = true → (read c.blank).start = c.start) ∧
  (read c.blank).stop = c.stop

/-! ## C62 -/

/-- C62: a start and a later end are kept and written, whatever was there before.  (Missing: an end that
is not later, `C62_fails_order`; an all-day event of one day, `C62_oneDay_partial`; a to-do,
`C62_fails_todo`.) -/
theorem C62_startEnd_partial (env : TzEnv) (c : Timing) (start stop : DateTime)
    (h : start.lt env stop = true)
    (hd : start.dateOnly = true → stop.eq env (start.offsetDay 1) = false) :
    let c' := c.editTimingStartEnd env start stop
    c'.hasStart = true ∧ c'.start = start ∧ c'.hasEnd = true ∧ c'.stop = stop ∧
      c'.due = none ∧ c'.duration = none ∧ c'.Agrees finalise := by
  have hle : stop.le env start = false := by
    simp only [DateTime.le, DateTime.lt, decide_eq_true_eq, decide_eq_false_iff_not,
      DateTime.compare_neg env stop start] at *
    omega
  have hcond : (!start.dateOnly || !stop.eq env (start.offsetDay 1)) = true := by
    cases hs : start.dateOnly with
    | false => rfl
    | true => simp [hd hs]
  simp [editTimingStartEnd, fixStartEnd, hle, hcond, bare, Agrees, finalise, blank]

/-- C62: an all-day event of one day has the same times when it is read again (but no end,
`C62_fails_oneDay`). -/
theorem C62_oneDay_partial (env : TzEnv) (c : Timing) (start : DateTime) (hs : start.dateOnly = true)
    (h : start.lt env (start.offsetDay 1) = true)
    (hr : (start.offsetDay 1).eq env (start.offsetDay 1) = true) :
    let c' := c.editTimingStartEnd env start (start.offsetDay 1)
    c'.start = start ∧ c'.stop = start.offsetDay 1 ∧ c'.AgreesOnTimes finalise := by
  have hle : (start.offsetDay 1).le env start = false := by
    simp only [DateTime.le, DateTime.lt, decide_eq_true_eq, decide_eq_false_iff_not,
      DateTime.compare_neg env (start.offsetDay 1) start] at *
    omega
  simp [editTimingStartEnd, fixStartEnd, hle, hs, hr, bare, AgreesOnTimes, finalise, blank]

/-- C62: a start and a duration are kept and written.  (Missing: all-day events of at most one day; a
to-do.) -/
theorem C62_startDuration_partial (c : Timing) (start : DateTime) (d : Duration)
    (h : start.dateOnly = true → d.weeks ≠ 0 ∨ 1 < d.days) :
    let c' := c.editTimingStartDuration start d
    c'.hasStart = true ∧ c'.start = start ∧ c'.stop = start.add d ∧ c'.dtend = none ∧ c'.due = none ∧
      c'.Agrees finalise := by
  have hcond : (!start.dateOnly || decide (d.weeks ≠ 0) || decide (d.days > 1)) = true := by
    cases hs : start.dateOnly with
    | false => rfl
    | true => rcases h hs with h | h <;> simp [h]
  simp only [editTimingStartDuration, hcond, if_true]
  simp [bare, Agrees, finalise, blank]

theorem add_day {t : DateTime} {d : Duration} (hd : d.totalSeconds = 86400) :
    t.add d = t.offsetDay 1 := by
  unfold DateTime.add DateTime.offsetDay DateTime.normalise
  rw [hd]
  have e1 : (t.seconds + 86400) % 60 = t.seconds % 60 := by omega
  have e2 : t.minutes + (t.seconds + 86400) / 60 = t.minutes + t.seconds / 60 + 1440 := by omega
  have e3 : (t.minutes + t.seconds / 60 + 1440) % 60 = (t.minutes + t.seconds / 60) % 60 := by omega
  have e4 : t.hours + (t.minutes + t.seconds / 60 + 1440) / 60
      = t.hours + (t.minutes + t.seconds / 60) / 60 + 24 := by omega
  have e5 : (t.hours + (t.minutes + t.seconds / 60) / 60 + 24) % 24
      = (t.hours + (t.minutes + t.seconds / 60) / 60) % 24 := by omega
  have e6 : t.day + (t.hours + (t.minutes + t.seconds / 60) / 60 + 24) / 24
      = t.day + 1 + (t.hours + (t.minutes + t.seconds / 60) / 60) / 24 := by omega
  simp only [e1, e2, e3, e4, e5, e6]

/-- C62: an all-day event with a duration of one day, however it is put (P1D, PT24H), has the same times
when it is read again.

Missing: an end one day later, `C62_fails_oneDay`, and durations that are no number of days, `C62_fails_duration`. -/
theorem C62_oneDayDuration_partial (c : Timing) (start : DateTime) (d : Duration)
    (hs : start.dateOnly = true) (hd : d.totalSeconds = 86400) :
    let c' := c.editTimingStartDuration start d
    c'.start = start ∧ c'.stop = start.offsetDay 1 ∧ c'.AgreesOnTimes finalise := by
  have e := add_day (t := start) hd
  unfold editTimingStartDuration
  simp only [hs, Bool.not_true, Bool.false_or]
  cases (decide (d.weeks ≠ 0) || decide (d.days > 1)) <;>
    simp [bare, AgreesOnTimes, finalise, blank, e, hs]

/-- C62: the due time of a to-do is kept and written.

Missing: the end of a to-do, `C62_fails_todo`. -/
theorem C62_due_partial (c : Timing) (due : DateTime) :
    let c' := c.editTimingDue due
    c'.hasEnd = true ∧ c'.stop = due ∧ c'.hasStart = false ∧ c'.Agrees finaliseToDo := by
  simp [editTimingDue, bare, Agrees, finaliseToDo, finalise, blank]

/-- C62 fails: `editTiming` always raises and changes no property; the component then says that it has no
start although it has one. -/
theorem C62_fails_none (c : Timing) (t : DateTime) (h : c.dtstart = some t) :
    (c.editTiming).1 = false ∧ c.editTiming.2.hasStart = false ∧
      (finalise c.editTiming.2.blank).hasStart = true ∧ (finaliseToDo c.editTiming.2.blank).hasStart = true := by
  refine ⟨rfl, rfl, ?_, ?_⟩
  · unfold editTiming finalise blank
    simp only [h]
    cases c.dtend <;> cases c.duration <;> rfl
  · unfold editTiming finaliseToDo finalise blank
    simp only [h]
    cases c.dtend <;> cases c.duration <;> cases c.due <;> rfl

/-- C62 fails: with an end before the start the component ends at the next midnight, but says in DTEND
that it ends before it starts. -/
theorem C62_fails_order : ∃ (c : Timing) (start stop : DateTime), start.Valid ∧ stop.Valid ∧
    (c.editTimingStartEnd .empty start stop).stop ≠
      (finalise (c.editTimingStartEnd .empty start stop).blank).stop :=
  ⟨{}, ⟨2020, 1, 1, 10, 0, 0, false, true, none⟩, ⟨2020, 1, 1, 9, 0, 0, false, true, none⟩,
    by decide +kernel, by decide +kernel, by decide +kernel⟩

/-- C62 fails: an all-day event of one day has an end, and does not when it is read again. -/
theorem C62_fails_oneDay : ∃ (c : Timing) (start stop : DateTime), start.Valid ∧ stop.Valid ∧
    start.lt .empty stop = true ∧ (c.editTimingStartEnd .empty start stop).hasEnd = true ∧
      (finalise (c.editTimingStartEnd .empty start stop).blank).hasEnd = false :=
  ⟨{}, .ofDate 2020 1 1, .ofDate 2020 1 2, by decide +kernel, by decide +kernel, by decide +kernel,
    by decide +kernel, by decide +kernel⟩

/-- C62 fails: of an all-day event the duration `PT48H` is lost (it is no number of days); read again, the
event is one day long. -/
theorem C62_fails_duration : ∃ (c : Timing) (start : DateTime) (d : Duration), start.Valid ∧
    d.totalSeconds = 2 * 86400 ∧ (c.editTimingStartDuration start d).stop = start.offsetDay 2 ∧
      (finalise (c.editTimingStartDuration start d).blank).stop = start.offsetDay 1 :=
  ⟨{}, .ofDate 2020 1 1, ⟨true, 0, 0, 48, 0, 0⟩, by decide +kernel, by decide +kernel,
    by decide +kernel, by decide +kernel⟩

/-- C62 fails: the end of a to-do is written as DTEND, which a to-do does not have. -/
theorem C62_fails_todo : ∃ (c : Timing) (start stop : DateTime), start.Valid ∧ stop.Valid ∧
    start.lt .empty stop = true ∧ (c.editTimingStartEnd .empty start stop).hasEnd = true ∧
      (finaliseToDo (c.editTimingStartEnd .empty start stop).blank).hasEnd = false :=
  ⟨{}, ⟨2020, 1, 1, 10, 0, 0, false, true, none⟩, ⟨2020, 1, 1, 11, 0, 0, false, true, none⟩,
    by decide +kernel, by decide +kernel, by decide +kernel, by decide +kernel, by decide +kernel⟩

/-- The hypotheses are met: an event of two days, replacing a due time. -/
example : let start := DateTime.ofDate 2020 2 28
    let stop := DateTime.ofDate 2020 3 1
    start.lt .empty stop = true ∧ stop.eq .empty (start.offsetDay 1) = false ∧
    (({ due := some start } : Timing).editTimingStartEnd .empty start stop).due = none :=
  ⟨by decide +kernel, by decide +kernel, by decide +kernel⟩

/-- The hypotheses of `C62_oneDay_partial` are met. -/
example : let start := DateTime.ofDate 2020 2 29
    start.lt .empty (start.offsetDay 1) = true ∧
      (start.offsetDay 1).eq .empty (start.offsetDay 1) = true :=
  ⟨by decide +kernel, by decide +kernel⟩

end Timing

/-! ## C63 -/

namespace Recurring

/-- C63: `editRecurrenceSet` of a set of rules writes these, and they are what is read again (but it
raises, `C63_fails_raises`). -/
theorem C63_rules_partial (c : Recurring) (s : RecurrenceSet) (h1 : s.rrules ≠ [])
    (h2 : s.exrules = []) (h3 : s.rdates = []) (h4 : s.exdates = []) :
    ∃ s', ((editRecurrenceSet s c).1.reset).rset = some s' ∧
      s'.rrules.map Prod.fst = s.rrules.map Prod.fst ∧ s'.exrules = s.exrules ∧ s'.rdates = s.rdates ∧
      s'.exdates = s.exdates := by
  unfold editRecurrenceSet reset
  cases hs : s.rrules with
  | nil => exact absurd hs h1
  | cons r rs =>
    refine ⟨_, rfl, ?_, h2.symm, h3.symm, h4.symm⟩
    simp [List.map_map, Function.comp_def]

/-- C63: a component without recurrence is left as it is by the two methods that exclude instances. -/
theorem C63_single (c : Recurring) (t : DateTime) (h : c.rset = none) :
    excludeRecurrence t c = (c, false) ∧ excludeFutureRecurrence t c = (c, false) := by
  simp [excludeRecurrence, excludeFutureRecurrence, h]

/-- C63 fails: `editRecurrenceSet` always raises, and by then the dates and the excluded dates and rules,
old and new, are gone from the properties. -/
theorem C63_fails_raises (c : Recurring) (s : RecurrenceSet) :
    (editRecurrenceSet s c).2 = true ∧
      ∀ s', ((editRecurrenceSet s c).1.reset).rset = some s' →
        s'.rdates = [] ∧ s'.exdates = [] ∧ s'.exrules = [] := by
  refine ⟨rfl, ?_⟩
  unfold editRecurrenceSet reset
  intro s' h
  dsimp only at h
  split at h
  · simp at h
  · simp only [Option.some.injEq] at h
    subst h
    simp

/-- C63 fails: of a recurring component no instance can be excluded, and no future: the methods raise and
change nothing. -/
theorem C63_fails_exclude (c : Recurring) (t : DateTime) (s : RecurrenceSet) (h : c.rset = some s) :
    excludeRecurrence t c = (c, true) ∧ excludeFutureRecurrence t c = (c, true) := by
  simp [excludeRecurrence, excludeFutureRecurrence, h]

/-- C63: a component read from text, or whose properties were changed, recurs if and only if it has one
of the four properties, and then its set has the rules and dates of each property, no others, each in its
own place. -/
theorem C63_loaded (c : Recurring) :
    (c.reset.rset = none ↔ c.rrule = [] ∧ c.exrule = [] ∧ c.rdate = [] ∧ c.exdate = []) ∧
      (∀ s, c.reset.rset = some s → s.rrules.map Prod.fst = c.rrule ∧
        s.exrules.map Prod.fst = c.exrule ∧ s.rdates = c.rdate ∧ s.exdates = c.exdate ∧
        s.rperiods = [] ∧ s.experiods = []) := by
  unfold reset
  constructor
  · cases c.rrule <;> cases c.exrule <;> cases c.rdate <;> cases c.exdate <;> simp
  · intro s h
    dsimp only at h
    split at h
    · simp at h
    · have := Option.some.inj h
      subst this
      simp [List.map_map, Function.comp_def]

/-- A component with one of each. -/
example : ∃ (c : Recurring) (s : RecurrenceSet), c.reset.rset = some s ∧
    s.rdates = [.ofDate 2020 1 2] ∧ s.exdates = [.ofDate 2020 1 3] :=
  ⟨{ rrule := [{ freq := .daily }], rdate := [.ofDate 2020 1 2], exdate := [.ofDate 2020 1 3] }, _,
    rfl, rfl, rfl⟩

/-- A set with an excluded date: editing it in loses the date. -/
example : let s : RecurrenceSet :=
      { rrules := [({ freq := .daily }, {})], exdates := [.ofDate 2020 1 2] }
    ((editRecurrenceSet s {}).1.reset).rset.map (·.exdates) = some [] ∧ s.exdates ≠ [] :=
  ⟨rfl, by simp⟩

end Recurring
end PyCal
