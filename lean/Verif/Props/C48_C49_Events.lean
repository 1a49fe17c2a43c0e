import Verif.Model.Event
import Verif.Props.C27_Period
import Verif.Props.C34_RecurrenceSet
import Verif.Props.C01_C05_Arithmetic

/-!
# C48, C49, C59, C60: events in a period
-/

namespace PyCal
open Spec DateTime
open Event

namespace Event

/-! ## C48 -/

theorem eq_self (env : TzEnv) (t : DateTime) : t.eq env t = true := (C17_antisymm env t t).2.2.1

/-- The seconds by which two clock readings of one kind differ, as `__sub__` has them. -/
theorem sub_seconds {env : TzEnv} {a b : DateTime} (ha : a.Valid) (hb : b.Valid) (hk : SameKind b a)
    (hs : NoSkip a.year b.year) (hz : a.floating = true ∨ b.tzOffset env = a.tzOffset env) :
    (b.subDateTime env a).totalSeconds = timeNum b.civil - timeNum a.civil := by
  have tot : ∀ n, (Duration.ofSeconds n).totalSeconds = n := Duration.C14_total_ofSeconds
  have hfl : b.floating = a.floating := by
    unfold floating
    rw [hk.2.1, hk.2.2]
  have hd := hs.drift
  have e : ∀ t : DateTime, timeNum t.civil =
      dayNum t.year t.month t.day * 86400 + t.secondsOfDay := by
    intro t
    unfold timeNum secondsOfDay
    simp only [civil, date]
    omega
  rw [e, e]
  unfold subDateTime
  rw [hfl]
  by_cases hf : a.floating = true
  · simp only [hf, Bool.and_self, if_true, tot, posix, tzOffset]
    rw [daysSince1970_dayNum, daysSince1970_dayNum]
    simp only [secondsOfDay]
    omega
  · have hz := hz.resolve_left hf
    simp only [Bool.not_eq_true] at hf
    simp only [hf, Bool.and_self, Bool.false_eq_true, if_false, tot, posix]
    rw [daysSince1970_dayNum, daysSince1970_dayNum, hz]
    omega

/-- Adding a length that fits the kind moves the clock by it. -/
theorem add_timeNum {t : DateTime} (h : t.Valid) {d : Duration}
    (hd : t.dateOnly = true → d.totalSeconds % 86400 = 0) :
    timeNum (t.add d).civil = timeNum t.civil + d.totalSeconds := by
  have hv : (t.add d).Valid := normalise_valid _
  cases hdo : t.dateOnly with
  | false =>
    rw [← hv.secNum, ← h.secNum]
    exact add_secNum hdo d
  | true =>
    have hd := hd hdo
    have h0 := h.2 hdo
    have e1 : (t.add d).secondsOfDay = 0 := normalise_secondsOfDay' _ hdo
    have e2 : t.secondsOfDay = 0 := by unfold secondsOfDay; omega
    rw [← hv.secNum, ← h.secNum]
    unfold secNum
    rw [dayNumOf_of_month hv.month.1 hv.month.2, dayNumOf_of_month h.month.1 h.month.2, e1, e2]
    have e4 : dayNum (t.add d).year (t.add d).month (t.add d).day =
        dayNum t.year t.month t.day + d.totalSeconds / 86400 := by
      show dayNum (normalise _).year (normalise _).month (normalise _).day = _
      rw [normalise_dayNum, dayNumOf_of_month (by simpa using h.month.1) (by simpa using h.month.2)]
      unfold secondsOfDay at *
      simp only
      omega
    rw [e4]
    omega

/-- How long something lasts by the clock, in seconds. -/
def clock (start stop : DateTime) : Int := timeNum stop.civil - timeNum start.civil

/-- Which instances an expansion has. -/
theorem expandPeriod_mem {env : TzEnv} {o : SetOrder} {fuel : Nat} {parent : Option (List Event)}
    {e : Event} {period : Period} {l : List Instance}
    (h : e.expandPeriod env o fuel parent period = some (.instances l)) {i : Instance} (hi : i ∈ l) :
    (e.recurs && e.rid.isNone) = true ∧ (∃ t, i = e.expanded env (some t)) ∨
    (e.recurs && e.rid.isNone) = false ∧ i = e.expanded env e.rid := by
  unfold expandPeriod at h
  cases hm : (e.recurs && e.rid.isNone) with
  | true =>
    rw [hm, if_pos rfl] at h
    refine Or.inl ⟨rfl, ?_⟩
    cases hx : e.rset.expand env o fuel e.start period with
    | none => rw [hx] at h; simp at h
    | some r =>
      rw [hx] at h
      cases r with
      | tooMany _ => simp at h
      | dates items _ _ =>
        cases parent with
        | none =>
          simp only [Option.some.injEq, Outcome.instances.injEq] at h
          subst h
          simp at hi
        | some ov =>
          simp only [Option.some.injEq, masterInstances] at h
          split at h
          · simp only [Outcome.instances.injEq] at h
            subst h
            obtain ⟨t, _, rfl⟩ := List.mem_map.mp hi
            exact ⟨t, rfl⟩
          · split at h
            · simp at h
            · simp only [Outcome.instances.injEq] at h
              subst h
              obtain ⟨t, _, rfl⟩ := List.mem_map.mp hi
              exact ⟨t, rfl⟩
  | false =>
    rw [hm] at h
    simp only [Bool.false_eq_true, if_false] at h
    refine Or.inr ⟨rfl, ?_⟩
    cases hx : e.within env o fuel period with
    | none => rw [hx] at h; simp at h
    | some r =>
      rw [hx] at h
      cases r with
      | none => simp at h
      | some b =>
        cases b with
        | true =>
          simp only [Option.some.injEq, Outcome.instances.injEq] at h
          subst h
          exact List.mem_singleton.mp hi
        | false =>
          simp only [Option.some.injEq, Outcome.instances.injEq] at h
          subst h
          simp at hi

/-- C48 (partial): every instance of an event in a period lasts as long, by the clock, as the event
itself.  For a recurring event this needs a DTEND of the same kind as DTSTART, at the same offset from UTC
and with no non-leap century year between.  Missing: recurring events with DURATION or without an end
(`C48_fails_duration`, `C48_fails_allday`), and the elapsed time when the offset changes
(`C48_fails_offset`). -/
theorem C48_length_partial (env : TzEnv) (o : SetOrder) (fuel : Nat) (parent : Option (List Event))
    (e : Event) (period : Period) (l : List Instance)
    (hend : e.recurs = true → e.rid = none → ∃ s, e.dtend = some s ∧ e.start.Valid ∧ s.Valid ∧
      SameKind s e.start ∧ NoSkip e.start.year s.year ∧
      (e.start.floating = true ∨ s.tzOffset env = e.start.tzOffset env))
    (h : e.expandPeriod env o fuel parent period = some (.instances l)) (i : Instance) (hi : i ∈ l)
    (hv : i.start.Valid) (hd : i.start.dateOnly = e.start.dateOnly) :
    clock i.start i.stop = clock e.start e.stop := by
  rcases expandPeriod_mem h hi with ⟨hm, t, rfl⟩ | ⟨hm, rfl⟩
  · simp only [Bool.and_eq_true, Option.isNone_iff_eq_none] at hm
    obtain ⟨s, hs, v1, v2, hk, hns, hz⟩ := hend hm.1 hm.2
    have hstop : e.stop = s := by unfold Event.stop; rw [hs]
    have hx : e.expanded env (some t) = ⟨t, t.add (s.subDateTime env e.start), true, e.stamp⟩ := by
      unfold expanded
      simp only [hm.2]
      rw [if_pos (by unfold hasEnd; rw [hs]; rfl), hstop]
    rw [hx] at hv hd ⊢
    simp only at hv hd ⊢
    have hsub := sub_seconds (env := env) v1 v2 hk hns hz
    unfold clock
    rw [add_timeNum hv, hstop, hsub]
    · omega
    · intro hdt
      rw [hsub]
      have hdo : e.start.dateOnly = true := by rw [← hd, hdt]
      have hdo' : s.dateOnly = true := by rw [hk.1, hdo]
      have a1 := v1.2 hdo
      have a2 := v2.2 hdo'
      unfold timeNum
      simp only [civil]
      omega
  · cases hr : e.rid with
    | none => rfl
    | some r =>
      unfold expanded
      simp only [hr, eq_self, if_true]

/-- C48: an event with an RRULE, RDATE, EXRULE or EXDATE, given as a date or a period, has an instance
that starts at each date of its recurrence set, called recurring; one with none of these has none but
itself, which is not called recurring. -/
theorem C48_starts (env : TzEnv) (o : SetOrder) (fuel : Nat) (e : Event) (period : Period)
    (hrid : e.rid = none) :
    (e.rset.rrules ≠ [] ∨ e.rset.rdates ≠ [] ∨ e.rset.rperiods ≠ [] ∨ e.rset.exrules ≠ [] ∨
        e.rset.exdates ≠ [] ∨ e.rset.experiods ≠ [] →
      ∀ items a b, e.rset.expand env o fuel e.start period = some (.dates items a b) →
        ∃ l, e.expandPeriod env o fuel (some []) period = some (.instances l) ∧
          l.map (·.start) = items ∧ ∀ i ∈ l, i.recurring = true ∧ i.stamp = e.stamp) ∧
    (e.rset.rrules = [] → e.rset.rdates = [] → e.rset.rperiods = [] → e.rset.exrules = [] →
        e.rset.exdates = [] → e.rset.experiods = [] →
      ∃ l, e.expandPeriod env o fuel (some []) period = some (.instances l) ∧
        ∀ i ∈ l, i = ⟨e.start, e.stop, false, e.stamp⟩) := by
  constructor
  · intro hne items a b hx
    have hr : e.recurs = true := by
      unfold recurs
      simp only [Bool.or_eq_true, Bool.not_eq_true', List.isEmpty_eq_false_iff]
      tauto
    refine ⟨items.map fun t => e.expanded env (some t), ?_, ?_, ?_⟩
    · unfold expandPeriod
      rw [hr, hrid, hx]
      rfl
    · rw [List.map_map]
      conv_rhs => rw [← List.map_id items]
      apply List.map_congr_left
      intro t _
      simp only [Function.comp, expanded, hrid, id]
      split <;> rfl
    · intro i hi
      obtain ⟨t, -, rfl⟩ := List.mem_map.1 hi
      simp only [expanded, hrid]
      split <;> exact ⟨rfl, rfl⟩
  · intro h1 h2 h3 h4 h5 h6
    have hr : e.recurs = false := by
      unfold recurs
      simp [h1, h2, h3, h4, h5, h6]
    unfold expandPeriod within
    rw [hr, hrid]
    simp only [Bool.false_and, Bool.false_eq_true, if_false]
    cases e.spans env period with
    | false => exact ⟨[], rfl, by simp⟩
    | true => exact ⟨_, rfl, by simp [expanded]⟩

/-- C48: how long an event itself lasts by the clock: to its DTEND, for its DURATION (of whole days if it
is an all-day event), else a day if it is an all-day event and no time at all if it is not. -/
theorem C48_end (e : Event) (hv : e.start.Valid) :
    (∀ s, e.dtend = some s → e.stop = s) ∧
    (e.dtend = none → ∀ d, e.dur = some d → (e.start.dateOnly = true → d.totalSeconds % 86400 = 0) →
      clock e.start e.stop = d.totalSeconds) ∧
    (e.dtend = none → e.dur = none → clock e.start e.stop = if e.start.dateOnly then 86400 else 0) := by
  refine ⟨fun s hs => ?_, fun h1 d h2 hd => ?_, fun h1 h2 => ?_⟩
  · unfold Event.stop; rw [hs]
  · unfold Event.stop clock
    simp only [h1, h2]
    rw [add_timeNum hv hd]
    omega
  · unfold Event.stop clock
    simp only [h1, h2]
    cases hdo : e.start.dateOnly with
    | false => simp
    | true =>
      have hv' : (e.start.offsetDay 1).Valid := normalise_valid _
      have h0 := hv.2 hdo
      have h0' := hv'.2 (show (e.start.offsetDay 1).dateOnly = true from hdo)
      have hday : dayNum (e.start.offsetDay 1).year (e.start.offsetDay 1).month (e.start.offsetDay 1).day =
          dayNum e.start.year e.start.month e.start.day + 1 := by
        show dayNum (normalise _).year (normalise _).month (normalise _).day = _
        rw [normalise_dayNum, dayNumOf_of_month (by simpa using hv.month.1) (by simpa using hv.month.2)]
        have := hv.1.2
        unfold secondsOfDay
        simp only [civil] at this ⊢
        rw [dayNum_add]
        omega
      simp only [if_true]
      unfold timeNum
      simp only [civil, date]
      omega

/-- An instance as text fields. -/
def at10 (d h : Int) : DateTime := ⟨2020, 1, d, h, 0, 0, false, true, none⟩

/-- A rule: every day. -/
def daily : Rule := { freq := .daily, useCount := true, count := 3 }

/-- Some days of January. -/
def days : Period := .ofEnd (at10 1 0) (at10 20 0)

/-- An event with no rule but a further date. -/
example : let e : Event := { start := at10 5 10, rset := { rdates := [at10 9 10] } }
    e.expandPeriod .empty RecurrenceSet.inOrder 10 (some []) days =
      some (.instances [⟨at10 5 10, at10 5 10, true, e.stamp⟩, ⟨at10 9 10, at10 9 10, true, e.stamp⟩]) := by decide +kernel

/-- C48 fails: an event of one hour given by DURATION, every day, has instances of no length. -/
theorem C48_fails_duration : ∃ e : Event, e.dur = some (Duration.ofSeconds 3600) ∧
    clock e.start e.stop = 3600 ∧
    e.expandPeriod .empty RecurrenceSet.inOrder 100 (some []) days = some (.instances
      [⟨at10 1 10, at10 1 10, true, e.stamp⟩, ⟨at10 2 10, at10 2 10, true, e.stamp⟩,
       ⟨at10 3 10, at10 3 10, true, e.stamp⟩]) :=
  ⟨{ start := at10 1 10, dur := some (Duration.ofSeconds 3600), rset := { rrules := [(daily, {})] } },
    rfl, by decide +kernel, by decide +kernel⟩

/-- C48 fails: an all day event without an end lasts a day, but its recurrences have no length. -/
theorem C48_fails_allday : ∃ e : Event, e.start = DateTime.ofDate 2020 1 5 ∧
    clock e.start e.stop = 86400 ∧
    e.expandPeriod .empty RecurrenceSet.inOrder 100 (some []) days = some (.instances
      [⟨ofDate 2020 1 5, ofDate 2020 1 5, true, e.stamp⟩,
       ⟨ofDate 2020 1 6, ofDate 2020 1 6, true, e.stamp⟩,
       ⟨ofDate 2020 1 7, ofDate 2020 1 7, true, e.stamp⟩]) :=
  ⟨{ start := DateTime.ofDate 2020 1 5, rset := { rrules := [(daily, {})] } },
    rfl, by decide +kernel, by decide +kernel⟩

/-- A zone whose offset is an hour more from 2 January 2020, 02:00 on. -/
def shifting : TzEnv := fun _ t _ =>
  if t.day > 2 ∨ t.day = 2 ∧ t.hours ≥ 2 then 3600 else 0

/-- A time in that zone. -/
def local10 (d h : Int) : DateTime := ⟨2020, 1, d, h, 0, 0, false, false, some (.name "X")⟩

/-- C48 fails: from 1:00 to 3:00 is two hours on the 1st, but an hour on the 2nd. -/
theorem C48_fails_offset : ∃ e : Event,
    e.stop.posix shifting - e.start.posix shifting = 7200 ∧
    e.expandPeriod shifting RecurrenceSet.inOrder 100 (some []) days = some (.instances
      [⟨local10 1 1, local10 1 3, true, e.stamp⟩, ⟨local10 2 1, local10 2 3, true, e.stamp⟩,
       ⟨local10 3 1, local10 3 3, true, e.stamp⟩]) ∧
    (local10 2 3).posix shifting - (local10 2 1).posix shifting = 3600 :=
  ⟨{ start := local10 1 1, dtend := some (local10 1 3), rset := { rrules := [(daily, {})] } },
    by decide +kernel, by decide +kernel, by decide +kernel⟩

/-- The conditions are met by an event that recurs every day, from 10:00 to 12:00. -/
example : let e : Event :=
      { start := at10 1 10, dtend := some (at10 1 12), rset := { rrules := [(daily, {})] } }
    (e.start.Valid ∧ (at10 1 12).Valid ∧ SameKind (at10 1 12) e.start ∧
      (at10 1 12).tzOffset .empty = e.start.tzOffset .empty) ∧
    e.expandPeriod .empty RecurrenceSet.inOrder 100 (some []) days = some (.instances
      [⟨at10 1 10, at10 1 12, true, e.stamp⟩, ⟨at10 2 10, at10 2 12, true, e.stamp⟩,
       ⟨at10 3 10, at10 3 12, true, e.stamp⟩]) := by
  exact ⟨⟨by decide +kernel, by decide +kernel, ⟨rfl, rfl, rfl⟩, rfl⟩, by decide +kernel⟩

/-! ## C49 -/

/-- C49 (partial): an event that does not recur and ends after it starts is in a non-empty period exactly
when some time of their kind is in both.  Missing: events without any length (`C49_fails_empty`) and
times of different kinds (`C49_allday_partial`, `C49_fails_allday`). -/
theorem C49_overlap_partial {env : TzEnv} {K : DateTime → Prop} (hK : Period.Kind env K) (o : SetOrder)
    (fuel : Nat) (e : Event) (period : Period) (hr : e.recurs = false)
    (hs : K e.start) (he : K e.stop) (hps : K period.start) (hpe : K period.stop)
    (hlt : e.start.lt env e.stop = true) (hp : period.start.lt env period.stop = true) :
    ∃ b, e.within env o fuel period = some (some b) ∧
      (b = true ↔ ∃ t, K t ∧ (t.ge env e.start = true ∧ t.lt env e.stop = true) ∧
        (t.ge env period.start = true ∧ t.lt env period.stop = true)) := by
  refine ⟨e.spans env period, by unfold within; rw [hr]; rfl, ?_⟩
  have h := Period.C27_overlap hK (.ofEnd e.start e.stop) period hs he hps hpe hlt hp
  simp only [Period.isDateWithin, Bool.and_eq_true] at h
  have h2 : e.spans env period = Period.isOverlap env (.ofEnd e.start e.stop) period := by
    unfold spans Period.isOverlap
    rw [Bool.or_comm]
    rfl
  rw [h2, h]
  rfl

/-- C49 (partial), without the condition on lengths: the answer is whether the event starts before the end
of the period and ends after its start.

Missing: what an event without length should give, `C49_fails_empty`, and all-day events, `C49_fails_allday`. -/
theorem C49_ends_partial (env : TzEnv) (o : SetOrder) (fuel : Nat) (e : Event) (period : Period)
    (hr : e.recurs = false) :
    e.within env o fuel period = some (some true) ↔
      period.start.lt env e.stop = true ∧ e.start.lt env period.stop = true := by
  unfold within spans
  rw [hr]
  simp only [Bool.false_eq_true, if_false, Option.some.injEq, Bool.not_eq_true']
  rw [← Bool.not_eq_true, Bool.or_eq_true, Period.le_iff, Period.ge_iff, not_or, not_not, not_not]

/-- C49 (partial), all day events and any period: the answer depends on the dates of the ends of the period, as they
are written, alone.  Missing: the times of day (`C49_fails_allday`). -/
theorem C49_allday_partial (env : TzEnv) (o : SetOrder) (fuel : Nat) (e : Event) (period : Period)
    (hr : e.recurs = false) (hs : e.start.dateOnly = true) (he : e.stop.dateOnly = true) :
    e.within env o fuel period = some (some true) ↔
      e.start.date.lt period.stop.date ∧ period.start.date.lt e.stop.date := by
  rw [C49_ends_partial env o fuel e period hr, and_comm]
  simp only [DateTime.lt, DateTime.compare, hs, he, Bool.true_or, Bool.or_true, if_true, decide_eq_true_eq,
    DateTime.cmpDate_lt]

/-- C49 fails: an all day event is in no period that ends on the day it starts on, whatever the time at which the
period ends. -/
theorem C49_fails_allday (env : TzEnv) (o : SetOrder) (fuel : Nat) (e : Event) (period : Period)
    (hr : e.recurs = false) (hs : e.start.dateOnly = true) (hd : period.stop.date = e.start.date) :
    e.within env o fuel period = some (some false) := by
  have h : e.start.ge env period.stop = true := by
    have h0 : DateTime.cmpDate e.start period.stop = 0 := (DateTime.cmpDate_eq _ _).mpr hd.symm
    simp only [DateTime.ge, DateTime.compare, hs, Bool.true_or, if_true, h0]
    decide
  unfold within spans
  rw [hr, h]
  simp

/-- An event on 5 January, all day: it is not in the period from 10:00 on the day before to 10:00 on that day, but in the
one to 10:00 on the day after. -/
example : let e : Event := { start := ofDate 2020 1 5, dtend := some (ofDate 2020 1 6) }
    (e.recurs = false ∧ e.start.dateOnly = true ∧ e.stop.dateOnly = true) ∧
    e.within .empty RecurrenceSet.inOrder 1 (.ofEnd (at10 4 10) (at10 5 10)) = some (some false) ∧
    e.within .empty RecurrenceSet.inOrder 1 (.ofEnd (at10 4 10) (at10 6 10)) = some (some true) := by
  decide +kernel

/-- C49 fails: an event without length is in a period that begins before it but not in the one that
begins with it. -/
theorem C49_fails_empty : ∃ e : Event, e.recurs = false ∧ e.start = at10 5 10 ∧ e.stop = at10 5 10 ∧
    e.within .empty RecurrenceSet.inOrder 1 (.ofEnd (at10 5 9) (at10 5 11)) = some (some true) ∧
    e.within .empty RecurrenceSet.inOrder 1 (.ofEnd (at10 5 10) (at10 5 11)) = some (some false) :=
  ⟨{ start := at10 5 10 }, rfl, rfl, rfl, by decide +kernel, by decide +kernel⟩

/-- C49: `FixStartEnd` makes an event end after it starts. -/
theorem C49_fix (env : TzEnv) (start stop : DateTime) (hv : start.Valid) :
    start.lt env (fixEnd env start stop) = true := by
  unfold fixEnd
  split
  · have hday : dayNum (start.offsetDay 1).year (start.offsetDay 1).month (start.offsetDay 1).day =
        dayNum start.year start.month start.day + 1 := by
      show dayNum (normalise _).year (normalise _).month (normalise _).day = _
      rw [normalise_dayNum, dayNumOf_of_month (by simpa using hv.month.1) (by simpa using hv.month.2)]
      have := hv.1.2
      unfold secondsOfDay
      simp only [civil] at this ⊢
      rw [dayNum_add]
      omega
    have hv' : (start.offsetDay 1).Valid := normalise_valid _
    have hlt : start.date.lt (start.offsetDay 1).date := by
      have := dayNum_lt_iff hv.ymd hv'.ymd
      exact this.mp (by omega)
    split
    · rename_i hd
      unfold DateTime.lt DateTime.compare
      rw [hd, Bool.true_or, if_pos rfl, decide_eq_true_eq, cmpDate_lt]
      exact hlt
    · rename_i hd
      have hd' : (start.offsetDay 1).dateOnly = start.dateOnly := rfl
      have hu : (start.offsetDay 1).utc = start.utc := rfl
      have hz : (start.offsetDay 1).tzid = start.tzid := rfl
      unfold DateTime.lt DateTime.compare
      simp only [hd', hu, hz]
      rw [Bool.not_eq_true] at hd
      rw [hd, Bool.or_false, if_neg (by simp)]
      have hsame : tzSame start.utc start.tzid start.utc start.tzid = true := by
        unfold tzSame compareTzSafe
        split <;> simp
      rw [hsame, if_pos rfl, decide_eq_true_eq, cmpFields_lt]
      exact Or.inl hlt
  · rename_i h
    rw [Period.le_iff, not_not] at h
    exact h

/-- The conditions are met: an event from 10:00 to 12:00 and a period from 11:00 to 13:00. -/
example : let e : Event := { start := at10 5 10, dtend := some (at10 5 12) }
    e.recurs = false ∧ Period.Kind .empty (InZone true none) ∧ InZone true none e.start ∧
    InZone true none e.stop ∧ e.start.lt .empty e.stop = true ∧
    e.within .empty RecurrenceSet.inOrder 1 (.ofEnd (at10 5 11) (at10 5 13)) = some (some true) :=
  ⟨rfl, Or.inr (Or.inl ⟨true, none, rfl⟩), by unfold InZone; decide +kernel,
    by unfold InZone; decide +kernel, by decide +kernel, by decide +kernel⟩

/-! ## C59 -/

/-- C59 (partial): in a calendar, a recurring event that is not itself an overridden instance gives one
instance for each recurrence in the period that no overridden instance is for, and only those; an instance
is a recurrence, flagged as such, and starts with it.  Conditions: everything compares as an instant
(`Uniform`, as in C34) and at most one overridden instance has each kind of RANGE.  Missing: without a
calendar there are no instances (`C59_fails_alone`), two RANGEs raise (`C59_fails_range`), one is ignored
(`C59_fails_future`), and a recurrence that began before the period is left out although it lasts into it
(`C59_fails_before`). -/
theorem C59_instances_partial {env : TzEnv} {K : DateTime → Prop} (o : SetOrder) (fuel : Nat)
    (overrides : List Event) (e : Event) (period : Period) (l : List Instance)
    (hrec : e.recurs = true) (hrid : e.rid = none)
    (hu : RecurrenceSet.Uniform env K fuel e.start period 0 e.rset)
    (hov : ∀ v ∈ overrides, ∃ r, v.rid = some r ∧ K r)
    (hinc : ∀ t, RecurrenceSet.Included env fuel e.start period 0 e.rset t → K t)
    (h : e.expandPeriod env o fuel (some overrides) period = some (.instances l)) :
    (∀ x, (∃ i ∈ l, i.start.posix env = x) ↔
      (∃ t, RecurrenceSet.Included env fuel e.start period 0 e.rset t ∧ t.posix env = x) ∧
      (¬ ∃ t, RecurrenceSet.Excluded env fuel e.start period 0 e.rset t ∧ t.posix env = x) ∧
      ¬ ∃ v ∈ overrides, ∃ r, v.rid = some r ∧ r.posix env = x) ∧
    (∀ i ∈ l, RecurrenceSet.Included env fuel e.start period 0 e.rset i.start ∧ i.recurring = true) ∧
    l.Pairwise fun a b => a.start.posix env ≠ b.start.posix env := by
  have hstart : ∀ t, (e.expanded env (some t)).start = t ∧ (e.expanded env (some t)).recurring = true := by
    intro t
    unfold expanded
    simp only [hrid]
    split <;> exact ⟨rfl, rfl⟩
  unfold expandPeriod at h
  rw [if_pos (by rw [hrec, hrid]; rfl)] at h
  cases hx : e.rset.expand env o fuel e.start period with
  | none => rw [hx] at h; simp at h
  | some r =>
    rw [hx] at h
    cases r with
    | tooMany _ => simp at h
    | dates items lim s' =>
      obtain ⟨c1, c2, c3⟩ := RecurrenceSet.C34_exact_partial o none items lim s' hu hx
      simp only [Option.some.injEq, masterInstances] at h
      -- in both cases the instances are made of the same set of times
      have hmain : ∃ D : List DateTime, l = D.map (fun t => e.expanded env (some t)) ∧
          (∀ t ∈ D, t ∈ items) ∧
          (∀ x, (∃ t ∈ D, t.posix env = x) ↔ (∃ t ∈ items, t.posix env = x) ∧
            ¬ ∃ v ∈ overrides, ∃ r, v.rid = some r ∧ r.posix env = x) ∧
          D.Pairwise fun a b => a.posix env ≠ b.posix env := by
        split at h
        · rename_i hn
          simp only [Outcome.instances.injEq] at h
          have hn : overrides = [] := by simpa using hn
          refine ⟨items, h.symm, fun t ht => ht, fun x => ?_, c3⟩
          rw [hn]
          simp
        · split at h
          · simp at h
          · simp only [Outcome.instances.injEq] at h
            obtain ⟨d1, d2, d3⟩ := setDifference_spec hu.byInstant o (a := items)
              (b := overrides.filterMap Event.rid) (fun t ht => hinc t (c2 t ht)) (by
                intro t ht
                obtain ⟨v, hv, hvt⟩ := List.mem_filterMap.mp ht
                obtain ⟨r, hr, hkr⟩ := hov v hv
                rw [hr] at hvt
                cases hvt
                exact hkr) c3
            refine ⟨_, h.symm, d1, fun x => ?_, d3⟩
            rw [d2]
            constructor
            · rintro ⟨a, hb⟩
              refine ⟨a, ?_⟩
              rintro ⟨v, hv, r, hr, hrx⟩
              exact hb ⟨r, List.mem_filterMap.mpr ⟨v, hv, hr⟩, hrx⟩
            · rintro ⟨a, hb⟩
              refine ⟨a, ?_⟩
              rintro ⟨r, hr, hrx⟩
              obtain ⟨v, hv, hvr⟩ := List.mem_filterMap.mp hr
              exact hb ⟨v, hv, r, hvr, hrx⟩
      obtain ⟨D, rfl, m1, m2, m3⟩ := hmain
      refine ⟨fun x => ?_, ?_, ?_⟩
      · have : (∃ i ∈ D.map (fun t => e.expanded env (some t)), i.start.posix env = x) ↔
            ∃ t ∈ D, t.posix env = x := by
          constructor
          · rintro ⟨i, hi, hix⟩
            obtain ⟨t, ht, rfl⟩ := List.mem_map.mp hi
            rw [(hstart t).1] at hix
            exact ⟨t, ht, hix⟩
          · rintro ⟨t, ht, htx⟩
            exact ⟨_, List.mem_map.mpr ⟨t, ht, rfl⟩, by rw [(hstart t).1]; exact htx⟩
        rw [this, m2, c1, and_assoc]
      · intro i hi
        obtain ⟨t, ht, rfl⟩ := List.mem_map.mp hi
        rw [(hstart t).1, (hstart t).2]
        exact ⟨c2 t (m1 t ht), rfl⟩
      · rw [List.pairwise_map]
        exact m3.imp fun hab => by rw [(hstart _).1, (hstart _).1]; exact hab

/-- C59 (partial): an overridden instance or an event that does not recur gives one instance, with its own
start and end, if it is in the period, and none otherwise.

Missing: recurring events, for which see the theorems below and `C59_fails_alone`, `C59_fails_range`,
`C59_fails_future`, `C59_fails_before`. -/
theorem C59_single_partial (env : TzEnv) (o : SetOrder) (fuel : Nat) (parent : Option (List Event))
    (e : Event) (period : Period) (hrec : e.recurs = false) :
    e.expandPeriod env o fuel parent period = some (.instances
      (if period.start.lt env e.stop = true ∧ e.start.lt env period.stop = true then
        [⟨e.start, e.stop, e.rid.isSome, e.stamp⟩] else [])) := by
  have hx : e.expanded env e.rid = ⟨e.start, e.stop, e.rid.isSome, e.stamp⟩ := by
    cases hr : e.rid with
    | none => rfl
    | some r =>
      unfold expanded
      simp only [hr, eq_self, if_true, Option.isSome_some]
  have hw := C49_ends_partial env o fuel e period hrec
  unfold expandPeriod
  rw [hrec, Bool.false_and]
  simp only [Bool.false_eq_true, if_false]
  have hb : e.within env o fuel period = some (some (e.spans env period)) := by
    unfold within
    rw [hrec]
    rfl
  rw [hb] at hw ⊢
  cases hs : e.spans env period with
  | true =>
    rw [hs] at hw
    rw [if_pos (hw.mp rfl), ← hx]
  | false =>
    rw [hs] at hw
    simp only
    rw [if_neg (fun hc => by simpa using hw.mpr hc)]

/-- A daily event from 10:00 to 12:00, three times. -/
def everyDay : Event :=
  { uid := ['u'], start := at10 1 10, dtend := some (at10 1 12), rset := { rrules := [(daily, {})] } }

/-- An overridden instance of it: one recurrence put an hour later. -/
def moved (d : Int) (future : Bool) : Event :=
  { uid := ['u'], start := at10 d 11, dtend := some (at10 d 13), rid := some (at10 d 10), future := future }

/-- C59 fails: a recurring event that is not in a calendar has no instances. -/
theorem C59_fails_alone :
    everyDay.expandPeriod .empty RecurrenceSet.inOrder 100 none days = some (.instances []) ∧
    everyDay.within .empty RecurrenceSet.inOrder 100 days = some (some true) :=
  ⟨by decide +kernel, by decide +kernel⟩

/-- C59 fails: with two overridden instances for "this and future" it raises. -/
theorem C59_fails_range :
    everyDay.expandPeriod .empty RecurrenceSet.inOrder 100 (some [moved 2 true, moved 3 true]) days =
      some .raises := by decide +kernel

/-- C59 fails: the overridden instance of the 2nd is for "this and future", but the recurrence of the 3rd
stays as it was. -/
theorem C59_fails_future :
    everyDay.expandPeriod .empty RecurrenceSet.inOrder 100 (some [moved 2 true]) days =
      some (.instances [⟨at10 1 10, at10 1 12, true, everyDay.stamp⟩,
        ⟨at10 3 10, at10 3 12, true, everyDay.stamp⟩]) := by decide +kernel

/-- C59 fails: the recurrence of the 1st lasts until 12:00, but is not in the period that begins at 11:00;
an event with the same times that does not recur is. -/
theorem C59_fails_before :
    everyDay.expandPeriod .empty RecurrenceSet.inOrder 100 (some []) (.ofEnd (at10 1 11) (at10 2 0)) =
      some (.instances []) ∧
    ({ everyDay with rset := {} } : Event).expandPeriod .empty RecurrenceSet.inOrder 100 (some [])
      (.ofEnd (at10 1 11) (at10 2 0)) =
      some (.instances [⟨at10 1 10, at10 1 12, false, everyDay.stamp⟩]) :=
  ⟨by decide +kernel, by decide +kernel⟩

/-- The conditions are met, with one overridden instance. -/
example : RecurrenceSet.Uniform .empty IsInstant 100 everyDay.start days 0 everyDay.rset ∧
    (∀ t, RecurrenceSet.Included .empty 100 everyDay.start days 0 everyDay.rset t → IsInstant t) ∧
    (∀ v ∈ [moved 2 false], ∃ r, v.rid = some r ∧ IsInstant r) ∧
    everyDay.expandPeriod .empty RecurrenceSet.inOrder 100 (some [moved 2 false]) days =
      some (.instances [⟨at10 1 10, at10 1 12, true, everyDay.stamp⟩,
        ⟨at10 3 10, at10 3 12, true, everyDay.stamp⟩]) := by
  have hrule : ∀ t, RecurrenceSet.RuleDate .empty 100 everyDay.start days 0 daily t → IsInstant t := by
    intro t ⟨D, lim, h, ht⟩
    have : Rule.expandFresh .empty daily 100 everyDay.start days 0 =
        some (.dates [at10 1 10, at10 2 10, at10 3 10] false) := by decide +kernel
    rw [this] at h
    simp only [Option.some.injEq, Rule.Answer.dates.injEq] at h
    obtain ⟨rfl, _⟩ := h
    revert t
    unfold IsInstant
    decide +kernel
  have hs : IsInstant everyDay.start := by unfold IsInstant; decide +kernel
  refine ⟨⟨byInstant_instants (regular_of_fixed (fun _ => 0) fun _ _ _ => rfl), hs, ?_, ?_, ?_, ?_, ?_,
    ?_⟩, ?_, ?_, by decide +kernel⟩
  · unfold IsInstant; decide +kernel
  · intro rc hrc
    have : rc = (daily, {}) := by simpa [everyDay] using hrc
    subst this
    exact ⟨rfl, hrule⟩
  · simp [everyDay]
  · simp [everyDay]
  · simp [everyDay]
  · simp [everyDay]
  · intro t ht
    unfold RecurrenceSet.Included at ht
    simp only [everyDay, List.mem_singleton, exists_eq_left, List.not_mem_nil, false_and, exists_false,
      or_false] at ht
    rcases ht with ⟨rfl, _⟩ | ht
    · exact hs
    · exact hrule t ht
  · intro v hv
    rw [List.mem_singleton] at hv
    subst hv
    exact ⟨_, rfl, by unfold IsInstant; decide +kernel⟩

/-! ## C60 -/

/-- Sorting with a comparator that gives a `bool` does nothing. -/
theorem pySort_eq {α : Type} (f : α → α → Bool) (l : List α) : pySort f l = l := by
  unfold pySort
  apply List.Pairwise.insertionSort_eq
  apply List.Pairwise.imp (R := fun _ _ => True)
  · intro a b _
    split <;> decide
  · exact List.pairwise_of_forall fun _ _ => trivial

/-- C60 (partial): `getVEvents` gives the instances of each event, one event after the other in the order
of the calendar; none is lost or added by the sorting.  Missing: that they are sorted
(`C60_fails_order`). -/
theorem C60_instances_partial (env : TzEnv) (o : SetOrder) (fuel : Nat) (index : List Char → List Event)
    (period : Period) (top : Bool) : ∀ (events : List Event) (l : List Instance),
    getVEvents env o fuel index events period top = some (.instances l) ↔
    ∃ ls, List.Forall₂ (fun e le => e.expandPeriod env o fuel (some (index e.uid)) period =
      some (.instances le)) events ls ∧ l = ls.flatten := by
  intro events l
  have h1 : getVEvents env o fuel index events period top = expandAll env o fuel index period events := by
    unfold getVEvents
    cases hx : expandAll env o fuel index period events with
    | none => rfl
    | some r =>
      cases r with
      | raises => rfl
      | instances l => simp only [pySort_eq, ite_self]
  rw [h1]
  induction events generalizing l with
  | nil =>
    simp only [expandAll, List.forall₂_nil_left_iff, Option.some.injEq, Outcome.instances.injEq]
    constructor
    · rintro rfl
      exact ⟨[], rfl, rfl⟩
    · rintro ⟨ls, rfl, rfl⟩
      rfl
  | cons e es ih =>
    have ih := fun l => ih l (by
      unfold getVEvents
      cases hx : expandAll env o fuel index period es with
      | none => rfl
      | some r =>
        cases r with
        | raises => rfl
        | instances l => simp only [pySort_eq, ite_self])
    rw [expandAll]
    constructor
    · intro h
      cases hx : e.expandPeriod env o fuel (some (index e.uid)) period with
      | none => rw [hx] at h; simp at h
      | some r =>
        rw [hx] at h
        cases r with
        | raises => simp at h
        | instances le =>
          cases hy : expandAll env o fuel index period es with
          | none => rw [hy] at h; simp at h
          | some r' =>
            rw [hy] at h
            cases r' with
            | raises => simp at h
            | instances l' =>
              simp only [Option.some.injEq, Outcome.instances.injEq] at h
              obtain ⟨ls, f1, f2⟩ := (ih l').mp hy
              exact ⟨le :: ls, .cons hx f1, by rw [← h, f2]; rfl⟩
    · rintro ⟨ls, hf, rfl⟩
      cases hf with
      | cons hx hf =>
        rw [hx]
        simp only
        rw [(ih _).mpr ⟨_, hf, rfl⟩]
        rfl

/-- C60 fails: the event of the 5th comes before the one of the 2nd. -/
theorem C60_fails_order (top : Bool) :
    getVEvents .empty RecurrenceSet.inOrder 100 (fun _ => [])
      [{ start := at10 5 10, dtend := some (at10 5 12) }, { start := at10 2 10, dtend := some (at10 2 12) }]
      days top =
    some (.instances [⟨at10 5 10, at10 5 12, false, everyDay.stamp⟩,
      ⟨at10 2 10, at10 2 12, false, everyDay.stamp⟩]) := by
  cases top <;> decide +kernel

end Event
end PyCal
