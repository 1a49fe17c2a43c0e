import Verif.Model.FreeBusyEdit
import Verif.Props.C62_C63_Editing
import Verif.Props.C87_FreeBusy

/-!
# C101: the times of a free-busy component
-/

namespace PyCal
open DateTime (TzEnv)

namespace BusyTiming

/-- What a component tells of its times is what a new component with the same properties tells. -/
def Agrees (c : BusyTiming) : Prop :=
  c.blank.finalise.hasStart = c.hasStart ∧ c.blank.finalise.start = c.start ∧
  c.blank.finalise.hasEnd = c.hasEnd ∧ c.blank.finalise.stop = c.stop ∧
  c.blank.finalise.useDuration = c.useDuration

/-- Midnight at the end of the day of `t`. -/
def midnight (t : DateTime) : DateTime := { t.offsetDay 1 with hours := 0, minutes := 0, seconds := 0 }

/-- C101: a component read with a start and an end, or with a start and a duration, tells these times. -/
theorem C101_read (s e : DateTime) (d : Duration) (o : Option Duration) (f : List FBProperty) :
    (let c := finalise { dtstart := some s, dtend := some e, duration := o, freebusy := f }
     c.hasStart = true ∧ c.start = s ∧ c.hasEnd = true ∧ c.stop = e ∧ c.useDuration = false) ∧
    let c := finalise { dtstart := some s, duration := some d, freebusy := f }
    c.hasStart = true ∧ c.start = s ∧ c.hasEnd = false ∧ c.stop = s.add d ∧ c.useDuration = true := by
  simp [finalise]

/-- C101: what is read is what the queries of C87 start from. -/
theorem C101_view (dtstart dtend : Option DateTime) (duration : Option Duration) (f : List FBProperty) :
    (finalise { dtstart, dtend, duration, freebusy := f }).view =
      VFreeBusy.finalise dtstart dtend duration f := by
  cases dtstart <;> cases dtend <;> cases duration <;> rfl

/-- C101: after a start and an end were set, the component tells what is read from its properties if and
only if the end is later than the start and it is not the next day of an all-day start; then both are the
times that were set. -/
theorem C101_startEnd_iff (env : TzEnv) (c : BusyTiming) (start stop : DateTime)
    (hm : start.dateOnly = false → start.lt env (midnight start) = true) :
    (c.editTimingStartEnd env start stop).Agrees ↔
      start.lt env stop = true ∧ ¬ (start.dateOnly = true ∧ stop.eq env (start.offsetDay 1) = true) := by
  have hlt : ∀ e : DateTime, start.lt env e = true ↔ e.le env start = false := by
    intro e
    simp only [DateTime.le, DateTime.lt, decide_eq_true_eq, decide_eq_false_iff_not,
      DateTime.compare_neg env e start]
    omega
  rw [hlt] at hm ⊢
  unfold editTimingStartEnd fixStartEnd Agrees
  cases hle : stop.le env start with
  | false =>
    cases hd : start.dateOnly with
    | false => simp [bare, finalise, blank, hle, hd]
    | true =>
      cases he : stop.eq env (start.offsetDay 1) <;> simp [bare, finalise, blank, hle, hd, he]
  | true =>
    cases hd : start.dateOnly with
    | false =>
      have := hm hd
      have hne : stop ≠ midnight start := fun e => by rw [e, this] at hle; cases hle
      simpa [bare, finalise, blank, hle, hd, midnight] using hne
    | true =>
      cases he : stop.eq env (start.offsetDay 1) <;> simp [bare, finalise, blank, hle, hd, he]

/-- C101: when a start and an end that is later are set, the component tells them. -/
theorem C101_startEnd (env : TzEnv) (c : BusyTiming) (start stop : DateTime)
    (h : start.lt env stop = true) :
    let c' := c.editTimingStartEnd env start stop
    c'.hasStart = true ∧ c'.start = start ∧ c'.hasEnd = true ∧ c'.stop = stop ∧ c'.useDuration = false ∧
      c'.dtstart = some start ∧ c'.duration = none ∧ c'.freebusy = c.freebusy := by
  have hle : stop.le env start = false := by
    simp only [DateTime.le, DateTime.lt, decide_eq_true_eq, decide_eq_false_iff_not,
      DateTime.compare_neg env stop start] at *
    omega
  unfold editTimingStartEnd fixStartEnd
  simp only [hle, Bool.and_false, Bool.false_eq_true, if_false]
  split <;> simp [bare]

/-- C101: after a start and a duration were set, the component tells these times; it tells what is read from
its properties if and only if the start has a time or the duration has weeks or more than one day. -/
theorem C101_startDuration_iff (c : BusyTiming) (start : DateTime) (d : Duration) :
    let c' := c.editTimingStartDuration start d
    (c'.hasStart = true ∧ c'.start = start ∧ c'.stop = start.add d ∧ c'.useDuration = true ∧
      c'.dtend = none ∧ c'.freebusy = c.freebusy) ∧
    (c'.Agrees ↔ start.dateOnly = false ∨ d.weeks ≠ 0 ∨ d.days > 1) := by
  unfold editTimingStartDuration Agrees
  cases hb : (!start.dateOnly || decide (d.weeks ≠ 0) || decide (d.days > 1)) with
  | true =>
    have : start.dateOnly = false ∨ d.weeks ≠ 0 ∨ d.days > 1 := by
      simpa [or_assoc] using hb
    simp only [if_true]
    refine ⟨⟨rfl, rfl, rfl, rfl, rfl, rfl⟩, fun _ => this, fun _ => ?_⟩
    simp [bare, finalise, blank]
  | false =>
    have : ¬ (start.dateOnly = false ∨ d.weeks ≠ 0 ∨ d.days > 1) := by
      simpa [and_assoc] using hb
    simp only [Bool.false_eq_true, if_false]
    refine ⟨⟨rfl, rfl, rfl, rfl, rfl, rfl⟩, fun h => ?_, fun h => absurd h this⟩
    have := h.2.2.2.2
    simp [bare, finalise, blank] at this

/-- C101: a copy tells the same times and has the same properties. -/
theorem C101_duplicate (c : BusyTiming) : c.duplicate.blank = c.blank ∧
    c.duplicate.hasStart = c.hasStart ∧ c.duplicate.start = c.start ∧ c.duplicate.hasEnd = c.hasEnd ∧
    c.duplicate.stop = c.stop ∧ c.duplicate.useDuration = c.useDuration :=
  ⟨rfl, rfl, rfl, rfl, rfl, rfl⟩

/-- The hypotheses are met: a time in UTC, and times that agree. -/
example : let s : DateTime := ⟨2020, 2, 28, 10, 0, 0, false, true, none⟩
    s.lt .empty (midnight s) = true ∧ s.lt .empty ⟨2020, 2, 28, 11, 0, 0, false, true, none⟩ = true ∧
    (editTimingStartEnd .empty s ⟨2020, 2, 28, 11, 0, 0, false, true, none⟩
      { dtend := some s }).dtend = some ⟨2020, 2, 28, 11, 0, 0, false, true, none⟩ :=
  ⟨by decide +kernel, by decide +kernel, by decide +kernel⟩

/-- C101 fails: `editTiming` raises and leaves the properties, but the component then says that it has
neither a start nor an end. -/
theorem C101_fails_none (c : BusyTiming) (t : DateTime) (h : c.dtstart = some t) :
    c.editTiming.1 = false ∧ c.editTiming.2.hasStart = false ∧ ¬ c.editTiming.2.Agrees := by
  refine ⟨rfl, rfl, fun ha => ?_⟩
  have := ha.1
  unfold editTiming finalise blank at this
  simp only [h] at this
  cases hx : c.dtend <;> cases hy : c.duration <;> simp [hx, hy] at this

/-- C101 fails: an all-day component of one day has no end when it is read again; its end is then its
start. -/
theorem C101_fails_oneDay (env : TzEnv) (c : BusyTiming) (start stop : DateTime)
    (hd : start.dateOnly = true) (h : start.lt env stop = true)
    (he : stop.eq env (start.offsetDay 1) = true) :
    let c' := c.editTimingStartEnd env start stop
    c'.hasEnd = true ∧ c'.stop = stop ∧ c'.blank.finalise.hasEnd = false ∧
      c'.blank.finalise.stop = start := by
  have h3 := C101_startEnd env c start stop h
  refine ⟨h3.2.2.1, h3.2.2.2.1, ?_⟩
  have hle : stop.le env start = false := by
    simp only [DateTime.le, DateTime.lt, decide_eq_true_eq, decide_eq_false_iff_not,
      DateTime.compare_neg env stop start] at *
    omega
  simp [editTimingStartEnd, fixStartEnd, hle, hd, he, bare, blank, finalise]

/-- One day. -/
example : let s := DateTime.ofDate 2020 2 28
    s.lt .empty (s.offsetDay 1) = true ∧ (s.offsetDay 1).eq .empty (s.offsetDay 1) = true :=
  ⟨by decide +kernel, by decide +kernel⟩

/-- C101 fails: once a query was made, its answers do not depend on the times that are set after it. -/
theorem C101_fails_stale (env env' : TzEnv) (c : BusyTiming) (first range : Period) (start stop : DateTime)
    (d : Duration) :
    let c' := (c.expandPeriodComp env first).2
    ((c'.editTimingStartEnd env' start stop).expandPeriodComp env range).1 =
      (c'.expandPeriodComp env range).1 ∧
    ((c'.editTimingStartDuration start d).expandPeriodComp env range).1 =
      (c'.expandPeriodComp env range).1 := by
  have key : ∀ v : VFreeBusy, ∃ x, (v.expandPeriodComp env first).2.cached = some x := by
    intro v
    unfold VFreeBusy.expandPeriodComp VFreeBusy.withCache
    obtain ⟨s, e, d, f, ca⟩ := v
    cases ca with
    | none => simp only; split <;> exact ⟨_, rfl⟩
    | some x => simp only; split <;> exact ⟨_, rfl⟩
  have same : ∀ v w : VFreeBusy, ∀ x, v.cached = some x → w.cached = some x →
      (v.expandPeriodComp env range).1 = (w.expandPeriodComp env range).1 := by
    intro v w x hv hw
    unfold VFreeBusy.expandPeriodComp VFreeBusy.withCache VFreeBusy.cachedTime
    simp only [hv, hw, Option.getD_some]
    cases x <;> rfl
  obtain ⟨x, hx⟩ := key c.view
  refine ⟨same _ _ x ?_ hx, same _ _ x ?_ hx⟩
  · show (editTimingStartEnd env' start stop _).cached = some x
    unfold editTimingStartEnd fixStartEnd
    dsimp only
    repeat' split
    all_goals exact hx
  · show (editTimingStartDuration start d _).cached = some x
    unfold editTimingStartDuration
    dsimp only
    split <;> exact hx

/-- After a query the span of the component stays what it was; a copy has the times that were set. -/
example : let t (h : Int) : DateTime := ⟨2020, 1, 1, h, 0, 0, false, true, none⟩
    let c : BusyTiming := finalise
      { dtstart := some (t 8), dtend := some (t 10), freebusy := [⟨none, [.ofEnd (t 8) (t 9)]⟩] }
    let c' := (c.expandPeriodComp .empty (.ofEnd (t 8) (t 9))).2.editTimingStartEnd .empty (t 18) (t 20)
    (c'.expandPeriodComp .empty (.ofEnd (t 18) (t 19))).1 = false ∧
    (c'.duplicate.expandPeriodComp .empty (.ofEnd (t 18) (t 19))).1 = true := by
  decide +kernel

end BusyTiming
end PyCal
