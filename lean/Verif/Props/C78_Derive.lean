import Verif.Model.Derive
import Verif.Props.C37_Convert
import Verif.Props.C17_C18_Compare

/-!
# C78: an overridden instance made from a master

`Calendar.deriveComponent`.
-/

namespace PyCal
open DateTime (TzEnv FixedOffset NoSkip)

namespace DComp

/-- The component was finalised after its properties were set, as it is after parsing. -/
def Loaded (m : DComp) : Prop := ∃ c : DComp, c.timing = c.timing.blank ∧ m = c.finalise

/-- The time properties of an event as `Verif.Model.Event` has them. -/
def toEvent (c : DComp) (start : DateTime) : Event :=
  { start := start, dtend := c.timing.dtend, dur := c.timing.duration, rid := c.rid }

/-- C78: there is no result exactly when no component that can recur is without RECURRENCE-ID;
otherwise it is made from the first such. -/
theorem C78_master (env : TzEnv) (comps : List DComp) (rid : Obj) :
    (derive env comps rid = none ↔ ∀ c ∈ comps, c.kind = .other ∨ c.rid ≠ none) ∧
    ∀ d, derive env comps rid = some d → ∃ before m after, comps = before ++ m :: after ∧
      (∀ c ∈ before, c.kind = .other ∨ c.rid ≠ none) ∧ m.kind ≠ .other ∧ m.rid = none ∧
      derive env [m] rid = some d := by
  constructor
  · unfold derive
    cases hm : master comps with
    | none =>
      simp only [true_iff]
      intro c hc
      have := List.find?_eq_none.mp hm c hc
      simp only [decide_eq_true_eq, not_and] at this
      by_cases hk : c.kind = .other
      · exact .inl hk
      · exact .inr (this hk)
    | some m =>
      simp only [reduceCtorEq, false_iff]
      intro h
      have h1 := List.mem_of_find?_eq_some hm
      have h2 := List.find?_some hm
      simp only [decide_eq_true_eq] at h2
      rcases h m h1 with h | h
      · exact h2.1 h
      · exact h h2.2
  · intro d h
    unfold derive at h
    cases hm : master comps with
    | none => rw [hm] at h; cases h
    | some m =>
      rw [hm] at h
      obtain ⟨h2, before, after, he, hb⟩ := List.find?_eq_some_iff_append.mp hm
      simp only [decide_eq_true_eq] at h2
      refine ⟨before, m, after, he, ?_, h2.1, h2.2, ?_⟩
      · intro c hc
        have := hb c hc
        simp only [Bool.not_eq_true', decide_eq_false_iff_not, not_and] at this
        by_cases hk : c.kind = .other
        · exact .inl hk
        · exact .inr (this hk)
      · unfold derive
        have : master [m] = some m := by
          unfold master
          rw [List.find?_cons_of_pos]
          simpa using h2
        rw [this]
        exact h

/-- The master alone. -/
theorem derive_one (env : TzEnv) {m : DComp} (hk : m.kind ≠ .other) (hr : m.rid = none) (rid : Obj) :
    ∃ timing : Timing, timing.dtstart = some (newStart env m.timing.start rid) ∧
      timing.due = m.timing.due ∧ timing.duration = m.timing.duration ∧
      (timing.dtend = if m.timing.useDuration then none else
        some ((newStart env m.timing.start rid).add (m.timing.stop.subDateTime env m.timing.start))) ∧
      derive env [m] rid = some { m with timing := timing, recs := {}
                                         rid := some (newStart env m.timing.start rid) }.finalise := by
  have hm : master [m] = some m := by
    unfold master
    rw [List.find?_cons_of_pos]
    simpa using ⟨hk, hr⟩
  unfold derive
  rw [hm]
  simp only
  refine ⟨_, ?_, ?_, ?_, ?_, rfl⟩
  all_goals
    cases m.timing.useDuration <;> simp

theorem toDo_same (c : Timing) : c.finaliseToDo.start = c.finalise.start ∧
    c.finaliseToDo.dtstart = c.finalise.dtstart ∧ c.finaliseToDo.dtend = c.finalise.dtend ∧
    c.finaliseToDo.duration = c.finalise.duration ∧ c.finaliseToDo.due = c.finalise.due := by
  unfold Timing.finaliseToDo
  generalize c.finalise = f
  obtain ⟨a, b, due, dur, e, f, g, h, i⟩ := f
  cases due <;> cases dur <;> exact ⟨rfl, rfl, rfl, rfl, rfl⟩

theorem finalise_start {c : Timing} {t : DateTime} (h : c.dtstart = some t) (k : Kind) :
    (if k = .todo then c.finaliseToDo else c.finalise).start = t ∧
    (if k = .todo then c.finaliseToDo else c.finalise).dtstart = some t := by
  have : c.finalise.start = t ∧ c.finalise.dtstart = some t := by
    unfold Timing.finalise
    simp only [h]
    cases c.dtend with
    | some e => exact ⟨rfl, rfl⟩
    | none =>
      cases c.duration with
      | some d => exact ⟨rfl, rfl⟩
      | none => exact ⟨rfl, rfl⟩
  split
  · rw [(toDo_same c).1, (toDo_same c).2.1]
    exact this
  · exact this

theorem finalise_props (c : Timing) (k : Kind) :
    (if k = .todo then c.finaliseToDo else c.finalise).dtend = c.dtend ∧
    (if k = .todo then c.finaliseToDo else c.finalise).duration = c.duration ∧
    (if k = .todo then c.finaliseToDo else c.finalise).due = c.due := by
  have : c.finalise.dtend = c.dtend ∧ c.finalise.duration = c.duration ∧ c.finalise.due = c.due := by
    unfold Timing.finalise
    cases hs : c.dtstart <;> cases he : c.dtend <;> cases hd : c.duration <;>
      simp
  split
  · rw [(toDo_same c).2.2.1, (toDo_same c).2.2.2.1, (toDo_same c).2.2.2.2]
    exact this
  · exact this

/-- C78: the new component begins at the given recurrence, which is also its RECURRENCE-ID; it has no
recurrence of its own; all other properties, DUE and DURATION are those of the master. -/
theorem C78_start (env : TzEnv) (m : DComp) (hk : m.kind ≠ .other) (hr : m.rid = none) (rid : Obj) :
    ∃ d, derive env [m] rid = some d ∧ d.kind = m.kind ∧ d.rest = m.rest ∧
      d.timing.due = m.timing.due ∧ d.timing.duration = m.timing.duration ∧
      d.timing.dtstart = d.rid ∧ d.rid = some d.timing.start ∧
      d.timing.start = newStart env m.timing.start rid ∧
      d.recs.rrule = [] ∧ d.recs.exrule = [] ∧ d.recs.rdate = [] ∧ d.recs.exdate = [] ∧
      d.recs.rset.isNone := by
  obtain ⟨timing, h1, h2, h3, h4, h5⟩ := derive_one env hk hr rid
  refine ⟨_, h5, rfl, rfl, ?_, ?_, ?_, ?_, ?_, rfl, rfl, rfl, rfl, rfl⟩
  · exact (finalise_props timing m.kind).2.2.trans h2
  · exact (finalise_props timing m.kind).2.1.trans h3
  · exact (finalise_start h1 m.kind).2
  · exact congrArg some (finalise_start h1 m.kind).1.symm
  · exact (finalise_start h1 m.kind).1

/-- C78: the start is the given date-time itself, if the master's DTSTART is not in a named zone or the
date-time is in its zone already; its date, if the master's DTSTART is a date. -/
theorem C78_same_zone (env : TzEnv) (dtstart : DateTime) (rid : Obj) :
    (dtstart.dateOnly = false → dtstart.isLocal = false → newStart env dtstart rid = rid.dt) ∧
    (dtstart.dateOnly = false → rid.dt.utc = dtstart.utc → rid.dt.tzid = dtstart.tzid →
      newStart env dtstart rid = rid.dt) ∧
    (dtstart.dateOnly = true → (newStart env dtstart rid).dateOnly = true ∧
      (newStart env dtstart rid).date = rid.dt.date) := by
  refine ⟨?_, ?_, ?_⟩
  · intro h1 h2
    simp [newStart, h1, h2]
  · intro h1 h2 h3
    unfold newStart
    rw [if_pos (by simp [h1])]
    split
    · unfold Obj.adjustTimezone
      rw [if_neg (by simp [h2, h3])]
    · rfl
  · intro h1
    simp [newStart, h1, DateTime.date]

/-- C78 (partial): a date-time in UTC or in a zone is put into the zone of the master's DTSTART; it is the same moment
if that zone gives the same offset for the UTC time and for the clock time shown (C37 says when).
Missing: the hour shown twice (`C37_fails_ambiguous`), and the years whose end the library counts wrongly
(C03). -/
theorem C78_instant_partial (env : TzEnv) (dtstart : DateTime) (hd : dtstart.dateOnly = false)
    (z : TzId) (hz : dtstart.tzid = some z) (hu : dtstart.utc = false) (hn : tzTruthy (some z) = true)
    (t : DateTime) (ops : List Op) (hsafe : Obj.SafeRun env (Obj.fresh t) ops)
    (rid : Obj) (hrid : rid = (Obj.fresh t).run env ops)
    (hv : rid.dt.Valid) (hrd : rid.dt.dateOnly = false) (hf : rid.dt.floating = false)
    (hoff : (shownIn env (rid.adjustToUTC env).dt z).tzOffset env false =
      ({ (rid.adjustToUTC env).dt with utc := false, tzid := some z } : DateTime).tzOffset env true)
    (hs1 : NoSkip rid.dt.year (rid.adjustToUTC env).dt.year)
    (hs2 : NoSkip (rid.adjustToUTC env).dt.year (newStart env dtstart rid).year) :
    (newStart env dtstart rid).tzid = some z ∧ (newStart env dtstart rid).utc = false ∧
    (newStart env dtstart rid).posix env = rid.dt.posix env := by
  have hl : dtstart.isLocal = true := by simp [DateTime.isLocal, hu, hz, hn]
  have he : newStart env dtstart rid = (rid.adjustTimezone env false (some z)).dt := by
    unfold newStart
    rw [if_pos (by simp [hd]), if_pos hl, hu, hz]
  rw [he] at hs2 ⊢
  have hg : Obj.Good env rid := by rw [hrid]; exact Obj.good_run (Obj.good_fresh env t) ops hsafe
  obtain ⟨h1, h2, h3⟩ := C37_moment_partial env t ops hsafe rid hrid hv hrd hf z hoff hs1 hs2
  rw [Obj.posix_value (Obj.good_adjustTimezone hg false (some z)), Obj.posix_value hg] at h3
  exact ⟨h2, h1, h3⟩

/-- C78: the end lies as far after the start as the library counts it in the master.  So for a master
with a DTEND the new component covers the time that its recurrence covered in the expansion of the
master. -/
theorem C78_period (env : TzEnv) (m : DComp) (hm : m.Loaded) (hk : m.kind = .event) (hr : m.rid = none)
    (s : DateTime) (hs : m.timing.dtstart = some s) (hd : m.timing.dtend.isSome) (rid : Obj)
    (t : DateTime) (ht : t = newStart env s rid) :
    ∃ d, derive env [m] rid = some d ∧
      ((d.toEvent d.timing.start).expanded env d.rid).start =
        ((m.toEvent s).expanded env (some t)).start ∧
      ((d.toEvent d.timing.start).expanded env d.rid).stop =
        ((m.toEvent s).expanded env (some t)).stop := by
  have hrefl : t.eq env t = true := (DateTime.C17_antisymm env t t).2.2.1
  obtain ⟨timing, h1, h2, h3, h4, h5⟩ := derive_one env (by rw [hk]; decide) hr rid
  obtain ⟨c, hc, rfl⟩ := hm
  have hk' : c.kind = .event := hk
  obtain ⟨e, he⟩ := Option.isSome_iff_exists.mp hd
  have hp := finalise_props c.timing c.kind
  have hcd : c.timing.dtend = some e := hp.1.symm.trans he
  have hcs : c.timing.dtstart = some s := by
    have : (if c.kind = .todo then c.timing.finaliseToDo else c.timing.finalise).dtstart =
        c.timing.dtstart := by
      cases h0 : c.timing.dtstart with
      | some x => exact (finalise_start h0 c.kind).2
      | none =>
        rw [hk']
        simp only [reduceCtorEq, if_false]
        unfold Timing.finalise
        simp [h0, hcd]
    rw [← this]; exact hs
  have hst := finalise_start hcs c.kind
  have hstop : (if c.kind = .todo then c.timing.finaliseToDo else c.timing.finalise).stop = e ∧
      (if c.kind = .todo then c.timing.finaliseToDo else c.timing.finalise).useDuration = false := by
    rw [hk']
    simp only [reduceCtorEq, if_false]
    unfold Timing.finalise
    simp [hcs, hcd]
  change timing.dtstart = some (newStart env
    (if c.kind = .todo then c.timing.finaliseToDo else c.timing.finalise).start rid) at h1
  change timing.dtend = (if (if c.kind = .todo then c.timing.finaliseToDo else
    c.timing.finalise).useDuration then none else some ((newStart env (if c.kind = .todo then
      c.timing.finaliseToDo else c.timing.finalise).start rid).add (DateTime.subDateTime env
      (if c.kind = .todo then c.timing.finaliseToDo else c.timing.finalise).stop
      (if c.kind = .todo then c.timing.finaliseToDo else c.timing.finalise).start))) at h4
  rw [hst.1, hstop.1, hstop.2] at h4
  rw [hst.1] at h1
  rw [← ht] at h1 h4
  refine ⟨_, h5, ?_⟩
  generalize hdd : ({ c.finalise with timing := timing, recs := {}
                                      rid := some (newStart env c.finalise.timing.start rid) } :
    DComp).finalise = d
  have hrid : newStart env c.finalise.timing.start rid = t := by
    rw [ht]; exact congrArg (fun x => newStart env x rid) hst.1
  have hds := finalise_start h1 c.kind
  have hdp := finalise_props timing c.kind
  have key : ∀ d : DComp, d.timing.start = t → d.rid = some t →
      d.timing.dtend = some (t.add (e.subDateTime env s)) →
      ((d.toEvent d.timing.start).expanded env d.rid).start = t ∧
      ((d.toEvent d.timing.start).expanded env d.rid).stop = t.add (e.subDateTime env s) := by
    intro d g1 g2 g3
    simp only [toEvent, Event.expanded, g2, hrefl, if_true, g1, Event.stop, g3, and_self]
  obtain ⟨k1, k2⟩ := key d (by rw [← hdd]; exact hds.1) (by rw [← hdd]; exact congrArg some hrid) (by
    rw [← hdd]
    show (if c.kind = .todo then timing.finaliseToDo else timing.finalise).dtend = _
    rw [hdp.1, h4]
    rfl)
  rw [k1, k2]
  have hmr : c.finalise.rid = none := hr
  constructor
  · simp only [toEvent, Event.expanded, hmr, Event.hasEnd, he, Option.isSome_some, if_true]
  · simp only [toEvent, Event.expanded, hmr, Event.hasEnd, he, Option.isSome_some, if_true, Event.stop]

/-- C78 (partial): in UTC, at a fixed offset and in floating time the new component is as long as the
master.  Missing: named zones, where the length is added to the clock time
(`C78_fails_length`). -/
theorem C78_length_partial (env : TzEnv) (m : DComp) (hk : m.kind = .event)
    (hr : m.rid = none) (rid : Obj) (hu : m.timing.useDuration = false)
    (hv : (newStart env m.timing.start rid).Valid)
    (hd : (newStart env m.timing.start rid).dateOnly = false)
    (hz : FixedOffset env (newStart env m.timing.start rid))
    (hs : NoSkip (newStart env m.timing.start rid).year
      ((newStart env m.timing.start rid).add (m.timing.stop.subDateTime env m.timing.start)).year) :
    ∃ d, derive env [m] rid = some d ∧
      (d.timing.stop.subDateTime env d.timing.start).totalSeconds =
        (m.timing.stop.subDateTime env m.timing.start).totalSeconds := by
  obtain ⟨timing, h1, h2, h3, h4, h5⟩ := derive_one env (by rw [hk]; decide) hr rid
  refine ⟨_, h5, ?_⟩
  rw [hu] at h4
  simp only [Bool.false_eq_true, if_false] at h4
  have hds := (finalise_start h1 m.kind).1
  have hstop : (if m.kind = .todo then timing.finaliseToDo else timing.finalise).stop =
      (newStart env m.timing.start rid).add (m.timing.stop.subDateTime env m.timing.start) := by
    rw [hk]
    simp only [reduceCtorEq, if_false]
    unfold Timing.finalise
    simp [h1, h4]
  show (DateTime.subDateTime env (if m.kind = .todo then timing.finaliseToDo else timing.finalise).stop
    (if m.kind = .todo then timing.finaliseToDo else timing.finalise).start).totalSeconds = _
  rw [hstop, hds]
  exact DateTime.C04_diff_partial env _ hv hd hz _ hs

/-- C78: with a DURATION the end is that duration after the start. -/
theorem C78_duration (env : TzEnv) (m : DComp) (hk : m.kind = .event)
    (hr : m.rid = none) (rid : Obj) (hu : m.timing.useDuration = true) (dur : Duration)
    (hdur : m.timing.duration = some dur) :
    ∃ d, derive env [m] rid = some d ∧ d.timing.dtend = none ∧ d.timing.duration = some dur ∧
      d.timing.stop = d.timing.start.add dur := by
  obtain ⟨timing, h1, h2, h3, h4, h5⟩ := derive_one env (by rw [hk]; decide) hr rid
  refine ⟨_, h5, ?_⟩
  rw [hu] at h4
  simp only [if_true] at h4
  have hds := (finalise_start h1 m.kind).1
  have hdp := finalise_props timing m.kind
  refine ⟨hdp.1.trans h4, hdp.2.1.trans (h3.trans hdur), ?_⟩
  show (if m.kind = .todo then timing.finaliseToDo else timing.finalise).stop =
    DateTime.add (if m.kind = .todo then timing.finaliseToDo else timing.finalise).start dur
  rw [hds, hk]
  simp only [reduceCtorEq, if_false]
  unfold Timing.finalise
  simp [h1, h4, h3, hdur]

/-! ## What fails -/

/-- A master with these properties. -/
def sample (kind : Kind) (start : DateTime) (dtend due : Option DateTime) : DComp :=
  { kind := kind, timing := { dtstart := some start, dtend := dtend, due := due },
    recs := { rrule := [{ freq := .daily }] } : DComp }.finalise

/-- A date-time in 2020. -/
private def day (m d h : Int) (tz : Option TzId := none) (utc : Bool := false) : DateTime :=
  ⟨2020, m, d, h, 0, 0, false, utc, tz⟩

/-- C78 fails for to-dos: the DUE of the master stays, so the to-do of a later day is due before it
begins; and a DTEND is added, which a to-do does not have. -/
theorem C78_fails_todo : ∃ m rid d, m.kind = .todo ∧ derive .empty [m] rid = some d ∧
    d.timing.due = m.timing.due ∧ d.timing.dtend.isSome ∧
    d.timing.stop.lt .empty d.timing.start = true :=
  ⟨sample .todo (day 1 1 10) none (some (day 1 1 12)), Obj.mk (day 1 5 10) none false 0, _, by decide +kernel, rfl,
    by decide +kernel⟩

/-- C78 fails for events without DTEND and DURATION: a DTEND is added that is the DTSTART, while DTEND
must be later. -/
theorem C78_fails_dtend : ∃ m rid d, m.kind = .event ∧ m.timing.dtend = none ∧
    derive .empty [m] rid = some d ∧ d.timing.dtend = d.timing.dtstart :=
  ⟨sample .event (day 1 1 10) none none, Obj.mk (day 1 5 10) none false 0, _, by decide +kernel, by decide +kernel, rfl,
    by decide +kernel⟩

/-- A zone that is one hour ahead of UTC, from 29 March on two. -/
private def spring : TzEnv := fun z t _ =>
  if z = none then 0 else if 329 ≤ t.month * 100 + t.day then 7200 else 3600

/-- C78 fails in a zone when the clocks change between the start and the end of the recurrence: a
master of six hours has an instance of five. -/
theorem C78_fails_length : ∃ m rid d, m.kind = .event ∧ derive spring [m] rid = some d ∧
    (m.timing.stop.subDateTime spring m.timing.start).totalSeconds = 6 * 3600 ∧
    (d.timing.stop.subDateTime spring d.timing.start).totalSeconds = 5 * 3600 :=
  ⟨sample .event (day 1 1 22 (some (.name "Z"))) (some (day 1 2 4 (some (.name "Z")))) none,
    Obj.mk (day 3 28 22 (some (.name "Z"))) none false 0, _, by decide +kernel, rfl, by decide +kernel⟩

/-! ## Examples -/

/-- A daily event from 10 to 12 in a zone; the instance of 5 January, given in UTC, is from 10 to 12. -/
example :
    let m := sample .event (day 1 1 10 (some (.name "Z"))) (some (day 1 1 12 (some (.name "Z")))) none
    let rid := Obj.mk (day 1 5 9 none true) none false 0
    m.kind ≠ .other ∧ m.rid = none ∧ rid.dt.Valid ∧
    newStart spring m.timing.start rid = day 1 5 10 (some (.name "Z")) ∧
    (shownIn spring rid.dt (.name "Z")).tzOffset spring false =
      ({ rid.dt with utc := false, tzid := some (.name "Z") } : DateTime).tzOffset spring true ∧
    ((derive spring [m] rid).map fun d => (d.timing.dtstart, d.timing.dtend)) =
      some (some (day 1 5 10 (some (.name "Z"))), some (day 1 5 12 (some (.name "Z")))) := by
  decide +kernel

/-- The same instance, given in a zone two hours ahead of UTC. -/
example :
    let m := sample .event (day 1 1 10 (some (.name "Z"))) (some (day 1 1 12 (some (.name "Z")))) none
    let rid := Obj.fresh (day 1 5 11 (some (.fixed 7200)))
    rid.dt.Valid ∧ rid.dt.floating = false ∧
    newStart spring m.timing.start rid = day 1 5 10 (some (.name "Z")) ∧
    (shownIn spring (rid.adjustToUTC spring).dt (.name "Z")).tzOffset spring false =
      ({ (rid.adjustToUTC spring).dt with utc := false, tzid := some (.name "Z") } : DateTime).tzOffset
        spring true := by
  decide +kernel

/-- It is finalised as after parsing. -/
example (kind : Kind) (s : DateTime) (e d : Option DateTime) : (sample kind s e d).Loaded :=
  ⟨_, rfl, rfl⟩

end DComp
end PyCal
