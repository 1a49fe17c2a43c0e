import Verif.Model.Slave
import Verif.Props.C48_C49_Events

/-!
# C104: the times of a changed instance

An instance that is changed takes from its master and its RECURRENCE-ID what it does not say itself.
-/

namespace PyCal
open DateTime DateTime.TzEnv Event

namespace M104

/-- The result of `initFromMaster` by what the component says. -/
theorem init_form (env : TzEnv) (todo : Bool) (rid : Option DateTime) (m c : Timing) :
    c.initFromMaster env todo rid m =
      (match c.dtstart with | some t => some t | none => rid).map fun s =>
        { c with
          hasStart := c.dtstart.isSome, start := s
          hasEnd := if todo then c.due.isSome || c.duration.isSome else c.dtend.isSome
          useDuration := c.dtend.isNone && c.duration.isSome
          stop :=
            match c.dtend, c.duration with
            | none, none => s.add (m.stop.subDateTime env m.start)
            | e, some d =>
              if todo then
                match c.dtstart, c.due with
                | none, _ => s.add d
                | some _, some u => u
                | some _, none => s.add d
              else
                match c.dtstart, e with
                | some _, some e => e
                | _, _ => s.add d
            | some e, none =>
              if todo then
                match c.due with
                | some u => u
                | none => e
              else e } := by
  obtain ⟨a, b, u, d, h1, h2, h3, h4, h5⟩ := c
  cases todo <;> cases a <;> cases b <;> cases u <;> cases d <;> cases rid <;>
    simp [Timing.initFromMaster, Timing.finalise, Timing.finaliseToDo]

end M104
open M104

/-- The start of a changed instance is its own DTSTART, or else its RECURRENCE-ID; there is a start just if it has one
of these. -/
theorem C104_start (env : TzEnv) (todo : Bool) (rid : Option DateTime) (m c : Timing) :
    (∀ t, c.dtstart = some t → ∃ r, c.initFromMaster env todo rid m = some r ∧ r.start = t) ∧
    (∀ t, c.dtstart = none → rid = some t → ∃ r, c.initFromMaster env todo rid m = some r ∧ r.start = t) ∧
    (c.dtstart = none → rid = none → c.initFromMaster env todo rid m = none) := by
  rw [init_form]
  refine ⟨?_, ?_, ?_⟩
  · intro t h
    simp only [h, Option.map_some]
    exact ⟨_, rfl, rfl⟩
  · intro t h h'
    simp only [h, h', Option.map_some]
    exact ⟨_, rfl, rfl⟩
  · intro h h'
    simp [h, h']

/-- C104 (partial): the end of a changed instance with a DTEND is that.

Missing: to-dos with DUE, `C104_fails_due`, and what it says about having an end, `C104_fails_has`. -/
theorem C104_end_partial (env : TzEnv) (rid : Option DateTime) (m c r : Timing) (t : DateTime)
    (h : c.initFromMaster env false rid m = some r) (he : c.dtend = some t) (hd : c.duration = none) :
    r.stop = t := by
  rw [init_form] at h
  simp only [he, hd] at h
  obtain ⟨s, -, rfl⟩ := Option.map_eq_some_iff.1 h
  rfl

/-- C104 (partial): a changed instance with a DURATION lasts as long as that says.

Missing: what it says about having an end, `C104_fails_has`. -/
theorem C104_duration_partial (env : TzEnv) (todo : Bool) (rid : Option DateTime) (m c r : Timing) (d : Duration)
    (h : c.initFromMaster env todo rid m = some r) (he : c.dtend = none) (hu : c.due = none) (hd : c.duration = some d)
    (hv : r.start.Valid) (hk : r.start.dateOnly = true → d.totalSeconds % 86400 = 0) :
    clock r.start r.stop = d.totalSeconds := by
  rw [init_form] at h
  simp only [he, hd, hu] at h
  obtain ⟨s, -, rfl⟩ := Option.map_eq_some_iff.1 h
  simp only at hv hk ⊢
  have e : ∀ x : DateTime, x = s.add d → clock s x = d.totalSeconds := by
    rintro x rfl
    unfold clock
    rw [add_timeNum hv hk]
    omega
  apply e
  cases todo <;> cases c.dtstart <;> rfl

/-- C104 (partial): a changed instance that says nothing of its end lasts as long as its master.

Missing: to-dos with DUE, `C104_fails_due`. -/
theorem C104_length_partial (env : TzEnv) (todo : Bool) (rid : Option DateTime) (m c r : Timing)
    (h : c.initFromMaster env todo rid m = some r) (he : c.dtend = none) (hd : c.duration = none) (hv : r.start.Valid)
    (hm : m.start.Valid) (hm' : m.stop.Valid) (hk : SameKind m.stop m.start) (hs : NoSkip m.start.year m.stop.year)
    (hz : m.start.floating = true ∨ m.stop.tzOffset env = m.start.tzOffset env)
    (hr : r.start.dateOnly = true → clock m.start m.stop % 86400 = 0) :
    clock r.start r.stop = clock m.start m.stop := by
  rw [init_form] at h
  simp only [he, hd] at h
  obtain ⟨s, -, rfl⟩ := Option.map_eq_some_iff.1 h
  have e := sub_seconds (env := env) hm hm' hk hs hz
  unfold clock at hr ⊢
  rw [← e] at hr ⊢
  rw [add_timeNum hv hr]
  omega

/-- Only the last master counts, and the same master twice changes nothing. -/
theorem C104_last (env : TzEnv) (todo : Bool) (rid : Option DateTime) (m m' c r : Timing)
    (h : c.initFromMaster env todo rid m = some r) :
    r.initFromMaster env todo rid m' = c.initFromMaster env todo rid m' ∧
    r.initFromMaster env todo rid m = some r := by
  have key : ∀ m', r.initFromMaster env todo rid m' = c.initFromMaster env todo rid m' := by
    intro m'
    rw [init_form] at h
    rw [init_form, init_form]
    obtain ⟨s, -, rfl⟩ := Option.map_eq_some_iff.1 h
    rfl
  exact ⟨key m', (key m).trans h⟩

/-- A component that is made its own master, or is given none, keeps its times. -/
theorem C104_self (env : TzEnv) (todo : Bool) (rid : Option DateTime) (c : Linked) (m : Option Linked)
    (hm : ∀ x, m = some x → x.self = c.self) :
    ∃ r, c.setMaster env todo rid m = some r ∧ r.times = c.times ∧ r.recurring = false := by
  cases m with
  | none => exact ⟨{ c with master := none }, by simp [Linked.setMaster, Linked.recurring], rfl, rfl⟩
  | some x =>
    have := hm x rfl
    exact ⟨{ c with master := some x.self }, by simp [Linked.setMaster, Linked.recurring, this], rfl,
      by simp [Linked.recurring, this]⟩

/-- If another component is made the master, the times are those of above for this component and that master, and it is an
instance of that master. -/
theorem C104_set (env : TzEnv) (todo : Bool) (rid : Option DateTime) (c m : Linked) (h : m.self ≠ c.self) :
    (c.setMaster env todo rid (some m)).map (·.times) = c.times.initFromMaster env todo rid m.times ∧
    ∀ r, c.setMaster env todo rid (some m) = some r → r.self = c.self ∧ r.master = some m.self ∧ r.recurring = true := by
  have hr : ({ c with master := (some m).map (·.self) } : Linked).recurring = true := by
    simp [Linked.recurring, h]
  unfold Linked.setMaster
  dsimp only
  rw [if_pos hr]
  cases c.times.initFromMaster env todo rid m.times with
  | none => exact ⟨rfl, fun r hr => by cases hr⟩
  | some t =>
    refine ⟨rfl, fun r hx => ?_⟩
    cases hx
    exact ⟨rfl, rfl, hr⟩

/-- A copy has the same times. -/
theorem C104_copy (new : Nat) (c : Linked) : (c.duplicate new).times = c.times := rfl

/-- A copy of a changed instance has the same master. -/
theorem C104_copy_master (new : Nat) (c : Linked) (h : c.recurring = true) : (c.duplicate new).master = c.master := by
  simp [Linked.duplicate, h]

namespace M104

/-- A meeting of an hour, every week perhaps. -/
def meeting : Timing := Timing.finalise { dtstart := some (at10 6 9), dtend := some (at10 6 10) }

/-- Its second instance, which only changes the description. -/
def second : Timing := Timing.finalise {}

end M104

example : second.initFromMaster .empty false (some (at10 13 9)) meeting =
    some { second with start := at10 13 9, stop := at10 13 10 } := by decide +kernel

example : meeting.start.Valid ∧ meeting.stop.Valid ∧ SameKind meeting.stop meeting.start ∧
    NoSkip meeting.start.year meeting.stop.year ∧ clock meeting.start meeting.stop = 3600 := by
  refine ⟨by decide +kernel, by decide +kernel, by unfold SameKind; decide +kernel, ?_, by decide +kernel⟩
  intro z h
  rcases h with h | h <;> simp [meeting, Timing.finalise, at10] at h <;> omega

/-- C104 fails for to-dos: the DUE of a changed instance is of no account; without DTEND and DURATION (a to-do has no DTEND)
it is as long as its master. -/
theorem C104_fails_due (env : TzEnv) (rid : Option DateTime) (m c r : Timing) (he : c.dtend = none) (hd : c.duration = none)
    (h : c.initFromMaster env true rid m = some r) (u : Option DateTime) :
    ∃ r', { c with due := u }.initFromMaster env true rid m = some r' ∧ r'.stop = r.stop := by
  rw [init_form] at h
  simp only [he, hd] at h
  obtain ⟨s, hs, rfl⟩ := Option.map_eq_some_iff.1 h
  rw [init_form]
  simp only [he, hd]
  rw [hs]
  exact ⟨_, rfl, rfl⟩

/-- C104 fails: a changed instance that takes its start from RECURRENCE-ID says that it has no start, and one that takes
its length from the master that it has no end, even if the master has one. -/
theorem C104_fails_has (env : TzEnv) (todo : Bool) (rid : Option DateTime) (m c r : Timing)
    (h : c.initFromMaster env todo rid m = some r) :
    (c.dtstart = none → r.hasStart = false) ∧
    (c.dtend = none → c.due = none → c.duration = none → r.hasEnd = false) := by
  rw [init_form] at h
  obtain ⟨s, hs, rfl⟩ := Option.map_eq_some_iff.1 h
  refine ⟨fun h1 => by simp [h1], fun h1 h2 h3 => by simp [h1, h2, h3]⟩

/-- C104 fails: a copy of a component that is its own master takes the original for its master, and says that it is an
instance of something that recurs. -/
theorem C104_fails_copy (new : Nat) (c : Linked) (h : c.recurring = false) (hn : new ≠ c.self) :
    (c.duplicate new).master = some c.self ∧ (c.duplicate new).recurring = true := by
  have e : c.duplicate new = ⟨new, some c.self, c.times⟩ := by simp [Linked.duplicate, h]
  rw [e]
  exact ⟨rfl, by simp [Linked.recurring, Ne.symm hn]⟩

end PyCal
