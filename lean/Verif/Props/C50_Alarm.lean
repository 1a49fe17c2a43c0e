import Verif.Model.Alarm

/-!
# C50: alarm repetition

The claim is false for every alarm: the methods always raise.
-/

namespace PyCal
namespace Alarm

theorem nextTrigger_form (a : Alarm) : a.nextTrigger.1 = none ∧
    (a.nextTrigger.2 = a ∨ a.nextTrigger.2 = { a with statusInit := true, done := 0 }) := by
  unfold nextTrigger initNext firstTrigger
  cases a.statusInit <;> cases a.absolute <;> by_cases h : a.status = .completed <;>
    simp [h, copyMethod, getEmbedder]

/-- C50 fails: reporting that an alarm was triggered always raises, and what was saved about the last
trigger and the status is lost. -/
theorem C50_fails_trigger (a : Alarm) (dt : DateTime) :
    (a.call (.triggered dt)).1 = false ∧ (a.call (.triggered dt)).2.lastProp = none ∧
    (a.call (.triggered dt)).2.statusProp = none := ⟨rfl, rfl, rfl⟩

/-- C50 fails: the next trigger can never be asked for. -/
theorem C50_fails_next (a : Alarm) : (a.call .next).1 = false := by
  show a.nextTrigger.1.isSome = false
  rw [(nextTrigger_form a).1]
  rfl

theorem call_status (a : Alarm) (c : Call) : (a.call c).2.status = a.status ∧
    (a.call c).2.repeats = a.repeats ∧ ((a.call c).2.done = a.done ∨ (a.call c).2.done = 0) := by
  cases c with
  | triggered dt => exact ⟨rfl, rfl, Or.inl rfl⟩
  | next =>
    have h : (a.call .next).2 = a ∨ (a.call .next).2 = { a with statusInit := true, done := 0 } :=
      (nextTrigger_form a).2
    rcases h with h | h <;> rw [h] <;> simp
  | changed => exact ⟨rfl, rfl, Or.inl rfl⟩

/-- C50 fails: whatever is called, however often, the alarm does not become completed. -/
theorem C50_fails_completed (a : Alarm) (cs : List Call) (h : a.status ≠ .completed) :
    (a.calls cs).status ≠ .completed := by
  induction cs generalizing a with
  | nil => exact h
  | cons c cs ih => exact ih _ (by rw [(call_status a c).1]; exact h)

/-- C50 (partial): the repetitions counted never exceed REPEAT.  Missing: everything else the claim says
(`C50_fails_trigger`, `C50_fails_next`, `C50_fails_completed`). -/
theorem C50_count_partial (a : Alarm) (cs : List Call) (h0 : 0 ≤ a.repeats) (h : a.done ≤ a.repeats) :
    (a.calls cs).done ≤ a.repeats := by
  induction cs generalizing a with
  | nil => exact h
  | cons c cs ih =>
    obtain ⟨_, h2, h3⟩ := call_status a c
    have := ih (a.call c).2 (by rw [h2]; exact h0) (by rw [h2]; rcases h3 with h3 | h3 <;> omega)
    rw [h2] at this
    exact this

/-- C50 (partial): the repetitions counted are not forgotten while the alarm is started and not changed,
nor when it is completed.

Missing: that the repetitions are made, `C50_fails_trigger`, `C50_fails_next` and `C50_fails_completed`. -/
theorem C50_kept_partial (a : Alarm) (cs : List Call)
    (h : a.status = .completed ∨ (a.statusInit = true ∧ ∀ c ∈ cs, c ≠ .changed)) :
    (a.calls cs).done = a.done := by
  induction cs generalizing a with
  | nil => rfl
  | cons c cs ih =>
    have hc : (a.call c).2.done = a.done ∧ ((a.call c).2.statusInit = a.statusInit ∨ c = .changed) := by
      cases c with
      | triggered dt => exact ⟨rfl, .inl rfl⟩
      | changed => exact ⟨rfl, .inr rfl⟩
      | next =>
        unfold call nextTrigger initNext
        rcases h with h | h
        · rw [if_pos h]; cases hi : a.statusInit <;> simp [hi]
        · rw [if_pos h.1]; simp
    have := ih (a.call c).2 (by
      rcases h with h | h
      · exact .inl ((call_status a c).1.trans h)
      · exact .inr ⟨(hc.2.resolve_right (h.2 c (by simp))).trans h.1,
          fun x hx => h.2 x (List.mem_cons_of_mem _ hx)⟩)
    exact this.trans hc.1

/-- C50: an alarm that was not started is started when the next trigger is asked for, and counts from 0. -/
theorem C50_started (a : Alarm) (h : a.status ≠ .completed) (hi : a.statusInit = false) :
    (a.call .next).2.statusInit = true ∧ (a.call .next).2.done = 0 := by
  show a.nextTrigger.2.statusInit = true ∧ a.nextTrigger.2.done = 0
  unfold nextTrigger initNext firstTrigger
  cases ha : a.absolute <;> simp [h, hi, ha, copyMethod, getEmbedder]

/-- A completed alarm after two repetitions. -/
example : ∃ a : Alarm, a.status = .completed ∧ a.done = 2 ∧
    (a.calls [.next, .changed, .next]).done = 2 :=
  ⟨⟨2, Duration.ofSeconds 300, true, .completed, false, 2, none, some .completed⟩, rfl, rfl,
    by decide⟩

/-- A pending alarm with two repetitions. -/
example : ∃ a : Alarm, a.repeats = 2 ∧ a.done ≤ a.repeats ∧ a.status ≠ .completed :=
  ⟨⟨2, Duration.ofSeconds 300, true, .pending, false, 0, none, some .pending⟩, rfl, by decide, by decide⟩

end Alarm
end PyCal
