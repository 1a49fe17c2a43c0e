import Verif.Model.CalendarQuery

/-!
# C128: A calendar can be asked for its free-busy time and its to-dos

The statement is false for each of the methods: none of them ever gives an answer.
-/

namespace PyCal
namespace Query
open DateTime (TzEnv)

theorem busyLoop_same (status : Event.Instance → Int) (fb : List Busy) :
    ∀ l, (busyLoop status fb l).1 = fb
  | [] => rfl
  | c :: cs => by
    unfold busyLoop
    split
    · exact busyLoop_same status fb cs
    · rfl

/-- C128 fails: `getFreeBusy` of any calendar and period, once it ends, ends with an exception and has added
nothing to the list, whether or not there are events. -/
theorem C128_fails_freebusy (env : TzEnv) (o : SetOrder) (fuel : Nat) (index : List Char → List Event)
    (events : List Event) (status : Event.Instance → Int) (period : Period) (fb fb' : List Busy)
    (e : Option Err) (h : getFreeBusy env o fuel index events status period fb = some (fb', e)) :
    fb' = fb ∧ e ≠ none := by
  unfold getFreeBusy at h
  split at h
  · cases h
  · cases h; simp
  · rename_i l _
    have hs := busyLoop_same status fb l
    split at h
    · rename_i fb1 e1 hb
      rw [hb] at hs
      cases h
      exact ⟨hs, by simp⟩
    · rename_i fb1 hb
      rw [hb] at hs
      cases h
      exact ⟨hs, by simp⟩

/-- C128 fails: `getVFreeBusyFB` of any calendar, once it ends, ends with an exception and has added nothing. -/
theorem C128_fails_fb (env : TzEnv) (o : SetOrder) (fuel : Nat) (index : List Char → List Event)
    (events : List Event) (period : Period) (fb fb' : List Busy) (e : Option Err)
    (h : getVFreeBusyFB env o fuel index events period fb = some (fb', e)) : fb' = fb ∧ e ≠ none := by
  unfold getVFreeBusyFB at h
  split at h
  · cases h
  · cases h; simp
  · cases h; simp

/-- C128 fails: `getVFreeBusyList` gives the list as it was, and raises exactly if there is a VFREEBUSY. -/
theorem C128_fails_list (components list : List VFreeBusy) :
    (getVFreeBusyList components list).1 = list ∧
    ((getVFreeBusyList components list).2 ≠ none ↔ components ≠ []) := by
  cases components <;> simp [getVFreeBusyList]

/-- C128 fails: `getVToDos` never ends without an exception and never adds anything; the text for the status
of a to-do and the comparison of two to-dos for display always raise. -/
theorem C128_fails_todos {α : Type} (onlyDue allDates : Bool) (upto : DateTime) (list : List α) (status : Int)
    (e1 e2 : α) :
    (getVToDos onlyDue allDates upto list).1 = list ∧ (getVToDos onlyDue allDates upto list).2 ≠ none ∧
    (∀ s, getStatusText status ≠ .ok s) ∧ ∀ b, sortForDisplay e1 e2 ≠ .ok b := by
  refine ⟨rfl, by simp [getVToDos], fun s => ?_, fun b => ?_⟩
  · unfold getStatusText; exact fun h => by cases h
  · unfold sortForDisplay; exact fun h => by cases h

/-- An event from 9 to 10 on a day, and the day: the call raises. -/
example : getFreeBusy .empty ⟨id, fun _ => .refl _⟩ 10 (fun _ => [])
    [{ start := ⟨2020, 1, 2, 9, 0, 0, false, true, none⟩
       dtend := some ⟨2020, 1, 2, 10, 0, 0, false, true, none⟩ }] (fun _ => 0)
    (.ofEnd ⟨2020, 1, 2, 0, 0, 0, false, true, none⟩ ⟨2020, 1, 3, 0, 0, 0, false, true, none⟩) [] =
    some ([], some .typeError) := by rfl

end Query
end PyCal
