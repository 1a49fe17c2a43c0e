import Verif.Model.Duration

/-! # C14: durations keep their total -/

namespace PyCal.Duration

/-- C14: `Duration(n).getTotalSeconds() == n`. -/
theorem C14_total_ofSeconds (n : Int) : (ofSeconds n).totalSeconds = n := by
  unfold ofSeconds
  simp only
  split
  · unfold totalSeconds
    by_cases h : n ≥ 0 <;> simp [h] <;> omega
  · unfold totalSeconds
    by_cases h : n ≥ 0 <;> simp [h] <;> omega

/-- C14: the keyword constructor totals its amounts. -/
theorem C14_total_ofAmounts (w d h m s : Int) :
    (ofAmounts w d h m s).totalSeconds = w * 604800 + d * 86400 + h * 3600 + m * 60 + s := by
  unfold ofAmounts; rw [C14_total_ofSeconds]; omega

/-- C14: the stored parts are in range (a whole number of weeks, or days with a time below 24
hours), and the direction flag is the sign. -/
theorem C14_ofSeconds_parts (n : Int) :
    let d := ofSeconds n
    (d.forward = true ↔ 0 ≤ n) ∧ d.hours < 24 ∧ d.minutes < 60 ∧ d.seconds < 60 ∧
    (d.weeks ≠ 0 → d.days = 0 ∧ d.hours = 0 ∧ d.minutes = 0 ∧ d.seconds = 0) := by
  unfold ofSeconds
  simp only
  split
  · refine ⟨by simp, by simp, by simp, by simp, by simp⟩
  · refine ⟨by simp, ?_, ?_, ?_, by simp⟩ <;> simp only <;> omega

/-- C14: comparison is comparison of totals, so exactly one of `<`, `==`, `>` holds. -/
theorem C14_compare (a b : Duration) :
    (a.lt b = true ∧ a.eq b = false ∧ a.gt b = false) ∨
    (a.lt b = false ∧ a.eq b = true ∧ a.gt b = false) ∨
    (a.lt b = false ∧ a.eq b = false ∧ a.gt b = true) := by
  unfold lt eq gt
  rcases Int.lt_trichotomy a.totalSeconds b.totalSeconds with h | h | h <;> simp [h] <;> omega

/-- C14: durations are equal exactly if they last equally long, however they are put. -/
theorem C14_eq_iff (a b : Duration) : a.eq b = true ↔ a.totalSeconds = b.totalSeconds := by
  simp [eq]

example : ofSeconds (-90061) = ⟨false, 0, 1, 1, 1, 1⟩ := by decide
example : ofSeconds 1209600 = ⟨true, 2, 0, 0, 0, 0⟩ := by decide

end PyCal.Duration
