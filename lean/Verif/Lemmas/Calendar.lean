import Verif.Model.DateTime
import Verif.Spec.Civil

/-! Helper lemmas on the calendar tables and the day loops. -/

namespace PyCal
open Spec

theorem isLeapYear_iff (y : Int) : isLeapYear y = true ↔ Leap y := by
  unfold isLeapYear Leap
  split <;> simp <;> omega

theorem isLeapYear_eq (y : Int) : isLeapYear y = decide (Leap y) := by
  rw [Bool.eq_iff_iff, isLeapYear_iff]; simp

theorem month_cases {m : Int} (h1 : 1 ≤ m) (h2 : m ≤ 12) :
    m = 1 ∨ m = 2 ∨ m = 3 ∨ m = 4 ∨ m = 5 ∨ m = 6 ∨ m = 7 ∨ m = 8 ∨ m = 9 ∨ m = 10 ∨
      m = 11 ∨ m = 12 := by omega

theorem daysInMonth_eq {m : Int} (y : Int) (h1 : 1 ≤ m) (h2 : m ≤ 12) :
    daysInMonth m y = monthLen y m := by
  rcases month_cases h1 h2 with h | h | h | h | h | h | h | h | h | h | h | h <;> subst h <;>
    simp [daysInMonth, monthLen, isLeapYear_eq]

theorem daysInMonth_le {m y : Int} (h1 : 1 ≤ m) (h2 : m ≤ 12) : daysInMonth m y ≤ 31 := by
  rcases month_cases h1 h2 with h | h | h | h | h | h | h | h | h | h | h | h <;> subst h <;>
    simp [daysInMonth]
  split <;> decide

theorem daysInMonth_ge {m y : Int} (h1 : 1 ≤ m) (h2 : m ≤ 12) : 28 ≤ daysInMonth m y :=
  DateTime.daysInMonth_pos h1 h2

/-- Days in a year according to the leap rule. -/
def yearLen (y : Int) : Int := if isLeapYear y then 366 else 365

theorem yearLen_cases (y : Int) : yearLen y = 365 ∨ yearLen y = 366 := by
  unfold yearLen; split <;> simp

@[simp] theorem upto_one (y : Int) : daysUptoMonth 1 y = 0 := by
  simp [daysUptoMonth]

theorem upto_succ {m y : Int} (h1 : 1 ≤ m) (h2 : m ≤ 11) :
    daysUptoMonth (m + 1) y = daysUptoMonth m y + daysInMonth m y := by
  rcases month_cases h1 (by omega) with h | h | h | h | h | h | h | h | h | h | h | h <;> subst h <;>
    simp [daysUptoMonth, daysInMonth] <;> (try split) <;> (try decide)
  all_goals omega

theorem upto_twelve (y : Int) : daysUptoMonth 12 y + daysInMonth 12 y = yearLen y := by
  simp [daysUptoMonth, daysInMonth, yearLen]; split <;> decide

theorem upto_nonneg {m y : Int} (h1 : 1 ≤ m) (h2 : m ≤ 12) : 0 ≤ daysUptoMonth m y := by
  rcases month_cases h1 h2 with h | h | h | h | h | h | h | h | h | h | h | h <;> subst h <;>
    simp [daysUptoMonth] <;> (try split) <;> (try decide)

/-- A month ends before a later month of the same year starts. -/
theorem upto_mono {m m' y : Int} (h1 : 1 ≤ m) (h : m < m') (h2 : m' ≤ 12) :
    daysUptoMonth m y + daysInMonth m y ≤ daysUptoMonth m' y := by
  obtain ⟨k, hk⟩ : ∃ k : Nat, m' = m + 1 + k := ⟨(m' - m - 1).toNat, by omega⟩
  subst hk
  induction k with
  | zero => simp; rw [upto_succ h1 (by omega)]; omega
  | succ k ih =>
    have ih' := ih (by omega) (by omega)
    have := upto_succ (m := m + 1 + k) (y := y) (by omega) (by omega)
    have := daysInMonth_ge (m := m + 1 + k) (y := y) (by omega) (by omega)
    have e : m + 1 + ((k + 1 : Nat) : Int) = m + 1 + k + 1 := by push_cast; omega
    rw [e]; omega

/-- A month ends within the year. -/
theorem upto_le_yearLen {m y : Int} (h1 : 1 ≤ m) (h2 : m ≤ 12) :
    daysUptoMonth m y + daysInMonth m y ≤ yearLen y := by
  have h12 := upto_twelve y
  by_cases h : m = 12
  · subst h; omega
  · have := upto_mono (m := m) (m' := 12) (y := y) h1 (by omega) (by omega)
    have := daysInMonth_ge (m := 12) (y := y) (by omega) (by omega)
    omega

/-- Leap days in the years before `y`. -/
def leapsBefore (y : Int) : Int :=
  (y - 1) / 4 - (if y ≤ 1753 then 0 else (y - 1) / 100 - (y - 1) / 400 - 13)

theorem leapsBefore_succ (y : Int) :
    leapsBefore (y + 1) = leapsBefore y + (if isLeapYear y then 1 else 0) := by
  rw [isLeapYear_eq]
  by_cases hl : Leap y <;> simp only [hl, decide_true, decide_false, if_true] <;>
    unfold leapsBefore <;> unfold Leap at hl <;> split <;> split <;> simp <;> omega

/-- Number of a day in the library's own calendar (continuous over all years). -/
def dayNum (y m d : Int) : Int := 365 * y + leapsBefore y + daysUptoMonth m y + d

theorem dayNum_next_year (y d : Int) : dayNum (y + 1) 1 d = dayNum y 12 (d + daysInMonth 12 y) := by
  have := leapsBefore_succ y
  have := upto_twelve y
  unfold dayNum yearLen at *
  rw [upto_one]
  split at this <;> simp_all <;> omega

theorem dayNum_next_month {y m d : Int} (h1 : 1 ≤ m) (h2 : m ≤ 11) :
    dayNum y (m + 1) d = dayNum y m (d + daysInMonth m y) := by
  have := upto_succ (y := y) h1 h2
  unfold dayNum; omega

/-- Field-level validity used by the loops. -/
def ValidYMD (y m d : Int) : Prop := 1 ≤ m ∧ m ≤ 12 ∧ 1 ≤ d ∧ d ≤ daysInMonth m y

theorem validYMD_iff (y m d : Int) : ValidYMD y m d ↔ (⟨y, m, d⟩ : Date).Valid := by
  unfold ValidYMD Date.Valid
  constructor
  · rintro ⟨a, b, c, e⟩
    rw [daysInMonth_eq y a b] at e; exact ⟨a, b, c, e⟩
  · rintro ⟨a, b, c, e⟩
    rw [← daysInMonth_eq y a b] at e; exact ⟨a, b, c, e⟩

theorem dayNum_bounds {y m d : Int} (h : ValidYMD y m d) :
    365 * y + leapsBefore y + 1 ≤ dayNum y m d ∧
      dayNum y m d ≤ 365 * y + leapsBefore y + yearLen y := by
  obtain ⟨a, b, c, e⟩ := h
  have := upto_nonneg (y := y) a b
  have := upto_le_yearLen (y := y) a b
  unfold dayNum; omega

theorem yearStart_succ (y : Int) :
    365 * (y + 1) + leapsBefore (y + 1) = 365 * y + leapsBefore y + yearLen y := by
  have := leapsBefore_succ y
  unfold yearLen; split at this <;> simp_all <;> omega

theorem yearStart_mono {y y' : Int} (h : y < y') :
    365 * y + leapsBefore y + yearLen y ≤ 365 * y' + leapsBefore y' := by
  obtain ⟨k, hk⟩ : ∃ k : Nat, y' = y + 1 + k := ⟨(y' - y - 1).toNat, by omega⟩
  subst hk
  clear h
  induction k with
  | zero => have := yearStart_succ y; simp; omega
  | succ k ih =>
    have := yearStart_succ (y + 1 + k)
    have := yearLen_cases (y + 1 + k)
    have e : y + 1 + ((k + 1 : Nat) : Int) = y + 1 + k + 1 := by push_cast; omega
    rw [e]; omega

/-- Day numbers order valid dates lexicographically. -/
theorem dayNum_lt {y m d y' m' d' : Int} (h : ValidYMD y m d) (h' : ValidYMD y' m' d')
    (hl : (⟨y, m, d⟩ : Date).lt ⟨y', m', d'⟩) : dayNum y m d < dayNum y' m' d' := by
  simp only [Date.lt] at hl
  rcases hl with hl | ⟨rfl, hl⟩
  · have := dayNum_bounds h
    have := dayNum_bounds h'
    have := yearStart_mono hl
    omega
  · rcases hl with hl | ⟨rfl, hl⟩
    · obtain ⟨a, b, c, e⟩ := h
      obtain ⟨a', b', c', e'⟩ := h'
      have := upto_mono (y := y) a hl b'
      unfold dayNum; omega
    · unfold dayNum; omega

theorem date_trichotomy (a b : Date) : a.lt b ∨ a = b ∨ b.lt a := by
  cases a; cases b
  simp only [Date.lt, Date.mk.injEq]
  omega

theorem dayNum_inj {y m d y' m' d' : Int} (h : ValidYMD y m d) (h' : ValidYMD y' m' d')
    (he : dayNum y m d = dayNum y' m' d') : y = y' ∧ m = m' ∧ d = d' := by
  rcases date_trichotomy ⟨y, m, d⟩ ⟨y', m', d'⟩ with hl | hl | hl
  · have := dayNum_lt h h' hl; omega
  · simpa using hl
  · have := dayNum_lt h' h hl; omega

theorem dayNum_lt_iff {y m d y' m' d' : Int} (h : ValidYMD y m d) (h' : ValidYMD y' m' d') :
    dayNum y m d < dayNum y' m' d' ↔ (⟨y, m, d⟩ : Date).lt ⟨y', m', d'⟩ := by
  constructor
  · intro hlt
    rcases date_trichotomy ⟨y, m, d⟩ ⟨y', m', d'⟩ with hl | hl | hl
    · exact hl
    · simp at hl; obtain ⟨rfl, rfl, rfl⟩ := hl; omega
    · have := dayNum_lt h' h hl; omega
  · exact dayNum_lt h h'

namespace DateTime

theorem dayLoopUp_spec (y m d : Int) (h1 : 1 ≤ m) (h2 : m ≤ 12) (hd : 0 < d) :
    let r := dayLoopUp y m d
    ValidYMD r.1 r.2.1 r.2.2 ∧ dayNum r.1 r.2.1 r.2.2 = dayNum y m d := by
  induction y, m, d using dayLoopUp.induct with
  | case1 y m d hc hm ih =>
    have hm12 : m = 12 := by omega
    subst hm12
    have ih := ih (by omega) (by omega) (by omega)
    rw [dayLoopUp, dif_pos hc, if_pos hm]
    simp only at ih ⊢
    refine ⟨ih.1, ?_⟩
    rw [ih.2, dayNum_next_year]
    congr 1; omega
  | case2 y m d hc hm ih =>
    have ih := ih (by omega) (by omega) (by omega)
    rw [dayLoopUp, dif_pos hc, if_neg hm]
    simp only at ih ⊢
    refine ⟨ih.1, ?_⟩
    rw [ih.2, dayNum_next_month h1 (by omega)]
    congr 1; omega
  | case3 y m d hc =>
    rw [dayLoopUp, dif_neg hc]
    exact ⟨⟨h1, h2, by simp; omega, by simp; omega⟩, rfl⟩

theorem dayLoopDown_spec (y m d : Int) (h1 : 1 ≤ m) (h2 : m ≤ 12) (hd : d ≤ daysInMonth m y) :
    let r := dayLoopDown y m d
    ValidYMD r.1 r.2.1 r.2.2 ∧ dayNum r.1 r.2.1 r.2.2 = dayNum y m d := by
  induction y, m, d using dayLoopDown.induct with
  | case1 y m d hc hm ih =>
    have hm1 : m = 1 := by omega
    subst hm1
    have ih := ih (by omega) (by omega) (by omega)
    rw [dayLoopDown, dif_pos hc, if_pos hm]
    simp only at ih ⊢
    refine ⟨ih.1, ?_⟩
    have := dayNum_next_year (y - 1) d
    rw [ih.2, ← this]
    congr 1; omega
  | case2 y m d hc hm ih =>
    have ih := ih (by omega) (by omega) (by omega)
    rw [dayLoopDown, dif_pos hc, if_neg hm]
    simp only at ih ⊢
    refine ⟨ih.1, ?_⟩
    have := dayNum_next_month (y := y) (m := m - 1) (d := d) (by omega) (by omega)
    rw [ih.2, ← this]
    congr 1; omega
  | case3 y m d hc =>
    rw [dayLoopDown, dif_neg hc]
    exact ⟨⟨h1, h2, by simp; omega, by simp; omega⟩, rfl⟩

theorem normaliseDate_spec (y m d : Int) :
    let r := normaliseDate y m d
    ValidYMD r.1 r.2.1 r.2.2 ∧
      dayNum r.1 r.2.1 r.2.2 = dayNum (y + (m - 1) / 12) ((m - 1) % 12 + 1) d := by
  unfold normaliseDate
  simp only
  split
  · exact dayLoopUp_spec _ _ _ (by omega) (by omega) (by omega)
  · have := daysInMonth_ge (m := (m - 1) % 12 + 1) (y := y + (m - 1) / 12) (by omega) (by omega)
    exact dayLoopDown_spec _ _ _ (by omega) (by omega) (by omega)

theorem normaliseDate_of_valid {y m d : Int} (h : ValidYMD y m d) : normaliseDate y m d = (y, m, d) := by
  have hs := normaliseDate_spec y m d
  simp only at hs
  have e1 : y + (m - 1) / 12 = y := by unfold ValidYMD at h; omega
  have e2 : (m - 1) % 12 + 1 = m := by unfold ValidYMD at h; omega
  rw [e1, e2] at hs
  obtain ⟨a, b, c⟩ := dayNum_inj hs.1 h hs.2
  generalize normaliseDate y m d = r at *
  obtain ⟨r1, r2, r3⟩ := r
  simp_all

/-- `normaliseDate` with a month in range returns the unique valid date with the same day
number. -/
theorem normaliseDate_unique {y m d y' m' d' : Int} (hm1 : 1 ≤ m) (hm2 : m ≤ 12)
    (h' : ValidYMD y' m' d') (he : dayNum y' m' d' = dayNum y m d) :
    normaliseDate y m d = (y', m', d') := by
  have hs := normaliseDate_spec y m d
  simp only at hs
  have e1 : y + (m - 1) / 12 = y := by omega
  have e2 : (m - 1) % 12 + 1 = m := by omega
  rw [e1, e2] at hs
  obtain ⟨a, b, c⟩ := dayNum_inj hs.1 h' (by omega)
  generalize normaliseDate y m d = r at *
  obtain ⟨r1, r2, r3⟩ := r
  simp_all

end DateTime
end PyCal
