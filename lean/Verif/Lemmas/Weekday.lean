import Verif.Lemmas.DateTime
import Verif.Spec.Count
import Verif.Props.C01_C05_Arithmetic

/-! Helper lemmas: setting the date part, weekdays within a year, counting weekdays. -/

namespace PyCal
open Spec

theorem count_congr {p q : Nat → Bool} (n : Nat) (h : ∀ k, k < n → p k = q k) :
    count p n = count q n := by
  induction n with
  | zero => rfl
  | succ n ih =>
    simp only [count]
    rw [ih fun k hk => h k (by omega), h n (by omega)]

theorem count_mod7 (c w : Int) (h0 : 0 ≤ w) (h1 : w < 7) (n : Nat) :
    (count (fun k => decide ((c + k) % 7 = w)) n : Int) = ((n : Int) + 6 - (w - c) % 7) / 7 := by
  induction n with
  | zero => simp [count]; omega
  | succ n ih =>
    simp only [count]
    by_cases h : (c + n) % 7 = w
    · simp [h]; omega
    · simp [h]; omega

namespace DateTime

/-- Time-of-day part of validity. -/
def TimeOK (t : DateTime) : Prop :=
  0 ≤ t.hours ∧ t.hours < 24 ∧ 0 ≤ t.minutes ∧ t.minutes < 60 ∧ 0 ≤ t.seconds ∧ t.seconds < 60 ∧
    (t.dateOnly = true → t.hours = 0 ∧ t.minutes = 0 ∧ t.seconds = 0)

theorem Valid.timeOK {t : DateTime} (h : t.Valid) : t.TimeOK := by
  obtain ⟨⟨_, h1⟩, h2⟩ := h
  simp only [civil] at h1
  exact ⟨h1.1, h1.2.1, h1.2.2.1, h1.2.2.2.1, h1.2.2.2.2.1, h1.2.2.2.2.2, h2⟩

theorem valid_of_parts {t : DateTime} (h : ValidYMD t.year t.month t.day) (ht : t.TimeOK) :
    t.Valid := by
  obtain ⟨a, b, c, d, e, f, g⟩ := ht
  exact ⟨⟨(validYMD_iff _ _ _).1 h, a, b, c, d, e, f⟩, g⟩

/-- With a good time of day, normalisation only touches the date. -/
theorem normalise_eq {t : DateTime} (ht : t.TimeOK) :
    t.normalise = { t with
      year := (normaliseDate t.year t.month t.day).1
      month := (normaliseDate t.year t.month t.day).2.1
      day := (normaliseDate t.year t.month t.day).2.2 } := by
  obtain ⟨y, m, d, hh, mi, s, dO, u, tz⟩ := t
  obtain ⟨h1, h2, h3, h4, h5, h6, hdo⟩ := ht
  simp only at *
  simp only [normalise]
  rw [show d + (hh + (mi + s / 60) / 60) / 24 = d by omega]
  cases dO with
  | true => simp at hdo; simp [hdo]
  | false => simp; omega

/-- Normalising finds the real date with the same day number. -/
theorem normalise_to {t : DateTime} (ht : t.TimeOK) (hm1 : 1 ≤ t.month) (hm2 : t.month ≤ 12)
    {y m d : Int} (hv : ValidYMD y m d) (he : dayNum y m d = dayNum t.year t.month t.day) :
    t.normalise = { t with year := y, month := m, day := d } := by
  rw [normalise_eq ht, normaliseDate_unique hm1 hm2 hv he]

theorem normalise_dayNum' {t : DateTime} (ht : t.TimeOK) (hm1 : 1 ≤ t.month) (hm2 : t.month ≤ 12) :
    dayNum t.normalise.year t.normalise.month t.normalise.day
      = dayNum t.year t.month t.day := by
  rw [normalise_dayNum, dayNumOf_of_month hm1 hm2]
  obtain ⟨h1, h2, h3, h4, h5, h6, _⟩ := ht
  unfold secondsOfDay; omega

theorem dayOfWeek_eq (t : DateTime) :
    t.dayOfWeek = (dayNum t.year t.month t.day + drift t.year - 719047) % 7 := by
  unfold dayOfWeek; rw [daysSince1970_dayNum]; omega

theorem dayOfWeek_range (t : DateTime) : 0 ≤ t.dayOfWeek ∧ t.dayOfWeek < 7 := by
  unfold dayOfWeek; omega

/-- Start of a year in day numbers. -/
theorem dayNum_jan (y d : Int) : dayNum y 1 d = 365 * y + leapsBefore y + d := by
  unfold dayNum; simp

theorem dayNum_dec (y d : Int) : dayNum y 12 d = 365 * y + leapsBefore y + yearLen y - 31 + d := by
  have := upto_twelve y
  have : daysInMonth 12 y = 31 := by simp [daysInMonth]
  unfold dayNum; omega

theorem yearDay_dayNum (t : DateTime) :
    dayNum t.year t.month t.day = 365 * t.year + leapsBefore t.year + t.yearDay := by
  unfold dayNum yearDay; omega

theorem year_of_dayNum {y m d Y : Int} (h : ValidYMD y m d)
    (h1 : 365 * Y + leapsBefore Y + 1 ≤ dayNum y m d)
    (h2 : dayNum y m d ≤ 365 * Y + leapsBefore Y + yearLen Y) : y = Y := by
  have hb := dayNum_bounds h
  rcases Int.lt_trichotomy y Y with hl | hl | hl
  · have := yearStart_mono hl; omega
  · exact hl
  · have := yearStart_mono hl; omega

theorem date_eq_iter {x s : Date} (hx : x.Valid) (hs : s.Valid) (k : Nat) :
    x = iter nextDay k s ↔ dayNum x.y x.m x.d = dayNum s.y s.m s.d + k := by
  have h := iter_nextDay hs k
  constructor
  · intro e; rw [e, h.2]
  · intro e; exact date_inj hx h.1 (by rw [e, h.2])

theorem jan1_valid (y : Int) : (⟨y, 1, 1⟩ : Date).Valid := by simp [Date.Valid, monthLen]
theorem dec31_valid (y : Int) : (⟨y, 12, 31⟩ : Date).Valid := by simp [Date.Valid, monthLen]

end DateTime
end PyCal
