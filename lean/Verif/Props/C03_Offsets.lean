import Verif.Props.C01_C05_Arithmetic

/-! # C03: moving a date-time by years, months, days, hours, minutes and seconds

`offsetYear`, `offsetMonth`, `offsetDay`, `offsetHours`, `offsetMinutes`, `offsetSeconds`. -/

namespace PyCal
open Spec DateTime

namespace L03

/-- The time of day is left alone by `normalise` when it is one. -/
theorem time_kept {t u : DateTime} (h : t.Valid) (he : u.dateOnly = t.dateOnly)
    (hh : u.hours = t.hours) (hm : u.minutes = t.minutes) (hs : u.seconds = t.seconds) :
    u.normalise.hours = t.hours ∧ u.normalise.minutes = t.minutes ∧
      u.normalise.seconds = t.seconds := by
  obtain ⟨⟨-, h1, h2, h3, h4, h5, h6⟩, hd⟩ := h
  simp only [civil] at h1 h2 h3 h4 h5 h6
  simp only [DateTime.normalise, he, hh, hm, hs]
  cases hdo : t.dateOnly with
  | true => have := hd hdo; simp [this]
  | false => simp; omega

theorem secondsOfDay_range {t : DateTime} (h : t.Valid) :
    0 ≤ t.secondsOfDay ∧ t.secondsOfDay < 86400 := by
  obtain ⟨⟨-, h1, h2, h3, h4, h5, h6⟩, -⟩ := h
  simp only [civil] at h1 h2 h3 h4 h5 h6
  unfold secondsOfDay
  omega

/-- Moving to a month with any number: the day is counted from the first of that month. -/
theorem land {t u : DateTime} (h : t.Valid) (he : u.dateOnly = t.dateOnly)
    (hh : u.hours = t.hours) (hm : u.minutes = t.minutes) (hs : u.seconds = t.seconds)
    (hd : u.day = t.day) (f : Date) (hf : f.Valid) (hf1 : f.d = 1)
    (hidx : 12 * f.y + f.m = 12 * u.year + u.month) :
    u.normalise.date = iter nextDay (t.day - 1).toNat f := by
  have hit := iter_nextDay (x := f) hf (t.day - 1).toNat
  have hv : u.normalise.Valid := normalise_valid _
  refine date_inj (a := u.normalise.date) hv.1.1 hit.1 ?_
  rw [hit.2]
  show dayNum u.normalise.year u.normalise.month u.normalise.day = _
  rw [normalise_dayNum]
  have hsod : u.secondsOfDay = t.secondsOfDay := by unfold secondsOfDay; rw [hh, hm, hs]
  have hr := secondsOfDay_range h
  have hfm := hf.1
  have hfm2 := hf.2.1
  have hday := h.1.1.2.2.1
  simp only [civil, date] at hday
  unfold dayNumOf
  rw [hsod, show t.secondsOfDay / 86400 = 0 by omega,
    show u.year + (u.month - 1) / 12 = f.y by omega, show (u.month - 1) % 12 + 1 = f.m by omega, hd,
    hf1, show t.day = 1 + (t.day - 1) by omega, dayNum_add]
  omega

end L03

/-- C03: moving by `n` months (`n` of either sign) keeps the time of day and the kind of the value;
its day is counted from the first of the month `n` months away, so that a 31st moved to a month of 30
days is the 1st of the one after. -/
theorem C03_offset_month (t : DateTime) (h : t.Valid) (n : Int) (f : Date) (hf : f.Valid)
    (hf1 : f.d = 1) (hidx : 12 * f.y + f.m = 12 * t.year + t.month + n) :
    (t.offsetMonth n).date = iter nextDay (t.day - 1).toNat f ∧
      (t.offsetMonth n).hours = t.hours ∧ (t.offsetMonth n).minutes = t.minutes ∧
      (t.offsetMonth n).seconds = t.seconds ∧ SameKind (t.offsetMonth n) t := by
  obtain ⟨h1, h2, h3⟩ := L03.time_kept (u := { t with month := t.month + n }) h rfl rfl rfl rfl
  exact ⟨L03.land (u := { t with month := t.month + n }) h rfl rfl rfl rfl rfl f hf hf1 (by simp only; omega), h1, h2, h3,
    normalise_kind _⟩

/-- C03: moving by `n` years likewise: the day is counted from the first of the same month. -/
theorem C03_offset_year (t : DateTime) (h : t.Valid) (n : Int) (f : Date) (hf : f.Valid)
    (hf1 : f.d = 1) (hm : f.m = t.month) (hy : f.y = t.year + n) :
    (t.offsetYear n).date = iter nextDay (t.day - 1).toNat f ∧
      (t.offsetYear n).hours = t.hours ∧ (t.offsetYear n).minutes = t.minutes ∧
      (t.offsetYear n).seconds = t.seconds ∧ SameKind (t.offsetYear n) t := by
  obtain ⟨h1, h2, h3⟩ := L03.time_kept (u := { t with year := t.year + n }) h rfl rfl rfl rfl
  exact ⟨L03.land (u := { t with year := t.year + n }) h rfl rfl rfl rfl rfl f hf hf1 (by simp only; omega), h1, h2, h3,
    normalise_kind _⟩

/-- C03: moving by `n` days, in either direction, is `n` steps of the calendar and keeps the time of
day and the kind. -/
theorem C03_offset_day (t : DateTime) (h : t.Valid) (n : Nat) :
    (t.offsetDay n).date = iter nextDay n t.date ∧ iter nextDay n (t.offsetDay (-n)).date = t.date ∧
    ∀ k : Int, (t.offsetDay k).hours = t.hours ∧ (t.offsetDay k).minutes = t.minutes ∧
      (t.offsetDay k).seconds = t.seconds ∧ SameKind (t.offsetDay k) t := by
  refine ⟨C03_add_days t h n, ?_, fun k => ?_⟩
  · have hv : (t.offsetDay (-n)).Valid := normalise_valid _
    have hit := iter_nextDay (x := (t.offsetDay (-n)).date) hv.1.1 n
    refine date_inj hit.1 h.1.1 ?_
    rw [hit.2]
    show dayNum (t.offsetDay (-n)).year (t.offsetDay (-n)).month (t.offsetDay (-n)).day + (n : Int) = _
    unfold offsetDay
    rw [normalise_dayNum]
    have hr := L03.secondsOfDay_range h
    have hsod : ({ t with day := t.day + -(n : Int) } : DateTime).secondsOfDay = t.secondsOfDay := rfl
    rw [hsod, show t.secondsOfDay / 86400 = 0 by omega,
      dayNumOf_of_month (t := { t with day := t.day + -(n : Int) }) h.month.1 h.month.2]
    simp only [dayNum_add, date, civil]
    omega
  · obtain ⟨h1, h2, h3⟩ := L03.time_kept (u := { t with day := t.day + k }) h rfl rfl rfl rfl
    exact ⟨h1, h2, h3, normalise_kind _⟩

namespace L03

/-- A change of the second number is as many ticks of the clock. -/
theorem ticks {t u : DateTime} (h : t.Valid) (hd : u.dateOnly = false) (n : Nat)
    (hs : u.secNum = t.secNum + n) : u.normalise.civil = iter tick n t.civil := by
  have hit := iter_tick h.1 n
  have hv : u.normalise.Valid := normalise_valid _
  apply timeNum_inj hv.1 hit.1
  rw [hit.2, ← h.secNum, ← hv.secNum, normalise_secNum u hd, hs]

theorem ticks_back {t u : DateTime} (h : t.Valid) (hd : u.dateOnly = false) (n : Nat)
    (hs : u.secNum = t.secNum - n) : iter tick n u.normalise.civil = t.civil := by
  have hv : u.normalise.Valid := normalise_valid _
  have hit := iter_tick hv.1 n
  apply timeNum_inj hit.1 h.1
  rw [hit.2, ← h.secNum, ← hv.secNum, normalise_secNum u hd, hs]
  omega

end L03

/-- C03: moving by hours, minutes or seconds, in either direction, is as many ticks of the clock. -/
theorem C03_offset_time (t : DateTime) (h : t.Valid) (hd : t.dateOnly = false) (n : Nat) :
    (t.offsetHours n).civil = iter tick (n * 3600) t.civil ∧
    (t.offsetMinutes n).civil = iter tick (n * 60) t.civil ∧
    (t.offsetSeconds n).civil = iter tick n t.civil ∧
    iter tick (n * 3600) (t.offsetHours (-n)).civil = t.civil ∧
    iter tick (n * 60) (t.offsetMinutes (-n)).civil = t.civil ∧
    iter tick n (t.offsetSeconds (-n)).civil = t.civil ∧
    ∀ k : Int, SameKind (t.offsetHours k) t ∧ SameKind (t.offsetMinutes k) t ∧
      SameKind (t.offsetSeconds k) t :=
  ⟨L03.ticks (u := { t with hours := t.hours + (n : Int) }) h hd (n * 3600)
     (by simp only [secNum, dayNumOf, secondsOfDay]; omega),
   L03.ticks (u := { t with minutes := t.minutes + (n : Int) }) h hd (n * 60)
     (by simp only [secNum, dayNumOf, secondsOfDay]; omega),
   L03.ticks (u := { t with seconds := t.seconds + (n : Int) }) h hd (n)
     (by simp only [secNum, dayNumOf, secondsOfDay]; omega),
   L03.ticks_back (u := { t with hours := t.hours + -(n : Int) }) h hd (n * 3600)
     (by simp only [secNum, dayNumOf, secondsOfDay]; omega),
   L03.ticks_back (u := { t with minutes := t.minutes + -(n : Int) }) h hd (n * 60)
     (by simp only [secNum, dayNumOf, secondsOfDay]; omega),
   L03.ticks_back (u := { t with seconds := t.seconds + -(n : Int) }) h hd (n)
     (by simp only [secNum, dayNumOf, secondsOfDay]; omega),
   fun _ => ⟨normalise_kind _, normalise_kind _, normalise_kind _⟩⟩

/-- One month back from the 31st of March in a leap year: two days after the 29th of February; the
hypotheses hold with the first of February. -/
example : (⟨2024, 3, 31, 9, 0, 0, false, true, none⟩ : DateTime).Valid ∧
    (⟨2024, 2, 1⟩ : Date).Valid ∧
    (⟨2024, 3, 31, 9, 0, 0, false, true, none⟩ : DateTime).offsetMonth (-1) =
      ⟨2024, 3, 2, 9, 0, 0, false, true, none⟩ ∧
    (⟨2024, 2, 29, 9, 0, 0, false, true, none⟩ : DateTime).offsetYear 1 =
      ⟨2025, 3, 1, 9, 0, 0, false, true, none⟩ := by decide +kernel

end PyCal
