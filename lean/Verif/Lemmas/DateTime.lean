import Verif.Lemmas.Calendar
import Verif.Spec.View

/-! Helper lemmas on `normalise` and the civil odometer. -/

namespace PyCal
open Spec

namespace DateTime

/-- Day number after moving the month into range. -/
def dayNumOf (t : DateTime) : Int :=
  dayNum (t.year + (t.month - 1) / 12) ((t.month - 1) % 12 + 1) t.day

/-- Second number of a date-time. -/
def secNum (t : DateTime) : Int := t.dayNumOf * 86400 + t.secondsOfDay

theorem dayNum_add (y m d k : Int) : dayNum y m (d + k) = dayNum y m d + k := by
  unfold dayNum; omega

theorem dayNumOf_of_month {t : DateTime} (h1 : 1 ≤ t.month) (h2 : t.month ≤ 12) :
    t.dayNumOf = dayNum t.year t.month t.day := by
  unfold dayNumOf
  rw [show t.year + (t.month - 1) / 12 = t.year by omega,
    show (t.month - 1) % 12 + 1 = t.month by omega]

theorem normalise_validYMD (t : DateTime) :
    ValidYMD t.normalise.year t.normalise.month t.normalise.day :=
  (normaliseDate_spec _ _ _).1

theorem normalise_kind (t : DateTime) : SameKind t.normalise t := ⟨rfl, rfl, rfl⟩

@[simp] theorem normalise_dateOnly (t : DateTime) : t.normalise.dateOnly = t.dateOnly := rfl
@[simp] theorem normalise_utc (t : DateTime) : t.normalise.utc = t.utc := rfl
@[simp] theorem normalise_tzid (t : DateTime) : t.normalise.tzid = t.tzid := rfl

theorem normalise_valid (t : DateTime) : t.normalise.Valid := by
  refine ⟨⟨(validYMD_iff _ _ _).1 t.normalise_validYMD, ?_⟩, ?_⟩
  · simp only [civil, normalise]
    cases t.dateOnly <;> simp <;> omega
  · intro h
    have h' : t.dateOnly = true := h
    simp [normalise, h']

theorem Valid.ymd {t : DateTime} (h : t.Valid) : ValidYMD t.year t.month t.day :=
  (validYMD_iff _ _ _).2 h.1.1

theorem normalise_dayNum (t : DateTime) :
    dayNum t.normalise.year t.normalise.month t.normalise.day
      = t.dayNumOf + t.secondsOfDay / 86400 := by
  have h := (normaliseDate_spec t.year t.month
    (t.day + (t.hours + (t.minutes + t.seconds / 60) / 60) / 24)).2
  rw [dayNum_add] at h
  simp only [normalise]
  rw [h]
  unfold dayNumOf secondsOfDay
  omega

theorem normalise_secondsOfDay (t : DateTime) (h : t.dateOnly = false) :
    t.normalise.secondsOfDay = t.secondsOfDay % 86400 := by
  simp only [normalise, secondsOfDay, h]
  simp
  omega

theorem normalise_secondsOfDay' (t : DateTime) (h : t.dateOnly = true) :
    t.normalise.secondsOfDay = 0 := by
  simp [normalise, secondsOfDay, h]

theorem normalise_secNum (t : DateTime) (h : t.dateOnly = false) :
    t.normalise.secNum = t.secNum := by
  have hv := t.normalise_validYMD
  unfold secNum
  rw [dayNumOf_of_month hv.1 hv.2.1, normalise_dayNum, normalise_secondsOfDay t h]
  omega

theorem civil_inj_of_secNum {a b : Time} (ha : a.Valid) (hb : b.Valid)
    (he : dayNum a.date.y a.date.m a.date.d * 86400 + (a.h * 60 + a.mi) * 60 + a.s
        = dayNum b.date.y b.date.m b.date.d * 86400 + (b.h * 60 + b.mi) * 60 + b.s) : a = b := by
  obtain ⟨⟨ay, am, ad⟩, ah, ami, as⟩ := a
  obtain ⟨⟨by', bm, bd⟩, bh, bmi, bs⟩ := b
  obtain ⟨hda, ha1, ha2, ha3, ha4, ha5, ha6⟩ := ha
  obtain ⟨hdb, hb1, hb2, hb3, hb4, hb5, hb6⟩ := hb
  simp only at *
  have e := dayNum_inj ((validYMD_iff _ _ _).2 hda) ((validYMD_iff _ _ _).2 hdb) (by omega)
  obtain ⟨rfl, rfl, rfl⟩ := e
  have : ah = bh := by omega
  have : ami = bmi := by omega
  have : as = bs := by omega
  simp_all

end DateTime

/-- Second number of a civil time. -/
def timeNum (a : Time) : Int :=
  dayNum a.date.y a.date.m a.date.d * 86400 + (a.h * 60 + a.mi) * 60 + a.s

theorem timeNum_inj {a b : Time} (ha : a.Valid) (hb : b.Valid) (he : timeNum a = timeNum b) :
    a = b := DateTime.civil_inj_of_secNum ha hb he

theorem nextDay_valid {x : Date} (h : x.Valid) : (nextDay x).Valid := by
  obtain ⟨y, m, d⟩ := x
  obtain ⟨h1, h2, h3, h4⟩ := h
  simp only at *
  unfold nextDay
  simp only
  split
  · exact ⟨h1, h2, by simp; omega, by simp; omega⟩
  · split
    · have := daysInMonth_ge (m := m + 1) (y := y) (by omega) (by omega)
      rw [daysInMonth_eq _ (by omega) (by omega)] at this
      exact ⟨by simp; omega, by simp; omega, by simp, by simp; omega⟩
    · exact ⟨by simp, by simp, by simp, by simp [monthLen]⟩

theorem nextDay_dayNum {x : Date} (h : x.Valid) :
    dayNum (nextDay x).y (nextDay x).m (nextDay x).d = dayNum x.y x.m x.d + 1 := by
  obtain ⟨y, m, d⟩ := x
  obtain ⟨h1, h2, h3, h4⟩ := h
  simp only at *
  unfold nextDay
  simp only
  have hm := daysInMonth_eq y h1 h2
  split
  · simp only [DateTime.dayNum_add]
  · split
    · simp only
      rw [dayNum_next_month h1 (by omega)]
      rw [← DateTime.dayNum_add]; congr 1; omega
    · have : m = 12 := by omega
      subst this
      simp only
      rw [dayNum_next_year]
      rw [← DateTime.dayNum_add]; congr 1; omega

theorem tick_valid {t : Time} (h : t.Valid) : (tick t).Valid := by
  obtain ⟨dt, hh, mi, s⟩ := t
  obtain ⟨hd, h1, h2, h3, h4, h5, h6⟩ := h
  simp only at *
  unfold tick
  simp only
  split
  · exact ⟨hd, by simp; omega⟩
  split
  · exact ⟨hd, by simp; omega⟩
  split
  · exact ⟨hd, by simp; omega⟩
  · exact ⟨nextDay_valid hd, by simp⟩

theorem tick_timeNum {t : Time} (h : t.Valid) : timeNum (tick t) = timeNum t + 1 := by
  obtain ⟨dt, hh, mi, s⟩ := t
  obtain ⟨hd, h1, h2, h3, h4, h5, h6⟩ := h
  simp only at *
  have hn := nextDay_dayNum hd
  unfold tick timeNum
  simp only
  split
  · simp only; omega
  split
  · simp only; omega
  split
  · simp only; omega
  · simp only; omega

theorem iter_tick {t : Time} (h : t.Valid) (n : Nat) :
    (iter tick n t).Valid ∧ timeNum (iter tick n t) = timeNum t + n := by
  induction n generalizing t with
  | zero => exact ⟨h, by simp [iter]⟩
  | succ n ih =>
    have := ih (tick_valid h)
    refine ⟨this.1, ?_⟩
    simp only [iter]
    rw [this.2, tick_timeNum h]; push_cast; omega

theorem iter_nextDay {x : Date} (h : x.Valid) (n : Nat) :
    (iter nextDay n x).Valid ∧
      dayNum (iter nextDay n x).y (iter nextDay n x).m (iter nextDay n x).d
        = dayNum x.y x.m x.d + n := by
  induction n generalizing x with
  | zero => exact ⟨h, by simp [iter]⟩
  | succ n ih =>
    have := ih (nextDay_valid h)
    refine ⟨this.1, ?_⟩
    simp only [iter]
    rw [this.2, nextDay_dayNum h]; push_cast; omega

theorem date_inj {a b : Date} (ha : a.Valid) (hb : b.Valid)
    (he : dayNum a.y a.m a.d = dayNum b.y b.m b.d) : a = b := by
  obtain ⟨y, m, d⟩ := a; obtain ⟨y', m', d'⟩ := b
  have := dayNum_inj ((validYMD_iff _ _ _).2 ha) ((validYMD_iff _ _ _).2 hb) he
  simp_all

namespace DateTime

theorem Valid.month {t : DateTime} (h : t.Valid) : 1 ≤ t.month ∧ t.month ≤ 12 :=
  ⟨h.1.1.1, h.1.1.2.1⟩

theorem Valid.secNum {t : DateTime} (h : t.Valid) : t.secNum = timeNum t.civil := by
  unfold DateTime.secNum timeNum secondsOfDay
  rw [dayNumOf_of_month h.month.1 h.month.2]
  simp [civil, date]; omega

theorem normalise_of_valid {t : DateTime} (h : t.Valid) : t.normalise = t := by
  obtain ⟨y, m, d, hh, mi, s, dO, u, tz⟩ := t
  have hymd := h.ymd
  obtain ⟨⟨hd, h1, h2, h3, h4, h5, h6⟩, hdo⟩ := h
  simp only [civil] at *
  simp only [normalise]
  rw [show d + (hh + (mi + s / 60) / 60) / 24 = d by omega]
  rw [normaliseDate_of_valid hymd]
  cases dO with
  | true => simp at hdo; simp [hdo]
  | false => simp; omega

/-- The general form of adding seconds to a valid date-time. -/
theorem addSeconds_secNum {t : DateTime} (hd : t.dateOnly = false) (n : Int) :
    ({ t with seconds := t.seconds + n } : DateTime).normalise.secNum = t.secNum + n := by
  rw [normalise_secNum { t with seconds := t.seconds + n } hd]
  simp only [secNum, dayNumOf, secondsOfDay]; omega

theorem add_valid (t : DateTime) (d : Duration) : (t.add d).Valid := normalise_valid _
theorem sub_valid (t : DateTime) (d : Duration) : (t.subDuration d).Valid := normalise_valid _
@[simp] theorem add_dateOnly (t : DateTime) (d : Duration) : (t.add d).dateOnly = t.dateOnly := rfl
@[simp] theorem add_utc (t : DateTime) (d : Duration) : (t.add d).utc = t.utc := rfl
@[simp] theorem add_tzid (t : DateTime) (d : Duration) : (t.add d).tzid = t.tzid := rfl
@[simp] theorem sub_dateOnly (t : DateTime) (d : Duration) :
    (t.subDuration d).dateOnly = t.dateOnly := rfl
@[simp] theorem sub_utc (t : DateTime) (d : Duration) : (t.subDuration d).utc = t.utc := rfl
@[simp] theorem sub_tzid (t : DateTime) (d : Duration) : (t.subDuration d).tzid = t.tzid := rfl

theorem add_secNum {t : DateTime} (hd : t.dateOnly = false) (d : Duration) :
    (t.add d).secNum = t.secNum + d.totalSeconds := by
  unfold add; exact addSeconds_secNum hd _

theorem sub_secNum {t : DateTime} (hd : t.dateOnly = false) (d : Duration) :
    (t.subDuration d).secNum = t.secNum - d.totalSeconds := by
  unfold subDuration; rw [Int.sub_eq_add_neg, addSeconds_secNum hd]; omega

theorem eq_of_civil {a b : DateTime} (hk : SameKind a b) (hc : a.civil = b.civil) : a = b := by
  obtain ⟨h1, h2, h3⟩ := hk
  obtain ⟨⟩ := a; obtain ⟨⟩ := b
  simp_all [civil, date]

theorem eq_of_secNum {a b : DateTime} (hk : SameKind a b) (ha : a.Valid) (hb : b.Valid)
    (h : a.secNum = b.secNum) : a = b :=
  eq_of_civil hk (timeNum_inj ha.1 hb.1 (by rw [← ha.secNum, ← hb.secNum, h]))

end DateTime
end PyCal
