import Verif.Lemmas.DateTime
import Verif.Props.C14_Duration

/-!
# C01–C05: date arithmetic

* C01 every arithmetic operation yields a real date-time.
* C02 normalisation is the identity on real date-times and idempotent.
* C03 adding `n` seconds is `n` clock ticks of the civil odometer; the absolute (posix)
  time moves by `n` as long as no century year that is not a leap year is crossed.
* C04 adding and subtracting cancel.
* C05 weekdays.
-/

namespace PyCal.DateTime
open Spec

/-! ## C01 -/

/-- The date-arithmetic entry points of the API. -/
inductive ArithOp where
  | year (n : Int) | month (n : Int) | day (n : Int)
  | hours (n : Int) | minutes (n : Int) | seconds (n : Int)
  | plus (d : Duration) | minus (d : Duration)

/-- Running an entry point. -/
def ArithOp.run (t : DateTime) : ArithOp → DateTime
  | .year n => t.offsetYear n
  | .month n => t.offsetMonth n
  | .day n => t.offsetDay n
  | .hours n => t.offsetHours n
  | .minutes n => t.offsetMinutes n
  | .seconds n => t.offsetSeconds n
  | .plus d => t.add d
  | .minus d => t.subDuration d

/-- C01: whatever the fields (even nonsensical ones) and whatever the amount, the result is a
real date and time of the same kind; date-only results have an all-zero time. -/
theorem C01_arith_valid (t : DateTime) (op : ArithOp) :
    (op.run t).civil.Valid ∧
    ((op.run t).dateOnly = true →
      (op.run t).hours = 0 ∧ (op.run t).minutes = 0 ∧ (op.run t).seconds = 0) ∧
    SameKind (op.run t) t := by
  cases op <;> exact ⟨(normalise_valid _).1, (normalise_valid _).2, normalise_kind _⟩

example : (ArithOp.day (-400)).run { year := 2000, month := 3, day := 1 } =
    { year := 1999, month := 1, day := 26 } := by decide +kernel

/-! ## C02 -/

/-- C02: normalisation leaves a real date-time alone. -/
theorem C02_normalise_id (t : DateTime) (h : t.Valid) : t.normalise = t := normalise_of_valid h

/-- C02: hence it is idempotent on all field values. -/
theorem C02_normalise_idem (t : DateTime) : t.normalise.normalise = t.normalise :=
  normalise_of_valid (normalise_valid t)

/-- C02: zero offsets of any unit change nothing. -/
theorem C02_zero_offsets (t : DateTime) (h : t.Valid) :
    t.offsetYear 0 = t ∧ t.offsetMonth 0 = t ∧ t.offsetDay 0 = t ∧ t.offsetHours 0 = t ∧
    t.offsetMinutes 0 = t ∧ t.offsetSeconds 0 = t ∧
    ∀ d : Duration, d.totalSeconds = 0 → t.add d = t := by
  have := normalise_of_valid h
  refine ⟨?_, ?_, ?_, ?_, ?_, ?_, fun d hd => ?_⟩ <;>
    simp [offsetYear, offsetMonth, offsetDay, offsetHours, offsetMinutes, offsetSeconds, add, *]

example : (⟨2024, 2, 29, 23, 59, 59, false, true, none⟩ : DateTime).Valid := by decide

/-! ## C03 -/

/-- C03: adding a duration of `n ≥ 0` seconds to any real date-time is `n` ticks of the
civil clock, in all years. -/
theorem C03_add_forward (t : DateTime) (h : t.Valid) (hd : t.dateOnly = false) (d : Duration)
    (n : Nat) (hn : d.totalSeconds = n) :
    (t.add d).civil = iter tick n t.civil ∧ SameKind (t.add d) t := by
  refine ⟨?_, normalise_kind _⟩
  have hit := iter_tick h.1 n
  have hv : (t.add d).Valid := normalise_valid _
  apply timeNum_inj hv.1 hit.1
  rw [hit.2, ← h.secNum, ← hv.secNum, add, addSeconds_secNum hd, hn]

/-- C03: adding a negative duration of `n` seconds gives the date-time from which `n` ticks
lead back. -/
theorem C03_add_backward (t : DateTime) (h : t.Valid) (hd : t.dateOnly = false) (d : Duration)
    (n : Nat) (hn : d.totalSeconds = -(n : Int)) :
    iter tick n (t.add d).civil = t.civil ∧ (t.add d).Valid ∧ SameKind (t.add d) t := by
  have hv : (t.add d).Valid := normalise_valid _
  refine ⟨?_, hv, normalise_kind _⟩
  have hit := iter_tick hv.1 n
  apply timeNum_inj hit.1 h.1
  rw [hit.2, ← h.secNum, ← hv.secNum, add, addSeconds_secNum hd, hn]
  omega

/-- C03: for a date-only value, adding `n` whole days is `n` steps of the calendar. -/
theorem C03_add_days (t : DateTime) (h : t.Valid) (n : Nat) :
    (t.offsetDay n).date = iter nextDay n t.date := by
  have hit := iter_nextDay (x := t.date) h.1.1 n
  have hv : (t.offsetDay n).Valid := normalise_valid _
  refine date_inj (a := (t.offsetDay n).date) hv.1.1 hit.1 ?_
  rw [hit.2]
  have hm := h.month
  show dayNum (t.offsetDay n).year (t.offsetDay n).month (t.offsetDay n).day = _
  unfold offsetDay
  rw [normalise_dayNum, dayNumOf_of_month (by simpa using hm.1) (by simpa using hm.2)]
  have hs : ({ t with day := t.day + n } : DateTime).secondsOfDay / 86400 = 0 := by
    obtain ⟨⟨_, _⟩, _⟩ := h
    simp only [civil, secondsOfDay] at *
    omega
  rw [hs]
  simp [date, dayNum_add]

/-- A year that the absolute-time computation takes for a leap year although it is none
(1800, 1900, 2100, 2200, 2300, 2500, ...). -/
def SkippedCentury (y : Int) : Prop := 1752 < y ∧ y % 100 = 0 ∧ y % 400 ≠ 0

/-- Days between two year starts, as the library's day count sees them. -/
theorem daysSince1970_eq (t : DateTime) :
    t.daysSince1970 = (t.year - 1970) * 365 + (t.year - 1969) / 4
      + daysUptoMonth t.month t.year + (t.day - 1) := by
  unfold daysSince1970 leapDaysSince1970
  split
  · rw [show t.year - 1970 + 1 = t.year - 1969 by omega]
  · split
    · rw [show t.year - 1970 + 1 = t.year - 1969 by omega]
    · rw [show (t.year - 1969) / 4 = 0 by omega]

/-- Error of the day count at the start of a year. -/
def drift (y : Int) : Int := (y - 1969) / 4 - leapsBefore y

theorem drift_succ (y : Int) (h : ¬ SkippedCentury y) : drift (y + 1) = drift y := by
  unfold SkippedCentury at h
  unfold drift
  rw [leapsBefore_succ, isLeapYear_eq]
  by_cases hl : Leap y <;> simp only [hl, decide_true, decide_false] <;>
    unfold Leap at hl <;> simp <;> omega

theorem drift_eq {y y' : Int} (h : y ≤ y') (hs : ∀ z, y ≤ z → z < y' → ¬ SkippedCentury z) :
    drift y = drift y' := by
  obtain ⟨k, hk⟩ : ∃ k : Nat, y' = y + k := ⟨(y' - y).toNat, by omega⟩
  subst hk
  clear h
  induction k with
  | zero => simp
  | succ k ih =>
    rw [ih fun z h1 h2 => hs z h1 (by omega)]
    have := drift_succ (y + k) (hs _ (by omega) (by omega))
    rw [show y + ((k + 1 : Nat) : Int) = y + k + 1 by push_cast; omega, this]

/-- No skipped century year lies between two years (in either order, last one excluded). -/
def NoSkip (y y' : Int) : Prop :=
  ∀ z, (y ≤ z ∧ z < y') ∨ (y' ≤ z ∧ z < y) → ¬ SkippedCentury z

theorem NoSkip.drift {y y' : Int} (h : NoSkip y y') : drift y = drift y' := by
  by_cases hle : y ≤ y'
  · exact drift_eq hle fun z h1 h2 => h z (Or.inl ⟨h1, h2⟩)
  · exact (drift_eq (by omega) fun z h1 h2 => h z (Or.inr ⟨h1, h2⟩)).symm

theorem daysSince1970_dayNum {t : DateTime} :
    t.daysSince1970 = dayNum t.year t.month t.day + drift t.year - 1970 * 365 - 1 := by
  rw [daysSince1970_eq]; unfold drift dayNum; omega

theorem drift_mono {y y' : Int} (h : y ≤ y') : drift y ≤ drift y' := by
  obtain ⟨k, hk⟩ : ∃ k : Nat, y' = y + k := ⟨(y' - y).toNat, by omega⟩
  subst hk
  clear h
  induction k with
  | zero => simp
  | succ k ih =>
    have hstep : drift (y + k) ≤ drift (y + k + 1) := by
      unfold drift
      rw [leapsBefore_succ, isLeapYear_eq]
      by_cases hl : Leap (y + k) <;> simp only [hl, decide_true, decide_false] <;>
        unfold Leap at hl <;> simp <;> omega
    rw [show y + ((k + 1 : Nat) : Int) = y + k + 1 by push_cast; omega]; omega

/-- The UTC offset of the value does not depend on the date: UTC, numeric offset, or floating
with no default timezone (timezone.py:119). -/
def FixedOffset (env : TzEnv) (t : DateTime) : Prop :=
  t.utc = true ∨ (∃ n, t.tzid = some (.fixed n)) ∨ (t.tzid = none ∧ ∀ x r, env none x r = 0)

theorem FixedOffset.eq {env : TzEnv} {a b : DateTime} (h : FixedOffset env a) (hk : SameKind b a) :
    b.tzOffset env = a.tzOffset env := by
  unfold tzOffset
  rw [hk.2.1, hk.2.2]
  rcases h with h | ⟨n, h⟩ | ⟨h, h'⟩
  · simp [h]
  · simp [h]
  · simp [h, h']

/-- Later civil times of the same kind have later absolute times, in all years. -/
theorem posix_strictMono (env : TzEnv) {a b : DateTime} (hf : FixedOffset env a)
    (hk : SameKind b a) (ha : a.Valid) (hb : b.Valid) (h : timeNum a.civil < timeNum b.civil) :
    a.posix env < b.posix env := by
  unfold posix
  rw [hf.eq hk, daysSince1970_dayNum, daysSince1970_dayNum]
  have hya : a.year ≤ b.year := by
    rcases (by omega : b.year < a.year ∨ a.year ≤ b.year) with hlt | hge
    · exfalso
      have h1 := dayNum_bounds ha.ymd
      have h2 := dayNum_bounds hb.ymd
      have h3 := yearStart_mono hlt
      obtain ⟨⟨_, _⟩, _⟩ := ha
      obtain ⟨⟨_, _⟩, _⟩ := hb
      simp only [timeNum, civil, date] at *
      omega
    · exact hge
  have := drift_mono hya
  simp only [timeNum, civil, date, secondsOfDay] at *
  omega

/-- C03 (uniqueness, all years): two real date-times of the same kind with the same absolute
time are the same date-time. -/
theorem C03_posix_unique (env : TzEnv) (a b : DateTime) (hf : FixedOffset env a)
    (hk : SameKind b a) (ha : a.Valid) (hb : b.Valid) (h : a.posix env = b.posix env) : a = b := by
  refine eq_of_civil ⟨hk.1.symm, hk.2.1.symm, hk.2.2.symm⟩ (timeNum_inj ha.1 hb.1 ?_)
  rcases Int.lt_trichotomy (timeNum a.civil) (timeNum b.civil) with hl | hl | hl
  · have := posix_strictMono env hf hk ha hb hl; omega
  · exact hl
  · have hf' : FixedOffset env b := by
      rcases hf with h | ⟨n, h⟩ | h
      · exact Or.inl (hk.2.1.trans h)
      · exact Or.inr (Or.inl ⟨n, hk.2.2.trans h⟩)
      · exact Or.inr (Or.inr ⟨hk.2.2.trans h.1, h.2⟩)
    have := posix_strictMono env hf' ⟨hk.1.symm, hk.2.1.symm, hk.2.2.symm⟩ hb ha hl
    omega

/-- C03 (partial): absolute time moves by exactly the duration, for times with a fixed UTC
offset, provided the move does not cross a non-leap century year.  The unrestricted
statement is false, see `C03_posix_fails`. -/
theorem C03_posix_partial (env : TzEnv) (t : DateTime) (h : t.Valid) (hd : t.dateOnly = false)
    (hz : FixedOffset env t) (d : Duration) (hs : NoSkip t.year (t.add d).year) :
    (t.add d).posix env = t.posix env + d.totalSeconds := by
  have hv : (t.add d).Valid := normalise_valid _
  have hsec : (t.add d).secNum = t.secNum + d.totalSeconds := add_secNum hd _
  unfold secNum at hsec
  rw [dayNumOf_of_month hv.month.1 hv.month.2, dayNumOf_of_month h.month.1 h.month.2] at hsec
  unfold posix
  rw [hz.eq (b := t.add d) ⟨by simp, by simp, by simp⟩]
  rw [daysSince1970_dayNum, daysSince1970_dayNum, hs.drift]
  omega

/-- C03 (partial): the same for the years 1901..2100, the range without skipped centuries.

Missing: the other years, `C03_posix_fails`. -/
theorem C03_posix_window_partial (env : TzEnv) (t : DateTime) (h : t.Valid)
    (hd : t.dateOnly = false) (hz : FixedOffset env t) (d : Duration)
    (hw : 1901 ≤ t.year ∧ t.year ≤ 2100) (hw' : 1901 ≤ (t.add d).year ∧ (t.add d).year ≤ 2100) :
    (t.add d).posix env = t.posix env + d.totalSeconds :=
  C03_posix_partial env t h hd hz d fun z hz => by unfold SkippedCentury; omega

/-- C03 fails in general: one second after 2100-12-31T23:59:59Z is 2101-01-01T00:00:00Z, but
its absolute time is one day and one second later. -/
theorem C03_posix_fails :
    ∃ (t : DateTime) (d : Duration), t.Valid ∧ t.utc = true ∧ t.dateOnly = false ∧
      d.totalSeconds = 1 ∧
      (t.add d).civil = tick t.civil ∧
      (t.add d).posix .empty = t.posix .empty + 1 + 86400 :=
  ⟨⟨2100, 12, 31, 23, 59, 59, false, true, none⟩, Duration.ofSeconds 1, by decide +kernel⟩

/-- The hypotheses of the window theorem are met by a move over a leap day. -/
example : ((⟨2000, 2, 28, 23, 59, 59, false, true, none⟩ : DateTime).add (Duration.ofSeconds 1)) =
    ⟨2000, 2, 29, 0, 0, 0, false, true, none⟩ := by decide +kernel

/-! ## C04 -/

/-- C04: `(t + d) - d = t` for every real date-time, in all years. -/
theorem C04_add_sub_cancel (t : DateTime) (h : t.Valid) (hd : t.dateOnly = false) (d : Duration) :
    (t.add d).subDuration d = t := by
  refine eq_of_secNum ⟨by simp, by simp, by simp⟩ (sub_valid _ _) h ?_
  rw [sub_secNum (by simpa using hd), add_secNum hd]; omega

/-- C04: `(t - d) + d = t`. -/
theorem C04_sub_add_cancel (t : DateTime) (h : t.Valid) (hd : t.dateOnly = false) (d : Duration) :
    (t.subDuration d).add d = t := by
  refine eq_of_secNum ⟨by simp, by simp, by simp⟩ (add_valid _ _) h ?_
  rw [add_secNum (by simpa using hd), sub_secNum hd]; omega

/-- C04: durations act additively: `(t + a) + b` is `t +` any duration with the summed total. -/
theorem C04_add_add (t : DateTime) (hd : t.dateOnly = false) (a b c : Duration)
    (hc : c.totalSeconds = a.totalSeconds + b.totalSeconds) : (t.add a).add b = t.add c := by
  refine eq_of_secNum ⟨by simp, by simp, by simp⟩ (add_valid _ _) (add_valid _ _) ?_
  rw [add_secNum (by simpa using hd), add_secNum hd, add_secNum hd, hc]; omega

/-- C04 (partial): `(t + d) - t` has the total of `d`, for UTC, floating and numeric-offset
times, when no non-leap century year is crossed.  The unrestricted claim is false
(`C04_diff_fails`). -/
theorem C04_diff_partial (env : TzEnv) (t : DateTime) (h : t.Valid) (hd : t.dateOnly = false)
    (hz : FixedOffset env t) (d : Duration) (hs : NoSkip t.year (t.add d).year) :
    (subDateTime env (t.add d) t).totalSeconds = d.totalSeconds := by
  have tot : ∀ n, (Duration.ofSeconds n).totalSeconds = n := Duration.C14_total_ofSeconds
  have hfl : (t.add d).floating = t.floating := by simp [floating]
  unfold subDateTime
  rw [hfl]
  by_cases hf : t.floating = true
  · simp only [hf, Bool.and_self, if_true, tot]
    have h' : ({ t with utc := true } : DateTime).Valid := h
    have hp := C03_posix_partial env { t with utc := true } h' hd (Or.inl rfl) d hs
    have e : ({ t with utc := true } : DateTime).add d = { (t.add d) with utc := true } := rfl
    rw [e] at hp
    rw [hp]; omega
  · simp only [Bool.not_eq_true] at hf
    simp only [hf, Bool.and_self, Bool.false_eq_true, if_false, tot]
    rw [C03_posix_partial env t h hd hz d hs]; omega

/-- C04 (partial): a floating operand is read in the zone of the other one, so that the clock
reading of `t + d`, taken as floating, minus `t` is `d`, and `t` minus it is `-d`.

Missing: values between which the end of a skipped century year lies, `C04_diff_fails`, and dates,
`C04_dateOnly_fails`. -/
theorem C04_floating_partial (env : TzEnv) (t : DateTime) (h : t.Valid) (hd : t.dateOnly = false)
    (hz : FixedOffset env t) (hf : t.floating = false) (d : Duration)
    (hs : NoSkip t.year (t.add d).year) :
    (subDateTime env { t.add d with tzid := none, utc := false } t).totalSeconds
      = d.totalSeconds ∧
    (subDateTime env t { t.add d with tzid := none, utc := false }).totalSeconds
      = -d.totalSeconds := by
  have tot : ∀ n, (Duration.ofSeconds n).totalSeconds = n := Duration.C14_total_ofSeconds
  have hfl : ({ t.add d with tzid := none, utc := false } : DateTime).floating = true := by
    simp [floating, tzTruthy]
  have e : ({ ({ t.add d with tzid := none, utc := false } : DateTime) with
      tzid := t.tzid, utc := t.utc } : DateTime) = t.add d := by
    simp [add, normalise]
  have hp := C03_posix_partial env t h hd hz d hs
  unfold subDateTime
  rw [hfl, hf]
  simp only [Bool.and_false, Bool.and_true, Bool.false_eq_true, if_false, if_true, tot, e, hp]
  omega

/-- C04 fails across 2100: adding one second and taking the difference gives a day more. -/
theorem C04_diff_fails :
    ∃ (t : DateTime) (d : Duration), t.Valid ∧ t.utc = true ∧ d.totalSeconds = 1 ∧
      (subDateTime .empty (t.add d) t).totalSeconds = 86401 :=
  ⟨⟨2100, 12, 31, 23, 59, 59, false, true, none⟩, Duration.ofSeconds 1, by decide +kernel⟩

/-- The cancellation law needs a time of day: a date-only value loses sub-day amounts. -/
theorem C04_dateOnly_fails :
    ∃ (t : DateTime) (d : Duration), t.Valid ∧ t.dateOnly = true ∧ d.totalSeconds = 3600 ∧
      (t.subDuration d).add d ≠ t :=
  ⟨ofDate 2024 5 5, Duration.ofSeconds 3600, by decide +kernel⟩

/-- Whole days cancel for date-only values too. -/
theorem C04_dateOnly_days (t : DateTime) (h : t.Valid) (hd : t.dateOnly = true) (d : Duration)
    (k : Int) (hk : d.totalSeconds = 86400 * k) : (t.add d).subDuration d = t := by
  have hv : ((t.add d).subDuration d).Valid := normalise_valid _
  have hv1 : (t.add d).Valid := normalise_valid _
  have hz := h.2 hd
  refine eq_of_secNum (by exact ⟨rfl, rfl, rfl⟩) hv h ?_
  unfold secNum
  rw [dayNumOf_of_month hv.month.1 hv.month.2, dayNumOf_of_month h.month.1 h.month.2]
  have e1 : ((t.add d).subDuration d).secondsOfDay = 0 := normalise_secondsOfDay' _ hd
  have e2 : t.secondsOfDay = 0 := by unfold secondsOfDay; omega
  have e3 : (t.add d).secondsOfDay = 0 := normalise_secondsOfDay' _ hd
  have e4 : dayNum (t.add d).year (t.add d).month (t.add d).day =
      dayNum t.year t.month t.day + k := by
    show dayNum (normalise _).year (normalise _).month (normalise _).day = _
    rw [normalise_dayNum, dayNumOf_of_month (by simpa using h.month.1) (by simpa using h.month.2)]
    unfold secondsOfDay at *
    simp only; omega
  have e5 : dayNum ((t.add d).subDuration d).year ((t.add d).subDuration d).month
      ((t.add d).subDuration d).day =
      dayNum (t.add d).year (t.add d).month (t.add d).day - k := by
    show dayNum (normalise _).year (normalise _).month (normalise _).day = _
    rw [normalise_dayNum,
      dayNumOf_of_month (by simpa using hv1.month.1) (by simpa using hv1.month.2)]
    unfold secondsOfDay at *
    simp only; omega
  rw [e1, e2, e5, e4]; omega

example : ∃ d : Duration, d.totalSeconds = 86400 * 3 := ⟨Duration.ofSeconds (86400 * 3), by decide⟩

/-! ## C05 -/

/-- C05: 1 January 1970 is a Thursday (Sunday = 0). -/
theorem C05_epoch (t : DateTime) (h : t.date = ⟨1970, 1, 1⟩) : t.dayOfWeek = 4 := by
  simp only [date, Date.mk.injEq] at h
  unfold dayOfWeek daysSince1970
  rw [h.1, h.2.1, h.2.2]; decide

/-- C05 (partial): the weekday advances by one from a date to the next civil day, for every
date except 31 December of a non-leap century year; the unrestricted claim is false, see
`C05_fails`.  Together with `C05_epoch` this determines the weekday for 1901..2100. -/
theorem C05_weekday_next_partial (a b : DateTime) (ha : a.date.Valid) (hb : b.date = nextDay a.date)
    (hs : NoSkip a.year b.year) : b.dayOfWeek = (a.dayOfWeek + 1) % 7 := by
  unfold dayOfWeek
  rw [daysSince1970_dayNum, daysSince1970_dayNum, hs.drift]
  have hn := nextDay_dayNum ha
  rw [← hb] at hn
  simp only [date] at hn
  rw [hn]; omega

/-- C05 (partial): in the years 1901..2100 the weekday advances by one every civil day.

Missing: the other years, `C05_fails`. -/
theorem C05_weekday_window_partial (a b : DateTime) (ha : a.date.Valid)
    (hb : b.date = nextDay a.date) (h1 : 1901 ≤ a.year) (h2 : b.year ≤ 2100) :
    b.dayOfWeek = (a.dayOfWeek + 1) % 7 := by
  have hle : a.year ≤ b.year := by
    have hy : b.year = (nextDay a.date).y := congrArg Date.y hb
    rw [hy]
    unfold nextDay
    split
    · exact Int.le_refl _
    · split
      · exact Int.le_refl _
      · show a.year ≤ a.year + 1; omega
  exact C05_weekday_next_partial a b ha hb fun z hz => by unfold SkippedCentury; omega

/-- C05 fails in general: Friday 31 December 2100 is followed by Sunday 1 January 2101. -/
theorem C05_fails :
    ∃ a b : DateTime, a.date.Valid ∧ b.date = nextDay a.date ∧
      a.dayOfWeek = 5 ∧ b.dayOfWeek = 0 :=
  ⟨ofDate 2100 12 31, ofDate 2101 1 1, by decide +kernel⟩

example : (ofDate 2026 11 17).dayOfWeek = 2 := by decide +kernel

end PyCal.DateTime
