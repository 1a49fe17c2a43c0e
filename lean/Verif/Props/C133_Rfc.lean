import Verif.Props.C30_C55_Complex
import Verif.Spec.Rfc5545
import Verif.Props.C54_Exact

/-!
# C133: the expansion of a rule is what RFC 5545 says

-/

namespace PyCal.Rule
open Spec DateTime Period

namespace L133

/-! ## Weekdays -/

theorem onWeekday_iff {t : DateTime} (h : t.date.Valid) (h1 : 1901 ≤ t.year) (h2 : t.year ≤ 2100) (w : Int) :
    Rfc.OnWeekday t.date w ↔ t.dayOfWeek = w := by
  have h0 : (⟨1970, 1, 1⟩ : Date).Valid := by decide
  have hd : drift t.year = drift 1970 := by
    unfold drift; rw [leapsBefore, leapsBefore]; omega
  have hw := dayOfWeek_eq t
  have hw0 : ((ofDate 1970 1 1).dayOfWeek) = 4 := by decide +kernel
  rw [dayOfWeek_eq] at hw0
  rw [hd] at hw
  have hy : drift (ofDate 1970 1 1).year = drift 1970 := rfl
  have hn : dayNum (ofDate 1970 1 1).year (ofDate 1970 1 1).month (ofDate 1970 1 1).day = dayNum 1970 1 1 := rfl
  rw [hy, hn] at hw0
  unfold Rfc.OnWeekday
  simp only [date_eq_iter h h0, date_eq_iter h0 h]
  simp only [date]
  constructor
  · rintro ⟨k, ⟨a, rfl⟩ | ⟨a, rfl⟩⟩ <;> omega
  · rintro rfl
    by_cases hl : dayNum 1970 1 1 ≤ dayNum t.year t.month t.day
    · exact ⟨(dayNum t.year t.month t.day - dayNum 1970 1 1).toNat, Or.inl ⟨by omega, by omega⟩⟩
    · exact ⟨(dayNum 1970 1 1 - dayNum t.year t.month t.day).toNat, Or.inr ⟨by omega, by omega⟩⟩

theorem dayMatch_month {t : DateTime} (h : t.Valid) (h1 : 1901 ≤ t.year) (h2 : t.year ≤ 2100) {v : Int × Int}
    (hv : 0 ≤ v.2 ∧ v.2 < 7) {p : Prop} (hp : ¬ p) : WeekdayMatch t v ↔ Rfc.DayMatch p t v := by
  obtain ⟨n, wd⟩ := v
  rw [weekdayMatch_iff]
  unfold Rfc.DayMatch
  simp only at hv ⊢
  rw [onWeekday_iff h.1.1 h1 h2]
  have hd := h.1.1
  have hd1 : 1 ≤ t.day := hd.2.2.1
  have hd2 : t.day ≤ monthLen t.year t.month := hd.2.2.2
  rw [earlier_eq t wd t.day hv.1 hv.2 hd1, later_eq t wd t.day hv.1 hv.2 hd2]
  have hw : t.dayOfWeek = (t.monthWeekday 1 + (t.day - 1)) % 7 := monthWeekday_eq t t.day
  constructor
  · rintro ⟨rfl, h0 | ⟨h0, h3⟩ | ⟨h0, h3⟩⟩
    · exact ⟨rfl, Or.inl h0⟩
    · exact ⟨rfl, Or.inr (Or.inl ⟨hp, Or.inl ⟨h0, by omega⟩⟩)⟩
    · exact ⟨rfl, Or.inr (Or.inl ⟨hp, Or.inr ⟨h0, by omega⟩⟩)⟩
  · rintro ⟨rfl, h0 | ⟨_, ⟨h0, h3⟩ | ⟨h0, h3⟩⟩ | ⟨h0, _⟩⟩
    · exact ⟨rfl, Or.inl h0⟩
    · exact ⟨rfl, Or.inr (Or.inl ⟨h0, by omega⟩)⟩
    · exact ⟨rfl, Or.inr (Or.inr ⟨h0, by omega⟩)⟩
    · exact absurd h0 hp

theorem dayMatch_year {t : DateTime} (h : t.Valid) (h1 : 1901 ≤ t.year) (h2 : t.year ≤ 2100) {v : Int × Int}
    (hv : 0 ≤ v.2 ∧ v.2 < 7) {p : Prop} (hp : p) : YearWeekdayMatch t v ↔ Rfc.DayMatch p t v := by
  obtain ⟨n, wd⟩ := v
  unfold YearWeekdayMatch Rfc.DayMatch
  simp only at hv ⊢
  rw [onWeekday_iff h.1.1 h1 h2]
  obtain ⟨hy, hyd⟩ := yearDate_yearDay h
  have hdec : (⟨t.year, 12, 31⟩ : Date).Valid := by simp [Date.Valid, monthLen]
  have hn := yearDay_dayNum t
  have hpos := (C06_yearDay t h).1
  have hlen := daysOfYear_eq t.year
  rw [earlierInYear_eq t wd hv.1 hv.2 _ (by omega), laterInYear_eq t wd hv.1 hv.2 _ hyd]
  have hw := yearDate_weekday t _ hyd
  rw [hy] at hw
  have hvd : t.date.Valid := h.1.1
  simp only [date_eq_iter hvd (jan1_valid _), date_eq_iter hdec hvd]
  simp only [date, dayNum_jan, dayNum_dec]
  have hc : (((t.yearDay - 1).toNat : Nat) : Int) = t.yearDay - 1 := by omega
  constructor
  · rintro ⟨rfl, h0 | ⟨h0, h3⟩ | ⟨h0, h3⟩⟩
    · exact ⟨rfl, Or.inl h0⟩
    · exact ⟨rfl, Or.inr (Or.inr ⟨hp, Or.inl ⟨h0, (t.yearDay - 1).toNat, by omega, by omega⟩⟩)⟩
    · exact ⟨rfl, Or.inr (Or.inr ⟨hp, Or.inr ⟨h0, (yearLen t.year - t.yearDay).toNat, by omega, by omega⟩⟩)⟩
  · rintro ⟨rfl, h0 | ⟨h0, _⟩ | ⟨_, ⟨h0, k, h3, h4⟩ | ⟨h0, k, h3, h4⟩⟩⟩
    · exact ⟨rfl, Or.inl h0⟩
    · exact absurd hp h0
    · exact ⟨rfl, Or.inr (Or.inl ⟨h0, by omega⟩)⟩
    · exact ⟨rfl, Or.inr (Or.inr ⟨h0, by omega⟩)⟩

/-! ## Civil times cut off -/

theorem tick_minutes {c : Time} (h : c.Valid) (j : Nat) :
    ({ iter tick (j * 60) c with s := 0 } : Time) = iter tick (j * 60) { c with s := 0 } ∧ (iter tick (j * 60) c).s = c.s := by
  have h0 : ({ c with s := 0 } : Time).Valid := by
    obtain ⟨a, b, d, e, f, _, _⟩ := h; exact ⟨a, b, d, e, f, by simp, by simp⟩
  obtain ⟨v1, n1⟩ := iter_tick h (j * 60)
  obtain ⟨v2, n2⟩ := iter_tick h0 (j * 60)
  have hs : (iter tick (j * 60) c).s = c.s := by
    obtain ⟨_, _, _, _, _, _, _⟩ := h
    obtain ⟨_, _, _, _, _, _, _⟩ := v1
    unfold timeNum at n1; push_cast at n1; omega
  refine ⟨timeNum_inj ?_ v2 ?_, hs⟩
  · obtain ⟨a, b, d, e, f, _, _⟩ := v1; exact ⟨a, b, d, e, f, by simp, by simp⟩
  · rw [n2]
    unfold timeNum at n1 ⊢; simp only at n1 ⊢; omega

theorem tick_hours {c : Time} (h : c.Valid) (j : Nat) :
    ({ iter tick (j * 3600) c with mi := 0, s := 0 } : Time) = iter tick (j * 3600) { c with mi := 0, s := 0 } ∧
      (iter tick (j * 3600) c).mi = c.mi ∧ (iter tick (j * 3600) c).s = c.s := by
  have h0 : ({ c with mi := 0, s := 0 } : Time).Valid := by
    obtain ⟨a, b, d, e, f, _, _⟩ := h; exact ⟨a, b, d, by simp, by simp, by simp, by simp⟩
  obtain ⟨v1, n1⟩ := iter_tick h (j * 3600)
  obtain ⟨v2, n2⟩ := iter_tick h0 (j * 3600)
  have hs : (iter tick (j * 3600) c).mi = c.mi ∧ (iter tick (j * 3600) c).s = c.s := by
    obtain ⟨_, _, _, _, _, _, _⟩ := h
    obtain ⟨_, _, _, _, _, _, _⟩ := v1
    unfold timeNum at n1; push_cast at n1; omega
  refine ⟨timeNum_inj ?_ v2 ?_, hs⟩
  · obtain ⟨a, b, d, e, f, _, _⟩ := v1; exact ⟨a, b, d, by simp, by simp, by simp, by simp⟩
  · rw [n2]
    unfold timeNum at n1 ⊢; simp only at n1 ⊢; omega

/-! ## The parts -/

theorem oneOf_iff {vals : List Int} {old new : Int} :
    OneOf vals old new ↔ Limits vals (fun v => new = v) ∧ (vals = [] → new = old) := by
  unfold OneOf Limits
  constructor
  · rintro (⟨h, e⟩ | h)
    · exact ⟨Or.inl h, fun _ => e⟩
    · exact ⟨Or.inr ⟨new, h, rfl⟩, fun e => by rw [e] at h; simp at h⟩
  · rintro ⟨h | ⟨v, h, rfl⟩, e⟩
    · exact Or.inl ⟨h, e h⟩
    · exact Or.inr h

theorem limits_nil {β : Type} {p : β → Prop} : Limits ([] : List β) p := Or.inl rfl

end L133

/-- The rule without BYSETPOS. -/
def unpicked (r : Rule) : Rule := { r with bySetPos := [] }

/-- What the theorems below leave out: BYYEARDAY, BYWEEKNO, BYSETPOS; BYMONTH in a WEEKLY rule (`C53_fails_weekly`), BYMONTHDAY or
numbers in BYDAY there, which RFC 5545 forbids; BYMONTHDAY without BYMONTH in a YEARLY rule (`C53_fails_yearly`). -/
structure Standard (r : Rule) : Prop where
  yearDay : r.byYearDay = []
  weekNo : r.byWeekNo = []
  setPos : r.bySetPos = []
  weekly : r.freq = .weekly → r.byMonth = [] ∧ r.byMonthDay = [] ∧ ∀ v ∈ r.byDay, v.1 = 0
  yearly : r.freq = .yearly → r.byMonth = [] → r.byMonthDay = []

namespace L133

theorem standard_of {r : Rule} (h : Standard r.unpicked) (hp : r.bySetPos = []) : Standard r :=
  ⟨h.yearDay, h.weekNo, hp, h.weekly, h.yearly⟩

theorem dayLimits_iff {r : Rule} (hS : Standard r) {u x : DateTime} (hd : ∀ v ∈ r.byDay, 0 ≤ v.2 ∧ v.2 < 7) (hs : SameDay u x)
    (hv : x.Valid) (h1 : 1901 ≤ x.year) (h2 : x.year ≤ 2100) (hf : r.freq ≠ .yearly) :
    r.DayLimits u ↔ Limits r.byMonth (fun m => x.month = m) ∧ Limits r.byMonthDay (MonthDayMatch x) ∧
      Limits r.byDay (Rfc.DayMatch (r.freq = .yearly ∧ r.byMonth = []) x) := by
  obtain ⟨m1, m2, _⟩ := match_sameDay hs
  have hm : x.month = u.month := by rw [show x = _ from hs]
  have hb : Limits r.byDay (WeekdayMatch u) ↔ Limits r.byDay (Rfc.DayMatch (r.freq = .yearly ∧ r.byMonth = []) x) :=
    limits_congr fun v hv' => (m2 v).symm.trans (dayMatch_month hv h1 h2 (hd v hv') fun h => hf h.1)
  unfold DayLimits
  rw [hS.weekNo, hb, limits_congr fun v _ => (m1 v).symm, hm]
  simp [limits_nil]

theorem civil_fields {x : DateTime} {c : Time} : x.civil = c ↔ x.date = c.date ∧ x.hours = c.h ∧ x.minutes = c.mi ∧ x.seconds = c.s := by
  obtain ⟨d, a, b, e⟩ := c
  simp [civil]

/-- Of the same kind as the start and on the date of `u`. -/
theorem sameDay_iff {u x : DateTime} (hk : SameKind x u) : SameDay u x ↔ x.date = u.date := by
  constructor
  · exact fun h => h.date
  · intro h
    obtain ⟨k1, k2, k3⟩ := hk
    simp only [date, Date.mk.injEq] at h
    unfold SameDay
    rw [← k1, ← k2, ← k3, ← h.1, ← h.2.1, ← h.2.2]

/-- The part of `Matches` that remains once kind and validity are known. -/
def Rest (r : Rule) (s x : DateTime) : Prop :=
  Limits r.byMonth (fun m => x.month = m) ∧ Limits r.byMonthDay (MonthDayMatch x) ∧
    Limits r.byDay (Rfc.DayMatch (r.freq = .yearly ∧ r.byMonth = []) x) ∧ Limits r.byHours (fun v => x.hours = v) ∧
    Limits r.byMinutes (fun v => x.minutes = v) ∧ Limits r.bySeconds (fun v => x.seconds = v) ∧ Rfc.Kept r s x

theorem matches_iff {r : Rule} (hS : Standard r) {s x : DateTime} :
    Rfc.Matches r s x ↔ x.Valid ∧ SameKind x s ∧ Rest r s x := by
  constructor
  · intro h
    exact ⟨h.valid, h.kind, h.byMonth, h.byMonthDay, h.byDay, h.byHour, h.byMinute, h.bySecond, h.kept⟩
  · rintro ⟨a, b, c, d, e, f, g, h, i⟩
    exact ⟨b, a, c, by rw [hS.yearDay]; exact limits_nil, d, e, f, g, h, i⟩

theorem kind_to {x s u : DateTime} (h : SameKind x s) (h' : SameKind u s) : SameKind x u :=
  ⟨h.1.trans h'.1.symm, h.2.1.trans h'.2.1.symm, h.2.2.trans h'.2.2.symm⟩

section
variable {env : TzEnv} {r : Rule} {s x : DateTime} {n : Nat}

theorem secondly_iff (hT : Tame r s) (hS : Standard r) (hn : r.interval = n) (h1 : 1901 ≤ x.year) (h2 : x.year ≤ 2100)
    (hv : x.Valid) (hk : SameKind x s) (hf : r.freq = .secondly) (k : Nat) :
    x ∈ r.candidates env (r.raw s k) ↔ Rfc.InStep r.freq n r.weekStart s x k ∧ Rest r s x := by
  have hu := raw_valid (r := r) hT.valid (by simp [hf]) (by simp [hf]) k
  have hc := raw_civil (r := r) hT.valid (fun h => (hT.dates h).1) hn k
  have hkx : SameKind x (r.raw s k) := kind_to hk (r.raw_kind s k)
  generalize r.raw s k = u at *
  rw [C53_secondly env r u hu hf hT.byDay hS.setPos]
  simp only [hf, repetition] at hc
  have hstep : Rfc.InStep r.freq n r.weekStart s x k ↔ x = u := by
    rw [hf]
    constructor
    · intro h; exact eq_of_civil hkx (by rw [hc]; exact h)
    · rintro rfl; exact hc
  rw [hstep]
  constructor
  · rintro ⟨rfl, a, b, c, d⟩
    rw [dayLimits_iff hS hT.byDay (sameDay_self x) hv h1 h2 (by simp [hf])] at a
    exact ⟨rfl, a.1, a.2.1, a.2.2, b, c, d, by constructor <;> simp [hf, Rfc.aboveSecond, Rfc.aboveMinute, Rfc.aboveHour]⟩
  · rintro ⟨rfl, a, a', a'', b, c, d, _⟩
    exact ⟨rfl, (dayLimits_iff hS hT.byDay (sameDay_self x) hv h1 h2 (by simp [hf])).mpr ⟨a, a', a''⟩, b, c, d⟩

theorem minutely_iff (hT : Tame r s) (hS : Standard r) (hn : r.interval = n) (h1 : 1901 ≤ x.year) (h2 : x.year ≤ 2100)
    (hv : x.Valid) (hk : SameKind x s) (hf : r.freq = .minutely) (k : Nat) :
    x ∈ r.candidates env (r.raw s k) ↔ Rfc.InStep r.freq n r.weekStart s x k ∧ Rest r s x := by
  have hu := raw_valid (r := r) hT.valid (by simp [hf]) (by simp [hf]) k
  have hc := raw_civil (r := r) hT.valid (fun h => (hT.dates h).1) hn k
  have hkx : SameKind x (r.raw s k) := kind_to hk (r.raw_kind s k)
  generalize r.raw s k = u at *
  rw [C53_minutely env r u hu hf hT.byDay hS.setPos]
  simp only [hf, repetition] at hc
  obtain ⟨e1, e2⟩ := tick_minutes hT.valid.1 (k * n)
  rw [← hc] at e1 e2
  have e2 : u.seconds = s.seconds := e2
  have hstep : Rfc.InStep r.freq n r.weekStart s x k ↔ x.date = u.date ∧ x.hours = u.hours ∧ x.minutes = u.minutes := by
    rw [hf]
    show _ = _ ↔ _
    rw [← e1]
    simp [civil]
  rw [hstep]
  unfold TimesFrom
  simp only [oneOf_iff, e2]
  constructor
  · rintro ⟨a, b, c, hs, ⟨_, f1⟩, ⟨_, f2⟩, f3, f4⟩
    rw [dayLimits_iff hS hT.byDay hs hv h1 h2 (by simp [hf])] at a
    have f1 := f1 trivial
    have f2 := f2 trivial
    exact ⟨⟨hs.date, f1, f2⟩, a.1, a.2.1, a.2.2, by rw [f1]; exact b, by rw [f2]; exact c, f3,
      by constructor <;> simp [hf, Rfc.aboveSecond, Rfc.aboveMinute, Rfc.aboveHour, f4] <;> exact f4⟩
  · rintro ⟨⟨hd, f1, f2⟩, a, a', a'', b, c, d, kp⟩
    have hs := (sameDay_iff hkx).mpr hd
    exact ⟨(dayLimits_iff hS hT.byDay hs hv h1 h2 (by simp [hf])).mpr ⟨a, a', a''⟩, by rw [f1] at b; exact b,
      by rw [f2] at c; exact c, hs, ⟨limits_nil, fun _ => f1⟩, ⟨limits_nil, fun _ => f2⟩, d,
      kp.second (by simp [hf, Rfc.aboveSecond])⟩

theorem hourly_iff (hT : Tame r s) (hS : Standard r) (hn : r.interval = n) (h1 : 1901 ≤ x.year) (h2 : x.year ≤ 2100)
    (hv : x.Valid) (hk : SameKind x s) (hf : r.freq = .hourly) (k : Nat) :
    x ∈ r.candidates env (r.raw s k) ↔ Rfc.InStep r.freq n r.weekStart s x k ∧ Rest r s x := by
  have hu := raw_valid (r := r) hT.valid (by simp [hf]) (by simp [hf]) k
  have hc := raw_civil (r := r) hT.valid (fun h => (hT.dates h).1) hn k
  have hkx : SameKind x (r.raw s k) := kind_to hk (r.raw_kind s k)
  generalize r.raw s k = u at *
  rw [C53_hourly env r u hu hf hT.byDay hS.setPos]
  simp only [hf, repetition] at hc
  obtain ⟨e1, e2, e3⟩ := tick_hours hT.valid.1 (k * n)
  rw [← hc] at e1 e2 e3
  have e2 : u.minutes = s.minutes := e2
  have e3 : u.seconds = s.seconds := e3
  have hstep : Rfc.InStep r.freq n r.weekStart s x k ↔ x.date = u.date ∧ x.hours = u.hours := by
    rw [hf]
    show _ = _ ↔ _
    rw [← e1]
    simp [civil]
  rw [hstep]
  unfold TimesFrom
  simp only [oneOf_iff, e2, e3]
  constructor
  · rintro ⟨a, b, hs, ⟨_, f1⟩, ⟨c, f2⟩, f3, f4⟩
    rw [dayLimits_iff hS hT.byDay hs hv h1 h2 (by simp [hf])] at a
    have f1 := f1 trivial
    exact ⟨⟨hs.date, f1⟩, a.1, a.2.1, a.2.2, by rw [f1]; exact b, c, f3,
      by constructor <;> simp [hf, Rfc.aboveSecond, Rfc.aboveMinute, Rfc.aboveHour] <;> assumption⟩
  · rintro ⟨⟨hd, f1⟩, a, a', a'', b, c, d, kp⟩
    have hs := (sameDay_iff hkx).mpr hd
    exact ⟨(dayLimits_iff hS hT.byDay hs hv h1 h2 (by simp [hf])).mpr ⟨a, a', a''⟩, by rw [f1] at b; exact b,
      hs, ⟨limits_nil, fun _ => f1⟩, ⟨c, kp.minute (by simp [hf, Rfc.aboveMinute])⟩, d,
      kp.second (by simp [hf, Rfc.aboveSecond])⟩

theorem daily_iff (hT : Tame r s) (hS : Standard r) (hn : r.interval = n) (h1 : 1901 ≤ x.year) (h2 : x.year ≤ 2100)
    (hv : x.Valid) (hk : SameKind x s) (hf : r.freq = .daily) (k : Nat) :
    x ∈ r.candidates env (r.raw s k) ↔ Rfc.InStep r.freq n r.weekStart s x k ∧ Rest r s x := by
  have hu := raw_valid (r := r) hT.valid (by simp [hf]) (by simp [hf]) k
  have hc := raw_civil (r := r) hT.valid (fun h => (hT.dates h).1) hn k
  have hkx : SameKind x (r.raw s k) := kind_to hk (r.raw_kind s k)
  generalize r.raw s k = u at *
  rw [C53_daily env r u hu hf hT.byDay hS.setPos]
  simp only [hf, repetition] at hc
  obtain ⟨e0, e1, e2, e3⟩ := civil_fields.mp hc
  have e0 : u.date = iter nextDay (k * n) s.date := e0
  have e1 : u.hours = s.hours := e1
  have e2 : u.minutes = s.minutes := e2
  have e3 : u.seconds = s.seconds := e3
  have hstep : Rfc.InStep r.freq n r.weekStart s x k ↔ x.date = u.date := by
    rw [hf, e0]; exact Iff.rfl
  rw [hstep]
  unfold TimesFrom
  simp only [oneOf_iff, e1, e2, e3]
  constructor
  · rintro ⟨a, hs, ⟨b, f1⟩, ⟨c, f2⟩, f3, f4⟩
    rw [dayLimits_iff hS hT.byDay hs hv h1 h2 (by simp [hf])] at a
    exact ⟨hs.date, a.1, a.2.1, a.2.2, b, c, f3,
      by constructor <;> simp [hf, Rfc.aboveSecond, Rfc.aboveMinute, Rfc.aboveHour] <;> assumption⟩
  · rintro ⟨hd, a, a', a'', b, c, d, kp⟩
    have hs := (sameDay_iff hkx).mpr hd
    exact ⟨(dayLimits_iff hS hT.byDay hs hv h1 h2 (by simp [hf])).mpr ⟨a, a', a''⟩,
      hs, ⟨b, kp.hour (by simp [hf, Rfc.aboveHour])⟩, ⟨c, kp.minute (by simp [hf, Rfc.aboveMinute])⟩, d,
      kp.second (by simp [hf, Rfc.aboveSecond])⟩

theorem monthly_iff (hT : Tame r s) (hS : Standard r) (hn : r.interval = n) (h1 : 1901 ≤ x.year) (h2 : x.year ≤ 2100)
    (hv : x.Valid) (hk : SameKind x s) (hf : r.freq = .monthly) (k : Nat) :
    x ∈ r.candidates env (r.raw s k) ↔ Rfc.InStep r.freq n r.weekStart s x k ∧ Rest r s x := by
  have hm := hT.valid.month
  have hxm := hv.month
  have hu := raw_timeOK (r := r) hT.valid k
  rw [raw_month hf hm.1 hm.2 k] at hu ⊢
  rw [C53_monthly env r _ (by simp only; omega) hu hf hS.yearDay hT.byMonthDay hT.byDay hS.setPos]
  have hstep : Rfc.InStep r.freq n r.weekStart s x k ↔ x.year = s.year + (s.month - 1 + k * r.interval) / 12 ∧
      x.month = (s.month - 1 + k * r.interval) % 12 + 1 := by
    rw [hf, hn]
    show _ = _ ↔ _
    generalize (k : Int) * n = z
    omega
  have hday : Limits r.byDay (WeekdayMatch x) ↔ Limits r.byDay (Rfc.DayMatch (r.freq = .yearly ∧ r.byMonth = []) x) :=
    limits_congr fun v hv' => dayMatch_month hv h1 h2 (hT.byDay v hv') (by simp [hf])
  rw [hstep]
  unfold TimesFrom MonthDays
  simp only [oneOf_iff, hday]
  constructor
  · rintro ⟨_, a, ⟨b, c, d⟩, hs, ⟨t1, t2⟩, ⟨t3, t4⟩, t5, t6⟩
    refine ⟨?_, a, b, c, t1, t3, t5, ?_⟩
    · rw [show x = _ from hs]; exact ⟨rfl, rfl⟩
    · exact ⟨fun _ => t6, fun _ => t4, fun _ => t2, by simp [hf], fun _ a _ b => d a b, by simp [hf]⟩
  · rintro ⟨⟨e1, e2⟩, a, b, c, t1, t3, t5, kp⟩
    refine ⟨hv.1.1, a, ⟨b, c, fun h h' => kp.day (Or.inl hf) h hS.yearDay h'⟩, ?_,
      ⟨t1, kp.hour (by simp [hf, Rfc.aboveHour])⟩, ⟨t3, kp.minute (by simp [hf, Rfc.aboveMinute])⟩, t5,
      kp.second (by simp [hf, Rfc.aboveSecond])⟩
    obtain ⟨k1, k2, k3⟩ := hk
    unfold SameMonth
    rw [← k1, ← k2, ← k3, ← e1, ← e2]

theorem yearly_iff (hT : Tame r s) (hS : Standard r) (hn : r.interval = n) (h1 : 1901 ≤ x.year) (h2 : x.year ≤ 2100)
    (hv : x.Valid) (hk : SameKind x s) (hf : r.freq = .yearly) (k : Nat) :
    x ∈ r.candidates env (r.raw s k) ↔ Rfc.InStep r.freq n r.weekStart s x k ∧ Rest r s x := by
  have hm := hT.valid.month
  have hu := raw_timeOK (r := r) hT.valid k
  rw [raw_year hf k] at hu ⊢
  have hstep : Rfc.InStep r.freq n r.weekStart s x k ↔ x.year = s.year + k * r.interval := by
    rw [hf, hn]; exact Iff.rfl
  have hsame : x.year = s.year + k * r.interval → SameYear { s with year := s.year + k * r.interval } x := by
    intro e
    obtain ⟨k1, k2, k3⟩ := hk
    unfold SameYear
    rw [← k1, ← k2, ← k3, ← e]
  rw [hstep]
  by_cases hc : r.byMonth = [] ∧ r.byDay ≠ []
  · have hmd := hS.yearly hf hc.1
    have hday : (∃ v ∈ r.byDay, YearWeekdayMatch x v) ↔
        Limits r.byDay (Rfc.DayMatch (r.freq = .yearly ∧ r.byMonth = []) x) := by
      rw [← limits_congr fun v hv' => dayMatch_year hv h1 h2 (hT.byDay v hv') ⟨hf, hc.1⟩]
      unfold Limits
      simp [hc.2]
    rw [C53_yearly_day_partial env r _ hu hf hS.yearDay hS.weekNo hc.1 hmd hc.2
      (fun v h => ⟨(hT.byDay v h).1, (hT.byDay v h).2, (hT.yearly hf).2.2 hc.1 hmd v h⟩) hS.setPos, hday]
    unfold TimesFrom
    simp only [oneOf_iff]
    constructor
    · rintro ⟨_, c, hs, ⟨t1, t2⟩, ⟨t3, t4⟩, t5, t6⟩
      refine ⟨?_, by rw [hc.1]; exact limits_nil, by rw [hmd]; exact limits_nil, c, t1, t3, t5, ?_⟩
      · rw [show x = _ from hs]
      · exact ⟨fun _ => t6, fun _ => t4, fun _ => t2, by simp [hf], fun _ _ _ h => absurd h hc.2, fun _ _ _ _ h => absurd h hc.2⟩
    · rintro ⟨e, a, b, c, t1, t3, t5, kp⟩
      exact ⟨hv.1.1, c, hsame e,
        ⟨t1, kp.hour (by simp [hf, Rfc.aboveHour])⟩, ⟨t3, kp.minute (by simp [hf, Rfc.aboveMinute])⟩, t5,
        kp.second (by simp [hf, Rfc.aboveSecond])⟩
  · have hbm : r.byMonth ≠ [] ∨ r.byMonthDay = [] ∧ r.byDay = [] := by
      by_cases h : r.byMonth = []
      · exact Or.inr ⟨hS.yearly hf h, by by_contra h'; exact hc ⟨h, h'⟩⟩
      · exact Or.inl h
    have hday : Limits r.byDay (WeekdayMatch x) ↔ Limits r.byDay (Rfc.DayMatch (r.freq = .yearly ∧ r.byMonth = []) x) := by
      rcases hbm with h | h
      · exact limits_congr fun v hv' => dayMatch_month hv h1 h2 (hT.byDay v hv') (fun h' => h h'.2)
      · rw [h.2]; exact ⟨fun _ => limits_nil, fun _ => limits_nil⟩
    rw [C53_yearly_month env r { s with year := s.year + k * r.interval } hm hu hf hS.yearDay hS.weekNo hbm hT.byMonth hT.byMonthDay hT.byDay hS.setPos]
    unfold TimesFrom MonthDays
    simp only [oneOf_iff, hday]
    constructor
    · rintro ⟨_, ⟨a, a'⟩, ⟨b, c, d⟩, hs, ⟨t1, t2⟩, ⟨t3, t4⟩, t5, t6⟩
      refine ⟨?_, a, b, c, t1, t3, t5, ?_⟩
      · rw [show x = _ from hs]
      · exact ⟨fun _ => t6, fun _ => t4, fun _ => t2, by simp [hf], fun _ a _ b => d a b, fun _ h _ _ _ => a' h⟩
    · rintro ⟨e, a, b, c, t1, t3, t5, kp⟩
      refine ⟨hv.1.1, ⟨a, fun h => ?_⟩, ⟨b, c, fun h h' => kp.day (Or.inr hf) h hS.yearDay h'⟩, hsame e,
        ⟨t1, kp.hour (by simp [hf, Rfc.aboveHour])⟩, ⟨t3, kp.minute (by simp [hf, Rfc.aboveMinute])⟩, t5,
        kp.second (by simp [hf, Rfc.aboveSecond])⟩
      obtain ⟨h3, h4⟩ := hbm.resolve_left fun h' => h' h
      exact kp.month hf h h3 hS.yearDay h4

/-- The number of a date. -/
def num (d : Date) : Int := dayNum d.y d.m d.d

theorem onWeekday_num {d : Date} (h : d.Valid) (h1 : 1901 ≤ d.y) (h2 : d.y ≤ 2100) (w : Int) :
    Rfc.OnWeekday d w ↔ (num d + drift 1970 - 719047) % 7 = w := by
  have := onWeekday_iff (t := ofDate d.y d.m d.d) h h1 h2 w
  rw [dayOfWeek_eq] at this
  have hd : drift (ofDate d.y d.m d.d).year = drift 1970 := by
    show drift d.y = _
    unfold drift; rw [leapsBefore, leapsBefore]; omega
  rw [hd] at this
  exact this

theorem iter_num {d e : Date} (hd : d.Valid) (he : e.Valid) (k : Nat) : e = iter nextDay k d ↔ num e = num d + k :=
  date_eq_iter he hd k

theorem year_le {d e : Date} (hd : d.Valid) (he : e.Valid) (h : num d ≤ num e) : d.y ≤ e.y := by
  by_contra hc
  have := dayNum_lt ((validYMD_iff _ _ _).2 he) ((validYMD_iff _ _ _).2 hd) (Or.inl (by simp only; omega))
  unfold num at h; omega

theorem year_near' {d e : Date} (hd : d.Valid) (he : e.Valid) (h1 : num d - 300 ≤ num e) (h2 : num e ≤ num d + 300) :
    d.y - 1 ≤ e.y ∧ e.y ≤ d.y + 1 :=
  year_within (a := ofDate d.y d.m d.d) (b := ofDate e.y e.m e.d) (k := num e - num d) hd he
    (by show num e = num d + _; omega) (by omega) (by omega)

theorem date_back {d : Date} (hd : d.Valid) (i : Nat) : ∃ f : Date, f.Valid ∧ num d = num f + i := by
  have hv : (ofDate d.y d.m d.d).Valid := ⟨⟨hd, by simp [civil, ofDate]⟩, fun _ => by simp [ofDate]⟩
  have := offsetDay_num hv (-(i : Int))
  exact ⟨_, this.1.1.1, by
    have h2 := this.2.1
    unfold num
    show dayNum d.y d.m d.d = _ 
    have e : dayNum (ofDate d.y d.m d.d).year (ofDate d.y d.m d.d).month (ofDate d.y d.m d.d).day = dayNum d.y d.m d.d := rfl
    rw [e] at h2
    show _ = dayNum _ _ _ + _
    simp only [civil, date]
    omega⟩

theorem weekly_iff (hT : Tame r s) (hS : Standard r) (hn : r.interval = n) (h1 : 1902 ≤ x.year) (h2 : x.year ≤ 2098)
    (hv : x.Valid) (hk : SameKind x s) (hf : r.freq = .weekly) (k : Nat) :
    x ∈ r.candidates env (r.raw s k) ↔ Rfc.InStep r.freq n r.weekStart s x k ∧ Rest r s x := by
  have hu := raw_valid (r := r) hT.valid (by simp [hf]) (by simp [hf]) k
  have hc := raw_civil (r := r) hT.valid (fun h => (hT.dates h).1) hn k
  have hkx : SameKind x (r.raw s k) := kind_to hk (r.raw_kind s k)
  have hin : x ∈ r.candidates env (r.raw s k) → r.InInterval (r.raw s k) x := fun h => (cand_spec hT h).2.2
  generalize r.raw s k = u at *
  simp only [hf, repetition] at hc
  obtain ⟨e0, e1, e2, e3⟩ := civil_fields.mp hc
  have e0 : u.date = iter nextDay (k * n * 7) s.date := e0
  have e1 : u.hours = s.hours := e1
  have e2 : u.minutes = s.minutes := e2
  have e3 : u.seconds = s.seconds := e3
  have hsv : s.date.Valid := hT.valid.1.1
  have huv : u.date.Valid := hu.1.1
  have hxv : x.date.Valid := hv.1.1
  have hsy : 1902 ≤ s.date.y := hT.weekly hf
  have hxy : 1902 ≤ x.date.y ∧ x.date.y ≤ 2098 := ⟨h1, h2⟩
  obtain ⟨w1, w2, w3⟩ := hS.weekly hf
  have hws := hT.weekStart
  rw [iter_num hsv huv] at e0
  push_cast at e0
  have hsu := year_le hsv huv (by have := Int.natCast_nonneg (k * n); push_cast at this; omega)
  -- both sides put the dates within a week of each other
  have near : num u.date - 6 ≤ num x.date → num x.date ≤ num u.date + 6 →
      (x ∈ r.candidates env u ↔ Rfc.InStep r.freq n r.weekStart s x k ∧ Rest r s x) := by
    intro n1 n2
    have hy := year_near' hxv huv (by omega) (by omega)
    have hx := onWeekday_num hxv (by omega) (by omega)
    have hs' := onWeekday_num hsv (by omega) (by omega)
    have hfirst : ∀ f : Date, f.Valid → num f ≤ num s.date → num s.date ≤ num f + 6 →
        ∀ w, Rfc.OnWeekday f w ↔ (num f + drift 1970 - 719047) % 7 = w := by
      intro f hfv a b
      have := year_near' hsv hfv (by omega) (by omega)
      exact onWeekday_num hfv (by omega) (by omega)
    have hfirst' : ∀ f : Date, f.Valid → num f ≤ num u.date → num u.date ≤ num f + 6 →
        ∀ w, Rfc.OnWeekday f w ↔ (num f + drift 1970 - 719047) % 7 = w := by
      intro f hfv a b
      have := year_near' huv hfv (by omega) (by omega)
      exact onWeekday_num hfv (by omega) (by omega)
    have hstep : Rfc.InStep r.freq n r.weekStart s x k ↔ SameWeek r.weekStart u.date x.date := by
      rw [hf]
      constructor
      · rintro ⟨f, ⟨a, b, i, hi, c⟩, d, b', j, hj, e⟩
        rw [iter_num a hsv] at c
        have g := (iter_num a d (k * n * 7)).mp rfl
        push_cast at g
        refine ⟨_, d, ?_, ⟨i, hi, (iter_num d huv i).mpr (by omega)⟩, j, hj, e⟩
        have := onWeekday_iff (t := ofDate (iter nextDay (k * n * 7) f).y (iter nextDay (k * n * 7) f).m
          (iter nextDay (k * n * 7) f).d) d
        have hy' := year_near' huv d (by omega) (by omega)
        exact (this (by show _ ≤ (iter nextDay (k * n * 7) f).y; omega)
          (by show (iter nextDay (k * n * 7) f).y ≤ _; omega) _).mp b'
      · rintro ⟨F, hF, hw, ⟨i, hi, a⟩, j, hj, b⟩
        obtain ⟨f, hfv, hfn⟩ := date_back hsv i
        rw [iter_num hF huv] at a
        have hy' := year_near' huv hF (by omega) (by omega)
        have hFw := (onWeekday_iff (t := ofDate F.y F.m F.d) hF (by show _ ≤ F.y; omega) (by show F.y ≤ _; omega) _).mpr hw
        have hFf : F = iter nextDay (k * n * 7) f := (iter_num hfv hF _).mpr (by push_cast; omega)
        refine ⟨f, ⟨hfv, ?_, i, hi, (iter_num hfv hsv i).mpr hfn⟩, ?_⟩
        · rw [hfirst f hfv (by omega) (by omega)]
          have := (hfirst' F hF (by omega) (by omega) _).mp hFw
          omega
        · rw [← hFf]
          exact ⟨hF, hFw, j, hj, b⟩
    have hself : r.byDay = [] → (x.date = u.date ↔ Rfc.InStep r.freq n r.weekStart s x k ∧
        ∃ w, Rfc.OnWeekday s.date w ∧ Rfc.OnWeekday x.date w) := by
      intro _
      simp only [hx, hs']
      rw [hf]
      constructor
      · intro e
        refine ⟨?_, _, rfl, by rw [e]; omega⟩
        obtain ⟨f, hfv, hfn⟩ := date_back hsv ((num s.date + drift 1970 - 719047 - r.weekStart) % 7).toNat
        have hF := (iter_nextDay hfv (k * n * 7)).1
        have g := (iter_num hfv hF (k * n * 7)).mp rfl
        push_cast at g
        refine ⟨f, ⟨hfv, ?_, _, by omega, (iter_num hfv hsv _).mpr hfn⟩, hF, ?_,
          ((num s.date + drift 1970 - 719047 - r.weekStart) % 7).toNat, by omega, (iter_num hF hxv _).mpr (by rw [e]; omega)⟩
        · rw [hfirst f hfv (by omega) (by omega)]; omega
        · rw [hfirst' _ hF (by omega) (by omega)]; omega
      · rintro ⟨⟨f, ⟨a, b, i, hi, c⟩, d, b', j, hj, e⟩, w, h3, h4⟩
        rw [iter_num a hsv] at c
        rw [iter_num d hxv] at e
        have g := (iter_num a d (k * n * 7)).mp rfl
        push_cast at g
        exact date_inj hxv huv (by show num _ = num _; omega)
    have hday : (0, x.dayOfWeek) ∈ r.byDay ↔ ∃ v ∈ r.byDay, Rfc.DayMatch (r.freq = .yearly ∧ r.byMonth = []) x v := by
      constructor
      · intro h
        exact ⟨_, h, (onWeekday_iff hxv (by omega) (by omega) _).mpr rfl, Or.inl rfl⟩
      · rintro ⟨⟨a, b⟩, h, h3, _⟩
        have := w3 _ h
        simp only at this h3
        rw [(onWeekday_iff hxv (by omega) (by omega) _).mp h3, ← this]; exact h
    have huy : 1902 ≤ u.date.y ∧ u.date.y ≤ 2099 := by omega
    rw [C53_weekly_partial env r u hu huy hf hws hT.byDay hS.setPos]
    unfold TimesFrom
    simp only [oneOf_iff, e1, e2, e3]
    constructor
    · rintro ⟨_, _, _, a, _, ⟨t1, t2⟩, ⟨t3, t4⟩, t5, t6⟩
      have hb : Limits r.byDay (Rfc.DayMatch (r.freq = .yearly ∧ r.byMonth = []) x) := by
        rcases a with ⟨a, _⟩ | ⟨_, a⟩
        · exact Or.inl a
        · exact Or.inr (hday.mp a)
      have hi : Rfc.InStep r.freq n r.weekStart s x k := by
        rcases a with ⟨a, b⟩ | ⟨a, _⟩
        · exact ((hself a).mp b).1
        · exact hstep.mpr a
      have hw : r.byDay = [] → ∃ w, Rfc.OnWeekday s.date w ∧ Rfc.OnWeekday x.date w := by
        intro h
        rcases a with ⟨_, b⟩ | ⟨_, a⟩
        · exact ((hself h).mp b).2
        · rw [h] at a; simp at a
      exact ⟨hi, by rw [w1]; exact limits_nil, by rw [w2]; exact limits_nil, hb, t1, t3, t5,
        fun _ => t6, fun _ => t4, fun _ => t2, fun _ => hw, by simp [hf], by simp [hf]⟩
    · rintro ⟨hi, _, _, hb, t1, t3, t5, kp⟩
      refine ⟨by rw [w1]; exact limits_nil, by rw [hS.weekNo]; exact limits_nil, hxv, ?_, hkx,
        ⟨t1, kp.hour (by simp [hf, Rfc.aboveHour])⟩, ⟨t3, kp.minute (by simp [hf, Rfc.aboveMinute])⟩, t5,
        kp.second (by simp [hf, Rfc.aboveSecond])⟩
      by_cases h : r.byDay = []
      · exact Or.inl ⟨h, (hself h).mpr ⟨hi, kp.weekday hf h⟩⟩
      · exact Or.inr ⟨hstep.mp hi, hday.mpr (hb.resolve_left h)⟩
  constructor
  · intro h
    have := hin h
    unfold InInterval at this
    simp only [hf] at this
    obtain ⟨e, a, b, c⟩ := this
    have hb : 0 ≤ r.weekBack u ∧ r.weekBack u < 7 := by unfold weekBack; omega
    have a : num x.date = num u.date + e := a
    exact (near (by omega) (by omega)).mp h
  · intro h
    have h' := h.1
    rw [hf] at h'
    obtain ⟨f, ⟨a, b, i, hi, c⟩, d, _, j, hj, e⟩ := h'
    rw [iter_num a hsv] at c
    rw [iter_num d hxv] at e
    have g := (iter_num a d (k * n * 7)).mp rfl
    push_cast at g
    exact (near (by omega) (by omega)).mpr h

/-- The dates that the BYxxx parts give for one repetition are those of RFC 5545 in that interval. -/
theorem step_iff (hT : Tame r s) (hS : Standard r) (hn : r.interval = n) (h1 : 1902 ≤ x.year) (h2 : x.year ≤ 2098) (k : Nat) :
    x ∈ r.occursIn env n s k ↔ Rfc.InStep r.freq n r.weekStart s x k ∧ Rfc.Matches r s x := by
  unfold occursIn
  rw [← raw_atTime hT.valid (fun h => (hT.dates h).1) hn k, matches_iff hS]
  by_cases hvk : x.Valid ∧ SameKind x s
  · obtain ⟨hv, hk⟩ := hvk
    have h1' : 1901 ≤ x.year := by omega
    have h2' : x.year ≤ 2100 := by omega
    simp only [hv, hk, true_and]
    cases hf : r.freq with
    | secondly => rw [← hf]; exact secondly_iff hT hS hn h1' h2' hv hk hf k
    | minutely => rw [← hf]; exact minutely_iff hT hS hn h1' h2' hv hk hf k
    | hourly => rw [← hf]; exact hourly_iff hT hS hn h1' h2' hv hk hf k
    | daily => rw [← hf]; exact daily_iff hT hS hn h1' h2' hv hk hf k
    | weekly => rw [← hf]; exact weekly_iff hT hS hn h1 h2 hv hk hf k
    | monthly => rw [← hf]; exact monthly_iff hT hS hn h1' h2' hv hk hf k
    | yearly => rw [← hf]; exact yearly_iff hT hS hn h1' h2' hv hk hf k
  · constructor
    · intro h
      obtain ⟨a, b, _⟩ := cand_spec hT h
      exact absurd ⟨a, b⟩ hvk
    · rintro ⟨_, a, b, _⟩
      exact absurd ⟨a, b⟩ hvk

theorem occurs_iff (hT : Tame r s) (hS : Standard r) (hn : r.interval = n) (h1 : 1902 ≤ x.year) (h2 : x.year ≤ 2098) :
    (∃ k, x ∈ r.occursIn env n s k) ↔ Rfc.Occurs r s x := by
  unfold Rfc.Occurs
  rw [show r.interval.toNat = n by omega]
  simp only [step_iff hT hS hn h1 h2]
  constructor
  · rintro ⟨k, a, b⟩; exact ⟨⟨k, a⟩, b⟩
  · rintro ⟨⟨k, a⟩, b⟩; exact ⟨k, a, b⟩

end

theorem before_iff {a b : DateTime} (ha : a.Valid) (hb : b.Valid) : Rfc.Before a b ↔ timeNum a.civil < timeNum b.civil := by
  constructor
  · rintro ⟨k, h⟩
    have := (iter_tick ha.1 (k + 1)).2
    rw [← h] at this
    omega
  · intro h
    refine ⟨(timeNum b.civil - timeNum a.civil - 1).toNat, ?_⟩
    obtain ⟨h1, h2⟩ := iter_tick ha.1 ((timeNum b.civil - timeNum a.civil - 1).toNat + 1)
    exact timeNum_inj hb.1 h1 (by rw [h2]; omega)

theorem lt_iff_before {env : TzEnv} {a b : DateTime} (ha : a.Valid) (hb : b.Valid) (hk : SameKind b a) :
    a.lt env b = true ↔ Rfc.Before a b := by
  rw [before_iff ha hb]
  constructor
  · intro h
    by_contra hc
    rcases (by omega : timeNum b.civil < timeNum a.civil ∨ timeNum b.civil = timeNum a.civil) with hl | hl
    · have := lt_asymm (lt_of_timeNum (env := env) (kind_to ⟨rfl, rfl, rfl⟩ hk) hb ha hl)
      rw [h] at this; simp at this
    · have e : b = a := eq_of_civil hk (timeNum_inj hb.1 ha.1 hl)
      rw [e] at h
      exact absurd h (by simpa using not_lt_self env a)
  · exact lt_of_timeNum hk ha hb

/-- Times in order have their years in order. -/
theorem year_of_time {a b : DateTime} (ha : a.Valid) (hb : b.Valid) (h : timeNum a.civil ≤ timeNum b.civil) :
    a.year ≤ b.year := by
  refine year_le (d := a.date) (e := b.date) ha.1.1 hb.1.1 ?_
  obtain ⟨_, a1, a2, a3, a4, a5, a6⟩ := ha.1
  obtain ⟨_, b1, b2, b3, b4, b5, b6⟩ := hb.1
  unfold timeNum at h
  have e1 : dayNum a.civil.date.y a.civil.date.m a.civil.date.d = num a.date := rfl
  have e2 : dayNum b.civil.date.y b.civil.date.m b.civil.date.d = num b.date := rfl
  rw [e1, e2] at h
  omega

/-- Without BYxxx parts, the dates of a repetition are the repetition itself, if it exists. -/
theorem plain_candidates {env : TzEnv} {r : Rule} (hb : r.Plain) (t : DateTime) :
    r.candidates env t = [t].filter fun x => !x.invalid := by
  obtain ⟨h1, h2, h3, h4, h5, h6, h7, h8, h9⟩ := hb
  unfold candidates
  cases r.freq <;>
    simp only [secondlySet, minutelySet, hourlySet, dailySet, weeklySet, monthlySet, yearlySet, dayLimits, finishSet, h1, h2, h3,
      h4, h5, h6, h7, h8, h9, part_nil]

section
variable {env : TzEnv} {K : DateTime → Prop} {r : Rule} {start : DateTime} {range : Period} {off : Int}

theorem plain_occurs (hT : Tame r start) (hb : r.Plain) {n : Nat} (hn : r.interval = n) (k : Nat) (t : DateTime) :
    t ∈ r.occursIn env n start k ↔ t.SameKind start ∧ t.civil = repetition r.freq n start.civil k ∧ t.civil.Valid := by
  unfold occursIn
  have hd := fun h => (hT.dates h).1
  rw [← raw_atTime hT.valid hd hn k, plain_candidates hb]
  have hc := raw_civil (r := r) hT.valid hd hn k
  have hv := raw_valid_iff (r := r) hT.valid k
  constructor
  · intro h
    simp only [List.mem_filter, List.mem_singleton, Bool.not_eq_true'] at h
    obtain ⟨rfl, h⟩ := h
    exact ⟨r.raw_kind start k, hc, (hv.mp h).1⟩
  · rintro ⟨a, b, c⟩
    have e : t = r.raw start k := eq_of_civil (kind_to a (r.raw_kind start k)) (by rw [b, hc])
    simp only [List.mem_filter, List.mem_singleton, Bool.not_eq_true']
    subst e
    exact ⟨rfl, hv.mpr ((raw_near (r := r) hT.valid k).2.2 c.1)⟩

end

end L133

/-- What is asked of a rule, its start and the range: `Good`, `Standard` apart from BYSETPOS, a start from 1902 on (C05), UNTIL of
the same kind and not before the start. -/
structure Asked (env : TzEnv) (K : DateTime → Prop) (r : Rule) (start : DateTime) (range : Period) (off : Int) : Prop where
  good : Good env K r start none range
  standard : Standard r.unpicked
  year : 1902 ≤ start.year
  untilK : ∀ z, tzTruthy z = false → ∀ u, r.untilLimit start off z = some u → K u
  untilDate : r.useUntil = true → r.untilDate ≠ none
  untilStart : ∀ u, UntilBound r start off u → start.gt env u = false

namespace L133
section
variable {env : TzEnv} {K : DateTime → Prop} {r : Rule} {start : DateTime} {range : Period} {off : Int}

theorem _root_.PyCal.Rule.Asked.sound (h : Asked env K r start range off) {z : Option TzId} (hz : tzTruthy z = false) :
    Sound env K r start (r.untilLimit start off z) :=
  ⟨h.good.kind, h.good.tame.valid, h.good.startK, h.untilK z hz, fun hd => (h.good.tame.dates hd).1, h.good.tame.interval⟩

theorem _root_.PyCal.Rule.Asked.limited (h : Asked env K r start range off) {z : Option TzId} (hz : tzTruthy z = false) :
    Good env K r start (r.untilLimit start off z) range :=
  { h.good with limitK := h.untilK z hz }

/-- Both kinds of expansion, without COUNT. -/
theorem expansion (h : Asked env K r start range off) (hc : r.useCount = false) {fuel n : Nat} {L : List DateTime} {lim : Bool}
    (hn : r.interval = n) (hx : r.expandFresh env fuel start range off = some (.dates L lim)) (t : DateTime) :
    t ∈ L ↔ (∃ k, t ∈ r.occursIn env n start k) ∧ t.lt env start = false ∧ range.isDateWithin env t = true ∧
      ∀ u, UntilBound r start off u → t.gt env u = false := by
  by_cases hb : r.Plain
  · have hs := h.sound (z := some (.fixed 0)) (by decide)
    rw [(C28_exact_partial env K r fuel start range off n L lim hb hs h.good.stopK hn (by simp [hc]) h.untilDate
      h.untilStart hx).1 t]
    simp only [plain_occurs h.good.tame hb hn]
    constructor
    · rintro ⟨k, a, b, c, d, e, _⟩
      refine ⟨⟨k, a, b, c⟩, ?_, d, e⟩
      have he : t = r.raw start k := eq_of_civil (kind_to a (r.raw_kind start k))
        (by rw [b, raw_civil h.good.tame.valid hs.dates hn])
      have hi : (r.raw start k).invalid = false :=
        (raw_valid_iff hs.valid k).mpr ((raw_near (r := r) hs.valid k).2.2 (by rw [← he]; exact c.1))
      rw [he]
      cases k with
      | zero => show start.lt env start = false; simpa using not_lt_self env start
      | succ k => exact lt_asymm (hs.raw_lt (Nat.succ_pos k) ((raw_valid_iff hs.valid 0).mpr hs.valid) hi)
    · rintro ⟨⟨k, a, b, c⟩, _, d, e⟩
      exact ⟨k, a, b, c, d, e, by simp [hc]⟩
  · rw [(C54_exact_partial (h.limited (z := none) (by decide)) rfl hn h.untilDate hb hx).1 t]
    constructor
    · rintro ⟨k, a, b, c, d, _⟩; exact ⟨⟨k, a⟩, c, b, d⟩
    · rintro ⟨⟨k, a⟩, c, b, d⟩; exact ⟨k, a, b, c, d, by simp [hc]⟩

end
end L133

section
open L133
variable {env : TzEnv} {K : DateTime → Prop} {r : Rule} {start : DateTime} {range : Period} {off : Int}

/-- C133 (partial), rules without COUNT: the expansion over a range consists of exactly the date-times that RFC 5545 describes: they
are in one of the intervals, match all BYxxx parts, agree with the start where no part says anything, and are in the range, not
before the start and not after UNTIL.

Missing: `Standard`, that is BYYEARDAY (`C52_fails`), BYWEEKNO (`C31_fails_weekNo`), BYMONTH in WEEKLY rules (`C53_fails_weekly`),
BYMONTHDAY without BYMONTH in YEARLY rules (`C53_fails_yearly`); BYSETPOS, for which see `C133_setpos_partial`; years to 2098
(`C05_fails`); `Good` as for C54. -/
theorem C133_rule_partial (h : Asked env K r start range off) (hp : r.bySetPos = []) (hc : r.useCount = false) {fuel : Nat} {L : List DateTime}
    {lim : Bool} (hx : r.expandFresh env fuel start range off = some (.dates L lim)) (t : DateTime) (hy : t.year ≤ 2098) :
    t ∈ L ↔ Rfc.Occurs r start t ∧ ¬ Rfc.Before t start ∧ range.isDateWithin env t = true ∧
      ∀ u, UntilBound r start off u → t.gt env u = false := by
  have hn : r.interval = r.interval.toNat := by have := h.good.tame.interval; omega
  rw [expansion h hc hn hx t]
  have hT := h.good.tame
  by_cases hk : t.Valid ∧ SameKind t start
  · have hlt : t.lt env start = false ↔ ¬ Rfc.Before t start := by
      rw [← lt_iff_before hk.1 hT.valid (kind_to ⟨rfl, rfl, rfl⟩ hk.2) (env := env)]; simp
    rw [hlt]
    by_cases hb : Rfc.Before t start
    · simp [hb]
    · rw [before_iff hk.1 hT.valid] at hb
      have := h.year
      have hy' := year_of_time hT.valid hk.1 (by omega)
      rw [occurs_iff hT (standard_of h.standard hp) hn (by omega) hy]
  · have h1 : ¬ ∃ k, t ∈ r.occursIn env r.interval.toNat start k := by
      rintro ⟨k, a⟩
      unfold occursIn at a
      rw [← raw_atTime hT.valid (fun h => (hT.dates h).1) hn k] at a
      obtain ⟨b, c, _⟩ := cand_spec hT a
      exact hk ⟨b, c⟩
    have h2 : ¬ Rfc.Occurs r start t := fun a => hk ⟨a.2.valid, a.2.kind⟩
    simp [h1, h2]

end

/-- The conditions of `C133_rule_partial` are met: "the first Sunday and the last Friday of every second month at nine and at ten,
until July" in UTC, asked for the year 2020. -/
example : let r : Rule := { freq := .monthly, interval := 2, byDay := [(1, 0), (-1, 5)], byHours := [9, 10], useUntil := true,
                            untilDate := some ⟨2020, 7, 1, 0, 0, 0, false, true, none⟩ }
    let start : DateTime := ⟨2020, 1, 5, 9, 0, 0, false, true, none⟩
    let range := Period.ofEnd ⟨2020, 1, 1, 0, 0, 0, false, true, none⟩ ⟨2021, 1, 1, 0, 0, 0, false, true, none⟩
    Asked .empty (InZone true none) r start range 0 ∧ r.bySetPos = [] ∧ r.useCount = false ∧
    ∃ L, r.expandFresh .empty 100 start range 0 = some (.dates L false) ∧ L.length = 12 := by
  intro r start range
  have ht : Tame r start := by constructor <;> decide +kernel
  have hz : Kind .empty (InZone true none) := Or.inr (Or.inl ⟨true, none, rfl⟩)
  have he : InZone true none range.stop := by unfold InZone; decide +kernel
  have hu : ∀ z u, r.untilLimit start 0 z = some u → u = ⟨2020, 7, 1, 0, 0, 0, false, true, none⟩ := by
    intro z u hu
    simpa [untilLimit, r, start, floating, tzIsFloat] using hu.symm
  refine ⟨⟨⟨ht, hz, by unfold InZone; decide +kernel, by simp, he, fun _ => Or.inr (Or.inl ⟨_, _, rfl⟩),
    steady_of_fixed ht (Or.inl rfl),
    fun _ t h1 h2 => far_of_year (Or.inr ⟨_, _, rfl⟩) he (by decide +kernel) t h1 h2⟩,
    ⟨rfl, rfl, rfl, fun h => by simp [r, unpicked] at h, fun h => by simp [r, unpicked] at h⟩, by decide +kernel, ?_, by simp [r], ?_⟩, rfl, rfl, ?_⟩
  · intro z _ u h
    rw [hu z u h]; unfold InZone; decide +kernel
  · intro u h
    have : u = ⟨2020, 7, 1, 0, 0, 0, false, true, none⟩ := by
      simpa [UntilBound, r, start, floating, tzIsFloat] using h
    rw [this]; decide +kernel
  · have h2 : (r.expandFresh .empty 100 start range 0).map (fun a => (a.list.length,
        decide (a = .dates a.list false))) = some (12, true) := by decide +kernel
    simp only [Option.map_eq_some_iff, Prod.mk.injEq, decide_eq_true_eq] at h2
    obtain ⟨a, h3, h4, h5⟩ := h2
    exact ⟨a.list, by rw [h3, ← h5], h4⟩

end PyCal.Rule
