import Verif.Spec.ZonedDates
import Verif.Lemmas.ExpandCongr
import Verif.Props.C134_Dates

/-!
# C136: from the lines of an event in a time zone to its dates

As C134, for events in a time zone and for ranges, UNTILs and EXDATEs on other clocks than that of the event.
-/

namespace PyCal
open Spec DateTime Spec.EventText EventRead

/-- The clock of `s` shows `w` when `u` is reached: what is earlier than `u` is before `w`. -/
def Reached (env : TzEnv) (s u w : DateTime) : Prop :=
  (w.Valid ∧ SameKind w s) ∧ ∀ t, t.Valid → SameKind t s → (ZonedDates.Earlier env t u ↔ Rfc.Before t w)

/-- The clock of `s` shows `w` when `u` is passed: what is later than `u` is after `w`. -/
def Passed (env : TzEnv) (s u w : DateTime) : Prop :=
  (w.Valid ∧ SameKind w s) ∧ ∀ t, t.Valid → SameKind t s → (ZonedDates.Earlier env u t ↔ Rfc.Before w t)

/-- A rule in the parts that the code handles, with an UNTIL that the clock of the start passes. -/
structure HandledZ (env : TzEnv) (r : Rule) (s : DateTime) : Prop where
  tame : Rule.Tame r s
  standard : Rule.Standard r.unpicked
  steady : Rule.Steady env r.unpicked s
  upto : r.useUntil = true → ∃ u, r.untilDate = some u ∧ u.Valid ∧ ¬ ZonedDates.Earlier env u s ∧
    (ZonedDates.OtherClock s u → ∃ w, Passed env s u w)
  count : r.useCount = true → 1 ≤ r.count ∧ r.useUntil = false ∧ Rule.Distinct r
  picked : r.bySetPos ≠ [] → Picked r s

/-- An event with one kind of date-times, apart from UNTILs and EXDATEs, and a range whose ends the clock of the event reaches. -/
structure Zoned (env : TzEnv) (fs : List Fact) (s : DateTime) (range : Period) (off : Int) : Prop where
  start : startOf fs = some s
  valid : s.Valid
  float : s.floating = true → off = 0
  from1902 : 1902 ≤ s.year
  rangeStart : range.start.Valid ∧ (ZonedDates.OtherClock s range.start → ∃ w, Reached env s range.start w)
  rangeStop : range.stop.Valid ∧ range.stop.year ≤ 2098 ∧
    (ZonedDates.OtherClock s range.stop → ∃ w, Reached env s range.stop w ∧ w.year ≤ 2098)
  rdates : ∀ t ∈ datesOf false fs, t.Valid ∧ SameKind t s
  exdates : (∀ u ∈ datesOf true fs, u.Valid ∧ SameKind u s) ∨ rulesOf true fs = [] ∧ ∀ u ∈ datesOf true fs,
    u.Valid ∧ ZonedDates.OtherClock s u ∧ ∀ t, t.Valid → SameKind t s → ZonedDates.Coincide env t u →
      ZonedDates.In env range t → ZonedDates.In env range u
  rules : ∀ ex, ∀ ps ∈ rulesOf ex fs, HandledZ env (Recur.rule ps) s
  exrules : ∀ ps ∈ rulesOf true fs, (Recur.rule ps).useCount = false
  /-- the iterated dates exist, if they are compared as instants -/
  days : ZonedDates.OtherClock s range.stop → ∀ ex, ∀ ps ∈ rulesOf ex fs,
    (Recur.rule ps).hasBy = true → (Recur.rule ps).freq = .monthly ∨ (Recur.rule ps).freq = .yearly → s.day ≤ 28

namespace L136
open Rule.L133 L134

/-! ## Comparison -/

theorem date_before {a b : Date} (ha : a.Valid) (hb : b.Valid) : (∃ k : Nat, b = iter nextDay (k + 1) a) ↔ a.lt b := by
  rw [show a.lt b ↔ num a < num b from (dayNum_lt_iff ((validYMD_iff _ _ _).2 ha) ((validYMD_iff _ _ _).2 hb)).symm]
  constructor
  · rintro ⟨k, h⟩
    have := (iter_num ha hb (k + 1)).mp h
    push_cast at this; omega
  · intro h
    exact ⟨(num b - num a - 1).toNat, (iter_num ha hb _).mpr (by push_cast; omega)⟩

theorem same_iff {a b : DateTime} : tzSame a.utc a.tzid b.utc b.tzid = true ↔ ZonedDates.OneClock a b := by
  unfold tzSame ZonedDates.OneClock
  have ha : tzIsFloat a.utc a.tzid = a.floating := rfl
  have hb : tzIsFloat b.utc b.tzid = b.floating := rfl
  rw [ha, hb]
  unfold compareTzSafe
  cases a.floating <;> cases b.floating <;> cases a.utc <;> cases b.utc <;> simp

theorem fields_before {a b : DateTime} (ha : a.Valid) (hb : b.Valid) : cmpFields a b < 0 ↔ Rfc.Before a b := by
  rw [before_iff ha hb, cmpFields_lt]
  unfold FieldsLt
  rw [show a.date.lt b.date ↔ num a.date < num b.date from (dayNum_lt_iff ha.ymd hb.ymd).symm]
  have e : a.date = b.date ↔ num a.date = num b.date := by
    constructor
    · intro h; rw [h]
    · intro h
      have := (iter_num (d := b.date) (e := a.date) hb.1.1 ha.1.1 0).mpr (by simpa using h)
      simpa [iter] using this
  rw [e]
  obtain ⟨_, a1, a2, a3, a4, a5, a6⟩ := ha.1
  obtain ⟨_, b1, b2, b3, b4, b5, b6⟩ := hb.1
  unfold timeNum
  have e1 : dayNum a.civil.date.y a.civil.date.m a.civil.date.d = num a.date := rfl
  have e2 : dayNum b.civil.date.y b.civil.date.m b.civil.date.d = num b.date := rfl
  rw [e1, e2]
  simp only [civil] at *
  omega

theorem lt_earlier {env : TzEnv} {a b : DateTime} (ha : a.Valid) (hb : b.Valid) :
    a.lt env b = true ↔ ZonedDates.Earlier env a b := by
  unfold DateTime.lt DateTime.compare ZonedDates.Earlier ZonedDates.OtherClock
  rw [decide_eq_true_eq, date_before (a := a.date) (b := b.date) ha.1.1 hb.1.1, ← cmpDate_lt]
  by_cases h1 : a.dateOnly = true ∨ b.dateOnly = true
  · have h2 : (a.dateOnly || b.dateOnly) = true := by simpa using h1
    rw [if_pos h2]
    have h3 : ¬ (a.dateOnly = false ∧ b.dateOnly = false) := by
      rcases h1 with h | h <;> simp [h]
    have h4 : ¬ (a.dateOnly = false ∧ b.dateOnly = false ∧ ¬ ZonedDates.OneClock a b) := fun h => h3 ⟨h.1, h.2.1⟩
    simp only [h1, h3, h4, true_and, false_and, or_false]
  · have h2 : ¬ (a.dateOnly || b.dateOnly) = true := by simpa using h1
    rw [if_neg h2]
    have h3 : a.dateOnly = false ∧ b.dateOnly = false := by simpa using h1
    simp only [h1, h3, true_and, false_and, false_or, and_self]
    by_cases h4 : ZonedDates.OneClock a b
    · rw [if_pos (same_iff.mpr h4), fields_before ha hb]
      simp [h4]
    · rw [if_neg (fun h => h4 (same_iff.mp h))]
      simp only [h4, false_and, false_or, not_false_eq_true, true_and]
      unfold cmpInt
      split
      · simp_all
      · split <;> simp_all

theorem gt_earlier {env : TzEnv} {a b : DateTime} (ha : a.Valid) (hb : b.Valid) :
    a.gt env b = true ↔ ZonedDates.Earlier env b a := by
  rw [← lt_earlier hb ha]
  unfold DateTime.gt DateTime.lt
  rw [compare_neg env a b]
  simp

theorem ge_not_lt (env : TzEnv) (a b : DateTime) : a.ge env b = !a.lt env b := by
  unfold DateTime.ge DateTime.lt
  rw [Bool.eq_iff_iff]
  simp

/-! ## The clock of the event -/

section
variable {env : TzEnv} {s u : DateTime}

/-- The date-time on the clock of `s`. -/
def onClock (s : DateTime) (d : Date) (h m sec : Int) : DateTime :=
  ⟨d.y, d.m, d.d, h, m, sec, s.dateOnly, s.utc, s.tzid⟩

theorem onClock_like {d : Date} {h m sec : Int} (hd : d.Valid) (hv : (⟨d, h, m, sec⟩ : Time).Valid)
    (h0 : s.dateOnly = true → h = 0 ∧ m = 0 ∧ sec = 0) : Like s (onClock s d h m sec) :=
  ⟨⟨⟨hd, hv.2⟩, h0⟩, rfl, rfl, rfl⟩

theorem onClock_kind (s : DateTime) (d : Date) (h m sec : Int) : SameKind (onClock s d h m sec) s := ⟨rfl, rfl, rfl⟩

theorem same_refl (a : DateTime) : tzSame a.utc a.tzid a.utc a.tzid = true :=
  same_iff.mpr (by unfold ZonedDates.OneClock; cases a.utc <;> simp)

theorem compare_kind {t w : DateTime} (ht : SameKind t s) (hw : SameKind w s) :
    DateTime.compare env t w = if s.dateOnly then cmpDate t w else cmpFields t w := by
  unfold DateTime.compare
  rw [ht.1, hw.1, ht.2.1, ht.2.2, hw.2.1, hw.2.2, same_refl s]
  cases s.dateOnly <;> simp

theorem kind_clock {t : DateTime} (ht : SameKind t s) : tzSame t.utc t.tzid u.utc u.tzid = tzSame s.utc s.tzid u.utc u.tzid := by
  rw [ht.2.1, ht.2.2]

theorem reached_same (hu : u.Valid) (ho : ¬ ZonedDates.OtherClock s u) :
    ∃ w, Like s w ∧ w.year = u.year ∧ ∀ t, SameKind t s → t.TimeOK → t.lt env u = t.lt env w := by
  have hd := hu.1.1
  cases hs : s.dateOnly with
  | true =>
    refine ⟨onClock s u.date 0 0 0, onClock_like hd ⟨hd, by simp⟩ (by simp), rfl, fun t ht hto => ?_⟩
    unfold DateTime.lt
    rw [compare_kind ht (onClock_kind ..), if_pos hs]
    unfold DateTime.compare
    rw [ht.1, hs, Bool.true_or, if_pos rfl]
    rfl
  | false =>
    cases hud : u.dateOnly with
    | true =>
      refine ⟨onClock s u.date 0 0 0, onClock_like hd ⟨hd, by simp⟩ (by simp), rfl, fun t ht hto => ?_⟩
      unfold DateTime.lt
      rw [compare_kind ht (onClock_kind ..), hs]
      unfold DateTime.compare
      rw [hud, Bool.or_true, if_pos rfl]
      simp only [Bool.false_eq_true, if_false]
      rw [decide_eq_decide, cmpDate_lt, cmpFields_lt]
      unfold FieldsLt
      obtain ⟨t1, t2, t3, t4, t5, t6, _⟩ := hto
      have e : (onClock s u.date 0 0 0).date = u.date := rfl
      have e1 : (onClock s u.date 0 0 0).hours = 0 := rfl
      have e2 : (onClock s u.date 0 0 0).minutes = 0 := rfl
      have e3 : (onClock s u.date 0 0 0).seconds = 0 := rfl
      rw [e, e1, e2, e3]
      constructor
      · exact .inl
      · rintro (h | ⟨_, h⟩)
        · exact h
        · omega
    | false =>
      have hc : tzSame s.utc s.tzid u.utc u.tzid = true := by
        rw [same_iff]
        by_contra hc
        exact ho ⟨hs, hud, hc⟩
      refine ⟨onClock s u.date u.hours u.minutes u.seconds, onClock_like hd hu.1 (by simp [hs]), rfl, fun t ht hto => ?_⟩
      unfold DateTime.lt
      rw [compare_kind ht (onClock_kind ..), hs]
      unfold DateTime.compare
      rw [ht.1, hs, hud, kind_clock ht, hc]
      simp only [Bool.or_self, Bool.false_eq_true, if_false, if_true]
      rfl

theorem passed_same (hu : u.Valid) (ho : ¬ ZonedDates.OtherClock s u) :
    ∃ w, Like s w ∧ ∀ t, SameKind t s → t.TimeOK → t.gt env u = t.gt env w := by
  have hd := hu.1.1
  cases hs : s.dateOnly with
  | true =>
    refine ⟨onClock s u.date 0 0 0, onClock_like hd ⟨hd, by simp⟩ (by simp), fun t ht hto => ?_⟩
    unfold DateTime.gt
    rw [compare_kind ht (onClock_kind ..), if_pos hs]
    unfold DateTime.compare
    rw [ht.1, hs, Bool.true_or, if_pos rfl]
    rfl
  | false =>
    cases hud : u.dateOnly with
    | true =>
      refine ⟨onClock s u.date 23 59 59, onClock_like hd ⟨hd, by simp⟩ (by simp [hs]), fun t ht hto => ?_⟩
      unfold DateTime.gt
      rw [compare_kind ht (onClock_kind ..), hs]
      unfold DateTime.compare
      rw [hud, Bool.or_true, if_pos rfl]
      simp only [Bool.false_eq_true, if_false, gt_iff_lt]
      have n1 := cmpDate_neg t u
      have n2 := cmpFields_neg t (onClock s u.date 23 59 59)
      rw [decide_eq_decide, show 0 < cmpDate t u ↔ cmpDate u t < 0 by omega,
        show 0 < cmpFields t (onClock s u.date 23 59 59) ↔ cmpFields (onClock s u.date 23 59 59) t < 0 by omega,
        cmpDate_lt, cmpFields_lt]
      unfold FieldsLt
      obtain ⟨t1, t2, t3, t4, t5, t6, _⟩ := hto
      have e : (onClock s u.date 23 59 59).date = u.date := rfl
      have e1 : (onClock s u.date 23 59 59).hours = 23 := rfl
      have e2 : (onClock s u.date 23 59 59).minutes = 59 := rfl
      have e3 : (onClock s u.date 23 59 59).seconds = 59 := rfl
      rw [e, e1, e2, e3]
      constructor
      · exact .inl
      · rintro (h | ⟨_, h⟩)
        · exact h
        · omega
    | false =>
      have hc : tzSame s.utc s.tzid u.utc u.tzid = true := by
        rw [same_iff]
        by_contra hc
        exact ho ⟨hs, hud, hc⟩
      refine ⟨onClock s u.date u.hours u.minutes u.seconds, onClock_like hd hu.1 (by simp [hs]), fun t ht hto => ?_⟩
      unfold DateTime.gt
      rw [compare_kind ht (onClock_kind ..), hs]
      unfold DateTime.compare
      rw [ht.1, hs, hud, kind_clock ht, hc]
      simp only [Bool.or_self, Bool.false_eq_true, if_false, if_true]
      rfl

end

section
variable {env : TzEnv} {s u w : DateTime}

theorem lt_reached (h : Reached env s u w) (hu : u.Valid) {t : DateTime} (ht : Like s t) : t.lt env u = t.lt env w := by
  rw [Bool.eq_iff_iff, lt_earlier ht.1 hu, h.2 t ht.1 ht.2, lt_iff_before ht.1 h.1.1 (kind_to h.1.2 ht.2)]

theorem gt_passed (h : Passed env s u w) (hu : u.Valid) {t : DateTime} (ht : Like s t) : t.gt env u = t.gt env w := by
  rw [Bool.eq_iff_iff, gt_earlier ht.1 hu, h.2 t ht.1 ht.2, ← lt_iff_before h.1.1 ht.1 (kind_to ht.2 h.1.2) (env := env)]
  unfold DateTime.gt DateTime.lt
  rw [compare_neg env w t]
  simp

theorem reached_of (hu : u.Valid) (h : ZonedDates.OtherClock s u → ∃ w, Reached env s u w) : ∃ w, Reached env s u w := by
  by_cases ho : ZonedDates.OtherClock s u
  · exact h ho
  · obtain ⟨w, hw, _, he⟩ := reached_same (env := env) hu ho
    refine ⟨w, hw, fun t ht hk => ?_⟩
    rw [← lt_earlier ht hu, he t hk ht.timeOK, lt_iff_before ht hw.1 (kind_to hw.2 hk)]

theorem passed_of (hu : u.Valid) (h : ZonedDates.OtherClock s u → ∃ w, Passed env s u w) : ∃ w, Passed env s u w := by
  by_cases ho : ZonedDates.OtherClock s u
  · exact h ho
  · obtain ⟨w, hw, he⟩ := passed_same (env := env) hu ho
    refine ⟨w, hw, fun t ht hk => ?_⟩
    rw [← gt_earlier ht hu, he t hk ht.timeOK, ← lt_iff_before hw.1 ht (kind_to hk hw.2) (env := env)]
    unfold DateTime.gt DateTime.lt
    rw [compare_neg env w t]
    simp

/-- The end of the range on the clock of the event. -/
theorem stop_of (hu : u.Valid) (hy : u.year ≤ 2098) (h : ZonedDates.OtherClock s u → ∃ w, Reached env s u w ∧ w.year ≤ 2098) :
    ∃ w, Reached env s u w ∧ w.year ≤ 2098 ∧
      (¬ ZonedDates.OtherClock s u → ∀ t, SameKind t s → t.TimeOK → t.lt env u = t.lt env w) := by
  by_cases ho : ZonedDates.OtherClock s u
  · obtain ⟨w, h1, h2⟩ := h ho
    exact ⟨w, h1, h2, fun hn => absurd ho hn⟩
  · obtain ⟨w, hw, hyw, he⟩ := reached_same (env := env) hu ho
    refine ⟨w, ⟨hw, fun t ht hk => ?_⟩, by omega, fun _ => he⟩
    rw [← lt_earlier ht hu, he t hk ht.timeOK, lt_iff_before ht hw.1 (kind_to hw.2 hk)]

end

/-! ## The rule with the UNTIL of the clock of the event -/

section
variable {env : TzEnv} {r : Rule} {s : DateTime}

theorem raw_withUntil (u : Option DateTime) : ∀ k, (r.withUntil u).raw s k = r.raw s k
  | 0 => rfl
  | k + 1 => by
    have e : ∀ t, (r.withUntil u).step t = r.step t := fun _ => rfl
    have h := raw_withUntil u k
    show (r.withUntil u).step ((r.withUntil u).raw s k) = r.step (r.raw s k)
    rw [e, h]

theorem tame_withUntil (u : Option DateTime) (h : Rule.Tame r s) : Rule.Tame (r.withUntil u) s :=
  ⟨h.valid, h.interval, h.weekStart, h.byDay, h.byMonthDay, h.byMonth, h.byHours, h.byMinutes, h.bySeconds, h.dates, h.monthly,
    h.yearly, h.weekly⟩

theorem standard_withUntil (u : Option DateTime) (h : Rule.Standard r.unpicked) : Rule.Standard (r.withUntil u).unpicked :=
  ⟨h.yearDay, h.weekNo, rfl, h.weekly, h.yearly⟩

theorem distinct_withUntil (u : Option DateTime) (h : Rule.Distinct r) : Rule.Distinct (r.withUntil u) :=
  ⟨h.months, h.monthDays, h.days, h.hours, h.minutes, h.seconds, h.monthDay, h.day⟩

theorem steady_withUntil (u : Option DateTime) (h : Rule.Steady env r s) : Rule.Steady env (r.withUntil u) s := by
  intro k
  have e : ∀ t, (r.withUntil u).candidates env t = r.candidates env t := fun _ => rfl
  rw [e, raw_withUntil]
  exact h k

theorem set_with (u : Option DateTime) {k : Nat} {t : DateTime} (h : Rfc.InSet r s k t) : Rfc.InSet (r.withUntil u) s k t :=
  ⟨h.1, ⟨h.2.kind, h.2.valid, h.2.byMonth, h.2.byYearDay, h.2.byMonthDay, h.2.byDay, h.2.byHour, h.2.byMinute, h.2.bySecond,
    ⟨h.2.kept.second, h.2.kept.minute, h.2.kept.hour, h.2.kept.weekday, h.2.kept.day, h.2.kept.month⟩⟩⟩

theorem set_withUntil (u : Option DateTime) (k : Nat) (t : DateTime) : Rfc.InSet (r.withUntil u) s k t ↔ Rfc.InSet r s k t :=
  ⟨fun h => set_with (r := r.withUntil u) r.untilDate h, set_with u⟩

theorem position_withUntil (u : Option DateTime) (k : Nat) (t : DateTime) (p : Int) :
    Rfc.AtPosition (r.withUntil u) s k t p ↔ Rfc.AtPosition r s k t p := by
  unfold Rfc.AtPosition
  simp only [set_withUntil]

theorem occurs_withUntil (u : Option DateTime) (t : DateTime) : Rfc.OccursAt (r.withUntil u) s t ↔ Rfc.OccursAt r s t := by
  unfold Rfc.OccursAt Spec.Limits
  simp only [set_withUntil, position_withUntil]
  exact Iff.rfl

theorem picked_withUntil (u : Option DateTime) (h : Picked r s) : Picked (r.withUntil u) s := by
  refine ⟨distinct_withUntil u h.distinct, h.freq, fun hc => ?_⟩
  obtain ⟨a, b⟩ := h.count hc
  refine ⟨a, fun k t p hp q hq h1 h2 => ?_⟩
  rw [position_withUntil] at h1 h2
  exact b k t p hp q hq h1 h2

theorem compare_float {t u u' : DateTime} (ht : t.floating = true) (h1 : u'.dateOnly = u.dateOnly) (h2 : u'.civil = u.civil) :
    DateTime.compare env t u' = DateTime.compare env t u := by
  have hf : ∀ v : DateTime, tzSame t.utc t.tzid v.utc v.tzid = true := fun v => same_iff.mpr (.inl ht)
  simp only [civil, date, Time.mk.injEq, Date.mk.injEq] at h2
  obtain ⟨⟨a, b, c⟩, d, e, f⟩ := h2
  unfold DateTime.compare
  rw [hf, hf, h1]
  have e1 : cmpDate t u' = cmpDate t u := by unfold cmpDate; rw [a, b, c]
  have e2 : cmpFields t u' = cmpFields t u := by unfold cmpFields; rw [a, b, c, d, e, f]
  rw [e1, e2]
  rfl

theorem limit_gt {off : Int} (h0 : s.floating = true → off = 0) {u : DateTime} (hv : u.Valid) (h1 : r.useUntil = true)
    (h2 : r.untilDate = some u) (z : Option TzId) {t : DateTime} (ht : SameKind t s) :
    Rule.pastUntil env (r.untilLimit s off z) t = t.gt env u := by
  unfold Rule.untilLimit
  rw [if_pos h1, h2]
  unfold Rule.pastUntil
  simp only [Option.map_some]
  split
  · next hs =>
    have hv' : ({ u with utc := false, tzid := z } : DateTime).Valid := hv
    rw [h0 hs, (C02_zero_offsets _ hv').2.2.2.2.2.1]
    unfold DateTime.gt
    rw [compare_float (u := u) (by unfold floating; rw [ht.2.1, ht.2.2]; exact hs)]
    · rfl
    · rfl
  · rfl

end

section
variable {env : TzEnv} {r : Rule} {s : DateTime} {range : Period} {off : Int}

/-- The expansion of a rule is that of a rule and over a range on the clock of the event. -/
theorem transform (hh : HandledZ env r s) (h0 : s.floating = true → off = 0) {w1 w2 : DateTime}
    (h1 : Reached env s range.start w1) (v1 : range.start.Valid) (h2 : Reached env s range.stop w2) (v2 : range.stop.Valid)
    (hR : ¬ ZonedDates.OtherClock s range.stop → ∀ t, SameKind t s → t.TimeOK → t.lt env range.stop = t.lt env w2)
    (hd : ZonedDates.OtherClock s range.stop → r.hasBy = true → r.freq = .monthly ∨ r.freq = .yearly → s.day ≤ 28) :
    ∃ u, Handled (r.withUntil u) s ∧ Rule.Steady env (r.withUntil u).unpicked s ∧
      (∀ fuel, r.expandFresh env fuel s range off = (r.withUntil u).expandFresh env fuel s (.ofEnd w1 w2) off) ∧
      ∀ t, Like s t → (EventDates.Instance (r.withUntil u) s t ↔ ZonedDates.Instance env r s t) := by
  have hT := hh.tame
  have hu : ∃ u : Option DateTime, r.useUntil = true → ∃ v w, r.untilDate = some v ∧ v.Valid ∧ u = some w ∧ Passed env s v w ∧
      ¬ ZonedDates.Earlier env v s := by
    by_cases hc : r.useUntil = true
    · obtain ⟨v, a, b, c, d⟩ := hh.upto hc
      obtain ⟨w, hw⟩ := passed_of b d
      exact ⟨some w, fun _ => ⟨v, w, a, b, rfl, hw, c⟩⟩
    · exact ⟨none, fun h => absurd h hc⟩
  obtain ⟨u, hu⟩ := hu
  refine ⟨u, ⟨tame_withUntil u hT, standard_withUntil u hh.standard, ?_, ?_, fun hp => picked_withUntil u (hh.picked hp)⟩,
    steady_withUntil (r := r.unpicked) u hh.steady, ?_, ?_⟩
  · intro hc
    obtain ⟨v, w, a, b, c, d, e⟩ := hu hc
    exact ⟨w, c, d.1.1, d.1.2, fun hb => e ((d.2 s hT.valid ⟨rfl, rfl, rfl⟩).mpr hb)⟩
  · intro hc
    obtain ⟨a, b, c⟩ := hh.count hc
    exact ⟨a, b, distinct_withUntil u c⟩
  · intro fuel
    refine Rule.expandFresh_congr hT ?_ ?_ ?_ ?_ fuel
    · intro t ht
      unfold Period.isDateAfter
      rw [ge_not_lt, ge_not_lt, lt_reached h2 v2 ht]
      rfl
    · intro t ht
      unfold Period.isDateWithin
      rw [ge_not_lt, ge_not_lt, lt_reached h2 v2 ht, lt_reached h1 v1 ht]
      rfl
    · intro hb k
      unfold Period.isDateAfter
      rw [ge_not_lt, ge_not_lt]
      show (!(r.raw s k).lt env range.stop) = !(r.raw s k).lt env w2
      congr 1
      by_cases ho : ZonedDates.OtherClock s range.stop
      · refine lt_reached h2 v2 ⟨?_, r.raw_kind s k⟩
        by_cases hf : r.freq = .monthly ∨ r.freq = .yearly
        · have hday := hd ho hb hf
          refine (Rule.raw_near (r := r) hT.valid k).2.2 ?_
          have hnear := Rule.raw_near (r := r) hT.valid k
          have hd1 := hT.valid.onDate.2.2.1
          have : (r.raw s k).day = s.day := by
            rcases hf with hf | hf
            · rw [Rule.raw_month hf hT.valid.month.1 hT.valid.month.2]
            · rw [Rule.raw_year hf]
          rw [← validYMD_iff]
          refine ⟨hnear.1, hnear.2.1, ?_, ?_⟩
          · show 1 ≤ (r.raw s k).day
            rw [this]; exact hd1
          · have := daysInMonth_pos (y := (r.raw s k).year) hnear.1 hnear.2.1
            show (r.raw s k).day ≤ _
            simp only [date] at *
            omega
        · rw [not_or] at hf
          exact Rule.raw_valid hT.valid hf.1 hf.2 k
      · exact hR ho _ (r.raw_kind s k) (Rule.raw_timeOK hT.valid k)
    · intro z _ t ht
      by_cases hc : r.useUntil = true
      · obtain ⟨v, w, a, b, c, d, e⟩ := hu hc
        rw [limit_gt h0 b hc a z ht.2, limit_gt (r := r.withUntil u) h0 d.1.1 hc c z ht.2, gt_passed d b ht]
      · have e1 : (r.withUntil u).useUntil = r.useUntil := rfl
        unfold Rule.untilLimit
        rw [e1, if_neg hc, if_neg hc]
  · intro t ht
    unfold EventDates.Instance ZonedDates.Instance
    have e1 : (r.withUntil u).useUntil = r.useUntil := rfl
    have e2 : (r.withUntil u).useCount = r.useCount := rfl
    have e3 : (r.withUntil u).count = r.count := rfl
    have e4 : (r.withUntil u).untilDate = u := rfl
    have hfew : ∀ n, Rfc.FewerBetweenAt (r.withUntil u) s t n ↔ Rfc.FewerBetweenAt r s t n := by
      intro n
      unfold Rfc.FewerBetweenAt
      simp only [occurs_withUntil]
    rw [e1, e2, e3, e4, hfew, occurs_withUntil]
    have : (∀ w, r.useUntil = true → u = some w → ¬ Rfc.Before w t) ↔
        ∀ w, r.useUntil = true → r.untilDate = some w → ¬ ZonedDates.Earlier env w t := by
      by_cases hc : r.useUntil = true
      · obtain ⟨v, w, a, b, c, d, e⟩ := hu hc
        have := d.2 t ht.1 ht.2
        constructor
        · rintro h w' _ hw'
          rw [a] at hw'; cases hw'
          rw [this]; exact h w hc c
        · rintro h w' _ hw'
          rw [c] at hw'; cases hw'
          rw [← this]; exact h v hc a
      · simp [hc]
    rw [this]

end

/-! ## Sets -/

section
variable {env : TzEnv}

theorem sameKey_refl (a : DateTime) : sameKey env a a = true := by
  unfold sameKey DateTime.eq
  have := compare_neg env a a
  simp only [decide_true, Bool.true_and, decide_eq_true_eq]
  omega

theorem setOf_mem : ∀ (l s : List DateTime), s.Nodup →
    (l.foldl (setInsert env) s).Nodup ∧ (∀ t ∈ l.foldl (setInsert env) s, t ∈ s ∨ t ∈ l) ∧
    ∀ t, t ∈ s ∨ t ∈ l → ∃ u ∈ l.foldl (setInsert env) s, sameKey env u t = true
  | [], s, hs => ⟨hs, fun t ht => .inl ht, fun t ht => ⟨t, by simpa using ht, sameKey_refl t⟩⟩
  | x :: l, s, hs => by
    rw [List.foldl_cons]
    have hn : (setInsert env s x).Nodup := by
      unfold setInsert
      split
      · exact hs
      · next hx =>
        rw [List.nodup_append]
        refine ⟨hs, by simp, ?_⟩
        rintro a ha b hb rfl
        rw [List.mem_singleton] at hb
        subst hb
        exact hx (List.any_eq_true.mpr ⟨a, ha, sameKey_refl a⟩)
    have hsub : ∀ t ∈ s, t ∈ setInsert env s x := by
      intro t ht
      unfold setInsert
      split
      · exact ht
      · simp [ht]
    obtain ⟨h1, h2, h3⟩ := setOf_mem l _ hn
    refine ⟨h1, fun t ht => ?_, fun t ht => ?_⟩
    · rcases h2 t ht with h | h
      · rcases setInsert_mem h with h | h
        · exact .inl h
        · exact .inr (by simp [h])
      · exact .inr (by simp [h])
    · rcases ht with ht | ht
      · exact h3 t (.inl (hsub t ht))
      · rcases List.mem_cons.mp ht with rfl | ht
        · by_cases hx : (s.any fun y => sameKey env y t) = true
          · obtain ⟨y, hy, hk⟩ := List.any_eq_true.mp hx
            -- nothing is taken out
            have hk' : ∀ (l s : List DateTime), y ∈ s → y ∈ l.foldl (setInsert env) s := by
              intro l
              induction l with
              | nil => intro s h; exact h
              | cons a l ih =>
                intro s h
                rw [List.foldl_cons]
                refine ih _ ?_
                unfold setInsert
                split
                · exact h
                · simp [h]
            exact ⟨y, hk' _ _ (hsub y hy), hk⟩
          · refine h3 t (.inl ?_)
            unfold setInsert
            rw [if_neg hx]
            simp
        · exact h3 t (.inr ht)

theorem mem_setOf {l : List DateTime} (h : ∀ a ∈ l, ∀ b ∈ l, sameKey env a b = true → a = b) (t : DateTime) :
    t ∈ setOf env l ↔ t ∈ l := by
  obtain ⟨_, h2, h3⟩ := setOf_mem (env := env) l [] (by simp)
  constructor
  · intro ht
    simpa using h2 t ht
  · intro ht
    obtain ⟨u, hu, hk⟩ := h3 t (.inr ht)
    have := h u (by simpa using h2 u hu) t ht hk
    rw [← this]; exact hu

theorem nodup_setOf (l : List DateTime) : (setOf env l).Nodup := (setOf_mem l [] (by simp)).1

theorem nodup_sorted (o : SetOrder) (l : List DateTime) : (uniqueSorted env o l).Nodup := by
  unfold uniqueSorted
  exact ((List.perm_insertionSort _ _).trans (o.perm _)).nodup_iff.mpr (nodup_setOf l)

/-- The difference of the two sets. -/
theorem diff_spec (o : SetOrder) {a b : List DateTime} (ha : ∀ x ∈ a, ∀ y ∈ a, sameKey env x y = true → x = y)
    (hb : ∀ t ∈ a, ∀ u ∈ b, ∀ v ∈ b, sameKey env u v = true → sameKey env v t = true → sameKey env u t = true) :
    (setDifference env o (uniqueSorted env o a) (uniqueSorted env o b)).Nodup ∧
    ∀ t, t ∈ setDifference env o (uniqueSorted env o a) (uniqueSorted env o b) ↔ t ∈ a ∧ ¬ ∃ u ∈ b, sameKey env u t = true := by
  have m : ∀ t, t ∈ uniqueSorted env o a ↔ t ∈ a := fun t => by rw [mem_uniqueSorted, mem_setOf ha]
  have m' : ∀ t, t ∈ setOf env (uniqueSorted env o a) ↔ t ∈ a := fun t => by
    rw [mem_setOf fun x hx y hy => ha x ((m x).mp hx) y ((m y).mp hy), m]
  obtain ⟨_, b2, b3⟩ := setOf_mem (env := env) b [] (by simp)
  obtain ⟨_, c2, c3⟩ := setOf_mem (env := env) (uniqueSorted env o b) [] (by simp)
  have b2' : ∀ u ∈ uniqueSorted env o b, u ∈ b := fun u hu => by simpa using b2 u (mem_uniqueSorted.mp hu)
  have e : ∀ t ∈ a, (∃ u ∈ setOf env (uniqueSorted env o b), sameKey env u t = true) ↔ ∃ u ∈ b, sameKey env u t = true := by
    intro t ht
    constructor
    · rintro ⟨u, hu, hk⟩
      exact ⟨u, b2' u (by simpa using c2 u hu), hk⟩
    · rintro ⟨u, hu, hk⟩
      obtain ⟨u1, h1, k1⟩ := b3 u (.inr hu)
      have h1' : u1 ∈ uniqueSorted env o b := mem_uniqueSorted.mpr h1
      obtain ⟨u2, h2, k2⟩ := c3 u1 (.inr h1')
      have q1 := hb t ht u1 (b2' u1 h1') u hu k1 hk
      exact ⟨u2, h2, hb t ht u2 (b2' u2 (by simpa using c2 u2 h2)) u1 (b2' u1 h1') k2 q1⟩
  unfold setDifference
  split
  · next hn =>
    refine ⟨nodup_sorted o a, fun t => ?_⟩
    rw [m]
    rcases hn with hn | hn
    · have : t ∉ a := by rw [← m, hn]; simp
      simp [this]
    · have hbe : ∀ u, u ∉ b := by
        intro u hu
        obtain ⟨u1, h1, _⟩ := b3 u (.inr hu)
        have h1' : u1 ∈ uniqueSorted env o b := mem_uniqueSorted.mpr h1
        rw [hn] at h1'
        simp at h1'
      simp [hbe]
  · refine ⟨(o.perm _).nodup_iff.mpr ((nodup_setOf _).filter _), fun t => ?_⟩
    rw [(o.perm _).mem_iff, List.mem_filter, m']
    refine and_congr_right fun ht => ?_
    rw [Bool.not_eq_true', ← Bool.not_eq_true, not_iff_not, List.any_eq_true, e t ht]

theorem sameKey_like {s a b : DateTime} (ha : Like s a) (hb : Like s b) : sameKey env a b = true ↔ a = b := by
  constructor
  · intro h
    unfold sameKey DateTime.eq at h
    rw [Bool.and_eq_true, decide_eq_true_eq, decide_eq_true_eq] at h
    have l1 := lt_iff_before (env := env) ha.1 hb.1 (kind_to hb.2 ha.2)
    have l2 := lt_iff_before (env := env) hb.1 ha.1 (kind_to ha.2 hb.2)
    rw [before_iff ha.1 hb.1] at l1
    rw [before_iff hb.1 ha.1] at l2
    have hc := compare_neg env a b
    simp only [DateTime.lt, decide_eq_true_eq] at l1 l2
    exact eq_of_civil (kind_to ha.2 hb.2) (timeNum_inj ha.1.1 hb.1.1 (by omega))
  · rintro rfl; exact sameKey_refl a

theorem oneClock_symm {a b : DateTime} : ZonedDates.OneClock a b ↔ ZonedDates.OneClock b a := by
  unfold ZonedDates.OneClock
  constructor <;> rintro (h | h | h | ⟨h1, h2, h3⟩)
  · exact .inr (.inl h)
  · exact .inl h
  · exact .inr (.inr (.inl h.symm))
  · exact .inr (.inr (.inr ⟨h2, h1, h3.symm⟩))
  · exact .inr (.inl h)
  · exact .inl h
  · exact .inr (.inr (.inl h.symm))
  · exact .inr (.inr (.inr ⟨h2, h1, h3.symm⟩))

theorem otherClock_like {s t u : DateTime} (ht : SameKind t s) : ZonedDates.OtherClock t u ↔ ZonedDates.OtherClock s u := by
  unfold ZonedDates.OtherClock ZonedDates.OneClock floating
  rw [ht.1, ht.2.1, ht.2.2]

theorem sameKey_other {s t u : DateTime} (ht : SameKind t s) (hu : ZonedDates.OtherClock s u) :
    sameKey env u t = true ↔ t.posix env = u.posix env := by
  obtain ⟨h1, h2, h3⟩ := (otherClock_like ht).mpr hu
  unfold sameKey DateTime.eq DateTime.compare hashKey
  rw [h1, h2]
  have : ¬ tzSame u.utc u.tzid t.utc t.tzid = true := fun h => h3 (oneClock_symm.mp (same_iff.mp h))
  simp only [Bool.or_self, Bool.false_eq_true, if_false, if_neg this, Bool.and_eq_true, decide_eq_true_eq]
  constructor
  · exact fun h => h.1.symm
  · intro h
    refine ⟨h.symm, ?_⟩
    unfold cmpInt
    rw [h]
    simp

theorem coincide_like {s t u : DateTime} (ht : SameKind t s) (hu : SameKind u s) : ZonedDates.Coincide env t u ↔ t = u := by
  unfold ZonedDates.Coincide ZonedDates.OtherClock
  constructor
  · rintro (h | ⟨⟨_, _, h⟩, _⟩)
    · exact h
    · exact absurd (same_iff.mp (by rw [ht.2.1, ht.2.2, hu.2.1, hu.2.2]; exact same_refl s)) h
  · exact .inl

theorem coincide_other {s t u : DateTime} (ht : SameKind t s) (hu : ZonedDates.OtherClock s u) :
    ZonedDates.Coincide env t u ↔ t.posix env = u.posix env := by
  unfold ZonedDates.Coincide
  rw [otherClock_like ht]
  constructor
  · rintro (rfl | h)
    · rfl
    · exact h.2
  · exact fun h => .inr ⟨hu, h⟩

end

/-! ## The set -/

theorem loaded_form {env : TzEnv} {o : SetOrder} {fuel : Nat} {v : RecurLoad.Loaded} {start : DateTime} {range : Period}
    {off : Int} {max : Option Int} {L : List DateTime} {lim : Bool} (hc : ∀ rc ∈ v.rrules ++ v.exrules, rc.2 = {})
    (h : v.expand env o fuel start range off max = some (.dates L lim)) :
    ∃ a b, L = setDifference env o (uniqueSorted env o a) (uniqueSorted env o b) ∧
      (∀ t, t ∈ a ↔ (t = start ∧ range.isDateWithin env start = true) ∨
        (∃ rc ∈ v.rrules, RecurrenceSet.RuleDate env fuel start range off rc.1 t) ∨
        t ∈ v.rdates ∧ range.isDateWithin env t = true) ∧
      ∀ t, t ∈ b ↔ (∃ rc ∈ v.exrules, RecurrenceSet.RuleDate env fuel start range off rc.1 t) ∨
        t ∈ v.exdates ∧ range.isDateWithin env t = true := by
  unfold RecurLoad.Loaded.expand at h
  dsimp only at h
  split at h
  · cases h
  · cases h
  · next items l1 rs h1 =>
    obtain ⟨a1, _⟩ := RecurrenceSet.expandRules_spec (fun rc h => hc rc (by simp [h])) h1
    split at h
    · cases h
    · next items' l2 h2 =>
      obtain ⟨b1, _⟩ := RecurrenceSet.foldlM_addOne h2
      split at h
      · cases h
      · split at h
        · cases h
        · cases h
        · next ex l3 es h3 =>
          obtain ⟨c1, _⟩ := RecurrenceSet.expandRules_spec (fun rc h => hc rc (by simp [h])) h3
          split at h
          · cases h
          · cases h
            refine ⟨_, _, rfl, fun t => ?_, fun t => ?_⟩
            · rw [b1, a1]
              have e : t ∈ (if range.isDateWithin env start = true then [start] else []) ↔
                  t = start ∧ range.isDateWithin env start = true := by
                split <;> simp_all
              rw [e]
              simp only [List.mem_map, Prod.mk.injEq]
              constructor
              · rintro ((h | h) | ⟨x, hx, rfl, hw⟩)
                · exact .inl h
                · exact .inr (.inl h)
                · exact .inr (.inr ⟨hx, hw⟩)
              · rintro (h | h | ⟨hx, hw⟩)
                · exact .inl (.inl h)
                · exact .inl (.inr h)
                · exact .inr ⟨t, hx, rfl, hw⟩
            · rw [List.mem_append, c1, List.mem_filter]
              simp

section
variable {env : TzEnv} {fs : List Fact} {s : DateTime} {range : Period} {off : Int}

theorem within_in {t : DateTime} (ht : t.Valid) (h1 : range.start.Valid) (h2 : range.stop.Valid) :
    range.isDateWithin env t = true ↔ ZonedDates.In env range t := by
  unfold Period.isDateWithin ZonedDates.In
  rw [Bool.and_eq_true, ge_not_lt, Bool.not_eq_true', ← Bool.not_eq_true, lt_earlier ht h1, lt_earlier ht h2]

/-- The rules of the event, each over the range. -/
theorem zoned_rule (h : Zoned env fs s range off) {ex : Bool} {ps : List Recur.Part} (hps : ps ∈ rulesOf ex fs) :
    Ends env s range off (Recur.rule ps) ∧
    ∀ {fuel : Nat} {D : List DateTime} {l : Bool}, (Recur.rule ps).expandFresh env fuel s range off = some (.dates D l) →
      (∀ t ∈ D, Like s t ∧ ZonedDates.In env range t) ∧
      ∀ t, ((Recur.rule ps).useCount = true → t ≠ s) →
        (t ∈ D ↔ ZonedDates.Instance env (Recur.rule ps) s t ∧ ZonedDates.In env range t) := by
  have hh := h.rules ex ps hps
  obtain ⟨w1, h1⟩ := reached_of h.rangeStart.1 h.rangeStart.2
  obtain ⟨w2, h2, hy, hR⟩ := stop_of h.rangeStop.1 h.rangeStop.2.1 h.rangeStop.2.2
  obtain ⟨u, a, b, c, d⟩ := transform (off := off) hh h.float h1 h.rangeStart.1 h2 h.rangeStop.1 hR
    (fun ho hb => h.days ho ex ps hps hb)
  have l1 : Like s (Period.ofEnd w1 w2).start := h1.1
  have l2 : Like s (Period.ofEnd w1 w2).stop := h2.1
  have hask := asked b h.float h.from1902 l2 hy a
  have hin : ∀ t, Like s t → (In (.ofEnd w1 w2) t ↔ ZonedDates.In env range t) := by
    intro t ht
    unfold In ZonedDates.In
    rw [h1.2 t ht.1 ht.2, h2.2 t ht.1 ht.2]
    exact Iff.rfl
  refine ⟨fun cc => ?_, fun {fuel D l} hx => ⟨fun t ht => ?_, fun t hne => ?_⟩⟩
  · obtain ⟨fuel, l, lim, c', he⟩ := rule_ends hask {}
    have : (Recur.rule ps).expandFresh env fuel s range off = some (.dates l lim) := by
      rw [c]; unfold Rule.expandFresh; rw [he]; rfl
    exact ruleEnds_of this cc
  · rw [c] at hx
    obtain ⟨m1, m2⟩ := member hask a hx ht
    exact ⟨m1, (hin t m1).mp ((within l1 l2 m1).mp m2)⟩
  · rw [c] at hx
    rw [rule_iff b h.float h.from1902 l1 l2 hy a hx hne]
    constructor
    · rintro ⟨q1, q2⟩
      have hl : Like s t := occursAt_like q1.1
      exact ⟨(d t hl).mp q1, (hin t hl).mp q2⟩
    · rintro ⟨q1, q2⟩
      have hl : Like s t := occursAt_like q1.1
      exact ⟨(d t hl).mpr q1, (hin t hl).mpr q2⟩

theorem caches : ∀ rc ∈ (loaded fs).rrules ++ (loaded fs).exrules, rc.2 = {} := by
  intro rc h
  simp only [loaded, List.mem_append, List.mem_map] at h
  rcases h with ⟨_, _, rfl⟩ | ⟨_, _, rfl⟩ <;> rfl

theorem zoned_iff (h : Zoned env fs s range off) {o : SetOrder} {fuel : Nat} {max : Option Int} {L : List DateTime} {lim : Bool}
    (hx : (loaded fs).expand env o fuel s range off max = some (.dates L lim)) :
    L.Nodup ∧ ∀ t, t ∈ L ↔ ZonedDates.IsDate env fs s t ∧ ZonedDates.In env range t := by
  have hall := loaded_expanded caches hx
  obtain ⟨A, B, rfl, hA, hB⟩ := loaded_form caches hx
  have hsL : Like s s := ⟨h.valid, rfl, rfl, rfl⟩
  have hw : ∀ {t : DateTime}, t.Valid → (range.isDateWithin env t = true ↔ ZonedDates.In env range t) :=
    fun ht => within_in ht h.rangeStart.1 h.rangeStop.1
  have hrule : ∀ ex, ∀ ps ∈ rulesOf ex fs, ∀ t,
      (RecurrenceSet.RuleDate env fuel s range off (Recur.rule ps) t → Like s t ∧ ZonedDates.In env range t) ∧
      (((Recur.rule ps).useCount = true → t ≠ s) → (RecurrenceSet.RuleDate env fuel s range off (Recur.rule ps) t ↔
        ZonedDates.Instance env (Recur.rule ps) s t ∧ ZonedDates.In env range t)) := by
    intro ex ps hps t
    obtain ⟨D, l, hD⟩ := hall (Recur.rule ps, {}) (by
      cases ex
      · exact List.mem_append_left _ (List.mem_map.mpr ⟨ps, hps, rfl⟩)
      · exact List.mem_append_right _ (List.mem_map.mpr ⟨ps, hps, rfl⟩))
    obtain ⟨k1, k2⟩ := (zoned_rule h hps).2 hD
    have e : RecurrenceSet.RuleDate env fuel s range off (Recur.rule ps) t ↔ t ∈ D := by
      constructor
      · rintro ⟨D', l', e, ht⟩
        have : some (Rule.Answer.dates D l) = some (.dates D' l') := hD.symm.trans e
        cases this; exact ht
      · intro ht; exact ⟨D, l, hD, ht⟩
    rw [e]
    exact ⟨k1 t, k2 t⟩
  have hA' : ∀ t, t ∈ A ↔ (t = s ∨ t ∈ datesOf false fs ∨ ZonedDates.ByRule env fs s false t) ∧ ZonedDates.In env range t := by
    intro t
    rw [hA]
    simp only [loaded, List.mem_map]
    unfold ZonedDates.ByRule
    constructor
    · rintro (⟨rfl, a⟩ | ⟨_, ⟨ps, hps, rfl⟩, a⟩ | ⟨a, b⟩)
      · exact ⟨.inl rfl, (hw h.valid).mp a⟩
      · refine ⟨?_, ((hrule _ ps hps t).1 a).2⟩
        by_cases hne : t = s
        · exact .inl hne
        · exact .inr (.inr ⟨ps, hps, (((hrule _ ps hps t).2 (fun _ => hne)).mp a).1⟩)
      · exact ⟨.inr (.inl a), (hw (h.rdates t a).1).mp b⟩
    · rintro ⟨a, hi⟩
      by_cases hne : t = s
      · exact .inl ⟨hne, by rw [hne] at hi; exact (hw h.valid).mpr hi⟩
      · rcases a with a | a | ⟨ps, hps, a⟩
        · exact absurd a hne
        · exact .inr (.inr ⟨a, (hw (h.rdates t a).1).mpr hi⟩)
        · exact .inr (.inl ⟨_, ⟨ps, hps, rfl⟩, ((hrule _ ps hps t).2 (fun _ => hne)).mpr ⟨a, hi⟩⟩)
  have hAL : ∀ t ∈ A, Like s t := by
    intro t ht
    rcases ((hA' t).mp ht).1 with rfl | a | ⟨ps, hps, a⟩
    · exact hsL
    · exact h.rdates t a
    · exact occursAt_like a.1
  have hexv : ∀ u ∈ datesOf true fs, u.Valid := by
    intro u hu
    rcases h.exdates with he | ⟨_, he⟩
    · exact (he u hu).1
    · exact (he u hu).1
  have hB' : ∀ t, t ∈ B ↔ (ZonedDates.ByRule env fs s true t ∨ t ∈ datesOf true fs) ∧ ZonedDates.In env range t := by
    intro t
    rw [hB]
    simp only [loaded, List.mem_map]
    unfold ZonedDates.ByRule
    have hr : ∀ ps ∈ rulesOf true fs, (RecurrenceSet.RuleDate env fuel s range off (Recur.rule ps) t ↔
        ZonedDates.Instance env (Recur.rule ps) s t ∧ ZonedDates.In env range t) := by
      intro ps hps
      exact (hrule true ps hps t).2 (fun hc => by rw [h.exrules ps hps] at hc; cases hc)
    constructor
    · rintro (⟨_, ⟨ps, hps, rfl⟩, a⟩ | ⟨a, b⟩)
      · obtain ⟨q1, q2⟩ := (hr ps hps).mp a
        exact ⟨.inl ⟨ps, hps, q1⟩, q2⟩
      · exact ⟨.inr a, (hw (hexv t a)).mp b⟩
    · rintro ⟨⟨ps, hps, a⟩ | a, hi⟩
      · exact .inl ⟨_, ⟨ps, hps, rfl⟩, (hr ps hps).mpr ⟨a, hi⟩⟩
      · exact .inr ⟨a, (hw (hexv t a)).mpr hi⟩
  have hBL : (∀ u ∈ datesOf true fs, u.Valid ∧ SameKind u s) → ∀ u ∈ B, Like s u := by
    intro he u hu
    rcases ((hB' u).mp hu).1 with ⟨ps, hps, a⟩ | a
    · exact occursAt_like a.1
    · exact he u a
  have hBO : rulesOf true fs = [] → (∀ u ∈ datesOf true fs, ZonedDates.OtherClock s u) → ∀ u ∈ B, ZonedDates.OtherClock s u := by
    intro he ho u hu
    rcases ((hB' u).mp hu).1 with ⟨ps, hps, a⟩ | a
    · rw [he] at hps; cases hps
    · exact ho u a
  obtain ⟨d1, d2⟩ := diff_spec (env := env) o (a := A) (b := B)
    (fun x hx y hy hk => (sameKey_like (hAL x hx) (hAL y hy)).mp hk) (by
      intro t ht u hu v hv k1 k2
      rcases h.exdates with he | ⟨hr, he⟩
      · have := (sameKey_like (hBL he u hu) (hBL he v hv)).mp k1
        rw [this]; exact k2
      · have ho := hBO hr fun u hu => (he u hu).2.1
        rw [sameKey_other (hAL t ht).2 (ho v hv)] at k2
        rw [sameKey_other (hAL t ht).2 (ho u hu), k2]
        unfold sameKey hashKey at k1
        rw [Bool.and_eq_true, decide_eq_true_eq] at k1
        exact k1.1.symm)
  refine ⟨d1, fun t => ?_⟩
  rw [d2, hA']
  unfold ZonedDates.IsDate
  constructor
  · rintro ⟨⟨a, hi⟩, hn⟩
    have ht := hAL t ((hA' t).mpr ⟨a, hi⟩)
    refine ⟨⟨a, ?_⟩, hi⟩
    rintro (⟨u, hu, hc⟩ | hb)
    · rcases h.exdates with he | ⟨hr, he⟩
      · have : t = u := (coincide_like ht.2 (he u hu).2).mp hc
        exact hn ⟨u, (hB' u).mpr ⟨.inr hu, by rw [← this]; exact hi⟩, by rw [this]; exact sameKey_refl u⟩
      · obtain ⟨q1, q2, q3⟩ := he u hu
        exact hn ⟨u, (hB' u).mpr ⟨.inr hu, q3 t ht.1 ht.2 hc hi⟩, (sameKey_other ht.2 q2).mpr ((coincide_other ht.2 q2).mp hc)⟩
    · exact hn ⟨t, (hB' t).mpr ⟨.inl hb, hi⟩, sameKey_refl t⟩
  · rintro ⟨⟨a, hn⟩, hi⟩
    have ht := hAL t ((hA' t).mpr ⟨a, hi⟩)
    refine ⟨⟨a, hi⟩, ?_⟩
    rintro ⟨u, hu, hk⟩
    rcases h.exdates with he | ⟨hr, he⟩
    · have : u = t := (sameKey_like (hBL he u hu) ht).mp hk
      subst this
      rcases ((hB' u).mp hu).1 with hb | hb
      · exact hn (.inr hb)
      · exact hn (.inl ⟨u, hb, .inl rfl⟩)
    · have ho := hBO hr (fun u hu => (he u hu).2.1) u hu
      rcases ((hB' u).mp hu).1 with ⟨ps, hps, _⟩ | hb
      · rw [hr] at hps; cases hps
      · exact hn (.inl ⟨u, hb, (coincide_other ht.2 ho).mpr ((sameKey_other ht.2 ho).mp hk)⟩)

theorem zoned_ends (h : Zoned env fs s range off) :
    ∀ p ∈ (loaded fs).rrules ++ (loaded fs).exrules, Ends env s range off p.1 := by
  intro p hp
  simp only [loaded, List.mem_append, List.mem_map] at hp
  rcases hp with ⟨q, hq, rfl⟩ | ⟨q, hq, rfl⟩
  · exact (zoned_rule h hq).1
  · exact (zoned_rule h hq).1

end

/-! ## Zones -/

section
open Rule
variable {env : TzEnv} {r : Rule} {s : DateTime}

theorem times_nil {t x : DateTime} (h : TimesFrom [] [] [] t x) :
    x.hours = t.hours ∧ x.minutes = t.minutes ∧ x.seconds = t.seconds :=
  ⟨oneOf_nil h.1, oneOf_nil h.2.1, oneOf_nil h.2.2⟩

/-- Without BYHOUR, BYMINUTE and BYSECOND, the candidates have the time of day of the iterated date. -/
theorem cand_clock (h : Tame r s) (h1 : r.byHours = []) (h2 : r.byMinutes = []) (h3 : r.bySeconds = []) {k : Nat} {x : DateTime}
    (hx : x ∈ r.candidates env (r.raw s k)) :
    x.hours = (r.raw s k).hours ∧ x.minutes = (r.raw s k).minutes ∧ x.seconds = (r.raw s k).seconds := by
  have hx := cand_sub hx
  have hto := raw_timeOK (r := r) h.valid k
  have hnear := raw_near (r := r) h.valid k
  have hvr : r.freq ≠ .monthly → r.freq ≠ .yearly → (r.raw s k).Valid :=
    fun h1 h2 => raw_valid h.valid h1 h2 k
  generalize r.raw s k = t at *
  cases hf : r.freq with
  | secondly =>
    rw [C53_secondly env { r with bySetPos := [] } t (hvr (by simp [hf]) (by simp [hf])) hf h.byDay rfl] at hx
    rw [hx.1]
    exact ⟨rfl, rfl, rfl⟩
  | minutely =>
    rw [C53_minutely env { r with bySetPos := [] } t (hvr (by simp [hf]) (by simp [hf])) hf h.byDay rfl] at hx
    obtain ⟨_, _, _, _, ht⟩ := hx
    simp only [h3] at ht
    exact times_nil ht
  | hourly =>
    rw [C53_hourly env { r with bySetPos := [] } t (hvr (by simp [hf]) (by simp [hf])) hf h.byDay rfl] at hx
    obtain ⟨_, _, _, ht⟩ := hx
    simp only [h2, h3] at ht
    exact times_nil ht
  | daily =>
    rw [C53_daily env { r with bySetPos := [] } t (hvr (by simp [hf]) (by simp [hf])) hf h.byDay rfl] at hx
    obtain ⟨_, _, ht⟩ := hx
    simp only [h1, h2, h3] at ht
    exact times_nil ht
  | weekly =>
    obtain ⟨_, _, ht, _⟩ :=
      weekly_mem (r := { r with bySetPos := [] }) hf rfl (hvr (by simp [hf]) (by simp [hf])) h.byDay h.weekStart hx
    simp only [h1, h2, h3] at ht
    exact times_nil ht
  | monthly =>
    rw [C53_monthly env { r with bySetPos := [] } t ⟨hnear.1, hnear.2.1⟩ hto hf (h.monthly hf) h.byMonthDay h.byDay rfl] at hx
    obtain ⟨_, _, _, _, ht⟩ := hx
    simp only [h1, h2, h3] at ht
    exact times_nil ht
  | yearly =>
    obtain ⟨y1, y2, y3⟩ := h.yearly hf
    by_cases hc : r.byMonth ≠ [] ∨ r.byMonthDay ≠ [] ∨ r.byDay = []
    · rw [mem_yearly_month env { r with bySetPos := [] } t ⟨hnear.1, hnear.2.1⟩ hto hf y1 y2 hc h.byMonth h.byMonthDay
        h.byDay rfl] at hx
      obtain ⟨_, _, _, _, ht⟩ := hx
      simp only [h1, h2, h3] at ht
      exact times_nil ht
    · simp only [not_or, ne_eq, not_not] at hc
      rw [C53_yearly_day_partial env { r with bySetPos := [] } t hto hf y1 y2 hc.1 hc.2.1 hc.2.2
        (fun v hv => ⟨(h.byDay v hv).1, (h.byDay v hv).2, y3 hc.1 hc.2.1 v hv⟩) rfl] at hx
      obtain ⟨_, _, _, ht⟩ := hx
      simp only [h1, h2, h3] at ht
      exact times_nil ht

/-- Apart from the offset, at least as many seconds lie between two date-times as by the calendar. -/
theorem posix_gap {a b : DateTime} (ha : a.Valid) (hb : b.Valid) (h : timeNum a.civil ≤ timeNum b.civil) :
    timeNum b.civil - timeNum a.civil ≤ (b.posix env + b.tzOffset env) - (a.posix env + a.tzOffset env) := by
  unfold posix
  rw [daysSince1970_dayNum, daysSince1970_dayNum]
  have hya : a.year ≤ b.year := by
    rcases (by omega : b.year < a.year ∨ a.year ≤ b.year) with hlt | hge
    · exfalso
      have h1 := dayNum_bounds ha.ymd
      have h2 := dayNum_bounds hb.ymd
      have h3 := yearStart_mono hlt
      obtain ⟨⟨_, _⟩, _⟩ := ha
      obtain ⟨⟨_, _⟩, _⟩ := hb
      simp only [timeNum, civil, date] at *
      omega
    · exact hge
  have := drift_mono hya
  simp only [timeNum, civil, date, secondsOfDay] at *
  omega

/-- Rules that give one time of day are handled in zones whose offsets differ by less than a day. -/
theorem steady_of_clock (h : Tame r s) (h1 : r.byHours = []) (h2 : r.byMinutes = []) (h3 : r.bySeconds = [])
    (hz : ∀ a b : DateTime, Like s a → Like s b → b.tzOffset env - a.tzOffset env < 86400) : Steady env r s := by
  intro k a ha b hb hlt
  obtain ⟨a1, a2, _⟩ := cand_spec h ha
  obtain ⟨b1, b2, _⟩ := cand_spec h hb
  obtain ⟨a3, a4, a5⟩ := cand_clock h h1 h2 h3 ha
  obtain ⟨b3, b4, b5⟩ := cand_clock h h1 h2 h3 hb
  have hg := posix_gap (env := env) a1 b1 (le_of_lt hlt)
  have hd := hz a b ⟨a1, a2⟩ ⟨b1, b2⟩
  have : 86400 ≤ timeNum b.civil - timeNum a.civil := by
    simp only [timeNum, civil] at *
    rw [a3, a4, a5, b3, b4, b5] at hlt ⊢
    omega
  omega

/-- A clock reaches and passes a time on another clock when it shows the same instant, if its offset does not change around that. -/
theorem reached_near {u w : DateTime} (hu : u.Valid) (ho : ZonedDates.OtherClock s u) (hw : Like s w)
    (he : w.posix env = u.posix env) {D : Int}
    (h1 : ∀ t, Like s t → -D ≤ t.tzOffset env - w.tzOffset env ∧ t.tzOffset env - w.tzOffset env ≤ D)
    (h2 : ∀ t, Like s t → -D ≤ timeNum t.civil - timeNum w.civil → timeNum t.civil - timeNum w.civil ≤ D →
      t.tzOffset env = w.tzOffset env) : Reached env s u w ∧ Passed env s u w := by
  have key : ∀ t, Like s t → (t.posix env < u.posix env ↔ Rfc.Before t w) ∧ (u.posix env < t.posix env ↔ Rfc.Before w t) := by
    intro t ht
    rw [before_iff ht.1 hw.1, before_iff hw.1 ht.1]
    have k1 := h1 t ht
    have k2 := h2 t ht
    have g1 := posix_gap (env := env) ht.1 hw.1
    have g2 := posix_gap (env := env) hw.1 ht.1
    by_cases c1 : timeNum t.civil ≤ timeNum w.civil <;> by_cases c2 : timeNum w.civil - timeNum t.civil ≤ D <;>
      by_cases c3 : timeNum t.civil - timeNum w.civil ≤ D <;> omega
  have e1 : ∀ t, SameKind t s → (ZonedDates.Earlier env t u ↔ t.posix env < u.posix env) := by
    intro t ht
    have ho' := (otherClock_like ht).mpr ho
    unfold ZonedDates.Earlier
    obtain ⟨q1, q2, q3⟩ := ho'
    have : ZonedDates.OtherClock t u := ⟨q1, q2, q3⟩
    simp [q1, q2, q3, this]
  have e2 : ∀ t, SameKind t s → (ZonedDates.Earlier env u t ↔ u.posix env < t.posix env) := by
    intro t ht
    have ho' := (otherClock_like ht).mpr ho
    unfold ZonedDates.Earlier
    obtain ⟨q1, q2, q3⟩ := ho'
    have q3' : ¬ ZonedDates.OneClock u t := fun h => q3 (oneClock_symm.mp h)
    have : ZonedDates.OtherClock u t := ⟨q2, q1, q3'⟩
    simp [q1, q2, q3', this]
  exact ⟨⟨hw, fun t hv hk => (e1 t hk).trans (key t ⟨hv, hk⟩).1⟩, ⟨hw, fun t hv hk => (e2 t hk).trans (key t ⟨hv, hk⟩).2⟩⟩

end

end L136

open L134 L136 in
/-- C136 (partial), from the lines of an event in a time zone to its dates: an event written as the standards say, with a start and
lines for recurrence, is read; its expansion over a range ends, and then has, each of them once, exactly the dates that RFC 5545
gives in the range: the start, the RDATEs and the instances of the RRULEs, without the EXDATEs and the instances of the EXRULEs.
The event may be in a time zone, and UNTILs, EXDATEs and the range on another clock, such as UTC.

Missing: `Zoned`, that is RDATEs of another kind than the start (`C34_fails_dates`), EXDATEs of both kinds, clocks that show the
same time twice around an end of the range or an UNTIL, rules that give several times of one day around a change of the offset
(`Rule.Steady`), and rules that are not `Handled` (see `C133_rule_partial`, `C133_setpos_partial`); COUNT in EXRULEs; RDATE with periods
(`C123_fails_period`). -/
theorem C136_dates_partial {e : Env} (hT : Program ValueType.ical e.tables) {ls : List ContentLine} {fs : List Fact}
    (h : List.Forall₂ Says ls fs) (ha : ∀ l ∈ ls, l.Allowed false)
    (hr : ∀ l ∈ ls, ∀ p ∈ l.params, ∀ v ∈ p.values, v.Readable)
    (ho : ∀ l ∈ ls, PropText.upper l.name ∉ names → (readLine e l.text).isSome) (hrec : Recurs fs)
    {env : TzEnv} {s : DateTime} {range : Period} {off : Int} (hk : Zoned env fs s range off) (o : SetOrder) :
    ∃ v, readEvent e (ls.map ContentLine.text) = some (s, some v) ∧
      ∃ n, ∀ fuel ≥ n, ∃ L lim, v.expand env o fuel s range off none = some (.dates L lim) ∧ L.Nodup ∧
        ∀ t, t ∈ L ↔ ZonedDates.IsDate env fs s t ∧ ZonedDates.In env range t := by
  obtain ⟨v, h1, h2, _⟩ := C132_read_partial hT h ha hr ho
  have := h2 hrec
  subst this
  rw [hk.start] at h1
  refine ⟨_, h1, ?_⟩
  obtain ⟨n, hn⟩ := loaded_ends o (v := loaded fs) ⟨rfl, rfl⟩ (zoned_ends hk)
  refine ⟨n, fun fuel hf => ?_⟩
  obtain ⟨L, lim, hL⟩ := hn fuel hf
  obtain ⟨a, b⟩ := zoned_iff hk hL
  exact ⟨L, lim, hL, a, b⟩

open L136 in
/-- C136 (partial), with a limit on the number of instances: if the expansion does not raise, it has the same dates.

Missing: as for `C136_dates_partial`. -/
theorem C136_limit_partial {fs : List Fact} {env : TzEnv} {s : DateTime} {range : Period} {off : Int}
    (hk : Zoned env fs s range off) (o : SetOrder) (fuel : Nat) (max : Option Int) (L : List DateTime) (lim : Bool)
    (hx : (loaded fs).expand env o fuel s range off max = some (.dates L lim)) :
    L.Nodup ∧ ∀ t, t ∈ L ↔ ZonedDates.IsDate env fs s t ∧ ZonedDates.In env range t :=
  zoned_iff hk hx

namespace L136
open L134

/-- A zone five hours behind UTC, in the summer of 2020 four hours. -/
def newYork : TzEnv := fun _ t _ =>
  if timeNum ⟨⟨2020, 3, 8⟩, 2, 0, 0⟩ ≤ timeNum t.civil ∧ timeNum t.civil < timeNum ⟨⟨2020, 11, 1⟩, 2, 0, 0⟩ then -14400 else -18000

/-- Nine o'clock there. -/
def nineThere (m d : Int) : DateTime := ⟨2020, m, d, 9, 0, 0, false, false, some (.name "NewYork")⟩

def utcTime (m d h : Int) : DateTime := ⟨2020, m, d, h, 0, 0, false, true, none⟩

/-- Every week from 1 March to the end of the month, which is given in UTC, without 15 March, which is given in UTC. -/
def facts : List Fact :=
  [.start (nineThere 3 1), .rule false [.freq .weekly, .upto (utcTime 4 1 0)], .dates true [utcTime 3 15 13]]

def inSpring : Period := .ofEnd (utcTime 3 1 0) (utcTime 5 1 0)

theorem utc_other (m d h m' d' : Int) : ZonedDates.OtherClock (nineThere m d) (utcTime m' d' h) := by
  refine ⟨rfl, rfl, ?_⟩
  rintro (h | h | h | h)
  · simp [floating, nineThere, tzTruthy] at h
  · simp [floating, utcTime] at h
  · simp [nineThere] at h
  · simp [utcTime] at h

theorem offset_there {t : DateTime} (ht : Like (nineThere 3 1) t) : t.tzOffset newYork =
    if timeNum ⟨⟨2020, 3, 8⟩, 2, 0, 0⟩ ≤ timeNum t.civil ∧ timeNum t.civil < timeNum ⟨⟨2020, 11, 1⟩, 2, 0, 0⟩ then -14400
    else -18000 := by
  unfold tzOffset
  rw [ht.2.2.1, ht.2.2.2]
  rfl

theorem reached_there {u w : DateTime} (hu : u.Valid) (ho : ZonedDates.OtherClock (nineThere 3 1) u) (hw : Like (nineThere 3 1) w)
    (he : w.posix newYork = u.posix newYork)
    (hn : timeNum w.civil + 3600 < timeNum ⟨⟨2020, 3, 8⟩, 2, 0, 0⟩ ∨
      timeNum ⟨⟨2020, 3, 8⟩, 2, 0, 0⟩ + 3600 ≤ timeNum w.civil ∧ timeNum w.civil + 3600 < timeNum ⟨⟨2020, 11, 1⟩, 2, 0, 0⟩) :
    Reached newYork (nineThere 3 1) u w ∧ Passed newYork (nineThere 3 1) u w := by
  have hlt : timeNum ⟨⟨2020, 3, 8⟩, 2, 0, 0⟩ < timeNum ⟨⟨2020, 11, 1⟩, 2, 0, 0⟩ := by decide +kernel
  refine reached_near hu ho hw he (D := 3600) (fun t ht => ?_) (fun t ht h1 h2 => ?_)
  · rw [offset_there ht, offset_there hw]
    split <;> split <;> omega
  · rw [offset_there ht, offset_there hw]
    split <;> split <;> omega

theorem zoned_facts : Zoned newYork facts (nineThere 3 1) inSpring 0 := by
  have r1 := reached_there (u := utcTime 3 1 0) (w := ⟨2020, 2, 29, 19, 0, 0, false, false, some (.name "NewYork")⟩)
    (by decide +kernel) (utc_other _ _ _ _ _) ⟨by decide +kernel, rfl, rfl, rfl⟩ (by decide +kernel) (by decide +kernel)
  have r2 := reached_there (u := utcTime 5 1 0) (w := ⟨2020, 4, 30, 20, 0, 0, false, false, some (.name "NewYork")⟩)
    (by decide +kernel) (utc_other _ _ _ _ _) ⟨by decide +kernel, rfl, rfl, rfl⟩ (by decide +kernel) (by decide +kernel)
  have r3 := reached_there (u := utcTime 4 1 0) (w := ⟨2020, 3, 31, 20, 0, 0, false, false, some (.name "NewYork")⟩)
    (by decide +kernel) (utc_other _ _ _ _ _) ⟨by decide +kernel, rfl, rfl, rfl⟩ (by decide +kernel) (by decide +kernel)
  have hv : (utcTime 3 15 13).Valid := by decide +kernel
  refine ⟨rfl, by decide +kernel, fun _ => rfl, by decide, ⟨by decide +kernel, fun _ => ⟨_, r1.1⟩⟩,
    ⟨by decide +kernel, by decide, fun _ => ⟨_, r2.1, by decide⟩⟩, ?_, .inr ⟨rfl, ?_⟩, ?_, ?_, ?_⟩
  · simp [datesOf, facts]
  · intro u hu
    have : u = utcTime 3 15 13 := by simpa [datesOf, facts] using hu
    subst this
    refine ⟨hv, utc_other _ _ _ _ _, fun _ _ _ _ _ => ?_⟩
    exact (within_in hv (by decide +kernel) (by decide +kernel)).mp (by decide +kernel)
  · intro ex ps hps
    cases ex
    · have : ps = [.freq .weekly, .upto (utcTime 4 1 0)] := by simpa [rulesOf, facts] using hps
      subst this
      have hT : Rule.Tame (Recur.rule [.freq .weekly, .upto (utcTime 4 1 0)]) (nineThere 3 1) := by constructor <;> decide +kernel
      refine ⟨hT, by constructor <;> decide, steady_of_clock hT rfl rfl rfl fun a b ha hb => ?_, fun _ => ?_,
        fun h => absurd h (by decide), fun h => absurd rfl h⟩
      · rw [offset_there ha, offset_there hb]
        split <;> split <;> omega
      · refine ⟨utcTime 4 1 0, rfl, by decide +kernel, ?_, fun _ => ⟨_, r3.2⟩⟩
        rw [← lt_earlier (by decide +kernel) (by decide +kernel)]
        decide +kernel
    · simp [rulesOf, facts] at hps
  · simp [rulesOf, facts]
  · intro _ ex ps hps hb
    cases ex
    · have : ps = [.freq .weekly, .upto (utcTime 4 1 0)] := by simpa [rulesOf, facts] using hps
      subst this
      exact absurd hb (by decide)
    · simp [rulesOf, facts] at hps

/-- The dates, if there are no more. -/
def datesOnly : RecurLoad.Result → Option (List DateTime)
  | .dates L false => some L
  | _ => none

theorem facts_dates : ((loaded facts).expand newYork RecurrenceSet.inOrder 20 (nineThere 3 1) inSpring 0 none).bind datesOnly =
    some [nineThere 3 1, nineThere 3 8, nineThere 3 22, nineThere 3 29] := by decide +kernel

end L136

open L136 in
/-- The conditions of C136 are met: an event every week in a zone with summer time, with an UNTIL and an EXDATE in UTC, asked for a
range in UTC.  It has 1, 8, 22 and 29 March. -/
example : Zoned newYork facts (nineThere 3 1) inSpring 0 ∧
    (loaded facts).expand newYork RecurrenceSet.inOrder 20 (nineThere 3 1) inSpring 0 none =
      some (.dates [nineThere 3 1, nineThere 3 8, nineThere 3 22, nineThere 3 29] false) := by
  refine ⟨zoned_facts, ?_⟩
  obtain ⟨a, h3, h4⟩ := Option.bind_eq_some_iff.mp facts_dates
  rw [h3]
  unfold datesOnly at h4
  split at h4
  · cases h4; rfl
  · cases h4

end PyCal
