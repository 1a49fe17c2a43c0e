import Verif.Props.C03_Offsets
import Verif.Props.C53_Candidates

/-! # C32: BYWEEKNO as an expansion -/

namespace PyCal
open Spec DateTime

namespace L32

theorem setYearDay_kept (t : DateTime) (h : t.Valid) (n : Int) :
    (t.setYearDay n).hours = t.hours ∧ (t.setYearDay n).minutes = t.minutes ∧
      (t.setYearDay n).seconds = t.seconds ∧ SameKind (t.setYearDay n) t := by
  have key : ∀ u : DateTime, u.dateOnly = t.dateOnly → u.hours = t.hours → u.minutes = t.minutes →
      u.seconds = t.seconds → u.utc = t.utc → u.tzid = t.tzid →
      u.normalise.hours = t.hours ∧ u.normalise.minutes = t.minutes ∧
        u.normalise.seconds = t.seconds ∧ SameKind u.normalise t := fun u h1 h2 h3 h4 h5 h6 =>
    have hk := L03.time_kept h h1 h2 h3 h4
    ⟨hk.1, hk.2.1, hk.2.2, h1, h5, h6⟩
  have hraw : ∀ u, u = t.setYearDayRaw n → u.dateOnly = t.dateOnly ∧ u.hours = t.hours ∧
      u.minutes = t.minutes ∧ u.seconds = t.seconds ∧ u.utc = t.utc ∧ u.tzid = t.tzid := by
    intro u hu
    unfold setYearDayRaw at hu
    split at hu
    · subst hu; exact ⟨rfl, rfl, rfl, rfl, rfl, rfl⟩
    split at hu
    · subst hu; exact ⟨rfl, rfl, rfl, rfl, rfl, rfl⟩
    split at hu
    · subst hu; exact ⟨rfl, rfl, rfl, rfl, rfl, rfl⟩
    split at hu
    · subst hu; exact ⟨rfl, rfl, rfl, rfl, rfl, rfl⟩
    · subst hu; exact ⟨rfl, rfl, rfl, rfl, rfl, rfl⟩
  obtain ⟨h1, h2, h3, h4, h5, h6⟩ := hraw _ rfl
  exact key _ h1 h2 h3 h4 h5 h6

theorem setWeekNo_kept (t : DateTime) (h : t.Valid) (n : Int) :
    (t.setWeekNo n).hours = t.hours ∧ (t.setWeekNo n).minutes = t.minutes ∧
      (t.setWeekNo n).seconds = t.seconds ∧ SameKind (t.setWeekNo n) t := by
  unfold setWeekNo
  split
  · exact ⟨rfl, rfl, rfl, rfl, rfl, rfl⟩
  simp only
  generalize (if monToThu (ofDate t.year 1 1).dayOfWeek = true then
    (n - 1) * 7 + t.dayOfWeek - (ofDate t.year 1 1).dayOfWeek
    else n * 7 + t.dayOfWeek - (ofDate t.year 1 1).dayOfWeek) = yd
  split
  · have hv : (t.offsetYear (-1)).Valid := normalise_valid _
    obtain ⟨a, b, c, d⟩ := setYearDay_kept _ hv _
    obtain ⟨a', b', c'⟩ := L03.time_kept (u := { t with year := t.year + -1 }) h rfl rfl rfl rfl
    exact ⟨a.trans a', b.trans b', c.trans c', d⟩
  · exact setYearDay_kept t h _

end L32

/-- C32 (partial), BYWEEKNO: a YEARLY rule with BYWEEKNO alone gives one date for each week number
listed, in that order, in that ISO week, on the weekday and at the time of the date it starts from.
Weeks 1 to 52, a date that is not a Sunday, a year that does not start on a Sunday and is not near a
non-leap century year.

Missing: Sundays and years that start on a Sunday, which give other weeks, `C11_fails_sunday` and
`C11_fails_year_starting_sunday`. -/
theorem C32_weekNo_partial (env : TzEnv) (r : Rule) (t : DateTime) (h : t.Valid)
    (hns : ∀ z, t.year - 2 ≤ z → z ≤ t.year + 1 → ¬ SkippedCentury z)
    (hsun : t.dayOfWeek ≠ 0) (hjan : (ofDate t.year 1 1).dayOfWeek ≠ 0)
    (hf : r.freq = .yearly) (hw : r.byWeekNo ≠ []) (hv : ∀ v ∈ r.byWeekNo, 1 ≤ v ∧ v ≤ 52)
    (hm : r.byMonth = []) (hyd : r.byYearDay = []) (hmd : r.byMonthDay = []) (hd : r.byDay = [])
    (hh : r.byHours = []) (hmi : r.byMinutes = []) (hs : r.bySeconds = []) (hp : r.bySetPos = []) :
    (r.candidates env t).map weekNo = r.byWeekNo ∧
    ∀ x ∈ r.candidates env t, x.Valid ∧ x.dayOfWeek = t.dayOfWeek ∧ x.hours = t.hours ∧
      x.minutes = t.minutes ∧ x.seconds = t.seconds ∧ SameKind x t := by
  have hval : ∀ v, (t.setWeekNo v).Valid := by
    intro v
    by_cases hne : t.weekNo = v
    · unfold setWeekNo; rw [if_pos hne]; exact h
    · exact (setWeekNo_num t h v hne).1
  have hc : r.candidates env t = r.byWeekNo.map t.setWeekNo := by
    unfold Rule.candidates Rule.yearlySet
    simp only [hf]
    unfold Rule.finishSet
    simp only [hm, hyd, hmd, hd, hh, hmi, hs, hp, Rule.part, List.isEmpty_nil, if_true]
    rw [if_neg (by simpa using hw)]
    unfold Rule.byWeekNoExpand
    rw [Rule.expandWith_eq, List.filter_eq_self.2]
    · simp [← List.map_eq_flatMap]
    · intro x hx
      simp only [List.flatMap_cons, List.flatMap_nil, List.append_nil, List.mem_flatMap,
        List.mem_singleton] at hx
      obtain ⟨v, -, rfl⟩ := hx
      rw [Rule.valid_not_invalid (hval v)]
      rfl
  rw [hc]
  constructor
  · rw [List.map_map]
    conv_rhs => rw [← List.map_id r.byWeekNo]
    apply List.map_congr_left
    intro v hvm
    exact (C11_setWeekNo_partial t h hns v (hv v hvm).1 (.inl (hv v hvm).2) hsun hjan).1
  · intro x hx
    obtain ⟨v, hvm, rfl⟩ := List.mem_map.1 hx
    exact ⟨hval v, (C11_setWeekNo_partial t h hns v (hv v hvm).1 (.inl (hv v hvm).2) hsun hjan).2,
      L32.setWeekNo_kept t h v⟩

/-- Weeks 20, 1 and 52 of 2026, from a Monday: `RRULE:FREQ=YEARLY;BYWEEKNO=20,1,52`. -/
example : let t : DateTime := ⟨2026, 11, 16, 9, 0, 0, false, true, none⟩
    t.Valid ∧ t.dayOfWeek ≠ 0 ∧ (ofDate t.year 1 1).dayOfWeek ≠ 0 ∧
    ({ freq := .yearly, byWeekNo := [20, 1, 52] } : Rule).candidates .empty t =
      [⟨2026, 5, 11, 9, 0, 0, false, true, none⟩, ⟨2025, 12, 29, 9, 0, 0, false, true, none⟩,
       ⟨2026, 12, 21, 9, 0, 0, false, true, none⟩] := by decide +kernel

end PyCal
