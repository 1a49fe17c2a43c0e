import Verif.Props.C10_C13_Weeks

/-! # C11: where `setWeekNo` lands on Sundays and in years that start on a Sunday -/

namespace PyCal.DateTime
open Spec

theorem week_arith_sunday {j n L c e : Int} (hj0 : 0 ≤ j) (hj1 : j < 7) (hn1 : 2 ≤ n) (hn2 : n ≤ 51)
    (hL : L = 365 ∨ L = 366) (he : e = 0 ∨ e = 7)
    (hc : (1 ≤ j ∧ j ≤ 4 ∧ c = (n - 1) * 7) ∨ ((j = 0 ∨ 4 < j) ∧ c = n * 7)) :
    1 ≤ 1 + c + 4 - j - e ∧ 1 + c + 4 - j - e ≤ L ∧
      (1 + c + 4 - j - e + 6) / 7 = n + (if j = 0 then 1 else 0) - (if e = 0 then 0 else 1) := by
  split <;> split <;> omega

/-- C11 (partial): what `setWeekNo(n)` does for every date that is not in week `n` already, `n` from 2 to 51: it keeps
the weekday, and lands in week `n`, one week too late in a year that starts on a Sunday, one week too early from a
Sunday (so that from a Sunday in a year that starts on one it is right).  Years next to a non-leap century year are
excluded (C05).

Missing: the claim itself where a week is missed, `C11_fails_sunday` and `C11_fails_year_starting_sunday`. -/
theorem C11_exact_partial (t : DateTime) (h : t.Valid)
    (hns : ∀ z, t.year - 2 ≤ z → z ≤ t.year + 1 → ¬ SkippedCentury z)
    (n : Int) (hn1 : 2 ≤ n) (hn2 : n ≤ 51) (hne : t.weekNo ≠ n) :
    (t.setWeekNo n).dayOfWeek = t.dayOfWeek ∧
    (t.setWeekNo n).weekNo =
      n + (if (ofDate t.year 1 1).dayOfWeek = 0 then 1 else 0) - (if t.dayOfWeek = 0 then 1 else 0) := by
  obtain ⟨hv, hN⟩ := setWeekNo_num t h n hne
  have hyl := yearLen_cases t.year
  have hjr := dayOfWeek_range (ofDate t.year 1 1)
  have htr := dayOfWeek_range t
  have hj := dayOfWeek_eq (ofDate t.year 1 1)
  rw [jan1_num, show (ofDate t.year 1 1).year = t.year from rfl] at hj
  have hmt := monToThu_iff (ofDate t.year 1 1).dayOfWeek
  generalize t.setWeekNo n = r at *
  generalize hc : (if monToThu (ofDate t.year 1 1).dayOfWeek = true then (n - 1) * 7 else n * 7) = c
    at hN
  have hcc : (1 ≤ (ofDate t.year 1 1).dayOfWeek ∧ (ofDate t.year 1 1).dayOfWeek ≤ 4 ∧ c = (n - 1) * 7) ∨
      (((ofDate t.year 1 1).dayOfWeek = 0 ∨ 4 < (ofDate t.year 1 1).dayOfWeek) ∧ c = n * 7) := by
    split at hc
    · rename_i hm; rw [hmt] at hm; exact Or.inl ⟨hm.1, hm.2, hc.symm⟩
    · rename_i hm; rw [hmt] at hm; right; omega
  have hA := week_arith_sunday (j := (ofDate t.year 1 1).dayOfWeek) (n := n) (L := yearLen t.year) (c := c)
    (e := if t.dayOfWeek = 0 then 7 else 0) (by omega) (by omega) hn1 hn2 hyl (by split <;> simp) hcc
  clear hmt hc hne
  have hyear : r.year = t.year ∨ r.year = t.year - 1 ∨ r.year = t.year + 1 :=
    year_near hv.ymd (by omega) (by omega)
  have hdr : drift r.year = drift t.year := by
    have hd0 := drift_succ _ (hns (t.year - 1) (by omega) (by omega))
    have hd1 := drift_succ _ (hns t.year (by omega) (by omega))
    rw [show t.year - 1 + 1 = t.year by omega] at hd0
    rcases hyear with e | e | e <;> rw [e] <;> omega
  have hwd : r.dayOfWeek = t.dayOfWeek := by
    rw [dayOfWeek_eq, hdr, hN]
    omega
  refine ⟨hwd, ?_⟩
  have hiso : r.isoDay = t.dayOfWeek + if t.dayOfWeek = 0 then 7 else 0 := by
    unfold isoDay; rw [hwd]; split <;> omega
  have hX : dayNum r.year r.month r.day + 4 - r.isoDay - yearBase t.year =
      1 + c + 4 - (ofDate t.year 1 1).dayOfWeek - (if t.dayOfWeek = 0 then 7 else 0) := by
    rw [hN, hiso]; omega
  have hq1 : ¬ SkippedCentury (r.year - 1) := hns _ (by omega) (by omega)
  have hq2 : ¬ SkippedCentury r.year := hns _ (by omega) (by omega)
  rw [weekNo_num r hv hq1 hq2 t.year (by rw [hX]; exact hA.1) (by rw [hX]; exact hA.2.1), hX, hA.2.2]
  by_cases h0 : t.dayOfWeek = 0 <;> simp [h0]

/-- A Sunday in a year that starts on a Thursday, a Wednesday and a Sunday in a year that starts on a Sunday. -/
example : (ofDate 2026 11 15).dayOfWeek = 0 ∧ (ofDate 2026 1 1).dayOfWeek = 4 ∧
    ((ofDate 2026 11 15).setWeekNo 10).weekNo = 9 ∧
    (ofDate 2023 1 1).dayOfWeek = 0 ∧ ((ofDate 2023 5 3).setWeekNo 10).weekNo = 11 ∧
    (ofDate 2023 5 7).dayOfWeek = 0 ∧ ((ofDate 2023 5 7).setWeekNo 10).weekNo = 10 := by decide +kernel

end PyCal.DateTime
