import Verif.Props.C69_C71_ZonalRules
import Verif.Props.C31_C33_Parts

/-!
# C72: the recurrence rule written for a rule of the time zone data
-/

namespace PyCal.Zonal
open Spec DateTime
open Spec.Zic (On IsDay weekday)

/-! ## Statement -/

/-- The dates of a yearly rule with the given parts: those that match every part; with none but BYMONTH,
the day of the month is that of the start. -/
def RuleMatch (p : Parts) (start t : DateTime) : Prop :=
  Limits p.byMonth (fun m => t.month = m) ∧ Limits p.byYearDay (YearDayMatch t) ∧
    Limits p.byMonthDay (MonthDayMatch t) ∧ Limits p.byDay (WeekdayMatch t) ∧
    (p.byYearDay = [] → p.byMonthDay = [] → p.byDay = [] → t.day = start.day)

instance (p : Parts) (start t : DateTime) : Decidable (RuleMatch p start t) := by
  unfold RuleMatch Limits; infer_instance

/-- `x'` is the day before `x`, the same day, or the day after, as `s` is -1, 0 or 1: the local date of a
transition that the rule puts on `x`. -/
def Shifted (x x' : Date) (s : Int) : Prop :=
  x.Valid ∧ x'.Valid ∧ (s = 0 ∧ x' = x ∨ s = 1 ∧ x' = nextDay x ∨ s = -1 ∧ x = nextDay x')

/-- The dates, with the shift, on which the rule takes effect. -/
def TransitionDay (m : Int) (on : On) (s : Int) (t : DateTime) : Prop :=
  ∃ y x, IsDay y m on x ∧ Shifted x t.date s

/-! ## Weekdays of a month -/

theorem nth_iff {t : DateTime} (ht : t.Valid) {k wd : Int} (h0 : 0 ≤ wd) (h1 : wd < 7) (hk : 1 ≤ k) :
    WeekdayMatch t (k, wd) ↔ t.dayOfWeek = wd ∧ 7 * (k - 1) + 1 ≤ t.day ∧ t.day ≤ 7 * k := by
  have hd := ht.1.1
  have hw : t.dayOfWeek = (t.monthWeekday 1 + (t.day - 1)) % 7 := monthWeekday_eq t t.day
  have hr := t.monthWeekday_range 1
  rw [Rule.weekdayMatch_iff, earlier_eq t wd t.day h0 h1 hd.2.2.1]
  rw [hw]
  omega

theorem nthLast_iff {t : DateTime} (ht : t.Valid) {k wd : Int} (h0 : 0 ≤ wd) (h1 : wd < 7) (hk : 1 ≤ k) :
    WeekdayMatch t (-k, wd) ↔ t.dayOfWeek = wd ∧ monthLen t.year t.month - 7 * k + 1 ≤ t.day ∧
      t.day ≤ monthLen t.year t.month - 7 * (k - 1) := by
  have hd := ht.1.1
  have hw : t.dayOfWeek = (t.monthWeekday 1 + (t.day - 1)) % 7 := monthWeekday_eq t t.day
  have hr := t.monthWeekday_range 1
  rw [Rule.weekdayMatch_iff, later_eq t wd t.day h0 h1 hd.2.2.2]
  rw [hw]
  omega

theorem any_iff {t : DateTime} {wd : Int} : WeekdayMatch t (0, wd) ↔ t.dayOfWeek = wd := by
  unfold WeekdayMatch; simp

/-- BYMONTH, and the parts of `dayDetails`: the weekday among the seven days from `n`. -/
theorem dayDetails_match {m y dow n : Int} (hm : 1 ≤ m ∧ m ≤ 12) (h0 : 0 ≤ dow) (h1 : dow < 7)
    (hn : 1 ≤ n) (hend : n + 6 ≤ monthLen y m) (hfeb : m = 2 → n ≤ 22 ∧ ¬ (Leap y ∧ (n = 9 ∨ n = 16)))
    {start t : DateTime} (ht : t.Valid) :
    RuleMatch (detailParts m (dayDetails m y dow n)) start t ↔
      t.month = m ∧ n ≤ t.day ∧ t.day ≤ n + 6 ∧ t.dayOfWeek = dow := by
  have hd := ht.1.1
  have hd1 : 1 ≤ t.day := hd.2.2.1
  have hd2 : t.day ≤ monthLen t.year t.month := hd.2.2.2
  have hdim : daysInMonth m y = monthLen y m := daysInMonth_eq y hm.1 hm.2
  -- lengths of months other than February do not depend on the year
  have hsame : m ≠ 2 → ∀ y', monthLen y' m = monthLen y m := by
    intro h y'; unfold monthLen; rw [if_neg h, if_neg h]
  have hfebl : m = 2 → monthLen y m = if Leap y then 29 else 28 := by
    intro h; unfold monthLen; rw [if_pos h]
  have nth : ∀ k, 1 ≤ k → n = 7 * (k - 1) + 1 →
      (RuleMatch (detailParts m (k, dow, [])) start t ↔
        t.month = m ∧ n ≤ t.day ∧ t.day ≤ n + 6 ∧ t.dayOfWeek = dow) := by
    intro k hk e
    unfold RuleMatch detailParts Limits
    simp only [List.mem_singleton, exists_eq_left, reduceCtorEq, false_or, true_or, true_and, List.cons_ne_nil,
      nth_iff ht h0 h1 hk]
    constructor
    · rintro ⟨a, ⟨b, c, d⟩, _⟩; exact ⟨a, by omega, by omega, b⟩
    · rintro ⟨a, b, c, d⟩; exact ⟨a, ⟨d, by omega, by omega⟩, by simp⟩
  have last : ∀ k, 1 ≤ k → m ≠ 2 → n = monthLen y m - 7 * k + 1 →
      (RuleMatch (detailParts m (-k, dow, [])) start t ↔
        t.month = m ∧ n ≤ t.day ∧ t.day ≤ n + 6 ∧ t.dayOfWeek = dow) := by
    intro k hk hm2 e
    unfold RuleMatch detailParts Limits
    simp only [List.mem_singleton, exists_eq_left, reduceCtorEq, false_or, true_or, true_and, List.cons_ne_nil,
      nthLast_iff ht h0 h1 hk]
    constructor
    · rintro ⟨a, ⟨b, c, d⟩, _⟩
      rw [a, hsame hm2] at c d
      exact ⟨a, by omega, by omega, b⟩
    · rintro ⟨a, b, c, d⟩
      refine ⟨a, ⟨d, ?_, ?_⟩, by simp⟩ <;> rw [a, hsame hm2] <;> omega
  unfold dayDetails
  by_cases e1 : n = 1
  · rw [if_pos e1]; exact nth 1 (by omega) (by omega)
  rw [if_neg e1]
  by_cases e2 : n = 8
  · rw [if_pos e2]; exact nth 2 (by omega) (by omega)
  rw [if_neg e2]
  by_cases e3 : n = 15
  · rw [if_pos e3]; exact nth 3 (by omega) (by omega)
  rw [if_neg e3]
  by_cases e4 : n = 22
  · rw [if_pos e4]; exact nth 4 (by omega) (by omega)
  rw [if_neg e4]
  simp only [hdim]
  have hne : m = 2 → monthLen y m - n ≠ 6 ∧ monthLen y m - n ≠ 13 ∧ monthLen y m - n ≠ 20 := by
    intro h
    have := hfeb h
    rw [hfebl h]
    by_cases hl : Leap y
    · rw [if_pos hl]; simp only [hl, true_and] at this; omega
    · rw [if_neg hl]; omega
  by_cases e5 : monthLen y m - n = 6
  · rw [if_pos e5]; exact last 1 (by omega) (fun h => (hne h).1 e5) (by omega)
  rw [if_neg e5]
  by_cases e6 : monthLen y m - n = 13
  · rw [if_pos e6]; exact last 2 (by omega) (fun h => (hne h).2.1 e6) (by omega)
  rw [if_neg e6]
  by_cases e7 : monthLen y m - n = 20
  · rw [if_pos e7]; exact last 3 (by omega) (fun h => (hne h).2.2 e7) (by omega)
  rw [if_neg e7]
  have hmem : ∀ v, v ∈ ((List.range 7).map fun (i : Nat) => n + i).filter (fun x => x ≤ monthLen y m) ↔
      n ≤ v ∧ v ≤ n + 6 := by
    intro v
    simp only [List.mem_filter, List.mem_map, List.mem_range, decide_eq_true_eq]
    constructor
    · rintro ⟨⟨i, hi, rfl⟩, _⟩; omega
    · rintro ⟨a, b⟩; exact ⟨⟨(v - n).toNat, by omega, by omega⟩, by omega⟩
  unfold RuleMatch detailParts Limits
  have hnil : ((List.range 7).map fun (i : Nat) => n + i).filter (fun x => x ≤ monthLen y m) ≠ [] := by
    intro h
    have := (hmem n).2 ⟨le_refl n, by omega⟩
    rw [h] at this; cases this
  simp only [List.mem_singleton, exists_eq_left, reduceCtorEq, false_or, true_or, true_and, List.cons_ne_nil,
    any_iff, hnil, hmem]
  constructor
  · rintro ⟨a, ⟨v, hv, hmd⟩, c, _⟩
    unfold MonthDayMatch at hmd
    exact ⟨a, by omega, by omega, c⟩
  · rintro ⟨a, b, c, d⟩
    exact ⟨a, ⟨t.day, ⟨b, c⟩, Or.inl ⟨by omega, rfl⟩⟩, d, by simp⟩

/-! ## The days of a rule -/

theorem weekday_eq (x : Date) : weekday x = (dayNum x.y x.m x.d + drift x.y - 719047) % 7 := by
  unfold weekday; rw [dayOfWeek_eq]; rfl

theorem monthLen_dec (y : Int) : monthLen y 12 = 31 := by
  unfold monthLen; rw [if_neg (by decide), if_neg (by decide)]

theorem weekday_within {y m n : Int} (h : (⟨y, m, n⟩ : Date).Valid)
    (hc : m = 12 → ¬ SkippedCentury y ∨ n ≤ 25) {j : Nat} (hj : j < 7) :
    weekday (iter nextDay j ⟨y, m, n⟩) = (weekday ⟨y, m, n⟩ + j) % 7 := by
  have h2 := (iter_nextDay h j).2
  have hd : drift (iter nextDay j ⟨y, m, n⟩).y = drift y := by
    rcases within_week h j hj with ⟨e, _⟩ | ⟨_, e, _⟩ | ⟨e2, e, hl⟩
    · rw [e]
    · rw [e]
    · rcases hc e2 with hc | hc
      · rw [e]; exact ((noSkip_succ hc).drift).symm
      · rw [e2, monthLen_dec] at hl; omega
  rw [weekday_eq, weekday_eq, h2, hd]
  simp only
  omega

/-- The first such weekday on or after a day is within a week of it. -/
theorem atLeast_iff {y m n wd : Int} (h : (⟨y, m, n⟩ : Date).Valid) (hc : m = 12 → ¬ SkippedCentury y ∨ n ≤ 25)
    (h0 : 0 ≤ wd) (h1 : wd < 7) {x : Date} :
    IsDay y m (.atLeast wd n) x ↔ ∃ k : Nat, k < 7 ∧ x = iter nextDay k ⟨y, m, n⟩ ∧
      (weekday ⟨y, m, n⟩ + k) % 7 = wd := by
  have hr : 0 ≤ weekday ⟨y, m, n⟩ ∧ weekday ⟨y, m, n⟩ < 7 := dayOfWeek_range _
  unfold IsDay
  constructor
  · rintro ⟨k, hk, hw, hno⟩
    have hk7 : k < 7 := by
      by_contra hcon
      let j := ((wd - weekday ⟨y, m, n⟩) % 7).toNat
      have hj : j < 7 := by omega
      refine hno j (by omega) ?_
      rw [weekday_within h hc hj]
      omega
    refine ⟨k, hk7, hk, ?_⟩
    rw [hk, weekday_within h hc hk7] at hw
    exact hw
  · rintro ⟨k, hk7, hk, hw⟩
    refine ⟨k, hk, by rw [hk, weekday_within h hc hk7]; exact hw, ?_⟩
    intro j hj
    rw [weekday_within h hc (by omega)]
    omega

theorem shifted_iff {x x' : Date} (hx : x.Valid) (hx' : x'.Valid) {s : Int} (hs : s = -1 ∨ s = 0 ∨ s = 1) :
    Shifted x x' s ↔ dayNum x'.y x'.m x'.d = dayNum x.y x.m x.d + s := by
  unfold Shifted
  have n1 := nextDay_dayNum hx
  have n2 := nextDay_dayNum hx'
  constructor
  · rintro ⟨_, _, ⟨rfl, e⟩ | ⟨rfl, e⟩ | ⟨rfl, e⟩⟩
    · rw [e]; omega
    · rw [e, n1]
    · rw [e, n2]; omega
  · intro h
    refine ⟨hx, hx', ?_⟩
    rcases hs with rfl | rfl | rfl
    · right; right
      exact ⟨rfl, date_inj hx (nextDay_valid hx') (by rw [n2]; omega)⟩
    · left; exact ⟨rfl, date_inj hx' hx (by rw [h]; omega)⟩
    · right; left
      exact ⟨rfl, date_inj hx' (nextDay_valid hx) (by rw [n1]; omega)⟩

theorem date_of_dayNum {t : DateTime} (ht : t.date.Valid) {y m d : Int} (h : (⟨y, m, d⟩ : Date).Valid)
    (he : dayNum t.year t.month t.day = dayNum y m d) : t.year = y ∧ t.month = m ∧ t.day = d := by
  have : t.date = ⟨y, m, d⟩ := date_inj ht h he
  exact ⟨congrArg Date.y this, congrArg Date.m this, congrArg Date.d this⟩

theorem dow_in_month (t : DateTime) (n : Int) :
    t.dayOfWeek = (weekday ⟨t.year, t.month, n⟩ + (t.day - n)) % 7 := by
  rw [← weekday_date, weekday_eq, weekday_eq]
  simp only [DateTime.date]
  unfold dayNum
  omega

/-- The local dates of `Sun>=n`, shifted: the weekday among the seven days from `n + s`, as long as these
lie in the month. -/
theorem transition_next {m n wd s : Int} (hs : s = -1 ∨ s = 0 ∨ s = 1) (h0 : 0 ≤ wd) (h1 : wd < 7)
    (hn1 : 1 ≤ n) (hn : 1 ≤ n + s) (hm : 1 ≤ m ∧ m ≤ 12)
    (hend : ∀ y, n + s + 6 ≤ monthLen y m) (hdec : m = 12 → n ≤ 25) {t : DateTime} (ht : t.date.Valid) :
    TransitionDay m (.atLeast wd n) s t ↔
      t.month = m ∧ n + s ≤ t.day ∧ t.day ≤ n + s + 6 ∧ t.dayOfWeek = (wd + s) % 7 := by
  have hv : ∀ y, (⟨y, m, n⟩ : Date).Valid := fun y => ⟨hm.1, hm.2, hn1, by have := hend y; simp only; omega⟩
  have hv' : ∀ (y : Int) (k : Nat), k < 7 → (⟨y, m, n + s + k⟩ : Date).Valid := fun y k hk =>
    ⟨hm.1, hm.2, by simp only; omega, by have := hend y; simp only; omega⟩
  unfold TransitionDay
  constructor
  · rintro ⟨y, x, hx, hsh⟩
    rw [atLeast_iff (hv y) (fun h => Or.inr (hdec h)) h0 h1] at hx
    obtain ⟨k, hk, rfl, hw⟩ := hx
    have hit := iter_nextDay (hv y) k
    rw [shifted_iff hit.1 ht hs, hit.2] at hsh
    have e : dayNum t.year t.month t.day = dayNum y m (n + s + k) := by
      refine Eq.trans hsh ?_
      simp only
      unfold dayNum; omega
    obtain ⟨hy, hmm, hd⟩ := date_of_dayNum ht (hv' y k hk) e
    refine ⟨hmm, by omega, by omega, ?_⟩
    rw [dow_in_month t n, hy, hmm, hd]
    omega
  · rintro ⟨hmm, hd1, hd2, hw⟩
    have hk : (t.day - s - n).toNat < 7 := by omega
    have hit := iter_nextDay (hv t.year) (t.day - s - n).toNat
    refine ⟨t.year, iter nextDay (t.day - s - n).toNat ⟨t.year, m, n⟩, ?_, ?_⟩
    · rw [atLeast_iff (hv _) (fun h => Or.inr (hdec h)) h0 h1]
      refine ⟨_, hk, rfl, ?_⟩
      rw [dow_in_month t n, hmm] at hw
      have hr : 0 ≤ weekday ⟨t.year, m, n⟩ ∧ weekday ⟨t.year, m, n⟩ < 7 := dayOfWeek_range _
      omega
    · rw [shifted_iff hit.1 ht hs, hit.2]
      simp only [DateTime.date, hmm]
      unfold dayNum; omega

theorem monthLen_min (y m : Int) : monthLen y m = monthLen 1970 m ∨ m = 2 := by
  by_cases h : m = 2
  · exact Or.inr h
  · left; unfold monthLen; rw [if_neg h, if_neg h]

/-- C72 (partial): for a rule of the form `Sun>=n` whose first transition `start` is, in local time, on the
day before the one meant, on that day, or on the day after (`s`), the recurrence rule matches exactly the
local dates of the transitions in every year: if the seven days possible lie in the month in every year
(and the days of the rule in the year), and, for February of a leap year, if the first of them is not the 9th or
16th.  Missing: otherwise see `C72_fails_first`, `C72_fails_spill`, `C72_fails_leap`. -/
theorem C72_next_partial (m n wd s : Int) (start : DateTime) (hs : s = -1 ∨ s = 0 ∨ s = 1)
    (h0 : 0 ≤ wd) (h1 : wd < 7) (hm : 1 ≤ m ∧ m ≤ 12) (hn1 : 1 ≤ n) (hn : 1 ≤ n + s)
    (hend : ∀ y, n + s + 6 ≤ monthLen y m) (hdec : m = 12 → n ≤ 25)
    (hfeb : m = 2 → Leap start.year → n + s ≠ 9 ∧ n + s ≠ 16)
    (hstart : start.Valid) (htr : TransitionDay m (.atLeast wd n) s start) :
    ∃ p, ruleParts m start (.next wd n) = some p ∧
      ∀ t : DateTime, t.Valid → (RuleMatch p start t ↔ TransitionDay m (.atLeast wd n) s t) := by
  obtain ⟨hsm, hsd1, hsd2, hsw⟩ := (transition_next hs h0 h1 hn1 hn hm hend hdec hstart.1.1).1 htr
  have hdow := dayOfWeek_range start
  have hfeb' : m = 2 → n + s ≤ 22 ∧ ¬ (Leap start.year ∧ (n + s = 9 ∨ n + s = 16)) := by
    intro h
    have h28 := hend 1970
    rw [h, show monthLen 1970 2 = 28 by decide] at h28
    refine ⟨by omega, ?_⟩
    rintro ⟨hl, hn⟩
    have := hfeb h hl
    omega
  have hod : onDayDetails start wd n = some (dayDetails m start.year start.dayOfWeek (n + s)) := by
    unfold onDayDetails
    simp only [ne_eq]
    rcases hs with rfl | rfl | rfl
    · rw [if_pos (by omega), if_neg (by omega), if_pos (by omega), if_neg (by omega), hsm]; rfl
    · rw [if_neg (by omega), hsm]; simp
    · rw [if_pos (by omega), if_pos (by omega), if_neg (by omega), hsm]
  refine ⟨_, by simp only [ruleParts, hod]; rfl, ?_⟩
  intro t ht
  rw [dayDetails_match hm hdow.1 hdow.2 hn (hend _) hfeb' ht,
    transition_next hs h0 h1 hn1 hn hm hend hdec ht.1.1, hsw]

/-- The US rules: `Sun>=8` in March, local time. -/
example : TransitionDay 3 (.atLeast 0 8) 0 (ofDate 2026 3 8) :=
  ⟨2026, ⟨2026, 3, 8⟩, ⟨0, rfl, by decide +kernel, by intro j hj; omega⟩, by decide, by decide,
    Or.inl ⟨rfl, rfl⟩⟩

example : ruleParts 3 (ofDate 2026 3 8) (.next 0 8) = some { byMonth := [3], byDay := [(2, 0)] } := by
  decide +kernel

/-! ## The last weekday -/

theorem last_iff {y m wd : Int} (hm : 1 ≤ m ∧ m ≤ 12) {x : Date} : IsDay y m (.last wd) x ↔
    x.y = y ∧ x.m = m ∧ monthLen y m - 6 ≤ x.d ∧ x.d ≤ monthLen y m ∧ weekday x = wd := by
  have hl := monthLen_ge y m
  have hw : ∀ d d', weekday ⟨y, m, d⟩ = (weekday ⟨y, m, d'⟩ + (d - d')) % 7 := by
    intro d d'
    rw [weekday_eq, weekday_eq]; simp only
    unfold dayNum; omega
  have hr : ∀ d, 0 ≤ weekday ⟨y, m, d⟩ ∧ weekday ⟨y, m, d⟩ < 7 := fun d => dayOfWeek_range _
  obtain ⟨xy, xm, xd⟩ := x
  unfold IsDay
  simp only
  constructor
  · rintro ⟨hv, rfl, rfl, hwd, hno⟩
    have hv4 : xd ≤ monthLen xy xm := hv.2.2.2
    refine ⟨rfl, rfl, ?_, hv4, hwd⟩
    by_contra hc
    refine hno (xd + 7) (by omega) (by omega) ?_
    have := hr xd
    rw [hw (xd + 7) xd]; omega
  · rintro ⟨rfl, rfl, h1, h2, h3⟩
    refine ⟨⟨hm.1, hm.2, by simp only; omega, h2⟩, rfl, rfl, h3, ?_⟩
    intro d hd hd2
    have := hr xd
    rw [hw d xd]; omega

/-- The parts that limit to a month and a weekday counted from the end. -/
theorem lastParts_match {m wd : Int} {start t : DateTime} (ht : t.Valid) (h0 : 0 ≤ wd) (h1 : wd < 7) :
    RuleMatch { byMonth := [m], byDay := [(-1, wd)] } start t ↔
      t.month = m ∧ monthLen t.year t.month - 6 ≤ t.day ∧ t.dayOfWeek = wd := by
  have hd : t.day ≤ monthLen t.year t.month := ht.1.1.2.2.2
  unfold RuleMatch Limits
  simp only [List.mem_singleton, exists_eq_left, false_or, true_or, true_and, List.cons_ne_nil,
    nthLast_iff ht h0 h1 (le_refl 1)]
  constructor
  · rintro ⟨a, ⟨b, c, d⟩, _⟩; exact ⟨a, by omega, b⟩
  · rintro ⟨a, b, c⟩; exact ⟨a, ⟨c, by omega, by omega⟩, by simp⟩

/-- C72: for a rule of the form `lastSun` with the transitions on the day meant, the recurrence rule
matches exactly the dates of the transitions, in every month and year. -/
theorem C72_last (m wd : Int) (start : DateTime) (h0 : 0 ≤ wd) (h1 : wd < 7) (hm : 1 ≤ m ∧ m ≤ 12)
    (htr : TransitionDay m (.last wd) 0 start) :
    ∃ p, ruleParts m start (.last wd) = some p ∧
      ∀ t : DateTime, t.Valid → (RuleMatch p start t ↔ TransitionDay m (.last wd) 0 t) := by
  have hiff : ∀ t : DateTime, t.date.Valid → (TransitionDay m (.last wd) 0 t ↔
      t.month = m ∧ monthLen t.year t.month - 6 ≤ t.day ∧ t.dayOfWeek = wd) := by
    intro t ht
    have hd : t.day ≤ monthLen t.year t.month := ht.2.2.2
    unfold TransitionDay
    constructor
    · rintro ⟨y, x, hx, hsh⟩
      have e : t.date = x := by
        obtain ⟨_, _, ⟨_, e⟩ | ⟨h, _⟩ | ⟨h, _⟩⟩ := hsh
        · exact e
        · omega
        · omega
      subst e
      rw [last_iff hm] at hx
      obtain ⟨a, b, c, d, e⟩ := hx
      simp only [DateTime.date] at a b c d
      refine ⟨b, by rw [a, b]; exact c, by rw [← weekday_date]; exact e⟩
    · rintro ⟨a, b, c⟩
      refine ⟨t.year, t.date, (last_iff hm).2 ⟨rfl, a, ?_, ?_, by rw [weekday_date]; exact c⟩, ht, ht,
        Or.inl ⟨rfl, rfl⟩⟩
      · rw [← a]; exact b
      · rw [← a]; exact hd
  have hst : start.dayOfWeek = wd := by
    obtain ⟨y, x, hx, hsh⟩ := htr
    have hv : start.date.Valid := hsh.2.1
    exact ((hiff start hv).1 ⟨y, x, hx, hsh⟩).2.2
  refine ⟨{ byMonth := [m], byDay := [(-1, wd)] }, by simp only [ruleParts, hst, if_true], ?_⟩
  intro t ht
  rw [lastParts_match ht h0 h1, hiff t ht.1.1]

example : TransitionDay 2 (.last 6) 0 (ofDate 2024 2 24) :=
  ⟨2024, ⟨2024, 2, 24⟩, by rw [last_iff (by decide)]; decide +kernel, by decide, by decide, Or.inl ⟨rfl, rfl⟩⟩

/-- C72 (partial): for a rule of the form `lastSun` whose transitions are, in local time, on the day before,
the recurrence rule is exact for every month but February (`C72_fails_february`). -/
theorem C72_last_before_partial (m wd : Int) (start : DateTime) (h0 : 0 ≤ wd) (h1 : wd < 7)
    (hm : 1 ≤ m ∧ m ≤ 12) (hm2 : m ≠ 2) (htr : TransitionDay m (.last wd) (-1) start) :
    ∃ p, ruleParts m start (.last wd) = some p ∧
      ∀ t : DateTime, t.Valid → (RuleMatch p start t ↔ TransitionDay m (.last wd) (-1) t) := by
  have hiff : ∀ t : DateTime, t.date.Valid → (TransitionDay m (.last wd) (-1) t ↔
      t.month = m ∧ monthLen t.year m - 7 ≤ t.day ∧ t.day ≤ monthLen t.year m - 1 ∧
        t.dayOfWeek = (wd - 1) % 7) := by
    intro t ht
    unfold TransitionDay
    constructor
    · rintro ⟨y, x, hx, hsh⟩
      rw [last_iff hm] at hx
      obtain ⟨hy, hxm, hx1, hx2, hxw⟩ := hx
      have hxv : x.Valid := hsh.1
      have hl := monthLen_ge y m
      rw [shifted_iff hxv ht (Or.inl rfl)] at hsh
      obtain ⟨xy, xm, xd⟩ := x
      simp only at hy hxm hx1 hx2
      subst hy hxm
      have e : dayNum t.year t.month t.day = dayNum xy xm (xd - 1) := by
        refine Eq.trans hsh ?_
        simp only
        unfold dayNum; omega
      obtain ⟨a, b, c⟩ := date_of_dayNum ht
        (show (⟨xy, xm, xd - 1⟩ : Date).Valid from ⟨hm.1, hm.2, by simp only; omega, by simp only; omega⟩) e
      refine ⟨b, by rw [a]; omega, by rw [a]; omega, ?_⟩
      rw [dow_in_month t xd, a, b, hxw, c]
      omega
    · rintro ⟨a, b, c, d⟩
      have hl := monthLen_ge t.year m
      have hv : (⟨t.year, m, t.day + 1⟩ : Date).Valid :=
        ⟨hm.1, hm.2, by simp only; omega, by simp only; omega⟩
      refine ⟨t.year, ⟨t.year, m, t.day + 1⟩, (last_iff hm).2 ⟨rfl, rfl, ?_, ?_, ?_⟩, ?_⟩
      · simp only; omega
      · simp only; omega
      · rw [dow_in_month t (t.day + 1), a] at d
        have hr : 0 ≤ weekday ⟨t.year, m, t.day + 1⟩ ∧ weekday ⟨t.year, m, t.day + 1⟩ < 7 := dayOfWeek_range _
        omega
      · rw [shifted_iff hv ht (Or.inl rfl)]
        simp only [DateTime.date, a]
        unfold dayNum; omega
  have hv : start.date.Valid := by obtain ⟨_, _, _, h⟩ := htr; exact h.2.1
  obtain ⟨hsm, hs1, hs2, hsw⟩ := (hiff start hv).1 htr
  have hdow := dayOfWeek_range start
  have hl := monthLen_ge start.year m
  have hdim : daysInMonth m start.year = monthLen start.year m := daysInMonth_eq _ hm.1 hm.2
  have hp : ruleParts m start (.last wd) =
      some (detailParts m (dayDetails m start.year start.dayOfWeek (monthLen start.year m - 7))) := by
    simp only [ruleParts]
    rw [if_neg (by omega), if_pos (by omega)]
    unfold onDayDetails
    simp only [hsm, hdim]
    rw [if_pos (by omega), if_neg (by omega), if_pos (by omega), if_neg (by omega)]
    simp only [Option.map_some]
    congr 3; omega
  refine ⟨_, hp, ?_⟩
  intro t ht
  rw [dayDetails_match hm hdow.1 hdow.2 (by omega) (by omega) (fun h => absurd h hm2) ht, hiff t ht.1.1, hsw]
  have hsame : monthLen t.year m = monthLen start.year m := by
    unfold monthLen; rw [if_neg hm2, if_neg hm2]
  rw [hsame]
  constructor
  · rintro ⟨a, b, c, d⟩; exact ⟨a, by omega, by omega, d⟩
  · rintro ⟨a, b, c, d⟩; exact ⟨a, by omega, by omega, d⟩

/-- A change at 01:00 UTC on a Sunday is on the Saturday in the zones west of UTC-1. -/
example : TransitionDay 10 (.last 0) (-1) (ofDate 2026 10 24) :=
  ⟨2026, ⟨2026, 10, 25⟩, by rw [last_iff (by decide)]; decide +kernel, by decide, by decide,
    Or.inr (Or.inr ⟨rfl, by decide⟩)⟩

theorem yearDay_neg_iff {t : DateTime} (ht : t.date.Valid) {n : Int} (hn : 0 < n) :
    YearDayMatch t (-n) ↔ dayNum t.year 12 31 = dayNum t.year t.month t.day + n - 1 := by
  have hdec : (⟨t.year, 12, 31⟩ : Date).Valid :=
    ⟨by simp, by simp, by simp, by simp only [monthLen_dec]; omega⟩
  unfold YearDayMatch
  rw [date_eq_iter hdec ht]
  simp only [DateTime.date]
  constructor
  · rintro (⟨h, _⟩ | ⟨_, h⟩)
    · omega
    · rw [h]; omega
  · intro h; right; exact ⟨by omega, by rw [h]; omega⟩

/-- From the first of the next month to the end of the year. -/
theorem daysBack_eq (y : Int) {m : Int} (h2 : 2 ≤ m) (h11 : m ≤ 11) :
    dayNum y 12 31 - (dayNum y m (monthLen y m) + 1) + 1 = (daysBack[m.toNat]?).getD 0 := by
  rw [← daysInMonth_eq y (by omega) (by omega)]
  unfold dayNum daysInMonth daysUptoMonth daysBack
  cases isLeapYear y <;> interval_cases m <;> simp <;> omega

/-- C72 (partial): for a rule of the form `lastSun` whose transitions are, in local time, on the day
after, the recurrence rule is exact for the months from February to November and the weekdays other than
Saturday (`C72_fails_saturday`, `C72_fails_january`, `C72_fails_december`). -/
theorem C72_last_after_partial (m wd : Int) (start : DateTime) (h0 : 0 ≤ wd) (h1 : wd < 6)
    (h2 : 2 ≤ m) (h11 : m ≤ 11) (htr : TransitionDay m (.last wd) 1 start) :
    ∃ p, ruleParts m start (.last wd) = some p ∧
      ∀ t : DateTime, t.Valid → (RuleMatch p start t ↔ TransitionDay m (.last wd) 1 t) := by
  have hm : 1 ≤ m ∧ m ≤ 12 := by omega
  have hiff : ∀ t : DateTime, t.date.Valid → (TransitionDay m (.last wd) 1 t ↔
      dayNum t.year m (monthLen t.year m) - 5 ≤ dayNum t.year t.month t.day ∧
      dayNum t.year t.month t.day ≤ dayNum t.year m (monthLen t.year m) + 1 ∧
        t.dayOfWeek = (wd + 1) % 7) := by
    intro t ht
    unfold TransitionDay
    constructor
    · rintro ⟨y, x, hx, hsh⟩
      rw [last_iff hm] at hx
      obtain ⟨hy, hxm, hx1, hx2, hxw⟩ := hx
      have hxv : x.Valid := hsh.1
      have hn := hsh
      rw [shifted_iff hxv ht (Or.inr (Or.inr rfl))] at hn
      have hty : t.year = y := by
        obtain ⟨_, _, ⟨h, _⟩ | ⟨_, e⟩ | ⟨h, _⟩⟩ := hsh
        · omega
        · have e := congrArg Date.y e
          have : (nextDay x).y = x.y := by
            unfold nextDay
            split
            · rfl
            · rw [if_pos (by rw [hxm]; omega)]
          rw [this, hy] at e
          exact e
        · omega
      obtain ⟨xy, xm, xd⟩ := x
      simp only [DateTime.date] at hy hxm hx1 hx2 hn
      subst hy hxm
      have e : dayNum xy xm (monthLen xy xm) = dayNum xy xm xd + (monthLen xy xm - xd) := by
        unfold dayNum; omega
      rw [← weekday_date, weekday_eq]
      rw [weekday_eq] at hxw
      simp only [DateTime.date] at hxw ⊢
      rw [hty] at hn ⊢
      refine ⟨by omega, by omega, ?_⟩
      omega
    · rintro ⟨a, b, c⟩
      have hl := monthLen_ge t.year m
      have e : ∀ d, dayNum t.year m d = dayNum t.year m (monthLen t.year m) + (d - monthLen t.year m) := by
        intro d; unfold dayNum; omega
      generalize hD : monthLen t.year m + (dayNum t.year t.month t.day - 1 -
        dayNum t.year m (monthLen t.year m)) = D
      have hDn : dayNum t.year m D = dayNum t.year t.month t.day - 1 := by rw [e D]; omega
      have hv : (⟨t.year, m, D⟩ : Date).Valid := ⟨hm.1, hm.2, by simp only; omega, by simp only; omega⟩
      refine ⟨t.year, ⟨t.year, m, D⟩, (last_iff hm).2 ⟨rfl, rfl, by simp only; omega, by simp only; omega, ?_⟩,
        ?_⟩
      · rw [← weekday_date, weekday_eq] at c
        rw [weekday_eq]
        simp only [DateTime.date] at c ⊢
        rw [hDn]; omega
      · rw [shifted_iff hv ht (Or.inr (Or.inr rfl))]
        simp only [DateTime.date]
        rw [hDn]; omega
  have hv : start.date.Valid := by obtain ⟨_, _, _, h⟩ := htr; exact h.2.1
  obtain ⟨hs1, hs2, hsw⟩ := (hiff start hv).1 htr
  refine ⟨_, by
    simp only [ruleParts]
    rw [if_neg (by omega), if_neg (by omega)], ?_⟩
  intro t ht
  rw [hiff t ht.1.1]
  unfold RuleMatch Limits
  have hb := daysBack_eq t.year h2 h11
  have hpos : 0 < (daysBack[m.toNat]?).getD 0 := by
    interval_cases m <;> decide
  generalize (daysBack[m.toNat]?).getD 0 = B at hb hpos
  have hne : ((List.range 7).map fun (i : Nat) => -(B + i)) ≠ [] := by simp
  simp only [List.mem_singleton, exists_eq_left, false_or, true_or, true_and, List.cons_ne_nil, any_iff, hne,
    List.mem_map, List.mem_range]
  constructor
  · rintro ⟨⟨v, ⟨i, hi, rfl⟩, hy⟩, hw, _⟩
    rw [yearDay_neg_iff ht.1.1 (by omega)] at hy
    exact ⟨by omega, by omega, hw⟩
  · rintro ⟨a, b, c⟩
    refine ⟨⟨_, ⟨(dayNum t.year 12 31 - dayNum t.year t.month t.day + 1 - B).toNat, by omega, rfl⟩, ?_⟩, c,
      by simp⟩
    rw [yearDay_neg_iff ht.1.1 (by omega)]
    omega

/-- A change late on a Sunday in UTC is on the Monday in the east. -/
example : TransitionDay 10 (.last 0) 1 (ofDate 2026 10 26) :=
  ⟨2026, ⟨2026, 10, 25⟩, by rw [last_iff (by decide)]; decide +kernel, by decide, by decide,
    Or.inr (Or.inl ⟨rfl, by decide⟩)⟩

/-- C72 (partial): for a rule with a day of the month, the recurrence rule is exact if the day meant and the
local one exist in that month of every year.  Missing: `C72_fails_day`. -/
theorem C72_day_partial (m n s : Int) (start : DateTime) (hs : s = -1 ∨ s = 0 ∨ s = 1)
    (hm : 1 ≤ m ∧ m ≤ 12) (hn1 : 1 ≤ n) (hn : 1 ≤ n + s) (hend : ∀ y, n ≤ monthLen y m ∧ n + s ≤ monthLen y m)
    (htr : TransitionDay m (.day n) s start) :
    ∃ p, ruleParts m start (.day n) = some p ∧
      ∀ t : DateTime, t.Valid → (RuleMatch p start t ↔ TransitionDay m (.day n) s t) := by
  have hiff : ∀ t : DateTime, t.date.Valid → (TransitionDay m (.day n) s t ↔ t.month = m ∧ t.day = n + s) := by
    intro t ht
    have hv : ∀ y, (⟨y, m, n⟩ : Date).Valid := fun y => ⟨hm.1, hm.2, hn1, (hend y).1⟩
    have hv' : ∀ y, (⟨y, m, n + s⟩ : Date).Valid := fun y => ⟨hm.1, hm.2, hn, (hend y).2⟩
    unfold TransitionDay
    constructor
    · rintro ⟨y, x, rfl, hsh⟩
      rw [shifted_iff (hv y) ht hs] at hsh
      have := date_of_dayNum ht (hv' y) (by
        refine Eq.trans hsh ?_
        simp only
        unfold dayNum; omega)
      exact ⟨this.2.1, this.2.2⟩
    · rintro ⟨a, b⟩
      refine ⟨t.year, _, rfl, ?_⟩
      rw [shifted_iff (hv _) ht hs]
      simp only [DateTime.date, a, b]
      unfold dayNum; omega
  have hv : start.date.Valid := by obtain ⟨_, _, _, h⟩ := htr; exact h.2.1
  obtain ⟨_, hsd⟩ := (hiff start hv).1 htr
  refine ⟨{ byMonth := [m] }, rfl, ?_⟩
  intro t ht
  rw [hiff t ht.1.1]
  unfold RuleMatch Limits
  simp [hsd]

example : TransitionDay 4 (.day 1) 0 (ofDate 2026 4 1) :=
  ⟨2026, _, rfl, by decide, by decide, Or.inl ⟨rfl, rfl⟩⟩

/-! ## What fails -/

/-- The recurrence rule for a rule does not match one of the transitions. -/
def Misses (m : Int) (on : On) (on' : OnDay) (s : Int) (start : DateTime) : Prop :=
  TransitionDay m on s start ∧ ∃ p, ruleParts m start on' = some p ∧
    ∃ t : DateTime, t.Valid ∧ TransitionDay m on s t ∧ ¬ RuleMatch p start t

/-- C72 fails: a rule of the form `Sun>=1` whose transitions are on the day before in local time is not
written at all. -/
theorem C72_fails_first (m wd : Int) (start : DateTime) (h0 : 0 ≤ wd) (h1 : wd < 7)
    (h : start.dayOfWeek = (wd - 1) % 7) : ruleParts m start (.next wd 1) = none := by
  simp only [ruleParts]
  unfold onDayDetails
  simp only [ne_eq]
  rw [if_pos (by omega), if_neg (by omega), if_pos (by omega)]
  rfl

/-- C72 fails: the seven days of `Sun>=26` in October end in November, which is not matched (2015). -/
theorem C72_fails_spill : Misses 10 (.atLeast 0 26) (.next 0 26) 0 (ofDate 2014 10 26) :=
  ⟨⟨2014, ⟨2014, 10, 26⟩, ⟨0, by decide +kernel⟩, by decide, by decide, Or.inl ⟨rfl, rfl⟩⟩,
    _, rfl, ofDate 2015 11 1, by decide,
    ⟨2015, ⟨2015, 11, 1⟩, ⟨6, by decide +kernel⟩, by decide, by decide, Or.inl ⟨rfl, rfl⟩⟩, by decide +kernel⟩

/-- C72 fails: in February of a leap year `Sun>=9` is written as the last but two Sunday, which is another one
in 2009. -/
theorem C72_fails_leap : Misses 2 (.atLeast 0 9) (.next 0 9) 0 (ofDate 2004 2 15) :=
  ⟨⟨2004, ⟨2004, 2, 15⟩, ⟨6, by decide +kernel⟩, by decide, by decide, Or.inl ⟨rfl, rfl⟩⟩,
    _, rfl, ofDate 2009 2 15, by decide,
    ⟨2009, ⟨2009, 2, 15⟩, ⟨6, by decide +kernel⟩, by decide, by decide, Or.inl ⟨rfl, rfl⟩⟩, by decide +kernel⟩

/-- C72 fails: the day before the last Sunday in February is not matched in 2032. -/
theorem C72_fails_february : Misses 2 (.last 0) (.last 0) (-1) (ofDate 2026 2 21) :=
  ⟨⟨2026, ⟨2026, 2, 22⟩, by rw [last_iff (by decide)]; decide +kernel, by decide, by decide,
      Or.inr (Or.inr ⟨rfl, by decide⟩)⟩,
    _, rfl, ofDate 2032 2 28, by decide,
    ⟨2032, ⟨2032, 2, 29⟩, by rw [last_iff (by decide)]; decide +kernel, by decide, by decide,
      Or.inr (Or.inr ⟨rfl, by decide⟩)⟩, by decide +kernel⟩

/-- C72 fails: the day after the last Saturday in March is not matched in 2029. -/
theorem C72_fails_saturday : Misses 3 (.last 6) (.last 6) 1 (ofDate 2026 3 29) :=
  ⟨⟨2026, ⟨2026, 3, 28⟩, by rw [last_iff (by decide)]; decide +kernel, by decide, by decide,
      Or.inr (Or.inl ⟨rfl, by decide⟩)⟩,
    _, rfl, ofDate 2029 4 1, by decide,
    ⟨2029, ⟨2029, 3, 31⟩, by rw [last_iff (by decide)]; decide +kernel, by decide, by decide,
      Or.inr (Or.inl ⟨rfl, by decide⟩)⟩, by decide +kernel⟩

/-- C72 fails: the day after the last Sunday in January is not matched in 2032, a leap year. -/
theorem C72_fails_january : Misses 1 (.last 0) (.last 0) 1 (ofDate 2026 1 26) :=
  ⟨⟨2026, ⟨2026, 1, 25⟩, by rw [last_iff (by decide)]; decide +kernel, by decide, by decide,
      Or.inr (Or.inl ⟨rfl, by decide⟩)⟩,
    _, rfl, ofDate 2032 1 26, by decide,
    ⟨2032, ⟨2032, 1, 25⟩, by rw [last_iff (by decide)]; decide +kernel, by decide, by decide,
      Or.inr (Or.inl ⟨rfl, by decide⟩)⟩, by decide +kernel⟩

/-- C72 fails: the day after the last Sunday in December is not matched when it is New Year's Day. -/
theorem C72_fails_december : Misses 12 (.last 0) (.last 0) 1 (ofDate 2026 12 28) :=
  ⟨⟨2026, ⟨2026, 12, 27⟩, by rw [last_iff (by decide)]; decide +kernel, by decide, by decide,
      Or.inr (Or.inl ⟨rfl, by decide⟩)⟩,
    _, rfl, ofDate 2024 1 1, by decide,
    ⟨2023, ⟨2023, 12, 31⟩, by rw [last_iff (by decide)]; decide +kernel, by decide, by decide,
      Or.inr (Or.inl ⟨rfl, by decide⟩)⟩, by decide +kernel⟩

/-- C72 fails: a transition meant for 31 October but on 1 November in local time is put in October. -/
theorem C72_fails_day : Misses 10 (.day 31) (.day 31) 1 (ofDate 2026 11 1) :=
  ⟨⟨2026, _, rfl, by decide, by decide, Or.inr (Or.inl ⟨rfl, by decide⟩)⟩,
    _, rfl, ofDate 2026 11 1, by decide,
    ⟨2026, _, rfl, by decide, by decide, Or.inr (Or.inl ⟨rfl, by decide⟩)⟩, by decide +kernel⟩

end PyCal.Zonal
