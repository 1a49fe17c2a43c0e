import Verif.Props.C69_C71_ZonalRules

/-!
# C75: the end of a zone line
-/

namespace PyCal.Zonal
open Spec DateTime
open Spec.Zic

/-- The texts from which the fields are read. -/
theorem split_last {a c : List Char} (ha : ' ' ∉ a) (hc : Comment c) :
    ∃ ps, splitOn ' ' (a ++ c) = a :: ps ∧ present ps[0]? = none := by
  rcases hc with rfl | ⟨s, rfl⟩
  · exact ⟨[], by rw [List.append_nil, splitOn_none ha], rfl⟩
  · refine ⟨_, splitOn_first ha, ?_⟩
    rw [splitOn, if_neg (by decide)]
    split <;> rfl

theorem present_some {s : List Char} (h : s.head? ≠ some '#') : present (some s) = some s := by
  rw [present.eq_def]
  split
  · rename_i e; injection e with e; rw [e] at h; exact absurd rfl h
  · rfl

theorem decNat_nohash (n : Nat) (s : List Char) : (decNat n ++ s).head? ≠ some '#' := by
  obtain ⟨c, t, h, hc⟩ := decNat_head_digit n
  rw [h]
  intro e
  simp only [List.cons_append, List.head?_cons, Option.some.injEq] at e
  exact digit_ne hc (d := '#') (by decide) e

theorem monthName_facts {m : Nat} (h1 : 1 ≤ m) (h2 : m ≤ 12) :
    ' ' ∉ monthName m ∧ (monthName m).head? ≠ some '#' := by
  interval_cases m <;> decide

theorem onText_facts {d : List Char} {on : On} (h : OnText d on) : ' ' ∉ d ∧ d.head? ≠ some '#' := by
  cases h with
  | last wd h => interval_cases wd <;> decide
  | atLeast wd n h =>
    have := decNat_not_mem n (d := ' ') (by decide)
    interval_cases wd <;> simp [weekdayName, this]
  | atMost wd n h =>
    have := decNat_not_mem n (d := ' ') (by decide)
    interval_cases wd <;> simp [weekdayName, this]
  | day n => exact ⟨decNat_not_mem n (by decide), by have := decNat_nohash n []; simpa using this⟩

theorem letter_facts {mode : List Char} (h : Letter mode) : ' ' ∉ mode ∧ ':' ∉ mode := by
  rcases h with rfl | ⟨c, hc, rfl⟩
  · simp
  · have : c = 'w' ∨ c = 's' ∨ c = 'u' ∨ c = 'g' ∨ c = 'z' := by
      rw [show "wsugz".toList = ['w', 's', 'u', 'g', 'z'] from rfl] at hc
      simpa using hc
    rcases this with e | e | e | e | e <;> subst e <;> decide

theorem atText_facts {t : List Char} {h mi s : Nat} {mode : List Char} (ht : AtText t h mi s mode) :
    ' ' ∉ t ∧ t.head? ≠ some '#' := by
  have hsp : ∀ n, ' ' ∉ decNat n := fun n => decNat_not_mem n (by decide)
  have ht2 : ∀ n, n < 100 → ' ' ∉ twoDigits n := fun n hn e =>
    digit_ne (twoDigits_digits hn _ e) (d := ' ') (by decide) rfl
  cases ht with
  | hours h hl => exact ⟨by simp [hsp, (letter_facts hl).1], decNat_nohash _ _⟩
  | minutes h mi hm hl => exact ⟨by simp [hsp, ht2 mi (by omega), (letter_facts hl).1], decNat_nohash _ _⟩
  | seconds h mi s hm hs hl =>
    exact ⟨by simp [hsp, ht2 mi (by omega), ht2 s (by omega), (letter_facts hl).1], decNat_nohash _ _⟩

/-- The days that are known. -/
def KnownDay (on : On) : Prop :=
  on = .last 0 ∨ on = .last 6 ∨ on = .atLeast 0 1 ∨ on = .atLeast 0 8 ∨ ∃ n, on = .day n

theorem ofDate_timeOK (y m d : Int) : (DateTime.ofDate y m d).TimeOK := by
  refine ⟨?_, ?_, ?_, ?_, ?_, ?_, ?_⟩ <;> simp [DateTime.ofDate]

/-- The last such weekday of the month. -/
theorem until_last {y m wd : Int} (h1 : 1 ≤ m) (h2 : m ≤ 12) (hw1 : 0 ≤ wd) (hw2 : wd < 7) :
    IsDay y m (.last wd) ⟨y, m, ((DateTime.ofDate y m 1).setDayOfWeekInMonth (-1) wd).day⟩ := by
  have hl := monthLen_ge y m
  have h1V : (DateTime.ofDate y m 1).Valid :=
    valid_of_parts ((validYMD_iff _ _ _).2 ⟨h1, h2, by simp [DateTime.ofDate], by simp only [DateTime.ofDate]; omega⟩)
      (ofDate_timeOK _ _ _)
  have hr := (DateTime.ofDate y m 1).monthWeekday_range 1
  have hw := monthWeekday_eq (DateTime.ofDate y m 1)
  have hle := later_eq (DateTime.ofDate y m 1) wd
  have hset := C08_set_neg (DateTime.ofDate y m 1) h1V 1 wd
  have hwk : ∀ d, weekday ⟨y, m, d⟩ = (DateTime.ofDate y m 1).monthWeekday d := fun d => rfl
  have ey : (DateTime.ofDate y m 1).year = y := rfl
  have em : (DateTime.ofDate y m 1).month = m := rfl
  rw [ey, em] at hle hset
  generalize hw1 : (DateTime.ofDate y m 1).monthWeekday 1 = w1 at *
  generalize hML : monthLen y m = L at *
  let D := L - (w1 + L - 1 - wd) % 7
  have hset := hset D (by omega) (by omega) (by omega) (by omega) (by omega)
    (by rw [hw]; omega) (by rw [hle D (by omega) (by omega) (by omega)]; omega)
  rw [hset]
  refine ⟨⟨h1, h2, by simp only; omega, by simp only [hML]; omega⟩, rfl, rfl, ?_, ?_⟩
  · simp only; rw [hwk, hw]; omega
  · intro d hd hd2
    rw [hwk, hw]
    simp only at hd
    omega

/-- The first such weekday on or after a day of the first three weeks. -/
theorem until_next {y m n wd : Int} (h1 : 1 ≤ m) (h2 : m ≤ 12) (hn1 : 1 ≤ n) (hn2 : n ≤ 22) (hw1 : 0 ≤ wd)
    (hw2 : wd < 7) :
    IsDay y m (.atLeast wd n) ⟨y, m, ((DateTime.ofDate y m 1).setNextDayOfWeek n wd).day⟩ := by
  have hl := monthLen_ge y m
  have hex : (⟨y, m, n⟩ : Date).Valid := ⟨h1, h2, hn1, by simp only; omega⟩
  obtain ⟨k, hk, hd, hsk, hwd', hno⟩ := C12_setNextDayOfWeek (DateTime.ofDate y m 1) n wd (ofDate_timeOK _ _ _) hex
    hw1 hw2
  have hin : ∀ j : Nat, j < 7 → iter nextDay j ⟨y, m, n⟩ = ⟨y, m, n + j⟩ := by
    intro j hj
    rcases within_week hex j hj with ⟨e, _⟩ | ⟨_, _, hl'⟩ | ⟨_, _, hl'⟩
    · exact e
    · omega
    · omega
  have hkk := hin k hk
  have hd' : ((DateTime.ofDate y m 1).setNextDayOfWeek n wd).date = ⟨y, m, n + k⟩ := hd.trans hkk
  have hday : ((DateTime.ofDate y m 1).setNextDayOfWeek n wd).day = n + k := congrArg Date.d hd'
  have hyear : ((DateTime.ofDate y m 1).setNextDayOfWeek n wd).year = y := congrArg Date.y hd'
  rw [hday]
  refine ⟨k, hkk.symm, ?_, ?_⟩
  · rw [← hd', weekday_date]
    exact hwd' (by rw [hyear]; exact noSkip_self y)
  · intro j hj
    exact hno (DateTime.ofDate _ _ _) j hj (rfl : (DateTime.ofDate (iter nextDay j ⟨y, m, n⟩).y
        (iter nextDay j ⟨y, m, n⟩).m (iter nextDay j ⟨y, m, n⟩).d).date = _)
      (by simp only [DateTime.ofDate]; rw [hin j (by omega)]; exact noSkip_self y)

/-- The date that a known day means. -/
theorem untilDay_text {y m : Int} {d : List Char} {on : On} (h1 : 1 ≤ m) (h2 : m ≤ 12)
    (hd : OnText d on) (hk : KnownDay on) : ∃ n, untilDay y m d = some n ∧ IsDay y m on ⟨y, m, n⟩ := by
  cases hd with
  | last wd h =>
    have hk' : wd = 0 ∨ wd = 6 := by
      rcases hk with e | e | e | e | ⟨n, e⟩
      · injection e with e; left; exact_mod_cast e
      · injection e with e; right; exact_mod_cast e
      all_goals cases e
    rcases hk' with rfl | rfl
    · exact ⟨_, by unfold untilDay; simp only; rw [if_pos (by decide)]; rfl, until_last h1 h2 (by omega) (by omega)⟩
    · exact ⟨_, by unfold untilDay; simp only; rw [if_neg (by decide), if_pos (by decide)]; rfl,
        until_last h1 h2 (by omega) (by omega)⟩
  | atLeast wd n h =>
    have hk' : wd = 0 ∧ (n = 1 ∨ n = 8) := by
      rcases hk with e | e | e | e | ⟨n, e⟩
      · cases e
      · cases e
      · injection e with e e2; exact ⟨by exact_mod_cast e, Or.inl (by exact_mod_cast e2)⟩
      · injection e with e e2; exact ⟨by exact_mod_cast e, Or.inr (by exact_mod_cast e2)⟩
      · cases e
    rcases hk' with ⟨rfl, rfl | rfl⟩
    · refine ⟨((DateTime.ofDate y m 1).setNextDayOfWeek 1 0).day, ?_, until_next h1 h2 (by omega) (by omega) (by omega) (by omega)⟩
      rw [show weekdayName 0 ++ ">=".toList ++ decNat 1 = "Sun>=1".toList by decide +kernel]
      rfl
    · refine ⟨((DateTime.ofDate y m 1).setNextDayOfWeek 8 0).day, ?_, until_next h1 h2 (by omega) (by omega) (by omega) (by omega)⟩
      rw [show weekdayName 0 ++ ">=".toList ++ decNat 8 = "Sun>=8".toList by decide +kernel]
      rfl
  | atMost wd n h => rcases hk with e | e | e | e | ⟨n, e⟩ <;> injection e
  | day n =>
    refine ⟨n, ?_, rfl⟩
    have hne : ∀ s : List Char, s.all isDigit = false → decNat n ≠ s := by
      intro s hc e
      rw [← e, List.all_eq_true.2 (decNat_all_digits n)] at hc; cases hc
    unfold untilDay
    simp only
    rw [if_neg (hne _ (by decide)), if_neg (hne _ (by decide)), if_neg (hne _ (by decide)), if_neg (hne _ (by decide)),
      pyInt_decNat]

theorem take_twoDigits (n : Nat) (s : List Char) :
    (twoDigits n ++ s).take 2 = twoDigits n ∧ (twoDigits n ++ s).drop 2 = s := ⟨rfl, rfl⟩

theorem untilTime_minutes {h mi : Nat} {mode : List Char} (hm : mi < 60) (hl : ':' ∉ mode) :
    untilTime (decNat h ++ ':' :: (twoDigits mi ++ mode)) = some ((h : Int), (mi : Int), 0, mode) := by
  unfold untilTime
  rw [splitOn_one (decNat_not_mem h (by decide)) (by simp [colon_twoDigits (n := mi) (by omega), hl])]
  simp only [(take_twoDigits mi mode).1, (take_twoDigits mi mode).2, pyInt_decNat, pyInt_twoDigits (n := mi) (by omega)]

theorem untilTime_seconds {h mi s : Nat} (hm : mi < 60) (hs : s < 60) :
    untilTime (decNat h ++ ':' :: (twoDigits mi ++ ':' :: twoDigits s)) = some ((h : Int), (mi : Int), (s : Int), []) := by
  unfold untilTime
  rw [splitOn_first (decNat_not_mem h (by decide)),
    splitOn_one (colon_twoDigits (n := mi) (by omega)) (colon_twoDigits (n := s) (by omega))]
  have e : (twoDigits mi).take 2 = twoDigits mi ∧ (twoDigits mi).drop 2 = [] := ⟨rfl, rfl⟩
  simp only [e.1, e.2, pyInt_decNat, pyInt_twoDigits (n := mi) (by omega), pyInt_twoDigits (n := s) (by omega)]

theorem count_digits {n : Nat} {c : Char} (hc : isDigit c = false) : (decNat n).count c = 0 :=
  List.count_eq_zero.2 (decNat_not_mem n hc)

theorem count_two {n : Nat} (hn : n < 60) {c : Char} (hc : isDigit c = false) : (twoDigits n).count c = 0 :=
  List.count_eq_zero.2 fun e => digit_ne (twoDigits_digits (n := n) (by omega) _ e) hc rfl

/-- What is read of an until field that is not empty and is not a comment. -/
theorem getUntil_form {z : ZoneRule} {y : Nat} {r : List Char} (hz : z.until_ = some (decNat y ++ r)) :
    z.until_ ≠ none ∧ ¬ (decNat y ++ r = [] ∨ (decNat y ++ r).head? = some '#') := by
  refine ⟨by rw [hz]; simp, ?_⟩
  rintro (e | e)
  · exact decNat_ne_nil y (List.append_eq_nil_iff.1 e).1
  · exact decNat_nohash _ _ e

/-- C75 (partial): the end of a zone line is the year, or the beginning of the month of the year, or the day
named, at midnight or at the time written, with its letter; a comment after it is ignored.
Missing: the only days with a weekday that are known are lastSun, lastSat, Sun>=1 and Sun>=8
(`C75_fails_day`); times of hours only (`C75_fails_hours`), and with seconds and a letter (`C75_fails_seconds`)
are not read. -/
theorem C75_until_partial (z : ZoneRule) (u c : List Char) (y m h mi s : Nat) (on : On) (mode : List Char)
    (hu : UntilText u y m on h mi s mode) (hc : Comment c) (hz : z.until_ = some (u ++ c)) (hk : KnownDay on)
    (ht : u.count ' ' = 3 → u.count ':' = 1 ∨ u.count ':' = 2 ∧ mode = []) :
    ∃ t, z.getUntilDate = some t ∧ IsDay y m on t.dt.date ∧ t.dt.hours = h ∧ t.dt.minutes = mi ∧
      t.dt.seconds = s ∧ t.mode = mode ∧ t.dt.dateOnly = false ∧ t.dt.utc = false ∧ t.dt.tzid = none := by
  have hsy : ' ' ∉ decNat y := decNat_not_mem y (by decide)
  cases hu with
  | year =>
    obtain ⟨h1, h2⟩ := getUntil_form hz
    obtain ⟨ps, e1, e2⟩ := split_last hsy hc
    unfold ZoneRule.getUntilDate
    simp only [hz, if_neg h2, e1, List.headD_cons, pyInt_decNat, List.getElem?_cons_succ, e2]
    exact ⟨_, rfl, rfl, rfl, rfl, rfl, rfl, rfl, rfl, rfl⟩
  | month _ _ hm1 hm2 =>
    rw [List.append_assoc] at hz
    obtain ⟨h1, h2⟩ := getUntil_form hz
    obtain ⟨f1, f2⟩ := monthName_facts hm1 hm2
    obtain ⟨ps, e1, e2⟩ := split_last f1 hc
    have e : splitOn ' ' (decNat y ++ (' ' :: monthName m ++ c)) = decNat y :: monthName m :: ps := by
      rw [List.cons_append, splitOn_first hsy, e1]
    unfold ZoneRule.getUntilDate
    simp only [hz, if_neg h2, e, List.headD_cons, pyInt_decNat, List.getElem?_cons_succ, List.getElem?_cons_zero,
      present_some f2, monthPos_name hm1 hm2, e2]
    exact ⟨_, rfl, rfl, rfl, rfl, rfl, rfl, rfl, rfl, rfl⟩
  | day _ _ hm1 hm2 hd =>
    rename_i d
    rw [List.append_assoc] at hz
    obtain ⟨h1, h2⟩ := getUntil_form hz
    obtain ⟨f1, f2⟩ := monthName_facts hm1 hm2
    obtain ⟨g1, g2⟩ := onText_facts hd
    obtain ⟨ps, e1, e2⟩ := split_last g1 hc
    obtain ⟨n, k1, k2⟩ := untilDay_text (y := y) (m := m) (by omega) (by omega) hd hk
    have e : splitOn ' ' (decNat y ++ (' ' :: (monthName m ++ ' ' :: d) ++ c)) = decNat y :: monthName m :: d :: ps := by
      rw [List.cons_append, splitOn_first hsy, List.append_assoc, List.cons_append, splitOn_first f1, e1]
    unfold ZoneRule.getUntilDate
    simp only [hz, if_neg h2, e, List.headD_cons, pyInt_decNat, List.getElem?_cons_succ, List.getElem?_cons_zero,
      present_some f2, monthPos_name hm1 hm2, present_some g2, k1, e2]
    exact ⟨_, rfl, k2, rfl, rfl, rfl, rfl, rfl, rfl, rfl⟩
  | time _ _ hm1 hm2 hd hat =>
    rename_i d t
    rw [List.append_assoc] at hz
    obtain ⟨h1, h2⟩ := getUntil_form hz
    obtain ⟨f1, f2⟩ := monthName_facts hm1 hm2
    obtain ⟨g1, g2⟩ := onText_facts hd
    obtain ⟨t1, t2⟩ := atText_facts hat
    obtain ⟨ps, e1, e2⟩ := split_last t1 hc
    obtain ⟨n, k1, k2⟩ := untilDay_text (y := y) (m := m) (by omega) (by omega) hd hk
    have e : splitOn ' ' (decNat y ++ (' ' :: (monthName m ++ ' ' :: (d ++ ' ' :: t)) ++ c)) =
        decNat y :: monthName m :: d :: t :: ps := by
      rw [List.cons_append, splitOn_first hsy, List.append_assoc, List.cons_append, splitOn_first f1,
        List.append_assoc, List.cons_append, splitOn_first g1, e1]
    have hcd : d.count ':' = 0 := by
      refine List.count_eq_zero.2 ?_
      cases hd with
      | last wd h => interval_cases wd <;> decide
      | atLeast wd n h =>
        have := decNat_not_mem n (d := ':') (by decide)
        interval_cases wd <;> simp [weekdayName, this]
      | atMost wd n h =>
        have := decNat_not_mem n (d := ':') (by decide)
        interval_cases wd <;> simp [weekdayName, this]
      | day n => exact decNat_not_mem n (by decide)
    have hcm : (monthName m).count ':' = 0 := by interval_cases m <;> decide
    have ht := ht (by
      simp [List.count_append, List.count_eq_zero.2 hsy, List.count_eq_zero.2 f1,
        List.count_eq_zero.2 g1, List.count_eq_zero.2 t1])
    have hct : t.count ':' = 1 ∨ t.count ':' = 2 ∧ mode = [] := by
      simpa [List.count_append, List.count_cons, count_digits (c := ':') (by decide), hcd, hcm] using ht
    have hread : untilTime t = some ((h : Int), (mi : Int), (s : Int), mode) := by
      cases hat with
      | hours _ hl =>
        rw [List.count_append, count_digits (by decide), List.count_eq_zero.2 (letter_facts hl).2] at hct
        omega
      | minutes _ _ hm hl => exact untilTime_minutes hm (letter_facts hl).2
      | seconds _ _ _ hm hs hl =>
        have : mode = [] := by
          rw [List.count_append, List.count_cons, List.count_append, List.count_cons, List.count_append,
            count_digits (by decide), count_two hm (by decide), count_two hs (by decide)] at hct
          simp at hct
          exact hct.2
        subst this
        rw [List.append_nil]
        exact untilTime_seconds hm hs
    unfold ZoneRule.getUntilDate
    simp only [hz, if_neg h2, e, List.headD_cons, pyInt_decNat, List.getElem?_cons_succ, List.getElem?_cons_zero,
      present_some f2, monthPos_name hm1 hm2, present_some g2, k1, present_some t2, hread]
    exact ⟨_, rfl, k2, rfl, rfl, rfl, rfl, rfl, rfl, rfl⟩

/-- C75: a line without an end, or with a comment in its place, goes on to the year 9999. -/
theorem C75_open (z : ZoneRule) (h : z.until_ = none ∨ ∃ s, z.until_ = some ('#' :: s)) :
    z.getUntilDate = some ⟨⟨9999, 12, 1, 0, 0, 0, false, false, none⟩, []⟩ := by
  unfold ZoneRule.getUntilDate
  rcases h with h | ⟨s, h⟩ <;> simp [h]

/-- The field read, for what fails. -/
theorem getUntil_none {z : ZoneRule} {y m : Nat} {d r : List Char} {on : On} (hm1 : 1 ≤ m) (hm2 : m ≤ 12)
    (hd : OnText d on) (hz : z.until_ = some (decNat y ++ ' ' :: (monthName m ++ ' ' :: (d ++ r))))
    (hr : untilDay y m d = none ∧ (r = [] ∨ ∃ s, r = ' ' :: s) ∨
      ∃ t, r = ' ' :: t ∧ ' ' ∉ t ∧ t.head? ≠ some '#' ∧ untilTime t = none) : z.getUntilDate = none := by
  obtain ⟨-, h2⟩ := getUntil_form hz
  have hsy : ' ' ∉ decNat y := decNat_not_mem y (by decide)
  obtain ⟨f1, f2⟩ := monthName_facts hm1 hm2
  obtain ⟨g1, g2⟩ := onText_facts hd
  rcases hr with ⟨hn, hr⟩ | ⟨t, rfl, t1, t2, hn⟩
  · have e : ∃ ps, splitOn ' ' (decNat y ++ ' ' :: (monthName m ++ ' ' :: (d ++ r))) =
        decNat y :: monthName m :: d :: ps := by
      rcases hr with rfl | ⟨s, rfl⟩
      · exact ⟨_, by rw [splitOn_first hsy, splitOn_first f1, List.append_nil, splitOn_none g1]⟩
      · exact ⟨_, by rw [splitOn_first hsy, splitOn_first f1, splitOn_first g1]⟩
    obtain ⟨ps, e⟩ := e
    unfold ZoneRule.getUntilDate
    simp only [hz, if_neg h2, e, List.headD_cons, pyInt_decNat, List.getElem?_cons_succ, List.getElem?_cons_zero,
      present_some f2, monthPos_name hm1 hm2, present_some g2, hn]
  · unfold ZoneRule.getUntilDate
    simp only [hz, if_neg h2, splitOn_first hsy, splitOn_first f1, splitOn_first g1, splitOn_none t1, List.headD_cons,
      pyInt_decNat, List.getElem?_cons_succ, List.getElem?_cons_zero,
      present_some f2, monthPos_name hm1 hm2, present_some g2, present_some t2, hn]
    split
    · rfl
    · rfl

theorem decNat_inj {a b : Nat} (h : decNat a = decNat b) : a = b := by
  have := congrArg readNat h
  rwa [readNat_decNat, readNat_decNat] at this

theorem untilDay_unknown {y m : Int} {d : List Char} {on : On} (hd : OnText d on) (hk : ¬ KnownDay on) :
    untilDay y m d = none := by
  have key : d ≠ "lastSun".toList ∧ d ≠ "lastSat".toList ∧ d ≠ "Sun>=1".toList ∧ d ≠ "Sun>=8".toList ∧
      pyInt d = none := by
    cases hd with
    | last wd h =>
      unfold KnownDay at hk
      interval_cases wd
      · exact absurd (Or.inl rfl) hk
      · decide
      · decide
      · decide
      · decide
      · decide
      · exact absurd (Or.inr (Or.inl rfl)) hk
    | atLeast wd n h =>
      obtain ⟨a, b, c, e, -, -, -, hl, h1, h2, h3, h4, -⟩ := weekdayName_facts h
      have e1 : decNat 1 = ['1'] := by decide +kernel
      have e8 : decNat 8 = ['8'] := by decide +kernel
      have hk1 : ∀ k : Nat, (k = 1 ∨ k = 8) → weekdayName wd ++ ">=".toList ++ decNat n ≠ "Sun>=".toList ++ decNat k := by
        intro k hk8 e'
        have hw : wd = 0 := by
          interval_cases wd <;> first | rfl | (exfalso; revert e'; simp [weekdayName])
        subst hw
        have : decNat n = decNat k := by simpa [weekdayName] using e'
        have := decNat_inj this
        subst this
        apply hk
        rcases hk8 with rfl | rfl
        · exact Or.inr (Or.inr (Or.inl rfl))
        · exact Or.inr (Or.inr (Or.inr (Or.inl rfl)))
      have t1 := hk1 1 (Or.inl rfl)
      have t8 := hk1 8 (Or.inr rfl)
      rw [e1] at t1
      rw [e8] at t8
      rw [e] at t1 t8 ⊢
      refine ⟨?_, ?_, t1, t8, pyInt_bad (c := a) (by simp) h1 h2 h3 h4⟩
      · intro e'; injection e' with e' _; exact hl e'
      · intro e'; injection e' with e' _; exact hl e'
    | atMost wd n h =>
      obtain ⟨a, b, c, e, -, -, -, hl, h1, h2, h3, h4, -⟩ := weekdayName_facts h
      rw [e]
      refine ⟨?_, ?_, ?_, ?_, pyInt_bad (c := a) (by simp) h1 h2 h3 h4⟩
      · intro e'; injection e' with e' _; exact hl e'
      · intro e'; injection e' with e' _; exact hl e'
      · intro e'; simp at e'
      · intro e'; simp at e'
    | day n => exact absurd (Or.inr (Or.inr (Or.inr (Or.inr ⟨n, rfl⟩)))) hk
  unfold untilDay
  simp only
  rw [if_neg key.1, if_neg key.2.1, if_neg key.2.2.1, if_neg key.2.2.2.1, key.2.2.2.2]

/-- C75 fails for every other day with a weekday (`Fri>=1`, `lastFri`, `Sun<=25`): the line is not read. -/
theorem C75_fails_day (z : ZoneRule) (y m : Nat) (d r : List Char) (on : On) (hm1 : 1 ≤ m) (hm2 : m ≤ 12)
    (hd : OnText d on) (hk : ¬ KnownDay on) (hr : r = [] ∨ ∃ s, r = ' ' :: s)
    (hz : z.until_ = some (decNat y ++ ' ' :: (monthName m ++ ' ' :: (d ++ r)))) : z.getUntilDate = none :=
  getUntil_none hm1 hm2 hd hz (Or.inl ⟨untilDay_unknown hd hk, hr⟩)

/-- C75 fails for a time of whole hours: the line is not read. -/
theorem C75_fails_hours (z : ZoneRule) (y m h : Nat) (d mode : List Char) (on : On) (hm1 : 1 ≤ m) (hm2 : m ≤ 12)
    (hd : OnText d on) (hl : Letter mode)
    (hz : z.until_ = some (decNat y ++ ' ' :: (monthName m ++ ' ' :: (d ++ ' ' :: (decNat h ++ mode))))) :
    z.getUntilDate = none := by
  obtain ⟨t1, t2⟩ := atText_facts (AtText.hours h hl)
  refine getUntil_none hm1 hm2 hd hz (Or.inr ⟨_, rfl, t1, t2, ?_⟩)
  unfold untilTime
  rw [splitOn_none (by simp [decNat_not_mem h (d := ':') (by decide), (letter_facts hl).2])]

/-- C75 fails for a time with seconds and a letter: the line is not read. -/
theorem C75_fails_seconds (z : ZoneRule) (y m h mi s : Nat) (d : List Char) (l : Char) (on : On) (hm1 : 1 ≤ m)
    (hm2 : m ≤ 12) (hd : OnText d on) (hmi : mi < 60) (hs : s < 60) (hl : l ∈ "wsugz".toList)
    (hz : z.until_ = some (decNat y ++ ' ' :: (monthName m ++ ' ' ::
      (d ++ ' ' :: (decNat h ++ ':' :: (twoDigits mi ++ ':' :: (twoDigits s ++ [l]))))))) :
    z.getUntilDate = none := by
  have hlet : Letter [l] := Or.inr ⟨l, hl, rfl⟩
  obtain ⟨t1, t2⟩ := atText_facts (AtText.seconds h mi s hmi hs hlet)
  refine getUntil_none hm1 hm2 hd hz (Or.inr ⟨_, rfl, t1, t2, ?_⟩)
  have hcs : isSpace l = false ∧ l ≠ '-' ∧ l ≠ '+' ∧ isDigit l = false := by
    rw [show "wsugz".toList = ['w', 's', 'u', 'g', 'z'] from rfl] at hl
    have : l = 'w' ∨ l = 's' ∨ l = 'u' ∨ l = 'g' ∨ l = 'z' := by simpa using hl
    rcases this with e | e | e | e | e <;> subst e <;> decide
  have hb : ':' ∉ twoDigits s ++ [l] := by
    have := (letter_facts hlet).2
    have h2 := colon_twoDigits (n := s) (by omega)
    simp only [List.mem_append, not_or]; exact ⟨h2, this⟩
  unfold untilTime
  rw [splitOn_first (decNat_not_mem h (by decide)), splitOn_one (colon_twoDigits (n := mi) (by omega)) hb]
  simp only
  rw [pyInt_bad (c := l) (s := twoDigits s ++ [l]) (by simp) hcs.1 hcs.2.1 hcs.2.2.1 hcs.2.2.2]
  split
  · rename_i h; cases h
  · rfl

/-! Cases. -/

example : UntilText "1947 Apr lastSun 2:00s".toList 1947 4 (.last 0) 2 0 0 ['s'] := by
  have := UntilText.time 1947 4 (d := "lastSun".toList) (on := .last 0) (t := "2:00s".toList) (by omega) (by omega)
    (OnText.last 0 (by omega)) (by
      have := AtText.minutes 2 0 (mode := ['s']) (by omega) (Or.inr ⟨'s', by decide, rfl⟩)
      rwa [show decNat 2 ++ ':' :: (twoDigits 0 ++ ['s']) = "2:00s".toList by decide +kernel] at this)
  rwa [show decNat 1947 ++ ' ' :: (monthName 4 ++ ' ' :: ("lastSun".toList ++ ' ' :: "2:00s".toList)) =
    "1947 Apr lastSun 2:00s".toList by decide +kernel] at this

example : (⟨"0:00".toList, "-".toList, "X".toList, some "1947 Apr lastSun 2:00s # note".toList⟩ : ZoneRule).getUntilDate =
    some ⟨⟨1947, 4, 27, 2, 0, 0, false, false, none⟩, ['s']⟩ := by decide +kernel

example : OnText "Fri>=1".toList (.atLeast 5 1) ∧ ¬ KnownDay (.atLeast 5 1) := by
  constructor
  · have := OnText.atLeast 5 1 (by omega)
    rwa [show weekdayName 5 ++ ">=".toList ++ decNat 1 = "Fri>=1".toList by decide +kernel] at this
  · rintro (e | e | e | e | ⟨n, e⟩) <;> revert e <;> simp

end PyCal.Zonal
