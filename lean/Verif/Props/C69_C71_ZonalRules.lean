import Verif.Model.ZonalZone
import Verif.Spec.Zic
import Verif.Props.C06_C09_SetDay
import Verif.Props.C25_C26_DateTimeText
import Mathlib.Tactic.IntervalCases

/-!
# C69-C71: rules of the time zone data

C69: the date and time of a rule in a year.  C70: offsets.  C71: the years a rule is expanded for.
-/

namespace PyCal.Zonal
open Spec DateTime
open Spec.Zic (On OnText IsDay weekdayName monthName twoDigits weekday Amount signText signed)

/-! ## Reading the fields -/

theorem splitOn_none {c : Char} : ∀ {s : List Char}, c ∉ s → splitOn c s = [s]
  | [], _ => rfl
  | x :: s, h => by
    have hx : x ≠ c := fun e => h (by simp [e])
    have ih := splitOn_none (c := c) (s := s) (fun e => h (by simp [e]))
    rw [splitOn, if_neg hx, ih]

theorem splitOn_one {c : Char} : ∀ {a b : List Char}, c ∉ a → c ∉ b → splitOn c (a ++ c :: b) = [a, b]
  | [], b, _, h => by simp [splitOn, splitOn_none h]
  | x :: a, b, h, h' => by
    have hx : x ≠ c := fun e => h (by simp [e])
    have ih := splitOn_one (c := c) (a := a) (b := b) (fun e => h (by simp [e])) h'
    rw [List.cons_append, splitOn, if_neg hx, ih]

theorem splitGe_none : ∀ {s : List Char}, '>' ∉ s → splitGe s = [s]
  | [], _ => rfl
  | c :: s, h => by
    have hx : c ≠ '>' := fun e => h (by simp [e])
    have ih := splitGe_none (s := s) (fun e => h (by simp [e]))
    rw [splitGe, ih]
    intro r e; exact absurd e hx

theorem digit_ne {c d : Char} (h : isDigit c = true) (hd : isDigit d = false) : c ≠ d := by
  intro e; rw [e, hd] at h; cases h

theorem decNat_not_mem (n : Nat) {d : Char} (hd : isDigit d = false) : d ∉ decNat n :=
  fun h => digit_ne (decNat_all_digits n d h) hd rfl

theorem pyInt_decNat (n : Nat) : pyInt (decNat n) = some (n : Int) := by
  rw [pyInt_digits (decNat_ne_nil n) (decNat_all_digits n), readNat_decNat]

theorem lastDayPos_decNat (n : Nat) : lastDayPos (decNat n) = none := by
  obtain ⟨c, s, h, hc⟩ := decNat_head_digit n
  rw [h, lastDayPos.eq_def]
  split
  · rename_i e; injection e with e _; subst e; exact absurd hc (by decide)
  · rfl

theorem monthPos_name {m : Nat} (h1 : 1 ≤ m) (h2 : m ≤ 12) : monthPos (monthName m) = some (m : Int) := by
  interval_cases m <;> decide

/-- The day field, as it is read. -/
def ofOn : On → Option OnDay
  | .last wd => some (.last wd)
  | .atLeast wd n => some (.next wd n)
  | .atMost _ _ => none
  | .day n => some (.day n)

theorem weekdayName_facts {wd : Nat} (h : wd < 7) : ∃ a b c : Char, weekdayName wd = [a, b, c] ∧
    a ≠ '>' ∧ b ≠ '>' ∧ c ≠ '>' ∧ a ≠ 'l' ∧ isSpace a = false ∧ a ≠ '-' ∧ a ≠ '+' ∧ isDigit a = false ∧
    dayPos [a, b, c] = some (wd : Int) := by
  interval_cases wd
  · exact ⟨'S', 'u', 'n', by decide⟩
  · exact ⟨'M', 'o', 'n', by decide⟩
  · exact ⟨'T', 'u', 'e', by decide⟩
  · exact ⟨'W', 'e', 'd', by decide⟩
  · exact ⟨'T', 'h', 'u', by decide⟩
  · exact ⟨'F', 'r', 'i', by decide⟩
  · exact ⟨'S', 'a', 't', by decide⟩

theorem mem_dropWhile {p : Char → Bool} {c : Char} (hc : p c = false) :
    ∀ {s : List Char}, c ∈ s → c ∈ s.dropWhile p
  | x :: s, h => by
    rw [List.dropWhile_cons]
    split
    · rename_i hx
      rcases List.mem_cons.1 h with e | e
      · subst e; rw [hc] at hx; cases hx
      · exact mem_dropWhile hc e
    · exact h

theorem mem_strip {c : Char} {s : List Char} (hc : isSpace c = false) (h : c ∈ s) : c ∈ strip s := by
  unfold strip
  rw [List.mem_reverse]
  exact mem_dropWhile hc (List.mem_reverse.2 (mem_dropWhile hc h))

theorem readDigits_bad {c : Char} {s : List Char} (hd : isDigit c = false) (h : c ∈ s) :
    readDigits s = none := by
  unfold readDigits
  rw [if_neg]
  rintro ⟨_, ha⟩
  rw [List.all_eq_true] at ha
  rw [ha c h] at hd; cases hd

/-- A number contains only digits, a sign and spaces. -/
theorem pyInt_bad {c : Char} {s : List Char} (h : c ∈ s) (h1 : isSpace c = false) (h2 : c ≠ '-')
    (h3 : c ≠ '+') (h4 : isDigit c = false) : pyInt s = none := by
  have hm := mem_strip h1 h
  unfold pyInt
  split
  · rename_i ds e
    rw [e] at hm
    rw [readDigits_bad h4 (by simpa [h2] using hm)]; rfl
  · rename_i ds e
    rw [e] at hm
    rw [readDigits_bad h4 (by simpa [h3] using hm)]; rfl
  · rw [readDigits_bad h4 hm]; rfl

theorem lastDayPos_other {a : Char} {s : List Char} (h : a ≠ 'l') : lastDayPos (a :: s) = none := by
  rw [lastDayPos.eq_def]
  split
  · rename_i e; injection e with e _; exact absurd e h
  · rfl

theorem splitGe_cons {c : Char} {s p : List Char} {ps : List (List Char)} (h : c ≠ '>')
    (hs : splitGe s = p :: ps) : splitGe (c :: s) = (c :: p) :: ps := by
  rw [splitGe, hs]
  intro r e; exact absurd e h

theorem readOnDay_text {s : List Char} {on : On} (h : OnText s on) : readOnDay s = ofOn on := by
  cases h with
  | last wd h => interval_cases wd <;> decide
  | atLeast wd n h =>
    obtain ⟨a, b, c, e, ha, hb, hc, hl, -, -, -, -, hp⟩ := weekdayName_facts h
    have hd := splitGe_none (decNat_not_mem n (d := '>') (by decide))
    have e2 : (weekdayName wd ++ ">=".toList ++ decNat n) = a :: b :: c :: '>' :: '=' :: decNat n := by
      rw [e]; rfl
    have h4 : splitGe ('>' :: '=' :: decNat n) = [[], decNat n] := by rw [splitGe, hd]
    rw [e2, readOnDay, lastDayPos_other hl, splitGe_cons ha (splitGe_cons hb (splitGe_cons hc h4))]
    simp only [hp, pyInt_decNat, ofOn]
  | atMost wd n h =>
    obtain ⟨a, b, c, e, ha, hb, hc, hl, h1, h2, h3, h4, -⟩ := weekdayName_facts h
    have e2 : (weekdayName wd ++ "<=".toList ++ decNat n) = a :: b :: c :: '<' :: '=' :: decNat n := by
      rw [e]; rfl
    have hg : splitGe (a :: b :: c :: '<' :: '=' :: decNat n) = [a :: b :: c :: '<' :: '=' :: decNat n] := by
      refine splitGe_none ?_
      have := decNat_not_mem n (d := '>') (by decide)
      simp [ha.symm, hb.symm, hc.symm, this]
    rw [e2, readOnDay, lastDayPos_other hl, hg, pyInt_bad (c := a) (by simp) h1 h2 h3 h4]
    rfl
  | day n =>
    rw [readOnDay, lastDayPos_decNat, splitGe_none (decNat_not_mem n (by decide)), pyInt_decNat]
    rfl

theorem twoDigits_digits {n : Nat} (h : n < 100) : ∀ c ∈ twoDigits n, isDigit c = true := d2_digits h

theorem pyInt_twoDigits {n : Nat} (h : n < 100) : pyInt (twoDigits n) = some (n : Int) := pyInt_d2 h

theorem readAt_text {h mi : Nat} {mode : List Char} (hmi : mi < 100) (hmode : ':' ∉ mode) :
    readAt (decNat h ++ ':' :: (twoDigits mi ++ mode)) = some ((h : Int), (mi : Int), mode) := by
  have hd : ':' ∉ twoDigits mi := fun e => digit_ne (twoDigits_digits hmi _ e) (d := ':') (by decide) rfl
  have hlen : (twoDigits mi).length = 2 := rfl
  unfold readAt
  rw [splitOn_one (decNat_not_mem h (by decide)) (by simp [hd, hmode])]
  simp only [pyInt_decNat, List.length_append, hlen]
  cases mode with
  | nil => simp [pyInt_twoDigits hmi]
  | cons x mode =>
    rw [if_pos (by simp only [List.length_cons]; omega), List.take_append_of_le_length (by rw [hlen]),
      List.drop_append_of_le_length (by rw [hlen]), List.take_of_length_le (by rw [hlen]),
      List.drop_of_length_le (by rw [hlen]), pyInt_twoDigits hmi]
    rfl

/-! ## C69 -/

theorem weekday_date (t : DateTime) : weekday t.date = t.dayOfWeek := by
  unfold weekday
  rw [dayOfWeek_eq, dayOfWeek_eq]
  rfl

/-- The days of the rule that are written with a number exist in the month. -/
def Exists (y m : Int) : On → Prop
  | .last _ => True
  | .atLeast _ n => (⟨y, m, n⟩ : Date).Valid
  | .atMost _ n => (⟨y, m, n⟩ : Date).Valid
  | .day n => (⟨y, m, n⟩ : Date).Valid

theorem monthLen_ge (y m : Int) : 28 ≤ monthLen y m := by
  unfold monthLen; split
  · split <;> omega
  · split <;> omega

theorem iter_succ_out {α : Type _} (f : α → α) : ∀ (n : Nat) (x : α), iter f (n + 1) x = f (iter f n x)
  | 0, _ => rfl
  | n + 1, x => by rw [iter, iter_succ_out f n (f x)]; rfl

/-- The dates within a week of a day. -/
theorem within_week {y m n : Int} (h : (⟨y, m, n⟩ : Date).Valid) : ∀ j : Nat, j < 7 →
    iter nextDay j ⟨y, m, n⟩ = ⟨y, m, n + j⟩ ∧ n + j ≤ monthLen y m ∨
    m < 12 ∧ iter nextDay j ⟨y, m, n⟩ = ⟨y, m + 1, n + j - monthLen y m⟩ ∧ monthLen y m < n + j ∨
    m = 12 ∧ iter nextDay j ⟨y, m, n⟩ = ⟨y + 1, 1, n + j - monthLen y m⟩ ∧ monthLen y m < n + j
  | 0, _ => Or.inl ⟨by simp [iter], by have := h.2.2.2; simp at this ⊢; omega⟩
  | j + 1, hj => by
    obtain ⟨h1, h2, h3, h4⟩ := h
    simp only at h1 h2 h3 h4
    rw [iter_succ_out]
    rcases within_week ⟨h1, h2, h3, h4⟩ j (by omega) with ⟨e, hl⟩ | ⟨hm, e, hl⟩ | ⟨hm, e, hl⟩
    · rw [e]
      unfold nextDay
      simp only
      by_cases hlt : n + j < monthLen y m
      · rw [if_pos hlt]; left; push_cast; exact ⟨by rw [add_assoc], by omega⟩
      · rw [if_neg hlt]
        by_cases hm : m < 12
        · right; left; rw [if_pos hm]; push_cast
          exact ⟨hm, by congr 1; omega, by omega⟩
        · right; right; rw [if_neg hm]; push_cast
          exact ⟨by omega, by congr 1; omega, by omega⟩
    · right; left
      have := monthLen_ge y (m + 1)
      rw [e]; unfold nextDay; simp only
      rw [if_pos (by omega)]; push_cast
      exact ⟨hm, by congr 1; omega, by omega⟩
    · right; right
      have := monthLen_ge (y + 1) 1
      rw [e]; unfold nextDay; simp only
      rw [if_pos (by omega)]; push_cast
      exact ⟨hm, by congr 1; omega, by omega⟩

/-- The year of a date less than a week after a day of this year. -/
theorem year_within_week {y m n : Int} (h : (⟨y, m, n⟩ : Date).Valid) {j : Nat} (hj : j < 7) :
    (iter nextDay j ⟨y, m, n⟩).y = y ∨ (iter nextDay j ⟨y, m, n⟩).y = y + 1 ∧ m = 12 := by
  rcases within_week h j hj with ⟨e, _⟩ | ⟨_, e, _⟩ | ⟨hm, e, _⟩ <;> rw [e] <;> simp [*]

theorem noSkip_self (y : Int) : NoSkip y y := by intro z hz; omega

theorem noSkip_succ {y : Int} (h : ¬ SkippedCentury y) : NoSkip y (y + 1) := by
  intro z hz
  have : z = y := by omega
  rw [this]; exact h

/-- C69 (partial): for a rule with a day written as the last weekday of the month, as the first such
weekday on or after a day, or as a day, and a time of hours and minutes before midnight,
`datetimeForYear` gives the day that the rule means, that time, and the letters after the time.
Missing: days of the form `Sun<=25` (`C69_fails_atMost`), the time 24:00 (`C69_fails_midnight`), times
without minutes but with a letter (`C69_fails_hours`) or with seconds (`C69_fails_seconds`), and a day
of the next year in the years 1800, 1900, 2100, ... -/
theorem C69_date_partial (r : TzRule) (y : Int) (m h mi : Nat) (on : On) (mode : List Char)
    (hm1 : 1 ≤ m) (hm2 : m ≤ 12) (hmon : r.inMonth = monthName m) (hon : OnText r.onDay on)
    (hat : r.atTime = decNat h ++ ':' :: (twoDigits mi ++ mode)) (hmode : ':' ∉ mode)
    (hh : h < 24) (hmi : mi < 60) (hex : Exists y m on) (hbef : ∀ wd n, on ≠ .atMost wd n)
    (hc : m = 12 → ¬ SkippedCentury y) :
    ∃ t : DateTime, r.datetimeForYear y = some (t, mode) ∧ IsDay y m on t.date ∧
      t.hours = h ∧ t.minutes = mi ∧ t.seconds = 0 ∧ t.Valid ∧ t.utc = false ∧ t.tzid = none := by
  have hms : monthStart y m h mi =
      { year := y, month := m, day := 1, hours := h, minutes := mi, seconds := 0 } := by
    unfold monthStart; rw [if_neg (by omega)]
  have hT : ∀ d : Int, ({ year := y, month := m, day := d, hours := h, minutes := mi, seconds := 0 } :
      DateTime).TimeOK := by
    intro d; refine ⟨?_, ?_, ?_, ?_, ?_, ?_, ?_⟩ <;> simp <;> omega
  have hV : ∀ d : Int, (⟨y, m, d⟩ : Date).Valid →
      ({ year := y, month := m, day := d, hours := h, minutes := mi, seconds := 0 } : DateTime).Valid := by
    intro d hd
    exact valid_of_parts ((validYMD_iff _ _ _).2 hd) (hT d)
  unfold TzRule.datetimeForYear
  rw [hmon, monthPos_name hm1 hm2, hat, readAt_text (by omega) hmode, readOnDay_text hon]
  generalize r.onDay = s at hon
  cases hon with
  | last wd hwd =>
    have h1V := hV 1 ⟨by simp; omega, by simp; omega, by simp, by
      have := monthLen_ge y m; simp only; omega⟩
    have hr := ({ year := y, month := m, day := 1, hours := h, minutes := mi, seconds := 0 } :
      DateTime).monthWeekday_range 1
    have hl := monthLen_ge y m
    have hw := monthWeekday_eq { year := y, month := m, day := 1, hours := h, minutes := mi, seconds := 0 }
    have hle := later_eq { year := y, month := m, day := 1, hours := h, minutes := mi, seconds := 0 } wd
    have hset := C08_set_neg { year := y, month := m, day := 1, hours := h, minutes := mi, seconds := 0 }
      h1V 1 wd
    generalize hw1 : ({ year := y, month := m, day := 1, hours := h, minutes := mi, seconds := 0 } :
      DateTime).monthWeekday 1 = w1 at *
    simp only at hle hset
    generalize hML : monthLen y m = L at *
    let D := L - (w1 + L - 1 - wd) % 7
    have hset := hset D (by omega) (by omega) (by omega) (by omega) (by omega)
      (by rw [hw]; omega) (by rw [hle D (by omega) (by omega) (by omega)]; omega)
    simp only [ofOn, setOnDay, hms, hset]
    have hDV : (⟨y, m, D⟩ : Date).Valid := ⟨by simp; omega, by simp; omega, by simp; omega, by
      simp only [hML]; omega⟩
    have hwk : ∀ d, weekday ⟨y, m, d⟩ = (w1 + (d - 1)) % 7 := by
      intro d
      rw [← hw d]
      exact weekday_date { year := y, month := m, day := d, hours := h, minutes := mi, seconds := 0 }
    refine ⟨_, rfl, ⟨hDV, rfl, rfl, ?_, ?_⟩, rfl, rfl, rfl, hV D hDV, rfl, rfl⟩
    · simp only [DateTime.date]; rw [hwk]; omega
    · intro d hd hd2
      rw [hwk]
      simp only [DateTime.date] at hd
      omega
  | atLeast wd n hwd =>
    simp only [ofOn, setOnDay, hms]
    obtain ⟨k, hk, hd, hsk, hwd', hno⟩ := C12_setNextDayOfWeek
      { year := y, month := m, day := 1, hours := h, minutes := mi, seconds := 0 } n wd (hT 1) hex
      (by omega) (by omega)
    have hy : ∀ j : Nat, j < 7 → NoSkip y (iter nextDay j ⟨y, m, n⟩).y := by
      intro j hj
      rcases year_within_week hex hj with e | ⟨e, e2⟩
      · rw [e]; exact noSkip_self y
      · rw [e]; exact noSkip_succ (hc (by omega))
    generalize ht : ({ year := y, month := m, day := 1, hours := h, minutes := mi, seconds := 0 } :
      DateTime).setNextDayOfWeek n wd = t at *
    have htime : t.hours = h ∧ t.minutes = mi ∧ t.seconds = 0 ∧ t.utc = false ∧ t.tzid = none := by
      rw [← ht]
      unfold setNextDayOfWeek
      simp only
      rw [normalise_eq (by exact hT _)]
      simp
    refine ⟨t, rfl, ⟨k, hd, ?_, ?_⟩, htime.1, htime.2.1, htime.2.2.1, ?_, htime.2.2.2⟩
    · rw [weekday_date]
      refine hwd' ?_
      have := hy k hk
      rw [← hd] at this
      exact this
    · intro j hj
      have := hno (DateTime.ofDate _ _ _) j hj (rfl : (DateTime.ofDate (iter nextDay j ⟨y, m, n⟩).y
        (iter nextDay j ⟨y, m, n⟩).m (iter nextDay j ⟨y, m, n⟩).d).date = _)
      exact this (hy j (by omega))
    · rw [← ht]; exact normalise_valid _
  | atMost wd n hwd => exact absurd rfl (hbef _ _)
  | day n =>
    simp only [ofOn, setOnDay, hms]
    exact ⟨_, rfl, rfl, rfl, rfl, rfl, hV n hex, rfl, rfl⟩

/-- The EU rule: 01:00 UTC on the last Sunday in October. -/
def euRule : TzRule := ⟨"EU".toList, "1996".toList, "max".toList, "-".toList, "Oct".toList,
  "lastSun".toList, "1:00u".toList, "0".toList, "-".toList⟩

example : monthName 10 = euRule.inMonth ∧ decNat 1 ++ ':' :: (twoDigits 0 ++ ['u']) = euRule.atTime ∧
    euRule.datetimeForYear 2026 =
      some ({ year := 2026, month := 10, day := 25, hours := 1, minutes := 0, seconds := 0 }, ['u']) := by
  decide +kernel

example : OnText euRule.onDay (.last 0) := OnText.last 0 (by decide)

/-- C69 fails: a rule with a day of the form `Sun<=25` is not read. -/
theorem C69_fails_atMost (r : TzRule) (y : Int) (wd n : Nat) (hwd : wd < 7)
    (h : r.onDay = weekdayName wd ++ "<=".toList ++ decNat n) : r.datetimeForYear y = none := by
  unfold TzRule.datetimeForYear
  rw [h, readOnDay_text (OnText.atMost wd n hwd)]
  simp only [ofOn]
  split
  · rename_i h; cases h
  · rfl

/-- C69 fails: the time 24:00 becomes one second before midnight. -/
theorem C69_fails_midnight (r : TzRule) (y : Int) (m n : Nat) (mode : List Char)
    (hm1 : 1 ≤ m) (hm2 : m ≤ 12) (hmon : r.inMonth = monthName m) (hon : r.onDay = decNat n)
    (hat : r.atTime = "24:00".toList ++ mode) (hmode : ':' ∉ mode) :
    r.datetimeForYear y =
      some ({ year := y, month := m, day := n, hours := 23, minutes := 59, seconds := 59 }, mode) := by
  have e : "24:00".toList ++ mode = decNat 24 ++ ':' :: (twoDigits 0 ++ mode) := by
    rw [show decNat 24 = ['2', '4'] by decide +kernel]; rfl
  unfold TzRule.datetimeForYear
  rw [hmon, monthPos_name hm1 hm2, hat, e, readAt_text (by omega) hmode, hon, readOnDay_text (OnText.day n)]
  rfl

theorem datetimeForYear_none {r : TzRule} {y : Int} (h : readAt r.atTime = none) :
    r.datetimeForYear y = none := by
  unfold TzRule.datetimeForYear
  rw [h]
  cases monthPos r.inMonth <;> rfl

/-- C69 fails: a time of whole hours with a letter is not read. -/
theorem C69_fails_hours (r : TzRule) (y : Int) (h : Nat) (c : Char) (hc : c = 'u' ∨ c = 's' ∨ c = 'w' ∨ c = 'g' ∨ c = 'z')
    (hat : r.atTime = decNat h ++ [c]) : r.datetimeForYear y = none := by
  have hcs : c ≠ ':' ∧ isSpace c = false ∧ c ≠ '-' ∧ c ≠ '+' ∧ isDigit c = false := by
    rcases hc with e | e | e | e | e <;> subst e <;> decide
  have hra : readAt r.atTime = none := by
    unfold readAt
    rw [hat, splitOn_none (by have := decNat_not_mem h (d := ':') (by decide); simp [this, hcs.1.symm])]
    simp only
    rw [pyInt_bad (c := c) (by simp) hcs.2.1 hcs.2.2.1 hcs.2.2.2.1 hcs.2.2.2.2]
    rfl
  exact datetimeForYear_none hra

/-- C69 fails: a time with seconds is not read. -/
theorem C69_fails_seconds (r : TzRule) (y : Int) (a b c : List Char)
    (hat : r.atTime = a ++ ':' :: (b ++ ':' :: c)) (ha : ':' ∉ a) (hb : ':' ∉ b) :
    r.datetimeForYear y = none := by
  have hra : readAt r.atTime = none := by
    have h1 : ∀ {a s : List Char}, ':' ∉ a → splitOn ':' (a ++ ':' :: s) = a :: splitOn ':' s := by
      intro a
      induction a with
      | nil => intro s _; simp [splitOn]
      | cons x a ih =>
        intro s h
        rw [List.cons_append, splitOn, if_neg (fun e => h (by simp [e])), ih (fun e => h (by simp [e]))]
    unfold readAt
    rw [hat, h1 ha, h1 hb]
    cases hs : splitOn ':' c with
    | nil =>
      cases c with
      | nil => simp [splitOn] at hs
      | cons x c =>
        rw [splitOn] at hs
        split at hs
        · cases hs
        · split at hs <;> cases hs
    | cons p ps => rfl
  exact datetimeForYear_none hra

/-! ## C70 -/

theorem pyInt_minus (h : Nat) : pyInt ('-' :: decNat h) = some (-(h : Int)) := by
  have hs : strip ('-' :: decNat h) = '-' :: decNat h := by
    have hd : ∀ c ∈ '-' :: decNat h, isSpace c = false := by
      intro c hc
      rcases List.mem_cons.1 hc with e | e
      · subst e; decide
      · exact isSpace_digit (decNat_all_digits h c e)
    have drop : ∀ l : List Char, (∀ c ∈ l, isSpace c = false) → l.dropWhile isSpace = l := by
      intro l hl
      cases l with
      | nil => rfl
      | cons x l => rw [List.dropWhile_cons, hl x (by simp)]; simp
    unfold strip
    rw [drop _ hd, drop _ (fun c hc => hd c (List.mem_reverse.1 hc)), List.reverse_reverse]
  unfold pyInt
  rw [hs]
  simp only
  unfold readDigits
  rw [if_pos ⟨decNat_ne_nil h, List.all_eq_true.2 (decNat_all_digits h)⟩, readNat_decNat]
  rfl

theorem colon_twoDigits {n : Nat} (h : n < 100) : ':' ∉ twoDigits n :=
  fun e => digit_ne (twoDigits_digits h _ e) (d := ':') (by decide) rfl

theorem colon_signed (neg : Bool) (h : Nat) : ':' ∉ signText neg ++ decNat h := by
  have := decNat_not_mem h (d := ':') (by decide)
  cases neg <;> simp [signText, this]

theorem splitOn_first {c : Char} : ∀ {a s : List Char}, c ∉ a → splitOn c (a ++ c :: s) = a :: splitOn c s
  | [], s, _ => by simp [splitOn]
  | x :: a, s, h => by
    rw [List.cons_append, splitOn, if_neg (fun e => h (by simp [e])),
      splitOn_first (fun e => h (by simp [e]))]

/-- The parts of an amount. -/
theorem amount_parts {s : List Char} {n : Int} (h : Amount s n) : ∃ (neg : Bool) (hh mi ss : Nat)
    (rest : List (List Char)) (t : List Char), splitOn ':' s = (signText neg ++ decNat hh) :: rest ∧
      s = signText neg ++ decNat hh ++ t ∧
      n = signed neg (3600 * hh + 60 * mi + ss) ∧ mi < 60 ∧ ss < 60 ∧
      (rest = [] ∧ mi = 0 ∧ ss = 0 ∨ rest = [twoDigits mi] ∧ ss = 0 ∨ rest = [twoDigits mi, twoDigits ss]) := by
  cases h with
  | hours neg h =>
    exact ⟨neg, h, 0, 0, [], [], splitOn_none (colon_signed neg h), by simp, by simp, by omega, by omega, by simp⟩
  | minutes neg h mi hm =>
    exact ⟨neg, h, mi, 0, _, _, splitOn_one (colon_signed neg h) (colon_twoDigits (by omega)), rfl, by simp, hm,
      by omega, by simp⟩
  | seconds neg h mi ss hm hs =>
    refine ⟨neg, h, mi, ss, _, _, splitOn_first (colon_signed neg h), rfl, by simp, hm, hs,
      Or.inr (Or.inr ?_)⟩
    rw [splitOn_one (colon_twoDigits (by omega)) (colon_twoDigits (by omega))]

/-- C70: the standard offset of a zone line is read right, with its sign, minutes and seconds. -/
theorem C70_utcOffset (z : ZoneRule) (n : Int) (h : Amount z.gmtoff n) : z.getUTCOffset = some n := by
  obtain ⟨neg, hh, mi, ss, rest, t, e, -, rfl, hmi, hss, hr⟩ := amount_parts h
  unfold ZoneRule.getUTCOffset
  rw [e]
  have hmp := pyInt_twoDigits (n := mi) (by omega)
  have hsp := pyInt_twoDigits (n := ss) (by omega)
  cases neg with
  | true =>
    simp only [signText, if_true, List.singleton_append, ne_eq, not_true_eq_false, if_false, signed]
    rcases hr with ⟨rfl, rfl, rfl⟩ | ⟨rfl, rfl⟩ | rfl <;>
    · simp only [pyInt_decNat, hmp, hsp, Option.some.injEq]; omega
  | false =>
    obtain ⟨c, s, hc, hd⟩ := decNat_head_digit hh
    have hne : c ≠ '-' := digit_ne hd (by decide)
    have hp := pyInt_decNat hh
    rw [hc] at hp
    simp only [signText, Bool.false_eq_true, if_false, List.nil_append, hc, ne_eq, hne, not_false_eq_true,
      if_true, signed]
    rcases hr with ⟨rfl, rfl, rfl⟩ | ⟨rfl, rfl⟩ | rfl <;>
    · simp only [hp, hmp, hsp, Option.some.injEq]; omega

/-- New York's local mean time. -/
example : Amount "-4:56:02".toList (-17762) := by
  have := Amount.seconds true 4 56 2 (by decide) (by decide)
  have e : signText true ++ decNat 4 ++ ':' :: (twoDigits 56 ++ ':' :: twoDigits 2) = "-4:56:02".toList := by
    decide +kernel
  rw [e] at this
  exact this

example : (⟨"-4:56:02".toList, ['-'], "LMT".toList, none⟩ : ZoneRule).getUTCOffset = some (-17762) := by
  decide +kernel

/-- The saving of a rule is written in whole minutes, and is not a negative one below an hour. -/
def SaveOK (s : List Char) (n : Int) : Prop :=
  Amount s n ∧ ((splitOn ':' s).length ≤ 2) ∧ ¬ (-3600 < n ∧ n < 0)

/-- C70 (partial): the saving of a rule is read right if it has no seconds and is not between minus one
hour and zero.  Missing: `C70_fails_save`, `C70_fails_save_seconds`. -/
theorem C70_save_partial (r : TzRule) (n : Int) (h : SaveOK r.saveTime n) : r.getOffset = some n := by
  obtain ⟨ha, hl, hn⟩ := h
  obtain ⟨neg, hh, mi, ss, rest, t, e, -, rfl, hmi, hss, hr⟩ := amount_parts ha
  rw [e] at hl
  have hmp := pyInt_twoDigits (n := mi) (by omega)
  unfold TzRule.getOffset
  rw [e]
  cases neg with
  | true =>
    simp only [signText, if_true, List.singleton_append, signed] at hn ⊢
    rcases hr with ⟨rfl, rfl, rfl⟩ | ⟨rfl, rfl⟩ | rfl
    · simp only [pyInt_minus, Option.some.injEq]
      split <;> omega
    · simp only [pyInt_minus, hmp, Option.some.injEq]
      split <;> omega
    · simp at hl
  | false =>
    simp only [signText, Bool.false_eq_true, if_false, List.nil_append, signed] at hn ⊢
    rcases hr with ⟨rfl, rfl, rfl⟩ | ⟨rfl, rfl⟩ | rfl
    · simp only [pyInt_decNat, Option.some.injEq]
      rw [if_neg (by omega)]; omega
    · simp only [pyInt_decNat, hmp, Option.some.injEq]
      rw [if_neg (by omega)]; omega
    · simp at hl

example : SaveOK "1:00".toList 3600 := by
  have := Amount.minutes false 1 0 (by decide)
  have e : signText false ++ decNat 1 ++ ':' :: twoDigits 0 = "1:00".toList := by decide +kernel
  rw [e] at this
  exact ⟨this, by decide, by decide⟩

/-- C70 fails: a saving of less than an hour with a minus sign is read without the sign. -/
theorem C70_fails_save (r : TzRule) (mi : Nat) (hmi : mi < 60) (h : r.saveTime = "-0:".toList ++ twoDigits mi) :
    Amount r.saveTime (-(60 * mi)) ∧ r.getOffset = some (60 * (mi : Int)) := by
  have e : r.saveTime = signText true ++ decNat 0 ++ ':' :: twoDigits mi := by
    rw [h, show decNat 0 = ['0'] by decide +kernel]; rfl
  constructor
  · rw [e]
    have := Amount.minutes true 0 mi hmi
    simpa [signed] using this
  · unfold TzRule.getOffset
    rw [e, splitOn_one (colon_signed true 0) (colon_twoDigits (by omega))]
    simp only [signText, if_true, List.singleton_append, pyInt_minus, pyInt_twoDigits (show mi < 100 by omega)]
    simp; omega

/-- C70 fails: the minutes of a saving with seconds are lost. -/
theorem C70_fails_save_seconds (r : TzRule) (h mi s : Nat) (hmi : mi < 60) (hs : s < 60)
    (ht : r.saveTime = decNat h ++ ':' :: (twoDigits mi ++ ':' :: twoDigits s)) :
    Amount r.saveTime (3600 * h + 60 * mi + s) ∧ r.getOffset = some (3600 * (h : Int)) := by
  constructor
  · rw [ht]; exact Amount.seconds false h mi s hmi hs
  · unfold TzRule.getOffset
    rw [ht, splitOn_first (by simpa [signText] using colon_signed false h),
      splitOn_one (colon_twoDigits (by omega)) (colon_twoDigits (by omega))]
    simp only [pyInt_decNat, Option.some.injEq]
    rw [if_neg (by omega)]; omega

/-- C70 (partial): a saving written in place of the name of a rule is recognised, and read right if it has
no seconds and no minutes with a minus sign.  Missing: `C70_fails_numeric`. -/
theorem C70_numeric_partial (z : ZoneRule) (n : Int) (h : Amount z.rule n)
    (hl : (splitOn ':' z.rule).length ≤ 2) (hn : 0 ≤ n ∨ n % 3600 = 0) :
    z.isNumericOffset = some true ∧ z.getNumericOffset = some n := by
  obtain ⟨neg, hh, mi, ss, rest, t, e, ht, rfl, hmi, hss, hr⟩ := amount_parts h
  obtain ⟨c, s, hc, hd⟩ := decNat_head_digit hh
  have hcm : c ≠ '-' := digit_ne hd (by decide)
  have ht' : z.rule = signText neg ++ c :: (s ++ t) := by rw [ht, hc]; simp
  have hnm : z.rule ≠ ['-'] := by
    rw [ht']
    cases neg <;> simp [signText, hcm]
  have hmp := pyInt_twoDigits (n := mi) (by omega)
  constructor
  · unfold ZoneRule.isNumericOffset
    rw [ht']
    cases neg <;> simp [signText, hcm, hd]
  · unfold ZoneRule.getNumericOffset
    rw [if_neg hnm, e]
    rw [e] at hl
    cases neg with
    | true =>
      simp only [signText, if_true, List.singleton_append, signed] at hn ⊢
      rcases hr with ⟨rfl, rfl, rfl⟩ | ⟨rfl, rfl⟩ | rfl
      · simp only [pyInt_minus, Option.some.injEq]; omega
      · simp only [pyInt_minus, hmp, Option.some.injEq]; omega
      · simp at hl
    | false =>
      simp only [signText, Bool.false_eq_true, if_false, List.nil_append, signed] at hn ⊢
      rcases hr with ⟨rfl, rfl, rfl⟩ | ⟨rfl, rfl⟩ | rfl
      · simp only [pyInt_decNat, Option.some.injEq]; omega
      · simp only [pyInt_decNat, hmp, Option.some.injEq]; omega
      · simp at hl

example : (⟨"0:00".toList, "0:20".toList, "X".toList, none⟩ : ZoneRule).getNumericOffset = some 1200 := by
  decide +kernel

/-- C70 fails: with a minus sign the minutes are added. -/
theorem C70_fails_numeric (z : ZoneRule) (h mi : Nat) (hmi : mi < 60)
    (hr : z.rule = '-' :: (decNat h ++ ':' :: twoDigits mi)) :
    Amount z.rule (-(3600 * h + 60 * mi)) ∧ z.getNumericOffset = some (-(3600 * (h : Int)) + 60 * mi) := by
  have e : z.rule = signText true ++ decNat h ++ ':' :: twoDigits mi := by rw [hr]; rfl
  constructor
  · rw [e]; exact Amount.minutes true h mi hmi
  · unfold ZoneRule.getNumericOffset
    obtain ⟨c, s, hc, hd⟩ := decNat_head_digit h
    rw [if_neg (by rw [hr, hc]; simp), e, splitOn_one (colon_signed true h) (colon_twoDigits (by omega))]
    simp only [signText, if_true, List.singleton_append, pyInt_minus, pyInt_twoDigits (show mi < 100 by omega)]
    simp only [Option.some.injEq]; omega

/-- A name, which does not begin with a digit or a sign, is not taken for an amount. -/
theorem C70_name (z : ZoneRule) (c : Char) (s : List Char) (h : z.rule = c :: s) (hc : isDigit c = false)
    (hm : c ≠ '-') : z.isNumericOffset = some false := by
  unfold ZoneRule.isNumericOffset
  rw [h]
  simp [hc, hm]

/-! ## C71 -/

/-- The last year of a rule, after the manual: `only`, `max` (no end), or a year. -/
def LastYear (r : TzRule) : Option (Option Int) :=
  if r.toYear = "only".toList then (pyInt r.fromYear).map some
  else if r.toYear = "max".toList then some none
  else (pyInt r.toYear).map some

/-- C71 (partial): a rule that has not been expanded before is expanded to one transition, as
`datetimeForYear` gives it, for each of its years, in order; up to the last year for a rule that ends by then
(`maxYear`), and to the year before that for one that goes on.  The offset is the saving added to the
standard offset.  Missing: a rule that goes on should have its transition in the last year just as one
that ends with it (`C71_fails_last`); the year 9999 stands for no end; a second expansion ignores the last
year asked for (`C71_fails_again`). -/
theorem C71_expand_partial (r : TzRule) (std maxYear a save : Int) (last : Option Int)
    (ha : pyInt r.fromYear = some a) (hlast : LastYear r = some last) (hsave : r.getOffset = some save)
    (hmax : a < maxYear) (h9 : maxYear < 9999) (f : Int → DateTime × List Char)
    (hf : ∀ y, a ≤ y → y ≤ maxYear → r.datetimeForYear y = some (f y)) :
    ∃ (o : RuleObj) (ys : List Int), (RuleObj.mk r none).expand std maxYear =
        some (ys.map fun y => (⟨(f y).1, (f y).2⟩, std + save, r), o) ∧ o.rule = r ∧
      ys.Pairwise (· < ·) ∧
      ∀ y, y ∈ ys ↔ a ≤ y ∧ (∀ e, last = some e → y ≤ e) ∧
        (y < maxYear ∨ y = maxYear ∧ last = some maxYear) := by
  have hend : ∃ e, r.endYear = some e ∧ (last = none ∧ e = 9999 ∨ last = some e) := by
    unfold LastYear at hlast
    unfold TzRule.endYear
    by_cases h1 : r.toYear = "only".toList
    · rw [if_pos h1] at hlast ⊢
      rw [ha] at hlast
      injection hlast with hlast
      exact ⟨a, ha, Or.inr hlast.symm⟩
    · rw [if_neg h1] at hlast ⊢
      by_cases h2 : r.toYear = "max".toList
      · rw [if_pos h2] at hlast ⊢
        injection hlast with hlast
        exact ⟨_, rfl, Or.inl ⟨hlast.symm, rfl⟩⟩
      · rw [if_neg h2] at hlast ⊢
        cases he : pyInt r.toYear with
        | none => rw [he] at hlast; cases hlast
        | some e =>
          rw [he] at hlast
          injection hlast with hlast
          exact ⟨e, rfl, Or.inr hlast.symm⟩
  obtain ⟨e, he, hel⟩ := hend
  have hmap : ∀ ys : List Int, (∀ y ∈ ys, a ≤ y ∧ y ≤ maxYear) →
      ys.mapM r.datetimeForYear = some (ys.map f) := by
    intro ys
    induction ys with
    | nil => intro _; rfl
    | cons y ys ih =>
      intro h
      rw [List.mapM_cons, hf y (h y (by simp)).1 (h y (by simp)).2, ih (fun z hz => h z (by simp [hz]))]
      rfl
  have hmem : ∀ b y, y ∈ yearsUpto a b ↔ a ≤ y ∧ y ≤ b := by
    intro b y
    unfold yearsUpto
    simp only [List.mem_map, List.mem_range]
    constructor
    · rintro ⟨k, hk, rfl⟩; omega
    · rintro ⟨h1, h2⟩; exact ⟨(y - a).toNat, by omega, by omega⟩
  have hpw : ∀ b, (yearsUpto a b).Pairwise (· < ·) := by
    intro b
    unfold yearsUpto
    rw [List.pairwise_map]
    exact List.Pairwise.imp (fun h => by omega) List.pairwise_lt_range
  let b := if e > maxYear then maxYear - 1 else e
  have hb : b ≤ maxYear := by simp only [b]; split <;> omega
  refine ⟨⟨r, some ((yearsUpto a b).map fun y => ⟨(f y).1, (f y).2⟩)⟩, yearsUpto a b, ?_, rfl, hpw b, ?_⟩
  · unfold RuleObj.expand RuleObj.fullExpand
    simp only [TzRule.startYear, ha, he, hsave]
    rw [if_neg (by omega), hmap _ (fun y hy => by have := (hmem _ _).1 hy; exact ⟨this.1, by omega⟩)]
    simp [b]
  · intro y
    rw [hmem]
    show a ≤ y ∧ y ≤ (if e > maxYear then maxYear - 1 else e) ↔ _
    rcases hel with ⟨rfl, rfl⟩ | rfl
    · rw [if_pos (by omega)]; simp; omega
    · simp only [Option.some.injEq, forall_eq']
      split <;> omega

example : LastYear euRule = some none ∧
    ((RuleObj.mk euRule none).expand 3600 1999).map (fun x => x.1.map fun t => (t.1.dt.year, t.1.dt.day, t.2.1))
      = some [(1996, 27, 3600), (1997, 26, 3600), (1998, 25, 3600)] := by decide +kernel

/-- C71 fails: a rule without end has no transition in the last year, one that ends with that year has. -/
theorem C71_fails_last : ∃ r : TzRule, LastYear r = some none ∧
    ((RuleObj.mk r none).expand 0 2000).map (fun x => x.1.map (·.1.dt.year)) = some [1999] ∧
    ((RuleObj.mk { r with toYear := "2000".toList } none).expand 0 2000).map (fun x => x.1.map (·.1.dt.year))
      = some [1999, 2000] :=
  ⟨{ euRule with fromYear := "1999".toList }, by decide +kernel⟩

/-- The effect of an expansion that is needed. -/
theorem expand_form {o o' : RuleObj} {std maxYear : Int} {l : List (TzTime × Int × TzRule)}
    (h : o.expand std maxYear = some (l, o')) :
    ∃ a, o.rule.startYear = some a ∧ (maxYear ≤ a ∧ o' = o ∧ l = [] ∨
      a < maxYear ∧ o'.rule = o.rule ∧ o'.cache.isSome ∧ o.fullExpand maxYear = some o' ∧ ∃ save,
        o.rule.getOffset = some save ∧ l = (o'.cache.getD []).map fun dt => (dt, std + save, o.rule)) := by
  unfold RuleObj.expand at h
  cases ha : o.rule.startYear with
  | none => simp [ha] at h
  | some a =>
    rw [ha] at h
    simp only at h
    refine ⟨a, rfl, ?_⟩
    split at h
    · injection h with h
      injection h with h1 h2
      exact Or.inl ⟨by omega, h2.symm, h1.symm⟩
    · split at h
      · rename_i o₁ save hf hs
        injection h with h
        injection h with h1 h2
        subst h2
        refine Or.inr ⟨by omega, ?_, ?_, hf, save, hs, h1.symm⟩
        all_goals
          unfold RuleObj.fullExpand at hf
          split at hf
          · rename_i c hc
            injection hf with hf; subst hf; simp [hc]
          · split at hf
            · split at hf
              · injection hf with hf; subst hf; rfl
              · cases hf
            · cases hf
      · cases h

/-- A rule that has been expanded. -/
theorem expand_cached {o : RuleObj} {c : List TzTime} (hc : o.cache = some c) {a save std maxYear : Int}
    (ha : o.rule.startYear = some a) (hlt : a < maxYear) (hs : o.rule.getOffset = some save) :
    o.expand std maxYear = some (c.map fun dt => (dt, std + save, o.rule), o) := by
  unfold RuleObj.expand RuleObj.fullExpand
  simp only [ha, hc, hs, if_neg (show ¬ a ≥ maxYear by omega)]
  simp

/-- C71: a rule that has been expanded gives the same again for another zone with the same last year, as
it would without the earlier expansion. -/
theorem C71_cache (o o' : RuleObj) (std std' maxYear : Int) (l : List (TzTime × Int × TzRule))
    (h : o.expand std maxYear = some (l, o')) :
    ∃ l', o.expand std' maxYear = some (l', o') ∧ o'.expand std' maxYear = some (l', o') := by
  obtain ⟨a, ha, ⟨hle, rfl, rfl⟩ | ⟨hlt, hr, hc, hf, save, hs, rfl⟩⟩ := expand_form h
  · refine ⟨[], ?_, ?_⟩ <;>
    · unfold RuleObj.expand
      simp only [ha, if_pos (show a ≥ maxYear by omega)]
  · obtain ⟨c, hc⟩ := Option.isSome_iff_exists.1 hc
    refine ⟨c.map fun dt => (dt, std' + save, o.rule), ?_, ?_⟩
    · unfold RuleObj.expand
      simp only [ha, hf, hs, hc, if_neg (show ¬ a ≥ maxYear by omega)]
      simp
    · rw [expand_cached hc (by rw [hr]; exact ha) hlt (by rw [hr]; exact hs), hr]

/-- C71 fails: after an expansion, a later last year gives no more transitions. -/
theorem C71_fails_again (o o' : RuleObj) (std maxYear maxYear' a : Int) (l : List (TzTime × Int × TzRule))
    (h : o.expand std maxYear = some (l, o')) (ha : pyInt o.rule.fromYear = some a) (hlt : a < maxYear)
    (hle : maxYear ≤ maxYear') : o'.expand std maxYear' = some (l, o') := by
  obtain ⟨a', ha', ⟨hle', rfl, rfl⟩ | ⟨hlt', hr, hc, hf, save, hs, rfl⟩⟩ := expand_form h
  · have : a' = a := by
      have := ha'.symm.trans ha
      exact Option.some.inj this
    omega
  · obtain ⟨c, hc⟩ := Option.isSome_iff_exists.1 hc
    rw [expand_cached hc (by rw [hr]; exact ha') (by omega) (by rw [hr]; exact hs), hr, hc]
    rfl

example : ((RuleObj.mk euRule none).expand 0 1998).bind (fun x => (x.2.expand 0 2005).map fun y => y.1.length)
    = some 2 := by decide +kernel

end PyCal.Zonal
