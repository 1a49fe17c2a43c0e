import Verif.Model.Display
import Verif.Lemmas.Text
import Verif.Lemmas.Weekday
import Verif.Props.C25_C26_DateTimeText

/-!
# C103: the texts in which dates and times are shown
-/

namespace PyCal
open Spec

/-! ## The specification -/

namespace Shown

/-- The days of the week, 0 is Sunday. -/
def dayName : Int → String
  | 0 => "Sunday" | 1 => "Monday" | 2 => "Tuesday" | 3 => "Wednesday" | 4 => "Thursday"
  | 5 => "Friday" | 6 => "Saturday" | _ => "?"

/-- The months. -/
def monthName : Int → String
  | 1 => "January" | 2 => "February" | 3 => "March" | 4 => "April" | 5 => "May" | 6 => "June"
  | 7 => "July" | 8 => "August" | 9 => "September" | 10 => "October" | 11 => "November"
  | 12 => "December" | _ => "?"

/-- The day of the week of a date, counted from Thursday 1 January 1970. -/
def weekday (x : Date) : Int := (4 + (dayNum x.y x.m x.d - dayNum 1970 1 1)) % 7

/-- The number of seconds since midnight that a clock shows. -/
def clockOf (h m s : Int) : Int := h * 3600 + m * 60 + s

/-- The time of day of `t` is a real one (23:59:60 is not). -/
def TimeOfDay (t : DateTime) : Prop :=
  0 ≤ t.hours ∧ t.hours < 24 ∧ 0 ≤ t.minutes ∧ t.minutes < 60 ∧ 0 ≤ t.seconds ∧ t.seconds < 60

/-! ## Reading texts -/

theorem cut {c : Char} : ∀ {a a' b b' : List Char}, c ∉ a → c ∉ a' →
    a ++ c :: b = a' ++ c :: b' → a = a' ∧ b = b'
  | [], [], b, b', _, _, h => by simpa using h
  | [], x :: a', b, b', _, h2, h => by
    simp only [List.nil_append, List.cons_append, List.cons.injEq] at h
    exact absurd (h.1 ▸ List.mem_cons_self) h2
  | x :: a, [], b, b', h1, _, h => by
    simp only [List.nil_append, List.cons_append, List.cons.injEq] at h
    exact absurd (h.1 ▸ List.mem_cons_self) h1
  | x :: a, y :: a', b, b', h1, h2, h => by
    simp only [List.cons_append, List.cons.injEq] at h
    obtain ⟨rfl, h⟩ := h
    obtain ⟨rfl, rfl⟩ := cut (fun hc => h1 (List.mem_cons_of_mem _ hc))
      (fun hc => h2 (List.mem_cons_of_mem _ hc)) h
    exact ⟨rfl, rfl⟩

theorem decInt_chars {n : Int} {c : Char} (h : c ∈ decInt n) : c = '-' ∨ isDigit c = true := by
  unfold decInt at h
  split at h
  · rcases List.mem_cons.mp h with h | h
    · exact .inl h
    · exact .inr (decNat_all_digits _ c h)
  · exact .inr (decNat_all_digits _ c h)

theorem not_decInt {n : Int} {c : Char} (h1 : c ≠ '-') (h2 : isDigit c = false) : c ∉ decInt n :=
  fun h => by
    rcases decInt_chars h with h | h
    · exact h1 h
    · rw [h2] at h; exact absurd h (by simp)

theorem decInt_inj {a b : Int} (h : decInt a = decInt b) : a = b := by
  have minus : ∀ n s, decNat n ≠ '-' :: s := fun n s h => by
    have := decNat_all_digits n '-' (by rw [h]; simp)
    exact absurd this (by decide)
  unfold decInt at h
  have key : ∀ {m n : Nat}, decNat m = decNat n → m = n := fun h => by
    have := congrArg readNat h
    rwa [readNat_decNat, readNat_decNat] at this
  split at h <;> split at h
  · simp only [List.cons.injEq, true_and] at h
    have := key h; omega
  · exact absurd h.symm (minus _ _)
  · exact absurd h (minus _ _)
  · have := key h; omega

theorem zeroText_inj {a b : Int} (ha : 0 ≤ a) (hb : 0 ≤ b)
    (h : DateTime.zeroText a = DateTime.zeroText b) : a = b := by
  have key : ∀ n : Int, 0 ≤ n → readNat (DateTime.zeroText n) = n.natAbs := by
    intro n hn
    unfold DateTime.zeroText decInt
    rw [if_neg (show ¬ n < 0 by omega)]
    split
    · have : readNat ('0' :: decNat n.natAbs) = readNat (decNat n.natAbs) := by
        simp [readNat, digitVal]
      exact this.trans (readNat_decNat _)
    · exact readNat_decNat _
  have := congrArg readNat h
  rw [key a ha, key b hb] at this
  omega

theorem not_zeroText {n : Int} {c : Char} (h0 : c ≠ '0') (h1 : c ≠ '-') (h2 : isDigit c = false) :
    c ∉ DateTime.zeroText n := by
  unfold DateTime.zeroText
  rw [List.mem_append, not_or]
  refine ⟨?_, not_decInt h1 h2⟩
  split
  · simpa using h0
  · simp

/-! ## Names -/

theorem months : ∀ m : Fin 12, Locale.getMonth ((m.1 : Int) + 1) true =
      some (monthName ((m.1 : Int) + 1)).toList ∧
    Locale.getMonth ((m.1 : Int) + 1) false =
      some ((monthName ((m.1 : Int) + 1)).toList.take 3) := by decide

theorem days : ∀ d : Fin 7, Locale.getDay (d.1 : Int) true = some (dayName (d.1 : Int)).toList ∧
    Locale.getDay (d.1 : Int) false = some ((dayName (d.1 : Int)).toList.take 3) := by decide

/-- A name, or its first three letters. -/
def name (long : Bool) (s : String) : List Char := if long then s.toList else s.toList.take 3

theorem month_name {m : Int} (h1 : 1 ≤ m) (h2 : m ≤ 12) (long : Bool) :
    Locale.getMonth m long = some (name long (monthName m)) := by
  have := months ⟨(m - 1).toNat, by omega⟩
  simp only [show (((m - 1).toNat : Nat) : Int) + 1 = m by omega] at this
  cases long
  · exact this.2
  · exact this.1

theorem day_name {d : Int} (h1 : 0 ≤ d) (h2 : d < 7) (long : Bool) :
    Locale.getDay d long = some (name long (dayName d)) := by
  have := days ⟨d.toNat, by omega⟩
  simp only [show ((d.toNat : Nat) : Int) = d by omega] at this
  cases long
  · exact this.2
  · exact this.1

theorem names_plain : (∀ m : Fin 12, ∀ long, ' ' ∉ name long (monthName ((m.1 : Int) + 1)) ∧
    ',' ∉ name long (monthName ((m.1 : Int) + 1))) ∧
    (∀ d : Fin 7, ∀ long, ',' ∉ name long (dayName (d.1 : Int))) ∧
    (∀ m n : Fin 12, ∀ long, name long (monthName ((m.1 : Int) + 1)) =
      name long (monthName ((n.1 : Int) + 1)) → m = n) ∧
    ∀ m n : Fin 7, ∀ long, name long (dayName (m.1 : Int)) =
      name long (dayName (n.1 : Int)) → m = n := by decide +kernel

theorem month_plain {m : Int} (h1 : 1 ≤ m) (h2 : m ≤ 12) (long : Bool) :
    ' ' ∉ name long (monthName m) := by
  have := (names_plain.1 ⟨(m - 1).toNat, by omega⟩ long).1
  simpa only [show (((m - 1).toNat : Nat) : Int) + 1 = m by omega] using this

theorem day_plain {d : Int} (h1 : 0 ≤ d) (h2 : d < 7) (long : Bool) :
    ',' ∉ name long (dayName d) := by
  have := names_plain.2.1 ⟨d.toNat, by omega⟩ long
  simpa only [show ((d.toNat : Nat) : Int) = d by omega] using this

theorem month_inj {m n : Int} (h1 : 1 ≤ m) (h2 : m ≤ 12) (h3 : 1 ≤ n) (h4 : n ≤ 12) {long : Bool}
    (h : name long (monthName m) = name long (monthName n)) : m = n := by
  have := names_plain.2.2.1 ⟨(m - 1).toNat, by omega⟩ ⟨(n - 1).toNat, by omega⟩ long (by
    simpa only [show (((m - 1).toNat : Nat) : Int) + 1 = m by omega,
      show (((n - 1).toNat : Nat) : Int) + 1 = n by omega] using h)
  rw [Fin.mk.injEq] at this
  omega

theorem day_inj {m n : Int} (h1 : 0 ≤ m) (h2 : m < 7) (h3 : 0 ≤ n) (h4 : n < 7) {long : Bool}
    (h : name long (dayName m) = name long (dayName n)) : m = n := by
  have := names_plain.2.2.2 ⟨m.toNat, by omega⟩ ⟨n.toNat, by omega⟩ long (by
    simpa only [show ((m.toNat : Nat) : Int) = m by omega,
      show ((n.toNat : Nat) : Int) = n by omega] using h)
  rw [Fin.mk.injEq] at this
  omega

end Shown
open Shown

/-! ## Dates -/

namespace DateTime
variable {t t' : DateTime}

theorem dayText_eq (h1 : 1 ≤ t.month) (h2 : t.month ≤ 12) (long : Bool) :
    t.dayText long = some (name long (dayName t.dayOfWeek) ++ ',' :: ' ' ::
      (name long (monthName t.month) ++ ' ' :: decInt t.day)) := by
  unfold dayText
  rw [day_name (dayOfWeek_range t).1 (dayOfWeek_range t).2, month_name h1 h2]
  simp

theorem dayText_inj (hv : t.date.Valid) (hv' : t'.date.Valid) {long : Bool} {r r' : List Char}
    (hr : ∀ c ∈ r.head?, isDigit c = false ∧ c ≠ '-') (hr' : ∀ c ∈ r'.head?, isDigit c = false ∧ c ≠ '-')
    (h : name long (dayName t.dayOfWeek) ++ ',' :: ' ' ::
      (name long (monthName t.month) ++ ' ' :: (decInt t.day ++ r)) =
      name long (dayName t'.dayOfWeek) ++ ',' :: ' ' ::
      (name long (monthName t'.month) ++ ' ' :: (decInt t'.day ++ r'))) :
    t.dayOfWeek = t'.dayOfWeek ∧ t.month = t'.month ∧ t.day = t'.day ∧ r = r' := by
  obtain ⟨m1, m2, d1, _⟩ := hv
  obtain ⟨m1', m2', d1', _⟩ := hv'
  simp only [date] at m1 m2 d1 m1' m2' d1'
  have w := dayOfWeek_range t
  have w' := dayOfWeek_range t'
  obtain ⟨e1, e2⟩ := cut (day_plain w.1 w.2 long) (day_plain w'.1 w'.2 long) h
  rw [List.cons.injEq] at e2
  obtain ⟨e3, e4⟩ := cut (month_plain m1 m2 long) (month_plain m1' m2' long) e2.2
  have key : ∀ (n : Int) (r : List Char), 1 ≤ n → (∀ c ∈ r.head?, isDigit c = false ∧ c ≠ '-') →
      (decInt n ++ r).takeWhile isDigit = decInt n ∧ (decInt n ++ r).dropWhile isDigit = r := by
    intro n r hn hr
    have hd : ∀ c ∈ decInt n, isDigit c = true := by
      unfold decInt
      rw [if_neg (by omega)]
      exact decNat_all_digits _
    rw [List.takeWhile_append_of_pos hd, List.dropWhile_append_of_pos hd]
    cases r with
    | nil => simp
    | cons c r => simp [(hr c rfl).1]
  have k1 := key _ r d1 hr
  have k2 := key _ r' d1' hr'
  rw [e4] at k1
  refine ⟨day_inj w.1 w.2 w'.1 w'.2 e1, month_inj m1 m2 m1' m2' e3, decInt_inj ?_, ?_⟩
  · rw [← k1.1, k2.1]
  · rw [← k1.2, k2.2]

/-- C103: the date is shown with the names of its day and month, or with their first three letters,
or in numbers.  The day of the week is that of `getDayOfWeek`. -/
theorem C103_date (hv : t.date.Valid) :
    (∀ long, t.localeDate (if long then .full else .abbrev) =
      some (name long (dayName t.dayOfWeek) ++ ", ".toList ++ name long (monthName t.month) ++
        " ".toList ++ decInt t.day ++ ", ".toList ++ decInt t.year)) ∧
    (∀ long, t.localeDate (if long then .fullNoYear else .abbrevNoYear) =
      some (name long (dayName t.dayOfWeek) ++ ", ".toList ++ name long (monthName t.month) ++
        " ".toList ++ decInt t.day)) ∧
    ∀ short, t.monthText short = some (name (!short) (monthName t.month)) := by
  obtain ⟨m1, m2, _⟩ := hv
  simp only [date] at m1 m2
  refine ⟨?_, ?_, ?_⟩
  · intro long
    cases long <;> simp [localeDate, dayText_eq m1 m2]
  · intro long
    cases long <;> simp [localeDate, dayText_eq m1 m2]
  · intro short
    unfold monthText
    rw [if_neg (by omega), month_name m1 m2]

/-- C103 (partial): in the years 1901 to 2100 the day shown is the day of the week of the date.
Missing: other years (`C103_fails_weekday`). -/
theorem C103_weekday_partial (hv : t.date.Valid) (h1 : 1901 ≤ t.year) (h2 : t.year ≤ 2100) :
    ∃ r, t.localeDate .full = some ((dayName (Shown.weekday t.date)).toList ++ r) := by
  have hw : t.dayOfWeek = Shown.weekday t.date := by
    have hd : drift t.year = drift 1970 := by
      refine NoSkip.drift fun z hz => ?_
      unfold SkippedCentury
      omega
    rw [dayOfWeek_eq, hd]
    unfold Shown.weekday
    simp only [date]
    have : dayNum 1970 1 1 = 719051 - drift 1970 := by decide +kernel
    rw [this]
    omega
  have := (C103_date hv).1 true
  simp only [if_true, name] at this
  rw [this, hw]
  simp only [List.append_assoc]
  exact ⟨_, rfl⟩

/-- C103: with the year, dates that differ are shown differently, in each format. -/
theorem C103_year (hv : t.date.Valid) (hv' : t'.date.Valid) {f : Format}
    (hf : f = .full ∨ f = .abbrev ∨ f = .numeric) :
    (∃ s, t.localeDate f = some s) ∧ (t.localeDate f = t'.localeDate f ↔ t.date = t'.date) := by
  obtain ⟨m1, m2, d1, d2⟩ := id hv
  obtain ⟨m1', m2', d1', d2'⟩ := id hv'
  simp only [date] at m1 m2 m1' m2'
  have same : t.date = t'.date → t.localeDate f = t'.localeDate f := by
    intro h
    simp only [date, Date.mk.injEq] at h
    have : t.dayOfWeek = t'.dayOfWeek := by
      unfold dayOfWeek daysSince1970
      rw [h.1, h.2.1, h.2.2]
    unfold localeDate dayText
    rw [this, h.1, h.2.1, h.2.2]
  have named : ∀ long, (t.dayText long).map (fun s => s ++ ", ".toList ++ decInt t.year) =
      (t'.dayText long).map (fun s => s ++ ", ".toList ++ decInt t'.year) → t.date = t'.date := by
    intro long h
    rw [dayText_eq m1 m2, dayText_eq m1' m2', Option.map_some, Option.map_some,
      Option.some.injEq] at h
    obtain ⟨_, h2, h3, h4⟩ := dayText_inj (r := ", ".toList ++ decInt t.year)
      (r' := ", ".toList ++ decInt t'.year) (long := long) hv hv' (by
        intro c hc
        have : c = ',' := by simpa using hc.symm
        subst this; decide) (by
        intro c hc
        have : c = ',' := by simpa using hc.symm
        subst this; decide) (by simpa using h)
    have := decInt_inj (List.append_cancel_left h4)
    simp only [date, Date.mk.injEq]
    exact ⟨this, h2, h3⟩
  rcases hf with rfl | rfl | rfl
  · refine ⟨⟨_, by rw [localeDate, dayText_eq m1 m2]; rfl⟩, named true, same⟩
  · refine ⟨⟨_, by rw [localeDate, dayText_eq m1 m2]; rfl⟩, named false, same⟩
  · refine ⟨⟨_, rfl⟩, fun h => ?_, same⟩
    simp only [localeDate, Option.some.injEq] at h
    have hs : ∀ n : Int, '/' ∉ decInt n := fun n => not_decInt (by decide) (by decide)
    have h : decInt t.month ++ '/' :: (decInt t.day ++ '/' :: decInt t.year) =
        decInt t'.month ++ '/' :: (decInt t'.day ++ '/' :: decInt t'.year) := by
      simpa using h
    obtain ⟨e1, e2⟩ := cut (hs _) (hs _) h
    obtain ⟨e3, e4⟩ := cut (hs _) (hs _) e2
    simp only [date, Date.mk.injEq]
    exact ⟨decInt_inj e4, decInt_inj e1, decInt_inj e3⟩

/-- C103: without the year, dates are shown alike if they have the same month and day (and, when it
is shown, the same day of the week). -/
theorem C103_noYear (hv : t.date.Valid) (hv' : t'.date.Valid) :
    (t.localeDate .numericNoYear = t'.localeDate .numericNoYear ↔
      t.month = t'.month ∧ t.day = t'.day) ∧
    ∀ long, (t.dayText long = t'.dayText long ↔
      t.dayOfWeek = t'.dayOfWeek ∧ t.month = t'.month ∧ t.day = t'.day) := by
  obtain ⟨m1, m2, d1, d2⟩ := id hv
  obtain ⟨m1', m2', d1', d2'⟩ := id hv'
  simp only [date] at m1 m2 m1' m2'
  refine ⟨⟨fun h => ?_, fun h => by unfold localeDate; simp only [h.1, h.2]⟩, fun long =>
    ⟨fun h => ?_, fun h => by unfold dayText; rw [h.1, h.2.1, h.2.2]⟩⟩
  · simp only [localeDate, Option.some.injEq] at h
    have hs : ∀ n : Int, '/' ∉ decInt n := fun n => not_decInt (by decide) (by decide)
    have h : decInt t.month ++ '/' :: decInt t.day = decInt t'.month ++ '/' :: decInt t'.day := by
      simpa using h
    obtain ⟨e1, e2⟩ := cut (hs _) (hs _) h
    exact ⟨decInt_inj e1, decInt_inj e2⟩
  · rw [dayText_eq m1 m2, dayText_eq m1' m2', Option.some.injEq] at h
    obtain ⟨h1, h2, h3, _⟩ := dayText_inj (r := []) (r' := []) (long := long) hv hv' (by simp)
      (by simp) (by simpa using h)
    exact ⟨h1, h2, h3⟩

/-! ## Times -/

/-- The hour shown on a clock with twelve hours, and if it is after noon. -/
theorem C103_clock (h : TimeOfDay t) (withSeconds : Bool) : ∃ n : Int, ∃ pm : Bool,
    1 ≤ n ∧ n ≤ 12 ∧ t.hours = n % 12 + (if pm then 12 else 0) ∧
    t.clockText withSeconds true =
      decInt n ++ t.minuteText withSeconds ++ (if pm then " PM" else " AM").toList := by
  obtain ⟨h1, h2, _⟩ := h
  unfold clockText
  simp only [if_true]
  by_cases hp : t.hours ≥ 12
  · refine ⟨if t.hours - 12 = 0 then 12 else t.hours - 12, true, ?_, ?_, ?_, ?_⟩
    · split <;> omega
    · split <;> omega
    · split <;> simp <;> omega
    · simp [hp]
  · refine ⟨if t.hours = 0 then 12 else t.hours, false, ?_, ?_, ?_, ?_⟩
    · split <;> omega
    · split <;> omega
    · split <;> simp <;> omega
    · simp [hp]

theorem colon_free {n : Int} : ':' ∉ zeroText n :=
  not_zeroText (by decide) (by decide) (by decide)

theorem minuteText_inj (h : TimeOfDay t) (h' : TimeOfDay t') {w : Bool}
    (he : t.minuteText w = t'.minuteText w) :
    t.minutes = t'.minutes ∧ (w = true → t.seconds = t'.seconds) := by
  obtain ⟨_, _, m1, m2, s1, s2⟩ := h
  obtain ⟨_, _, m1', m2', s1', s2'⟩ := h'
  unfold minuteText at he
  cases w with
  | false =>
    simp only [Bool.false_eq_true, if_false, List.append_nil] at he
    exact ⟨zeroText_inj m1 m1' (List.append_cancel_left he), by simp⟩
  | true =>
    have he : ':' :: (zeroText t.minutes ++ ':' :: zeroText t.seconds) =
        ':' :: (zeroText t'.minutes ++ ':' :: zeroText t'.seconds) := by simpa using he
    rw [List.cons.injEq] at he
    obtain ⟨e1, e2⟩ := cut colon_free colon_free he.2
    exact ⟨zeroText_inj m1 m1' e1, fun _ => zeroText_inj s1 s1' e2⟩

/-- C103: times that differ are shown differently, with 24 hours and with AM and PM; seconds count if
they are shown. -/
theorem C103_time (h : TimeOfDay t) (h' : TimeOfDay t') (withSeconds amPm : Bool) :
    t.clockText withSeconds amPm = t'.clockText withSeconds amPm ↔
      t.hours = t'.hours ∧ t.minutes = t'.minutes ∧ (withSeconds = true → t.seconds = t'.seconds) := by
  constructor
  · intro he
    cases amPm with
    | false =>
      unfold clockText at he
      simp only [Bool.false_eq_true, if_false] at he
      have hm : ∀ t : DateTime, ∃ r, t.minuteText withSeconds = ':' :: r := fun t => by
        unfold minuteText; exact ⟨_, rfl⟩
      obtain ⟨r, hr⟩ := hm t
      obtain ⟨r', hr'⟩ := hm t'
      rw [hr, hr'] at he
      obtain ⟨e1, e2⟩ := cut colon_free colon_free he
      have := minuteText_inj h h' (w := withSeconds) (by rw [hr, hr', e2])
      exact ⟨zeroText_inj h.1 h'.1 e1, this⟩
    | true =>
      obtain ⟨n, pm, n1, n2, n3, n4⟩ := C103_clock h withSeconds
      obtain ⟨n', pm', n1', n2', n3', n4'⟩ := C103_clock h' withSeconds
      rw [n4, n4'] at he
      have hl : (if pm then " PM" else " AM").toList.length =
          (if pm' then " PM" else " AM").toList.length := by cases pm <;> cases pm' <;> rfl
      obtain ⟨e1, e2⟩ := List.append_inj' he hl
      have hpm : pm = pm' := by
        revert e2; cases pm <;> cases pm' <;> decide
      subst hpm
      have hm : ∀ t : DateTime, ∃ r, t.minuteText withSeconds = ':' :: r := fun t => by
        unfold minuteText; exact ⟨_, rfl⟩
      obtain ⟨r, hr⟩ := hm t
      obtain ⟨r', hr'⟩ := hm t'
      rw [hr, hr'] at e1
      obtain ⟨e3, e4⟩ := cut (not_decInt (by decide) (by decide)) (not_decInt (by decide) (by decide)) e1
      have := minuteText_inj h h' (w := withSeconds) (by rw [hr, hr', e4])
      have := decInt_inj e3
      refine ⟨?_, ‹_ ∧ _›⟩
      rw [n3, n3', this]
  · rintro ⟨h1, h2, h3⟩
    unfold clockText minuteText
    rw [h1, h2]
    cases withSeconds with
    | false => rfl
    | true => rw [h3 rfl]

theorem zeroText_digits {n : Int} (h1 : 0 ≤ n) (h2 : n < 60) :
    zeroText n = [digitChar (n.natAbs / 10), digitChar (n.natAbs % 10)] := by
  have key : ∀ k : Fin 60, zeroText (k.1 : Int) = [digitChar (k.1 / 10), digitChar (k.1 % 10)] := by
    decide +kernel
  have := key ⟨n.toNat, by omega⟩
  simp only [show ((n.toNat : Nat) : Int) = n by omega] at this
  rw [this]
  have : n.toNat = n.natAbs := by omega
  rw [this]

theorem digitChar_lt {a b : Nat} (ha : a < 10) (hb : b < 10) :
    (digitChar a < digitChar b ↔ a < b) ∧ (digitChar a = digitChar b ↔ a = b) := by
  have : ∀ a b : Fin 10, (digitChar a.1 < digitChar b.1 ↔ a.1 < b.1) ∧
      (digitChar a.1 = digitChar b.1 ↔ a.1 = b.1) := by decide
  exact this ⟨a, ha⟩ ⟨b, hb⟩

/-- C103: texts with 24 hours and seconds are in the order of the times. -/
theorem C103_order (h : TimeOfDay t) (h' : TimeOfDay t') :
    List.Lex (· < ·) (t.clockText true false) (t'.clockText true false) ↔
      clockOf t.hours t.minutes t.seconds < clockOf t'.hours t'.minutes t'.seconds := by
  obtain ⟨a1, a2, a3, a4, a5, a6⟩ := h
  obtain ⟨b1, b2, b3, b4, b5, b6⟩ := h'
  unfold clockText minuteText
  simp only [Bool.false_eq_true, if_false, if_true]
  rw [zeroText_digits a1 (by omega), zeroText_digits a3 a4, zeroText_digits a5 a6,
    zeroText_digits b1 (by omega), zeroText_digits b3 b4, zeroText_digits b5 b6]
  have hc : ":".toList = [':'] := by decide
  rw [hc]
  simp only [List.cons_append, List.nil_append, List.cons_lex_cons_iff]
  have hd : ∀ n : Int, 0 ≤ n → n < 60 → n.natAbs / 10 < 10 ∧ n.natAbs % 10 < 10 := by omega
  have i1 := hd _ a1 (by omega)
  have i2 := hd _ a3 a4
  have i3 := hd _ a5 a6
  have j1 := hd _ b1 (by omega)
  have j2 := hd _ b3 b4
  have j3 := hd _ b5 b6
  simp only [digitChar_lt i1.1 j1.1, digitChar_lt i1.2 j1.2, digitChar_lt i2.1 j2.1,
    digitChar_lt i2.2 j2.2, digitChar_lt i3.1 j3.1, digitChar_lt i3.2 j3.2, List.not_lex_nil,
    show ¬ ':' < ':' by decide, false_or, true_and, and_false, or_false]
  unfold clockOf
  omega

/-- C103: with the year, date-times that differ in what is shown are shown differently. -/
theorem C103_whole (hv : t.date.Valid) (hv' : t'.date.Valid) (h : TimeOfDay t) (h' : TimeOfDay t')
    {f : Format} (hf : f = .full ∨ f = .abbrev ∨ f = .numeric) (withSeconds amPm : Bool) :
    (∃ s, t.localeDateTime f withSeconds amPm none = some s) ∧
    (t.localeDateTime f withSeconds amPm none = t'.localeDateTime f withSeconds amPm none ↔
      t.date = t'.date ∧ t.hours = t'.hours ∧ t.minutes = t'.minutes ∧
        (withSeconds = true → t.seconds = t'.seconds)) := by
  obtain ⟨⟨s, hs⟩, hd⟩ := C103_year hv hv' hf
  obtain ⟨⟨s', hs'⟩, _⟩ := C103_year hv' hv hf
  have hn : ∀ (t : DateTime), t.getTimeText withSeconds amPm none = t.clockText withSeconds amPm :=
    fun t => by simp [getTimeText]
  unfold localeDateTime
  rw [hs, hs', Option.map_some, Option.map_some, hn, hn, Option.some.injEq]
  refine ⟨⟨_, rfl⟩, ?_⟩
  rw [← C103_time h h' withSeconds amPm, ← hd, hs, hs', Option.some.injEq]
  refine ⟨fun he => ?_, fun he => by rw [he.1, he.2]⟩
  -- The time without the final " AM" or " PM" has no blank.
  have key : ∀ t : DateTime, TimeOfDay t → ∃ b e : List Char, t.clockText withSeconds amPm = b ++ e ∧
      ' ' ∉ b ∧ e.length = if amPm then 3 else 0 := by
    intro t ht
    have hm : ' ' ∉ t.minuteText withSeconds := by
      have hz : ∀ n, ' ' ∉ zeroText n := fun n => not_zeroText (by decide) (by decide) (by decide)
      unfold minuteText
      cases withSeconds <;> simp [hz]
    cases amPm with
    | false =>
      refine ⟨t.clockText withSeconds false, [], by simp, ?_, rfl⟩
      unfold clockText
      simp only [Bool.false_eq_true, if_false, List.mem_append, not_or]
      exact ⟨not_zeroText (by decide) (by decide) (by decide), hm⟩
    | true =>
      obtain ⟨n, pm, _, _, _, h4⟩ := C103_clock ht withSeconds
      refine ⟨_, _, h4, ?_, ?_⟩
      · rw [List.mem_append, not_or]
        exact ⟨not_decInt (by decide) (by decide), hm⟩
      · cases pm <;> rfl
  obtain ⟨b, e, h1, h2, h3⟩ := key t h
  obtain ⟨b', e', h1', h2', h3'⟩ := key t' h'
  rw [h1, h1'] at he ⊢
  rw [← List.append_assoc, ← List.append_assoc] at he
  obtain ⟨e1, rfl⟩ := List.append_inj' he (by rw [h3, h3'])
  have e2 := congrArg List.reverse e1
  have hr : ∀ s b : List Char, (s ++ " ".toList ++ b).reverse = b.reverse ++ ' ' :: s.reverse := by
    intro s b; simp
  rw [hr, hr] at e2
  obtain ⟨e3, e4⟩ := cut (by simpa using h2) (by simpa using h2') e2
  rw [List.reverse_inj] at e3 e4
  exact ⟨e4, by rw [e3]⟩

/-- C103: the text of a time zone is put behind a blank, and nothing is put behind the time without one. -/
theorem C103_zone (f : Format) (withSeconds amPm : Bool) (d : List Char) {s : List Char}
    (h : t.localeDateTime f withSeconds amPm (some d) = some s) :
    ∃ s', t.localeDateTime f withSeconds amPm none = some s' ∧ s = if d = [] then s' else s' ++ ' ' :: d := by
  unfold localeDateTime at *
  rw [Option.map_eq_some_iff] at h
  obtain ⟨l, hl, rfl⟩ := h
  rw [hl]
  refine ⟨_, rfl, ?_⟩
  unfold getTimeText
  cases d <;> simp

/-! ## Examples, and where the claim fails -/

def shownDate : DateTime := ⟨2010, 2, 28, 0, 5, 9, false, false, none⟩

example : shownDate.date.Valid ∧ TimeOfDay shownDate ∧
    shownDate.localeDateTime .full true true none = some "Sunday, February 28, 2010 12:05:09 AM".toList ∧
    shownDate.localeDateTime .abbrev false false (some "(EST)".toList) =
      some "Sun, Feb 28, 2010 00:05 (EST)".toList ∧
    shownDate.localeDate .numeric = some "2/28/2010".toList := by
  refine ⟨by decide +kernel, by unfold TimeOfDay; decide, by decide +kernel, by decide +kernel, by decide +kernel⟩

/-- Indices before the start count from the end, as in Python. -/
example : Locale.getMonth (-1) true = some "December".toList ∧ Locale.getDay (-7) false = some "Sun".toList ∧
    Locale.getDay (-8) false = none ∧ Locale.getMonth 13 false = none := by decide +kernel

/-- C103 fails outside of 1901 to 2100: Saturday 1 January 2101 is shown as a Sunday. -/
theorem C103_fails_weekday : (ofDate 2101 1 1).localeDate .full = some "Sunday, January 1, 2101".toList ∧
    Shown.weekday ⟨2101, 1, 1⟩ = 6 := by decide +kernel

/-- C103 fails: a date is shown with the time 00:00, as midnight on that date is. -/
theorem C103_fails_date : (ofDate 2010 2 28).localeDateTime .full false false none =
    ({ year := 2010, month := 2, day := 28 } : DateTime).localeDateTime .full false false none ∧
    (ofDate 2010 2 28).localeDateTime .full false false none =
      some "Sunday, February 28, 2010 00:00".toList := by decide +kernel

end DateTime
end PyCal
