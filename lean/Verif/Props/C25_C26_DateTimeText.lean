import Verif.Model.DateTimeText
import Verif.Lemmas.Text
import Verif.Spec.View

/-! # C25 (date-time text) and C26 (UTC offset text) -/

namespace PyCal

/-! ## Two- and four-digit numbers -/

theorem decNat_lt10 {n : Nat} (h : n < 10) : decNat n = [digitChar n] := by rw [decNat, if_pos h]

theorem decNat_ge10 {n : Nat} (h : 10 ≤ n) : decNat n = decNat (n / 10) ++ [digitChar (n % 10)] := by
  rw [decNat, if_neg (by omega)]

/-- The two digits of a number. -/
def d2 (n : Nat) : List Char := [digitChar (n / 10), digitChar (n % 10)]
/-- The four digits of a number. -/
def d4 (n : Nat) : List Char :=
  [digitChar (n / 1000), digitChar (n / 100 % 10), digitChar (n / 10 % 10), digitChar (n % 10)]

theorem padNat2 {n : Nat} (h : n < 100) : padNat 2 n = d2 n := by
  unfold padNat d2
  by_cases h1 : n < 10
  · rw [decNat_lt10 h1, show n / 10 = 0 by omega, show n % 10 = n by omega]; rfl
  · rw [decNat_ge10 (by omega), decNat_lt10 (by omega)]; rfl

theorem padNat4 {n : Nat} (h : n < 10000) : padNat 4 n = d4 n := by
  unfold padNat d4
  by_cases h1 : n < 10
  · rw [decNat_lt10 h1, show n / 1000 = 0 by omega, show n / 100 % 10 = 0 by omega,
      show n / 10 % 10 = 0 by omega, show n % 10 = n by omega]; rfl
  · by_cases h2 : n < 100
    · rw [decNat_ge10 (by omega), decNat_lt10 (by omega), show n / 1000 = 0 by omega,
        show n / 100 % 10 = 0 by omega, show n / 10 % 10 = n / 10 by omega]; rfl
    · by_cases h3 : n < 1000
      · rw [decNat_ge10 (by omega), decNat_ge10 (by omega), decNat_lt10 (by omega),
          show n / 1000 = 0 by omega, show n / 100 % 10 = n / 10 / 10 by omega]; rfl
      · rw [decNat_ge10 (by omega), decNat_ge10 (by omega), decNat_ge10 (by omega),
          decNat_lt10 (by omega), show n / 1000 = n / 10 / 10 / 10 by omega,
          show n / 100 % 10 = n / 10 / 10 % 10 by omega]; rfl

theorem padInt2 {n : Int} (h0 : 0 ≤ n) (h : n < 100) : padInt 2 n = d2 n.toNat := by
  unfold padInt
  rw [if_neg (by omega), padNat2 (by omega)]
  congr 1; omega

theorem padInt4 {n : Int} (h0 : 0 ≤ n) (h : n < 10000) : padInt 4 n = d4 n.toNat := by
  unfold padInt
  rw [if_neg (by omega), padNat4 (by omega)]
  congr 1; omega

theorem isSpace_digit {c : Char} (h : isDigit c = true) : isSpace c = false := by
  simp only [isDigit, Bool.and_eq_true, decide_eq_true_eq] at h
  unfold isSpace
  have h1 : c ≠ ' ' := by rintro rfl; revert h; decide
  have h2 : c ≠ '\t' := by rintro rfl; revert h; decide
  have h3 : c ≠ '\n' := by rintro rfl; revert h; decide
  have h4 : c ≠ '\r' := by rintro rfl; revert h; decide
  simp [h1, h2, h3, h4]; omega

theorem dropWhile_all_digits {s : List Char} (h : ∀ c ∈ s, isDigit c = true) :
    s.dropWhile isSpace = s := by
  cases s with
  | nil => rfl
  | cons c s => simp [isSpace_digit (h c (by simp))]

theorem pyInt_digits {s : List Char} (hne : s ≠ []) (h : ∀ c ∈ s, isDigit c = true) :
    pyInt s = some (readNat s : Int) := by
  have hs : strip s = s := by
    unfold strip
    rw [dropWhile_all_digits h, dropWhile_all_digits (by simpa using h), List.reverse_reverse]
  have hr : readDigits s = some (readNat s) := by
    unfold readDigits
    rw [if_pos ⟨hne, by simpa using h⟩]
  unfold pyInt
  rw [hs]
  cases s with
  | nil => exact absurd rfl hne
  | cons c s =>
    have hc := h c (by simp)
    have h1 : c ≠ '-' := by rintro rfl; revert hc; decide
    have h2 : c ≠ '+' := by rintro rfl; revert hc; decide
    split
    · rename_i heq; simp at heq; exact absurd heq.1 h1
    · rename_i heq; simp at heq; exact absurd heq.1 h2
    · rw [hr]; rfl

theorem d2_digits {n : Nat} (h : n < 100) : ∀ c ∈ d2 n, isDigit c = true := by
  intro c hc; simp [d2] at hc
  rcases hc with rfl | rfl <;> exact isDigit_digitChar (by omega)

theorem d4_digits {n : Nat} (h : n < 10000) : ∀ c ∈ d4 n, isDigit c = true := by
  intro c hc; simp [d4] at hc
  rcases hc with rfl | rfl | rfl | rfl <;> exact isDigit_digitChar (by omega)

theorem pyInt_d2 {n : Nat} (h : n < 100) : pyInt (d2 n) = some (n : Int) := by
  rw [pyInt_digits (by simp [d2]) (d2_digits h)]
  simp only [readNat, d2, List.foldl_cons, List.foldl_nil]
  rw [digitVal_digitChar (by omega), digitVal_digitChar (by omega)]
  congr 2; omega

theorem pyInt_d4 {n : Nat} (h : n < 10000) : pyInt (d4 n) = some (n : Int) := by
  rw [pyInt_digits (by simp [d4]) (d4_digits h)]
  simp only [readNat, d4, List.foldl_cons, List.foldl_nil]
  rw [digitVal_digitChar (by omega), digitVal_digitChar (by omega), digitVal_digitChar (by omega),
    digitVal_digitChar (by omega)]
  congr 2; omega

theorem digitChar_ne {n : Nat} (h : n < 10) {c : Char} (hc : isDigit c = false) : digitChar n ≠ c := by
  intro e; rw [← e, isDigit_digitChar h] at hc; simp at hc

/-! ## C26 -/

/-- C26 for iCalendar text (`fullISO = false`) and jCal/JSON text (`fullISO = true`, where both
sides use the extended form): offsets of less than 100 hours are restored.

Missing: vCard text, `C26_vcard_fails`, and longer offsets, which no standard has. -/
theorem C26_roundtrip_partial (v : Int) (h : v.natAbs < 360000) (fullISO : Bool) :
    utcOffsetParse fullISO (utcOffsetGenerate fullISO v) = some v := by
  unfold utcOffsetGenerate
  have e1 : padInt 2 (v.natAbs / 3600 : Nat) = d2 (v.natAbs / 3600) :=
    padInt2 (by omega) (by omega)
  have e2 : padInt 2 (v.natAbs / 60 % 60 : Nat) = d2 (v.natAbs / 60 % 60) :=
    padInt2 (by omega) (by omega)
  have e3 : padInt 2 (v.natAbs % 60 : Nat) = d2 (v.natAbs % 60) :=
    padInt2 (by omega) (by omega)
  have p1 := pyInt_d2 (n := v.natAbs / 3600) (by omega)
  have p2 := pyInt_d2 (n := v.natAbs / 60 % 60) (by omega)
  have p3 := pyInt_d2 (n := v.natAbs % 60) (by omega)
  simp only [e1, e2, e3]
  have arith : (((v.natAbs / 3600 : Nat) : Int) * 60 + ((v.natAbs / 60 % 60 : Nat) : Int)) * 60 +
      ((v.natAbs % 60 : Nat) : Int) = v.natAbs := by omega
  generalize v.natAbs / 3600 = H at *
  generalize v.natAbs / 60 % 60 = M at *
  generalize v.natAbs % 60 = S at *
  simp only [d2] at p1 p2 p3 ⊢
  generalize digitChar (H / 10) = a1 at *
  generalize digitChar (H % 10) = a2 at *
  generalize digitChar (M / 10) = b1 at *
  generalize digitChar (M % 10) = b2 at *
  generalize digitChar (S / 10) = c1 at *
  generalize digitChar (S % 10) = c2 at *
  by_cases hv : v < 0 <;> by_cases hs : S = 0 <;> cases fullISO <;>
    simp [utcOffsetParse, slice, p1, p2, p3, hv, hs] <;> omega

/-- C26 is false for vCard text: a `TZ` property value is written in the basic form but its parser
requires the extended form, so no value can be read back. -/
theorem C26_vcard_fails (v : Int) (h : v.natAbs < 360000) :
    utcOffsetParse true (utcOffsetGenerate false v) = none := by
  have e1 : padInt 2 (v.natAbs / 3600 : Nat) = d2 (v.natAbs / 3600) :=
    padInt2 (by omega) (by omega)
  have e2 : padInt 2 (v.natAbs / 60 % 60 : Nat) = d2 (v.natAbs / 60 % 60) :=
    padInt2 (by omega) (by omega)
  have e3 : padInt 2 (v.natAbs % 60 : Nat) = d2 (v.natAbs % 60) :=
    padInt2 (by omega) (by omega)
  unfold utcOffsetGenerate utcOffsetParse
  simp only [e1, e2, e3, d2]
  by_cases hv : v < 0 <;> by_cases hs : v.natAbs % 60 = 0 <;> simp [hv, hs]

/-! ## C25 -/

namespace DateTime

theorem digit_ne' {c x : Char} (hc : isDigit c = true) (hx : isDigit x = false) : c ≠ x := by
  rintro rfl; simp [hc] at hx

/-- Two digit characters and their value. -/
structure Two (a b : Char) (n : Int) : Prop where
  da : isDigit a = true
  db : isDigit b = true
  val : pyInt [a, b] = some n
  nonneg : 0 ≤ n

theorem two_d2 {n : Int} (h0 : 0 ≤ n) (h : n < 100) : ∃ a b, padInt 2 n = [a, b] ∧ Two a b n := by
  refine ⟨_, _, padInt2 h0 h, ?_⟩
  have hn : n.toNat < 100 := by omega
  exact ⟨d2_digits hn _ (by simp [d2]), d2_digits hn _ (by simp [d2]),
    by rw [show ([digitChar (n.toNat / 10), digitChar (n.toNat % 10)]) = d2 n.toNat from rfl,
      pyInt_d2 hn]; congr; omega, h0⟩

theorem four_d4 {n : Int} (h0 : 0 ≤ n) (h : n < 10000) : ∃ a b c d, padInt 4 n = [a, b, c, d] ∧
    (isDigit a = true ∧ isDigit b = true ∧ isDigit c = true ∧ isDigit d = true) ∧
    pyInt [a, b, c, d] = some n := by
  refine ⟨_, _, _, _, padInt4 h0 h, ?_⟩
  have hn : n.toNat < 10000 := by omega
  exact ⟨⟨d4_digits hn _ (by simp [d4]), d4_digits hn _ (by simp [d4]), d4_digits hn _ (by simp [d4]),
    d4_digits hn _ (by simp [d4])⟩,
    by rw [show ([digitChar (n.toNat / 1000), digitChar (n.toNat / 100 % 10),
        digitChar (n.toNat / 10 % 10), digitChar (n.toNat % 10)]) = d4 n.toNat from rfl,
      pyInt_d4 hn]; congr; omega⟩

/-- Parsing the date part. -/
theorem parseDate_text (sr : Bool) (self : DateTime) (y m d : Int) (hy : 0 ≤ y ∧ y < 10000)
    (hm : 0 ≤ m ∧ m < 100) (hd : 0 ≤ d ∧ d < 100) (ext iso : Bool) (h : ext = true → iso = true)
    (rest : List Char) :
    ∃ pre : List Char, pre = padInt 4 y ++ (if ext then ['-'] else []) ++ padInt 2 m ++
        (if ext then ['-'] else []) ++ padInt 2 d ∧
      parseDate sr self (pre ++ rest) iso =
        some ({ self with year := y, month := m, day := d }, pre.length) := by
  refine ⟨_, rfl, ?_⟩
  obtain ⟨y1, y2, y3, y4, ey, ⟨ya, yb, yc, yd⟩, vy⟩ := four_d4 hy.1 hy.2
  obtain ⟨m1, m2, em, tm⟩ := two_d2 hm.1 hm.2
  obtain ⟨d1, d2, ed, td⟩ := two_d2 hd.1 hd.2
  rw [ey, em, ed]
  have n1 := digit_ne' tm.da (x := '-') (by decide)
  have n2 := digit_ne' td.da (x := '-') (by decide)
  have s1 := (digit_ne' ya (x := ' ') (by decide)).symm
  have s2 := (digit_ne' yb (x := ' ') (by decide)).symm
  have s3 := (digit_ne' yc (x := ' ') (by decide)).symm
  have s4 := (digit_ne' yd (x := ' ') (by decide)).symm
  have s5 := (digit_ne' tm.da (x := ' ') (by decide)).symm
  have s6 := (digit_ne' tm.db (x := ' ') (by decide)).symm
  have s7 := (digit_ne' td.da (x := ' ') (by decide)).symm
  have s8 := (digit_ne' td.db (x := ' ') (by decide)).symm
  have hneg : ¬ (y < 0 ∨ m < 0 ∨ d < 0) := by omega
  cases ext <;> cases iso <;>
    simp_all [parseDate, slice, skipSep, tm.val, td.val]

/-- Parsing the time part. -/
theorem parseTime_text (self : DateTime) (h mi s : Int) (hh : 0 ≤ h ∧ h < 100)
    (hm : 0 ≤ mi ∧ mi < 100) (hs : 0 ≤ s ∧ s < 100) (ext iso : Bool) (he : ext = true → iso = true)
    (pre rest : List Char) :
    ∃ tt : List Char, tt = padInt 2 h ++ (if ext then [':'] else []) ++ padInt 2 mi ++
        (if ext then [':'] else []) ++ padInt 2 s ∧
      parseTime self (pre ++ (tt ++ rest)) pre.length iso =
        some ({ self with hours := h, minutes := mi, seconds := s }, (pre ++ tt).length) := by
  refine ⟨_, rfl, ?_⟩
  obtain ⟨h1, h2, eh, th⟩ := two_d2 hh.1 hh.2
  obtain ⟨m1, m2, em, tm⟩ := two_d2 hm.1 hm.2
  obtain ⟨d1, d2, ed, td⟩ := two_d2 hs.1 hs.2
  rw [eh, em, ed]
  have n1 := digit_ne' tm.da (x := ':') (by decide)
  have n2 := digit_ne' td.da (x := ':') (by decide)
  have hdrop : ∀ k (l : List Char), (pre ++ l).drop (pre.length + k) = l.drop k := by
    intro k l; simp
  have hdrop0 : ∀ (l : List Char), (pre ++ l).drop pre.length = l := by intro l; simp
  have hget : ∀ k (l : List Char), (pre ++ l)[pre.length + k]? = l[k]? := by
    intro k l; rw [List.getElem?_append_right (by omega)]; congr 1; omega
  cases ext <;> cases iso <;>
    simp_all [parseTime, slice, skipSep, Nat.add_assoc, th.val, tm.val, td.val]

theorem skipFraction_plain {pre rest : List Char} {c : Char} (hc : c ≠ ',') :
    skipFraction (pre ++ c :: rest) pre.length = some pre.length := by
  unfold skipFraction
  have : (pre ++ c :: rest)[pre.length]? = some c := by simp
  rw [this]
  split
  · rename_i h; simp at h
  · rename_i h; simp at h; exact absurd h hc
  · rfl

/-- Parsing the numeric offset. -/
theorem parseFracOffset_offset (self : DateTime) (n : Int) (hn : n % 60 = 0) (hb : n.natAbs < 360000)
    (ext : Bool) (pre : List Char) :
    parseFracOffset self (pre ++ ([if n < 0 then '-' else '+'] ++ padInt 2 (n.natAbs / 3600 : Nat) ++
        (if ext then [':'] else []) ++ padInt 2 (n.natAbs / 60 % 60 : Nat))) pre.length =
      some ({ self with tzid := some (.fixed n) }, pre.length + (if ext then 6 else 5)) := by
  obtain ⟨h1, h2, eh, th⟩ := two_d2 (n := (n.natAbs / 3600 : Nat)) (by omega) (by omega)
  obtain ⟨m1, m2, em, tm⟩ := two_d2 (n := (n.natAbs / 60 % 60 : Nat)) (by omega) (by omega)
  rw [eh, em]
  have ar : (((n.natAbs / 3600 : Nat) : Int) * 60 + ((n.natAbs / 60 % 60 : Nat) : Int)) * 60 =
      n.natAbs := by omega
  have vh := th.val
  have vm := tm.val
  have n1 := digit_ne' tm.da (x := ':') (by decide)
  generalize ((n.natAbs / 3600 : Nat) : Int) = H at *
  generalize ((n.natAbs / 60 % 60 : Nat) : Int) = M at *
  have hdrop : ∀ k (l : List Char), (pre ++ l).drop (pre.length + k) = l.drop k := by
    intro k l; simp
  have hget : ∀ k (l : List Char), (pre ++ l)[pre.length + k]? = l[k]? := by
    intro k l; rw [List.getElem?_append_right (by omega)]; congr 1; omega
  unfold parseFracOffset
  by_cases hneg : n < 0
  · simp only [hneg, if_true, List.cons_append, List.nil_append]
    rw [skipFraction_plain (by decide)]
    cases ext <;>
    · simp_all [parseOffset, slice, skipSep, Nat.add_assoc]
      omega
  · simp only [hneg, if_false, List.cons_append, List.nil_append]
    rw [skipFraction_plain (by decide)]
    cases ext <;>
    · simp_all [parseOffset, slice, skipSep, Nat.add_assoc]
      omega

/-- The text of a date or date-time, in basic or extended form. -/
def textForm (ext : Bool) (t : DateTime) : List Char := if ext then getXMLText t else getText t

theorem Valid.ranges {t : DateTime} (hv : t.Valid) :
    (0 ≤ t.month ∧ t.month < 100) ∧ (0 ≤ t.day ∧ t.day < 100) ∧ (0 ≤ t.hours ∧ t.hours < 100) ∧
    (0 ≤ t.minutes ∧ t.minutes < 100) ∧ (0 ≤ t.seconds ∧ t.seconds < 100) := by
  obtain ⟨⟨⟨h1, h2, h3, h4⟩, h5, h6, h7, h8, h9, h10⟩, _⟩ := hv
  have hl : Spec.monthLen t.year t.month ≤ 31 := by
    unfold Spec.monthLen; split <;> (try split) <;> omega
  simp only [civil, date] at *
  omega

theorem parseText_dateOnly (t : DateTime) (hv : t.Valid) (hy : 0 ≤ t.year ∧ t.year ≤ 9999)
    (ext iso sr : Bool) (he : ext = true → iso = true) (hd : t.dateOnly = true) :
    parseText sr (textForm ext t) iso = some { t with utc := false, tzid := none } := by
  obtain ⟨r1, r2, -⟩ := hv.ranges
  have hz := hv.2 hd
  obtain ⟨pre, e1, e2⟩ := parseDate_text sr {} t.year t.month t.day ⟨hy.1, by omega⟩ r1 r2 ext iso he []
  have ht : textForm ext t = pre ++ [] := by
    rw [e1]; unfold textForm getText getXMLText dateText; cases ext <;> simp [hd]
  unfold parseText parse
  rw [ht, e2]
  have : (pre ++ [])[pre.length]? = none := by simp
  simp only [this]
  congr 1
  obtain ⟨y, m, d, h, mi, s, do_, u, tz⟩ := t
  simp_all

theorem parseText_dateTime (t : DateTime) (hv : t.Valid) (hy : 0 ≤ t.year ∧ t.year ≤ 9999)
    (ext iso sr : Bool) (he : ext = true → iso = true) (hd : t.dateOnly = false) :
    ∃ pre : List Char, textForm ext t = pre ++ zoneText (if ext then [':'] else []) t ∧
      parseText sr (textForm ext t) iso =
        (if pre.length < (textForm ext t).length then
            if iso then (parseFracOffset { t with utc := false, tzid := none }
              (textForm ext t) pre.length).map (·.1)
            else if (textForm ext t)[pre.length]? ≠ some 'Z' then none
            else if pre.length + 1 < (textForm ext t).length then none
            else some { t with utc := true, tzid := none }
          else some { t with utc := false, tzid := none }) := by
  obtain ⟨r1, r2, r3, r4, r5⟩ := hv.ranges
  obtain ⟨pd, e1, e2⟩ := parseDate_text sr {} t.year t.month t.day ⟨hy.1, by omega⟩ r1 r2 ext iso he
    (['T'] ++ timeText (if ext then [':'] else []) t ++ zoneText (if ext then [':'] else []) t)
  obtain ⟨pt, e3, e4⟩ := parseTime_text { ({} : DateTime) with year := t.year, month := t.month, day := t.day }
    t.hours t.minutes t.seconds r3 r4 r5 ext iso he (pd ++ ['T'])
    (zoneText (if ext then [':'] else []) t)
  have hpt : timeText (if ext then [':'] else []) t = pt := by rw [e3]; rfl
  have ht : textForm ext t = pd ++ (['T'] ++ timeText (if ext then [':'] else []) t ++
      zoneText (if ext then [':'] else []) t) := by
    rw [e1]; unfold textForm getText getXMLText dateText; cases ext <;> simp [hd]
  refine ⟨pd ++ ['T'] ++ pt, by rw [ht, hpt]; simp, ?_⟩
  rw [← ht] at e2
  have ht' : textForm ext t = pd ++ ['T'] ++ (pt ++ zoneText (if ext then [':'] else []) t) := by
    rw [ht, hpt]; simp
  rw [← ht', show (pd ++ ['T']).length = pd.length + 1 by simp] at e4
  unfold parseText parse
  have hT : (textForm ext t)[pd.length]? = some 'T' := by rw [ht]; simp
  simp only [e2, hT, e4]
  generalize textForm ext t = data at *
  generalize (pd ++ ['T'] ++ pt).length = k at *
  obtain ⟨y, m, d, h, mi, s, do_, u, tz⟩ := t
  simp only at hd
  subst hd
  rfl

theorem parseFracOffset_Z (self : DateTime) (pre : List Char) :
    parseFracOffset self (pre ++ ['Z']) pre.length = some ({ self with utc := true }, pre.length + 1) := by
  unfold parseFracOffset
  rw [skipFraction_plain (by decide)]
  have : (pre ++ ['Z'])[pre.length]? = some 'Z' := by simp
  simp [this]

/-- The text shows everything about `t` but a timezone name: not a date with the UTC flag, not a
numeric offset. -/
def Shown (t : DateTime) : Prop :=
  (t.dateOnly = true → t.utc = false) ∧ (t.utc = true ∨ t.dateOnly = true ∨ ∀ n, t.tzid ≠ some (.fixed n))

/-- C25 for date-times without a numeric UTC offset: parsing either text form restores all fields,
the date-only flag and the UTC flag; only the timezone name, which is not part of the text, is gone.
(`ext`: the ISO form `getXMLText`, which needs the `fullISO` parser; the iCalendar form can be read
by both parsers.)  Missing for C25: dates carrying the UTC flag, and numeric offsets (see
`C25_offset` for those that do survive). -/
theorem C25_text_partial (t : DateTime) (hv : t.Valid) (hy : 0 ≤ t.year ∧ t.year ≤ 9999)
    (hs : t.Shown) (ext iso sr : Bool) (he : ext = true → iso = true) :
    parseText sr (textForm ext t) iso = some { t with tzid := none } := by
  by_cases hd : t.dateOnly = true
  · rw [parseText_dateOnly t hv hy ext iso sr he hd]
    have := hs.1 hd
    obtain ⟨y, m, d, h, mi, s, do_, u, tz⟩ := t
    simp_all
  · simp only [Bool.not_eq_true] at hd
    obtain ⟨pre, e1, e2⟩ := parseText_dateTime t hv hy ext iso sr he hd
    rw [e2, e1]
    by_cases hu : t.utc = true
    · have hz : ∀ sep, zoneText sep t = ['Z'] := fun sep => by simp [zoneText, hu]
      rw [hz]
      have h1 : pre.length < (pre ++ ['Z']).length := by simp
      have h2 : ¬ pre.length + 1 < (pre ++ ['Z']).length := by simp
      have h3 : (pre ++ ['Z'])[pre.length]? = some 'Z' := by simp
      rw [if_pos h1, parseFracOffset_Z, h3]
      simp only [ne_eq, not_true_eq_false, if_false, h2]
      obtain ⟨y, m, d, h, mi, s, do_, u, tz⟩ := t
      cases iso <;> simp_all
    · have hz : ∀ sep, zoneText sep t = [] := by
        intro sep
        have := hs.2
        simp only [hu, hd, false_or, Bool.false_eq_true] at this
        unfold zoneText
        rw [if_neg hu]
        split
        · rename_i h; exact absurd h (this _)
        · rfl
      rw [hz]
      obtain ⟨y, m, d, h, mi, s, do_, u, tz⟩ := t
      simp_all

/-- C25 for numeric offsets of whole minutes below 100 hours, with the `fullISO` parser: everything
is restored, the offset included. -/
theorem C25_offset (t : DateTime) (hv : t.Valid) (hy : 0 ≤ t.year ∧ t.year ≤ 9999) (n : Int)
    (hz : t.tzid = some (.fixed n)) (hu : t.utc = false) (hd : t.dateOnly = false)
    (hn : n % 60 = 0) (hb : n.natAbs < 360000) (ext sr : Bool) :
    parseText sr (textForm ext t) true = some t := by
  obtain ⟨pre, e1, e2⟩ := parseText_dateTime t hv hy ext true sr (fun _ => rfl) hd
  rw [e2, e1]
  have hzt : ∀ sep, zoneText sep t = [if n < 0 then '-' else '+'] ++
      padInt 2 (n.natAbs / 3600 : Nat) ++ sep ++ padInt 2 (n.natAbs / 60 % 60 : Nat) := by
    intro sep; simp [zoneText, hu, hz]
  rw [hzt, if_pos (by simp), if_pos rfl,
    parseFracOffset_offset _ n hn hb ext pre]
  obtain ⟨y, m, d, h, mi, s, do_, u, tz⟩ := t
  simp_all

/-- C25 is false for a numeric offset in iCalendar text: what is generated cannot be parsed. -/
theorem C25_offset_ical_fails : ∃ t : DateTime, t.Valid ∧ 0 ≤ t.year ∧ t.year ≤ 9999 ∧
    parseText false (getText t) false = none :=
  ⟨{ year := 2020, month := 2, day := 29, tzid := some (.fixed 3600) }, by decide, by decide, by decide,
    by decide +kernel⟩

/-- C25 is false for a date with the UTC flag (a UTC date-time after `setDateOnly(True)`): the flag
is lost. -/
theorem C25_utc_date_fails : ∃ t : DateTime, t.Valid ∧ 0 ≤ t.year ∧ t.year ≤ 9999 ∧
    ∃ t', parseText false (getText t) false = some t' ∧ t'.utc ≠ t.utc :=
  ⟨{ year := 2020, month := 2, day := 29, dateOnly := true, utc := true }, by decide, by decide,
    by decide, { year := 2020, month := 2, day := 29, dateOnly := true }, by decide +kernel, by decide⟩

/-- Parsing into an object that was used before keeps its UTC flag when the text has a numeric
offset, so the result depends on more than the text. -/
theorem C25_reuse_fails : ∃ (a b : DateTime) (s : List Char) (ra rb : DateTime),
    parse false a s true = some ra ∧ parse false b s true = some rb ∧ ra.posix TzEnv.empty ≠
      rb.posix TzEnv.empty :=
  ⟨{}, { utc := true }, "20200101T000000+0100".toList,
    { year := 2020, tzid := some (.fixed 3600) }, { year := 2020, utc := true, tzid := some (.fixed 3600) },
    by decide +kernel, by decide +kernel, by decide +kernel⟩

example : Shown { year := 2020, month := 2, day := 29, hours := 23, utc := true } := by
  refine ⟨by decide, Or.inl rfl⟩
example : textForm true { year := 2020, month := 2, day := 29, hours := 23, utc := true } =
    "2020-02-29T23:00:00Z".toList := by decide +kernel

end DateTime

example : utcOffsetGenerate false (-18000) = "-0500".toList := by decide +kernel
example : utcOffsetGenerate true 20700 = "+05:45".toList := by decide +kernel

end PyCal
