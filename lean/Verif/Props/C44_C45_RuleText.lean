import Verif.Model.RecurrenceText
import Verif.Spec.RecurText
import Verif.Props.C15_C16_DurationText
import Verif.Props.C25_C26_DateTimeText

/-!
# C44, C45, C56: the text of recurrence rules, and equality of rules

* C44 generated text is parsed back to the same rule.
* C45 equality of rules disregards the order of BYxxx values.
* C56 every rule text of RFC 5545 is accepted, with the meaning the RFC gives it; an accepted text
  has only allowed values.
-/

namespace PyCal
open Spec Spec.Recur DateTime

/-! ## Splitting -/

theorem splitOn_free {c : Char} : ∀ {s : List Char}, c ∉ s → splitOn c s = [s]
  | [], _ => rfl
  | x :: s, h => by
    rw [List.mem_cons, not_or] at h
    rw [splitOn, if_neg (Ne.symm h.1), splitOn_free h.2]

theorem splitOn_append {c : Char} {r : List Char} :
    ∀ {s : List Char}, c ∉ s → splitOn c (s ++ c :: r) = s :: splitOn c r
  | [], _ => by rw [List.nil_append, splitOn, if_pos rfl]
  | x :: s, h => by
    rw [List.mem_cons, not_or] at h
    rw [List.cons_append, splitOn, if_neg (Ne.symm h.1), splitOn_append h.2]

theorem _root_.Spec.Recur.Sep.split {α : Type} {c : Char} {P : List Char → α → Prop}
    (hc : ∀ s a, P s a → c ∉ s) {s : List Char} {l : List α} (h : Sep c P s l) :
    List.Forall₂ P (splitOn c s) l := by
  induction h with
  | one h => rw [splitOn_free (hc _ _ h)]; exact .cons h .nil
  | more h _ ih => rw [splitOn_append (hc _ _ h)]; exact .cons h ih

theorem _root_.Spec.Recur.Sep.free {α : Type} {c x : Char} {P : List Char → α → Prop}
    (hc : ∀ s a, P s a → x ∉ s) (hx : x ≠ c) {s : List Char} {l : List α} (h : Sep c P s l) :
    x ∉ s := by
  induction h with
  | one h => exact hc _ _ h
  | more h _ ih =>
    rw [List.mem_append, List.mem_cons, not_or, not_or]
    exact ⟨hc _ _ h, hx, ih⟩

theorem mapM_forall₂ {α : Type} {P : List Char → α → Prop} {f : List Char → Option α}
    {ss : List (List Char)} {l : List α} (h : List.Forall₂ P ss l)
    (hf : ∀ s a, a ∈ l → P s a → f s = some a) : ss.mapM f = some l := by
  induction h with
  | nil => rfl
  | cons h _ ih =>
    rw [List.mapM_cons, hf _ _ (by simp) h, ih fun s a ha => hf s a (by simp [ha])]
    rfl

/-! ## Numbers and words -/

theorem dropWhile_head {p : Char → Bool} {c : Char} {s : List Char} (h : p c = false) :
    (c :: s).dropWhile p = c :: s := by simp [h]

theorem strip_solid {s : List Char} (h : ∀ c ∈ s, isSpace c = false) : strip s = s := by
  have h1 : ∀ l : List Char, (∀ c ∈ l, isSpace c = false) → l.dropWhile isSpace = l := by
    intro l hl
    cases l with
    | nil => rfl
    | cons c l => exact dropWhile_head (hl c (by simp))
  unfold strip
  rw [h1 s h, h1 s.reverse (by simpa using h), List.reverse_reverse]

theorem readDigits_digits {s : List Char} {n : Nat} (h : Dur.Digits s n) :
    readDigits s = some n := by
  unfold readDigits
  rw [if_pos ⟨h.ne_nil, by simpa using h.allDigits⟩, h.value]

theorem _root_.Spec.Recur.Number.pyInt {s : List Char} {n : Int} (h : Number s n) : pyInt s = some n := by
  have hs : ∀ {s n}, Dur.Digits s n → ∀ c ∈ s, isSpace c = false :=
    fun h c hc => isSpace_digit (h.allDigits c hc)
  cases h with
  | plain h =>
    rw [pyInt_digits h.ne_nil h.allDigits, h.value]
  | plus h =>
    unfold PyCal.pyInt
    rw [strip_solid (by
      intro c hc
      rcases List.mem_cons.mp hc with rfl | hc
      · decide
      · exact hs h c hc)]
    simp [readDigits_digits h]
  | minus h =>
    unfold PyCal.pyInt
    rw [strip_solid (by
      intro c hc
      rcases List.mem_cons.mp hc with rfl | hc
      · decide
      · exact hs h c hc)]
    simp [readDigits_digits h]

theorem _root_.Spec.Recur.Number.chars {s : List Char} {n : Int} (h : Number s n) : ∀ c ∈ s, Rule.isNumChar c = true := by
  have hs : ∀ {s n}, Dur.Digits s n → ∀ c ∈ s, Rule.isNumChar c = true :=
    fun h c hc => by simp [Rule.isNumChar, h.allDigits c hc]
  cases h with
  | plain h => exact hs h
  | plus h =>
    intro c hc
    rcases List.mem_cons.mp hc with rfl | hc
    · decide
    · exact hs h c hc
  | minus h =>
    intro c hc
    rcases List.mem_cons.mp hc with rfl | hc
    · decide
    · exact hs h c hc

theorem _root_.Spec.Recur.Number.ne_nil {s : List Char} {n : Int} (h : Number s n) : s ≠ [] := by
  cases h with
  | plain h => exact h.ne_nil
  | plus h => simp
  | minus h => simp

theorem _root_.Spec.Recur.Number.free {s : List Char} {n : Int} (h : Number s n) {x : Char}
    (hx : Rule.isNumChar x = false) : x ∉ s := by
  intro hm
  rw [h.chars x hm] at hx
  simp at hx

theorem _root_.Spec.Recur.DayWord.weekdayOf {s : List Char} {d : Int} (h : DayWord s d) :
    Rule.weekdayOf s = some d := by cases h <;> rfl

theorem _root_.Spec.Recur.DayWord.chars {s : List Char} {d : Int} (h : DayWord s d) :
    ∀ c ∈ s, Rule.isNumChar c = false ∧ c ≠ ',' ∧ c ≠ ';' ∧ c ≠ '=' := by cases h <;> decide

theorem _root_.Spec.Recur.DayWord.ne_nil {s : List Char} {d : Int} (h : DayWord s d) : s ≠ [] := by
  cases h <;> decide

theorem _root_.Spec.Recur.FreqWord.freqOf {s : List Char} {f : Freq} (h : FreqWord s f) :
    Rule.freqOf s = some f := by cases h <;> rfl

theorem _root_.Spec.Recur.FreqWord.chars {s : List Char} {f : Freq} (h : FreqWord s f) :
    ∀ c ∈ s, c ≠ ';' ∧ c ≠ '=' := by cases h <;> decide

theorem _root_.Spec.Recur.DayNum.parse {s : List Char} {v : Int × Int} (h : DayNum s v)
    (hv : v.1 ≠ 0 → 1 ≤ v.1 ∧ v.1 ≤ 53 ∨ -53 ≤ v.1 ∧ v.1 ≤ -1) : Rule.parseDay s = some v := by
  have hw : ∀ {s d}, DayWord s d → s.takeWhile Rule.isNumChar = [] := by
    intro s d h
    cases h <;> decide
  cases h with
  | every h => simp [Rule.parseDay, hw h, DayWord.weekdayOf h]
  | @nth s n w d h hn h' =>
    have hstop : ∀ c ∈ w.head?, Rule.isNumChar c = false := by
      intro c hc
      exact (h'.chars c (List.mem_of_mem_head? hc)).1
    unfold Rule.parseDay
    rw [takeWhile_append_stop h.chars hstop, dropWhile_append_stop h.chars hstop,
      if_neg h.ne_nil, h.pyInt]
    have h0 : 1 ≤ n ∧ n ≤ 53 ∨ -53 ≤ n ∧ n ≤ -1 := hv hn
    simp only
    rw [if_neg (by omega), h'.weekdayOf]
    rfl

theorem _root_.Spec.Recur.DayNum.free {s : List Char} {v : Int × Int} (h : DayNum s v) {x : Char}
    (hx : x = ',' ∨ x = ';' ∨ x = '=') : x ∉ s := by
  have hw : ∀ {s d}, DayWord s d → x ∉ s := by
    intro s d h hm
    have := h.chars x hm
    rcases hx with rfl | rfl | rfl <;> simp at this
  cases h with
  | every h => exact hw h
  | nth h hn h' =>
    rw [List.mem_append, not_or]
    exact ⟨h.free (by rcases hx with rfl | rfl | rfl <;> decide), hw h'⟩

/-! ## Parts -/

/-- The dates UNTIL can have, with their text: a date or a date with time, in UTC or without time
zone, of the years 0 to 9999. -/
def UntilText (s : List Char) (t : DateTime) : Prop :=
  s = t.getText ∧ t.Valid ∧ (0 ≤ t.year ∧ t.year ≤ 9999) ∧ (t.dateOnly = true → t.utc = false) ∧
  t.tzid = none

theorem UntilText.parse {s : List Char} {t : DateTime} (h : UntilText s t) (sr : Bool) :
    DateTime.parse sr {} s false = some t := by
  obtain ⟨rfl, hv, hy, hd, hz⟩ := h
  have := C25_text_partial t hv hy ⟨hd, Or.inr (Or.inr (by simp [hz]))⟩ false false sr (by simp)
  rw [textForm, if_neg (by simp), parseText] at this
  rw [this]
  obtain ⟨y, m, d, hh, mi, s, do_, u, tz⟩ := t
  simp_all

theorem UntilText.free {s : List Char} {t : DateTime} (h : UntilText s t) {x : Char}
    (hx : x = ';' ∨ x = '=') : x ∉ s := by
  obtain ⟨rfl, hv, hy, hd, hz⟩ := h
  obtain ⟨r1, r2, r3, r4, r5⟩ := hv.ranges
  have hdig : isDigit x = false := by rcases hx with rfl | rfl <;> decide
  have h4 : ∀ n : Int, 0 ≤ n → n < 10000 → x ∉ padInt 4 n := by
    intro n h0 h1 hm
    rw [padInt4 h0 h1] at hm
    rw [d4_digits (by omega) x hm] at hdig; simp at hdig
  have h2 : ∀ n : Int, 0 ≤ n → n < 100 → x ∉ padInt 2 n := by
    intro n h0 h1 hm
    rw [padInt2 h0 h1] at hm
    rw [d2_digits (by omega) x hm] at hdig; simp at hdig
  have hz' : x ∉ zoneText [] t := by
    unfold zoneText
    split
    · rcases hx with rfl | rfl <;> decide
    · rw [hz]; simp
  have hT : x ≠ 'T' := by rcases hx with rfl | rfl <;> decide
  unfold getText dateText timeText
  split <;> simp only [List.mem_append, List.mem_cons, List.not_mem_nil, or_false, not_or] <;>
    simp [h4 _ hy.1 (by omega), h2 _ r1.1 r1.2, h2 _ r2.1 r2.2, h2 _ r3.1 r3.2, h2 _ r4.1 r4.2,
      h2 _ r5.1 r5.2, hz', hT]

theorem _root_.Spec.Recur.PartText.free {s : List Char} {p : Part} (h : PartText UntilText s p) :
    ';' ∉ s := by
  have num : Rule.isNumChar ';' = false := by decide
  cases h with
  | freq h =>
    rw [List.mem_append, not_or]
    exact ⟨by decide, fun hm => (h.chars _ hm).1 rfl⟩
  | upto h => rw [List.mem_append, not_or]; exact ⟨by decide, h.free (Or.inl rfl)⟩
  | count h => rw [List.mem_append, not_or]; exact ⟨by decide, h.free num⟩
  | interval h => rw [List.mem_append, not_or]; exact ⟨by decide, h.free num⟩
  | @num s k vals h _ =>
    rw [List.mem_append, List.mem_cons, not_or, not_or]
    exact ⟨by cases k <;> decide, by decide, h.free (fun _ _ h => h.free num) (by decide)⟩
  | byDay h =>
    rw [List.mem_append, not_or]
    exact ⟨by decide, h.free (fun _ _ h => h.free (Or.inr (Or.inl rfl))) (by decide)⟩
  | wkst h =>
    rw [List.mem_append, not_or]
    exact ⟨by decide, fun hm => (h.chars _ hm).2.2.1 rfl⟩

theorem parseNum_number {s : List Char} {v : Int} (h : Number s v) {lo : Int} {hi : Option Int}
    {neg : Bool} (h1 : neg = false → 0 ≤ v) (h2 : lo ≤ v.natAbs)
    (h3 : ∀ b, hi = some b → (v.natAbs : Int) ≤ b) : Rule.parseNum lo hi neg s = some v := by
  unfold Rule.parseNum
  rw [h.pyInt]
  simp only
  rw [if_neg (by
    simp only [Bool.and_eq_true, Bool.not_eq_true', decide_eq_true_eq, not_and]
    intro hn; have := h1 hn; omega), if_neg (by omega)]
  cases hi with
  | none => rfl
  | some b => simp only; rw [if_neg (by have := h3 b rfl; omega)]

theorem parseList_numbers {s : List Char} {vals : List Int} (h : Sep ',' Number s vals) {lo : Int}
    {hi : Option Int} {neg : Bool} (h1 : ∀ v ∈ vals, neg = false → 0 ≤ v)
    (h2 : ∀ v ∈ vals, lo ≤ v.natAbs) (h3 : ∀ v ∈ vals, ∀ b, hi = some b → (v.natAbs : Int) ≤ b) :
    Rule.parseList s lo hi neg = some vals :=
  mapM_forall₂ (h.split fun _ _ h => h.free (by decide))
    fun s v hv hs => parseNum_number hs (h1 v hv) (h2 v hv) (h3 v hv)

theorem parseListDW_days {s : List Char} {vals : List (Int × Int)} (h : Sep ',' DayNum s vals)
    (hv : ∀ v ∈ vals, v.1 ≠ 0 → 1 ≤ v.1 ∧ v.1 ≤ 53 ∨ -53 ≤ v.1 ∧ v.1 ≤ -1) :
    Rule.parseListDW s = some vals :=
  mapM_forall₂ (h.split fun _ _ h => h.free (Or.inl rfl)) fun s v hv' hs => hs.parse (hv v hv')

theorem parseToken_eq {sr : Bool} {r : Rule} {name value : List Char} (h1 : '=' ∉ name)
    (h2 : '=' ∉ value) :
    Rule.parseToken sr r (name ++ '=' :: value) = Rule.parsePart sr r name value := by
  unfold Rule.parseToken
  rw [splitOn_append h1, splitOn_free h2]

/-- What a part changes. -/
def assign (r : Rule) : Part → Rule
  | .freq f => { r with freq := f }
  | .upto t => { r with useUntil := true, untilDate := some t }
  | .count n => { r with useCount := true, count := n }
  | .interval n => { r with interval := n }
  | .num .second v => { r with bySeconds := v }
  | .num .minute v => { r with byMinutes := v }
  | .num .hour v => { r with byHours := v }
  | .num .monthDay v => { r with byMonthDay := v }
  | .num .yearDay v => { r with byYearDay := v }
  | .num .weekNo v => { r with byWeekNo := v }
  | .num .month v => { r with byMonth := v }
  | .num .setPos v => { r with bySetPos := v }
  | .byDay v => { r with byDay := v }
  | .wkst d => { r with weekStart := d }

theorem rule_snoc {ps : List Part} {p : Part} (h : ∀ q ∈ ps, ¬ q.Clash p) :
    rule (ps ++ [p]) = assign (rule ps) p := by
  have none_of : ∀ {α : Type} (f : Part → Option α), (∀ q, ¬ q.Clash p → f q = none) →
      ps.findSome? f = none := fun f hf => by
    rw [List.findSome?_eq_none_iff]; exact fun q hq => hf q (h q hq)
  cases p with
  | freq f =>
    have := none_of freqOf fun q hq => by
      cases q <;> simp_all [Part.Clash, freqOf, uptoOf, countOf, intervalOf, byDayOf, wkstOf]
    simp [rule, assign, List.findSome?_append, this, byOf, freqOf, uptoOf, countOf, intervalOf, byDayOf, wkstOf]
  | upto f =>
    have := none_of uptoOf fun q hq => by
      cases q <;> simp_all [Part.Clash, freqOf, uptoOf, countOf, intervalOf, byDayOf, wkstOf]
    simp [rule, assign, List.findSome?_append, this, byOf, freqOf, uptoOf, countOf, intervalOf, byDayOf, wkstOf]
  | count f =>
    have := none_of countOf fun q hq => by
      cases q <;> simp_all [Part.Clash, freqOf, uptoOf, countOf, intervalOf, byDayOf, wkstOf]
    simp [rule, assign, List.findSome?_append, this, byOf, freqOf, uptoOf, countOf, intervalOf, byDayOf, wkstOf]
  | interval f =>
    have := none_of intervalOf fun q hq => by
      cases q <;> simp_all [Part.Clash, freqOf, uptoOf, countOf, intervalOf, byDayOf, wkstOf]
    simp [rule, assign, List.findSome?_append, this, byOf, freqOf, uptoOf, countOf, intervalOf, byDayOf, wkstOf]
  | byDay f =>
    have := none_of byDayOf fun q hq => by
      cases q <;> simp_all [Part.Clash, freqOf, uptoOf, countOf, intervalOf, byDayOf, wkstOf]
    simp [rule, assign, List.findSome?_append, this, byOf, freqOf, uptoOf, countOf, intervalOf, byDayOf, wkstOf]
  | wkst f =>
    have := none_of wkstOf fun q hq => by
      cases q <;> simp_all [Part.Clash, freqOf, uptoOf, countOf, intervalOf, byDayOf, wkstOf]
    simp [rule, assign, List.findSome?_append, this, byOf, freqOf, uptoOf, countOf, intervalOf, byDayOf, wkstOf]
  | num k v =>
    have := none_of (byOf k) fun q hq => by
      cases q <;> simp_all [Part.Clash, byOf]
    cases k <;> simp [rule, assign, List.findSome?_append, this, byOf, freqOf, uptoOf, countOf, intervalOf, byDayOf, wkstOf]

theorem findSome_none {α : Type} {ps : List Part} {p : Part} (h : ∀ q ∈ ps, ¬ q.Clash p)
    (f : Part → Option α) (hf : ∀ q, ¬ q.Clash p → f q = none) : ps.findSome? f = none := by
  rw [List.findSome?_eq_none_iff]; exact fun q hq => hf q (h q hq)

/-- The bounds for a numeric part. -/
def boundsOf : By → Int × Option Int × Bool
  | .second => (0, some 60, false)
  | .minute => (0, some 59, false)
  | .hour => (0, some 23, false)
  | .monthDay => (1, some 31, true)
  | .yearDay => (1, some 366, true)
  | .weekNo => (1, some 53, true)
  | .month => (1, some 12, false)
  | .setPos => (0, none, true)

theorem allows_bounds {k : By} {v : Int} (h : k.Allows v) :
    ((boundsOf k).2.2 = false → 0 ≤ v) ∧ (boundsOf k).1 ≤ (v.natAbs : Int) ∧
    ∀ b, (boundsOf k).2.1 = some b → (v.natAbs : Int) ≤ b := by
  cases k <;> simp only [By.Allows, boundsOf] at h ⊢ <;>
    refine ⟨by intros; first | contradiction | omega, by omega, fun b hb => ?_⟩ <;>
    first
      | (simp only [Option.some.injEq] at hb; omega)
      | simp at hb

theorem parseList_by {s : List Char} {k : By} {vals : List Int} (h : Sep ',' Number s vals)
    (hv : ∀ v ∈ vals, k.Allows v) :
    Rule.parseList s (boundsOf k).1 (boundsOf k).2.1 (boundsOf k).2.2 = some vals :=
  parseList_numbers h (fun v hm => (allows_bounds (hv v hm)).1)
    (fun v hm => (allows_bounds (hv v hm)).2.1) fun v hm => (allows_bounds (hv v hm)).2.2

theorem parsePart_second (sr : Bool) (r : Rule) (v : List Char) :
    Rule.parsePart sr r "BYSECOND".toList v =
      Rule.setOnce r.bySeconds (Rule.parseList v 0 (some 60) false) fun l => { r with bySeconds := l } := by
  simp [Rule.parsePart]

theorem parsePart_minute (sr : Bool) (r : Rule) (v : List Char) :
    Rule.parsePart sr r "BYMINUTE".toList v =
      Rule.setOnce r.byMinutes (Rule.parseList v 0 (some 59) false) fun l => { r with byMinutes := l } := by
  simp [Rule.parsePart]

theorem parsePart_hour (sr : Bool) (r : Rule) (v : List Char) :
    Rule.parsePart sr r "BYHOUR".toList v =
      Rule.setOnce r.byHours (Rule.parseList v 0 (some 23) false) fun l => { r with byHours := l } := by
  simp [Rule.parsePart]

theorem parsePart_monthDay (sr : Bool) (r : Rule) (v : List Char) :
    Rule.parsePart sr r "BYMONTHDAY".toList v =
      Rule.setOnce r.byMonthDay (Rule.parseList v 1 (some 31) true) fun l => { r with byMonthDay := l } := by
  simp [Rule.parsePart]

theorem parsePart_yearDay (sr : Bool) (r : Rule) (v : List Char) :
    Rule.parsePart sr r "BYYEARDAY".toList v =
      Rule.setOnce r.byYearDay (Rule.parseList v 1 (some 366) true) fun l => { r with byYearDay := l } := by
  simp [Rule.parsePart]

theorem parsePart_weekNo (sr : Bool) (r : Rule) (v : List Char) :
    Rule.parsePart sr r "BYWEEKNO".toList v =
      Rule.setOnce r.byWeekNo (Rule.parseList v 1 (some 53) true) fun l => { r with byWeekNo := l } := by
  simp [Rule.parsePart]

theorem parsePart_month (sr : Bool) (r : Rule) (v : List Char) :
    Rule.parsePart sr r "BYMONTH".toList v =
      Rule.setOnce r.byMonth (Rule.parseList v 1 (some 12) false) fun l => { r with byMonth := l } := by
  simp [Rule.parsePart]

theorem parsePart_setPos (sr : Bool) (r : Rule) (v : List Char) :
    Rule.parsePart sr r "BYSETPOS".toList v =
      Rule.setOnce r.bySetPos (Rule.parseList v 0 (none) true) fun l => { r with bySetPos := l } := by
  simp [Rule.parsePart]

theorem parsePart_num {sr : Bool} {ps : List Part} {s : List Char} {k : By} {vals : List Int}
    (h : Sep ',' Number s vals) (hv : ∀ v ∈ vals, k.Allows v)
    (h1 : ps.findSome? (byOf k) = none) :
    Rule.parsePart sr (rule ps) k.name s = some (assign (rule ps) (.num k vals)) := by
  have hp := parseList_by h hv
  have hset : ∀ {α : Type} {l : List α} {v : List α} {f : List α → Rule} {o : Option (List α)},
      l = [] → o = some v → Rule.setOnce l o f = some (f v) := by
    intro α l v f o h1 h2; simp [Rule.setOnce, h1, h2]
  have hnil : (ps.findSome? (byOf k)).getD [] = [] := by rw [h1]; rfl
  cases k
  · exact (parsePart_second _ _ _).trans (hset hnil hp)
  · exact (parsePart_minute _ _ _).trans (hset hnil hp)
  · exact (parsePart_hour _ _ _).trans (hset hnil hp)
  · exact (parsePart_monthDay _ _ _).trans (hset hnil hp)
  · exact (parsePart_yearDay _ _ _).trans (hset hnil hp)
  · exact (parsePart_weekNo _ _ _).trans (hset hnil hp)
  · exact (parsePart_month _ _ _).trans (hset hnil hp)
  · exact (parsePart_setPos _ _ _).trans (hset hnil hp)

theorem parseToken_part {sr : Bool} {ps : List Part} {s : List Char} {p : Part}
    (h : PartText UntilText s p) (hc : ∀ q ∈ ps, ¬ q.Clash p) :
    Rule.parseToken sr (rule ps) s = some (assign (rule ps) p) := by
  have num : Rule.isNumChar '=' = false := by decide
  cases h with
  | freq h =>
    rw [show ∀ s, "FREQ=".toList ++ s = "FREQ".toList ++ '=' :: s from fun _ => rfl,
      parseToken_eq (by decide) fun hm => (h.chars _ hm).2 rfl]
    simp [Rule.parsePart, h.freqOf, assign]
  | @upto s t h =>
    rw [show ∀ s, "UNTIL=".toList ++ s = "UNTIL".toList ++ '=' :: s from fun _ => rfl,
      parseToken_eq (by decide) (h.free (Or.inr rfl))]
    have h1 : (rule ps).useCount = false := by
      simp [rule, findSome_none hc countOf fun q hq => by
        cases q <;> simp_all [Part.Clash, freqOf, uptoOf, countOf, intervalOf, byDayOf, wkstOf]]
    have h2 : (rule ps).untilDate = none :=
      findSome_none hc uptoOf fun q hq => by
        cases q <;> simp_all [Part.Clash, freqOf, uptoOf, countOf, intervalOf, byDayOf, wkstOf]
    simp [Rule.parsePart, h1, h2, h.parse sr, assign]
  | @count s n h hn =>
    rw [show ∀ s, "COUNT=".toList ++ s = "COUNT".toList ++ '=' :: s from fun _ => rfl,
      parseToken_eq (by decide) (h.free num)]
    have h1 : (rule ps).useUntil = false := by
      simp [rule, findSome_none hc uptoOf fun q hq => by
        cases q <;> simp_all [Part.Clash, freqOf, uptoOf, countOf, intervalOf, byDayOf, wkstOf]]
    simp [Rule.parsePart, h1, h.pyInt, assign, show ¬ n < 1 by omega]
  | @interval s n h hn =>
    rw [show ∀ s, "INTERVAL=".toList ++ s = "INTERVAL".toList ++ '=' :: s from fun _ => rfl,
      parseToken_eq (by decide) (h.free num)]
    simp [Rule.parsePart, h.pyInt, assign, show ¬ n < 1 by omega]
  | wkst h =>
    rw [show ∀ s, "WKST=".toList ++ s = "WKST".toList ++ '=' :: s from fun _ => rfl,
      parseToken_eq (by decide) fun hm => (h.chars _ hm).2.2.2 rfl]
    simp [Rule.parsePart, h.weekdayOf, assign]
  | @byDay s vals h hv =>
    rw [show ∀ s, "BYDAY=".toList ++ s = "BYDAY".toList ++ '=' :: s from fun _ => rfl,
      parseToken_eq (by decide) (h.free (fun _ _ h => h.free (Or.inr (Or.inr rfl))) (by decide))]
    have h1 : (rule ps).byDay = [] := by
      simp [rule, findSome_none hc byDayOf fun q hq => by
        cases q <;> simp_all [Part.Clash, freqOf, uptoOf, countOf, intervalOf, byDayOf, wkstOf]]
    simp [Rule.parsePart, h1, Rule.setOnce, parseListDW_days h hv, assign]
  | @num s k vals h hv =>
    rw [parseToken_eq (by cases k <;> decide) (h.free (fun _ _ h => h.free num) (by decide))]
    have h1 := findSome_none hc (byOf k) fun q hq => by cases q <;> simp_all [Part.Clash, byOf]
    exact parsePart_num h hv h1

theorem foldlM_parts {sr : Bool} {ss : List (List Char)} {ps : List Part}
    (h : List.Forall₂ (PartText UntilText) ss ps) : ∀ done : List Part,
    (done ++ ps).Pairwise (fun a b => ¬ a.Clash b) →
    ss.foldlM (Rule.parseToken sr) (rule done) = some (rule (done ++ ps)) := by
  induction h with
  | nil => intro done _; simp
  | @cons s p ss ps h _ ih =>
    intro done hc
    have hcl : ∀ q ∈ done, ¬ q.Clash p := fun q hq =>
      (List.pairwise_append.mp hc).2.2 q hq p (by simp)
    rw [List.foldlM_cons, parseToken_part h hcl, ← rule_snoc hcl]
    have := ih (done ++ [p]) (by simpa using hc)
    simpa using this

/-- C56: a text that consists of rule parts as RFC 5545 describes them, in any order, each at most
once and not both COUNT and UNTIL, is accepted, and the rule has exactly what the parts say and the
defaults for the parts that are missing. -/
theorem C56_accepts (sr : Bool) (s : List Char) (ps : List Part) (h : RuleText UntilText s ps) :
    Rule.parse sr s = some (rule ps) := by
  have := foldlM_parts (sr := sr) (h.1.split fun _ _ h => h.free) [] (by simpa using h.2)
  exact this

/-! ## C44 -/

theorem _root_.Spec.Recur.Sep.snoc {α : Type} {c : Char} {P : List Char → α → Prop}
    {s t : List Char} {l : List α} {a : α} (h : Sep c P s l) (ha : P t a) :
    Sep c P (s ++ c :: t) (l ++ [a]) := by
  induction h with
  | one h => exact .more h (.one ha)
  | more h _ ih => rw [List.append_assoc]; exact .more h ih

theorem number_decInt (n : Int) : Number (decInt n) n := by
  unfold decInt
  split
  · next h =>
    have := Number.minus (Duration.digits_decNat n.natAbs)
    rwa [show -(n.natAbs : Int) = n by omega] at this
  · next h =>
    have := Number.plain (Duration.digits_decNat n.natAbs)
    rwa [show (n.natAbs : Int) = n by omega] at this

theorem sep_comma {α : Type} {P : List Char → α → Prop} {f : α → List Char} :
    ∀ {l : List α}, l ≠ [] → (∀ a ∈ l, P (f a) a) → Sep ',' P (Rule.commaSep (l.map f)) l
  | [], h, _ => absurd rfl h
  | [a], _, h => .one (h a (by simp))
  | a :: b :: l, _, h => .more (h a (by simp))
      (sep_comma (l := b :: l) (by simp) fun x hx => h x (by simp [List.mem_cons.mp hx]))

theorem dayWord_text {d : Int} (h : 0 ≤ d ∧ d < 7) : DayWord (Rule.weekdayText d) d := by
  obtain rfl | rfl | rfl | rfl | rfl | rfl | rfl :
    d = 0 ∨ d = 1 ∨ d = 2 ∨ d = 3 ∨ d = 4 ∨ d = 5 ∨ d = 6 := by omega
  · exact .su
  · exact .mo
  · exact .tu
  · exact .we
  · exact .th
  · exact .fr
  · exact .sa

theorem dayNum_text {v : Int × Int} (h : 0 ≤ v.2 ∧ v.2 < 7) : DayNum (Rule.dayText v) v := by
  obtain ⟨n, d⟩ := v
  unfold Rule.dayText
  by_cases hn : n = 0
  · subst hn; exact .every (dayWord_text h)
  · rw [if_pos hn]; exact .nth (number_decInt n) hn (dayWord_text h)

theorem freqWord_text (f : Freq) : FreqWord (Rule.freqText f) f := by
  cases f <;> constructor

/-- The rules whose fields have only values that can be written: allowed values, COUNT or UNTIL or
neither, and the default in the fields that are not in use. -/
structure Writable (r : Rule) : Prop where
  count : if r.useCount then 1 ≤ r.count ∧ r.useUntil = false else r.count = 0
  until_ : if r.useUntil then ∃ t, r.untilDate = some t ∧ UntilText t.getText t
    else r.untilDate = none
  interval : 1 ≤ r.interval
  bySeconds : ∀ v ∈ r.bySeconds, By.second.Allows v
  byMinutes : ∀ v ∈ r.byMinutes, By.minute.Allows v
  byHours : ∀ v ∈ r.byHours, By.hour.Allows v
  byDay : ∀ v ∈ r.byDay, (0 ≤ v.2 ∧ v.2 < 7) ∧ -53 ≤ v.1 ∧ v.1 ≤ 53
  byMonthDay : ∀ v ∈ r.byMonthDay, By.monthDay.Allows v
  byYearDay : ∀ v ∈ r.byYearDay, By.yearDay.Allows v
  byWeekNo : ∀ v ∈ r.byWeekNo, By.weekNo.Allows v
  byMonth : ∀ v ∈ r.byMonth, By.month.Allows v
  bySetPos : ∀ v ∈ r.bySetPos, By.setPos.Allows v
  weekStart : 0 ≤ r.weekStart ∧ r.weekStart < 7

/-- The numeric part, if there are values. -/
def optNum (k : By) (vals : List Int) : List Part := if vals = [] then [] else [.num k vals]

/-- COUNT or UNTIL. -/
def limitParts (r : Rule) : List Part :=
  if r.useCount then [.count r.count]
  else match r.untilDate with
    | some t => [.upto t]
    | none => []

/-- The parts `generate` writes. -/
def partsOf (r : Rule) : List Part :=
  [.freq r.freq] ++ limitParts r ++ (if r.interval > 1 then [.interval r.interval] else []) ++
  optNum .second r.bySeconds ++ optNum .minute r.byMinutes ++ optNum .hour r.byHours ++
  (if r.byDay = [] then [] else [.byDay r.byDay]) ++ optNum .monthDay r.byMonthDay ++
  optNum .yearDay r.byYearDay ++ optNum .weekNo r.byWeekNo ++ optNum .month r.byMonth ++
  optNum .setPos r.bySetPos ++ (if r.weekStart ≠ 1 then [.wkst r.weekStart] else [])

theorem sep_num {s : List Char} {l : List Part} (h : Sep ';' (PartText UntilText) s l) {k : By}
    {vals : List Int} (hv : ∀ v ∈ vals, k.Allows v) :
    Sep ';' (PartText UntilText) (s ++ Rule.generateList k.name vals) (l ++ optNum k vals) := by
  unfold Rule.generateList optNum
  split
  · simpa using h
  · next hne => exact h.snoc (.num (sep_comma hne fun v _ => number_decInt v) hv)

theorem sep_opt {s t : List Char} {l : List Part} {p : Part} {c : Prop} [Decidable c]
    (h : Sep ';' (PartText UntilText) s l) (hp : c → PartText UntilText t p) :
    Sep ';' (PartText UntilText) (s ++ if c then ';' :: t else []) (l ++ if c then [p] else []) := by
  split
  · next hc => exact h.snoc (hp hc)
  · simpa using h

theorem generate_text {r : Rule} (hw : Writable r) :
    Sep ';' (PartText UntilText) r.generate (partsOf r) := by
  have h0 : Sep ';' (PartText UntilText) ("FREQ=".toList ++ Rule.freqText r.freq) [.freq r.freq] :=
    .one (.freq (freqWord_text r.freq))
  have rest : ∀ s l, Sep ';' (PartText UntilText) s l →
      Sep ';' (PartText UntilText) (s ++ r.generateRest) (l ++
        (if r.interval > 1 then [.interval r.interval] else []) ++
        optNum .second r.bySeconds ++ optNum .minute r.byMinutes ++ optNum .hour r.byHours ++
        (if r.byDay = [] then [] else [.byDay r.byDay]) ++ optNum .monthDay r.byMonthDay ++
        optNum .yearDay r.byYearDay ++ optNum .weekNo r.byWeekNo ++ optNum .month r.byMonth ++
        optNum .setPos r.bySetPos ++ (if r.weekStart ≠ 1 then [.wkst r.weekStart] else [])) := by
    intro s l h
    have h := sep_opt (c := r.interval > 1) h fun hc => .interval (number_decInt r.interval) (by omega)
    have h := sep_num h hw.bySeconds
    have h := sep_num h hw.byMinutes
    have h := sep_num h hw.byHours
    have h := sep_opt (c := ¬ r.byDay = []) h fun hc =>
      .byDay (sep_comma hc fun v hv => dayNum_text (hw.byDay v hv).1) fun v hv h0 => by
        have := (hw.byDay v hv).2; omega
    have h := sep_num h hw.byMonthDay
    have h := sep_num h hw.byYearDay
    have h := sep_num h hw.byWeekNo
    have h := sep_num h hw.byMonth
    have h := sep_num h hw.bySetPos
    have h := sep_opt (c := r.weekStart ≠ 1) h fun hc => .wkst (dayWord_text hw.weekStart)
    unfold Rule.generateRest
    rw [show ";INTERVAL=".toList = ';' :: "INTERVAL=".toList from rfl,
      show ";BYDAY=".toList = ';' :: "BYDAY=".toList from rfl,
      show ";WKST=".toList = ';' :: "WKST=".toList from rfl]
    simp only [ite_not, ne_eq, ← List.append_assoc] at h ⊢
    exact h
  unfold Rule.generate partsOf limitParts
  by_cases hc : r.useCount = true
  · have := hw.count
    rw [if_pos hc] at this
    have h1 := rest _ _ (h0.snoc (.count (number_decInt r.count) this.1))
    simp only [hc, if_true]
    simpa using h1
  · by_cases hu : r.useUntil = true
    · have := hw.until_
      rw [if_pos hu] at this
      obtain ⟨t, ht, hT⟩ := this
      have h1 := rest _ _ (h0.snoc (.upto hT))
      simp only [hc, hu, ht, if_true, if_false]
      simpa using h1
    · have := hw.until_
      rw [if_neg hu] at this
      have h1 := rest _ _ h0
      simp only [hc, hu, this, if_false, List.append_nil]
      simpa using h1

theorem optNum_find (k k' : By) (vals : List Int) :
    ((optNum k vals).findSome? (byOf k')) = if k = k' ∧ vals ≠ [] then some vals else none := by
  unfold optNum
  split <;> simp_all [byOf]

theorem find_if {α : Type} (f : Part → Option α) (c : Prop) [Decidable c] (p : Part) :
    (if c then [p] else []).findSome? f = if c then f p else none := by
  split <;> simp

theorem find_ifn {α : Type} (f : Part → Option α) (c : Prop) [Decidable c] (p : Part) :
    (if c then [] else [p]).findSome? f = if c then none else f p := by
  split <;> simp

theorem optNum_none {α : Type} (f : Part → Option α) (k : By) (vals : List Int)
    (h : ∀ k v, f (.num k v) = none) : (optNum k vals).findSome? f = none := by
  unfold optNum
  split <;> simp [h]

theorem getD_or {α : Type} {d : List α} {v : List α} {o : Option (List α)} (h : o = none) :
    ((if v ≠ [] then some v else none : Option (List α)).or o).getD [] = v := by
  subst h
  split <;> simp_all

theorem partsOf_rule {r : Rule} (hw : Writable r) : rule (partsOf r) = r := by
  have hl1 : ∀ k, (limitParts r).findSome? (byOf k) = none := by
    intro k; unfold limitParts; split <;> (try split) <;> simp [byOf]
  have hl2 : (limitParts r).findSome? freqOf = none := by
    unfold limitParts; split <;> (try split) <;> simp [freqOf]
  have hl3 : (limitParts r).findSome? intervalOf = none := by
    unfold limitParts; split <;> (try split) <;> simp [intervalOf]
  have hl4 : (limitParts r).findSome? byDayOf = none := by
    unfold limitParts; split <;> (try split) <;> simp [byDayOf]
  have hl5 : (limitParts r).findSome? wkstOf = none := by
    unfold limitParts; split <;> (try split) <;> simp [wkstOf]
  have hl6 : (limitParts r).findSome? countOf = if r.useCount then some r.count else none := by
    unfold limitParts; split <;> (try split) <;> simp_all [countOf]
  have hl7 : (limitParts r).findSome? uptoOf = r.untilDate := by
    have h1 := hw.count
    have h2 := hw.until_
    unfold limitParts
    split
    · next hc =>
      rw [if_pos hc] at h1
      rw [if_neg (by simp [h1.2])] at h2
      simp [uptoOf, h2]
    · split
      · next h => simp [uptoOf, h]
      · next h => simp [h]
  have on := fun {α : Type} (f : Part → Option α) (h : ∀ k v, f (.num k v) = none) (k : By)
    (vals : List Int) => optNum_none f k vals h
  unfold rule partsOf
  simp only [List.findSome?_append, find_if, find_ifn, optNum_find, hl1, hl2, hl3, hl4, hl5, hl6, hl7,
    on freqOf (fun _ _ => rfl), on uptoOf (fun _ _ => rfl), on countOf (fun _ _ => rfl),
    on intervalOf (fun _ _ => rfl), on byDayOf (fun _ _ => rfl), on wkstOf (fun _ _ => rfl)]
  change _ = (⟨r.freq, r.useCount, r.count, r.useUntil, r.untilDate, r.interval, r.bySeconds,
    r.byMinutes, r.byHours, r.byDay, r.byMonthDay, r.byYearDay, r.byWeekNo, r.byMonth, r.bySetPos,
    r.weekStart⟩ : Rule)
  simp only [freqOf, uptoOf, countOf, intervalOf, byOf, byDayOf, wkstOf, List.findSome?_cons,
    List.findSome?_nil, ite_self, Option.or_none, Option.none_or, reduceCtorEq, false_and, if_false,
    true_and, Rule.mk.injEq]
  have hw1 := hw.count
  have hw2 := hw.until_
  have hw3 := hw.interval
  clear on hl1 hl2 hl3 hl4 hl5 hl6 hl7 hw
  simp only [Option.getD_some]
  refine ⟨trivial, ?_, ?_, ?_, ?_, ?_, ?_, ?_, ?_, ?_, ?_, ?_, ?_, ?_, ?_⟩
  · split <;> simp_all
  · split at hw1 <;> simp_all
  · split at hw2
    · next h => obtain ⟨t, ht, _⟩ := hw2; simp [h, ht]
    · next h => simp [h, hw2]
  · split
    · rfl
    · simp only [Option.getD_none]; omega
  all_goals
    split <;> simp_all

theorem partsOf_noclash (r : Rule) : (partsOf r).Pairwise fun a b => ¬ a.Clash b := by
  have hsub : ∀ k v, List.Sublist (optNum k v) [.num k v] := by
    intro k v; unfold optNum; split <;> simp
  have key : ∀ x : List Part, (x = [.count r.count] ∨ ∃ t, x = [.upto t]) →
      List.Pairwise (fun a b : Part => ¬ a.Clash b) ([.freq r.freq] ++ x ++ [.interval r.interval] ++ [.num .second r.bySeconds] ++
        [.num .minute r.byMinutes] ++ [.num .hour r.byHours] ++ [.byDay r.byDay] ++
        [.num .monthDay r.byMonthDay] ++ [.num .yearDay r.byYearDay] ++ [.num .weekNo r.byWeekNo] ++
        [.num .month r.byMonth] ++ [.num .setPos r.bySetPos] ++
        [.wkst r.weekStart]) := by
    rintro x (rfl | ⟨t, rfl⟩) <;> simp [Part.Clash]
  have hlim : ∃ x : List Part, (x = [.count r.count] ∨ ∃ t, x = [.upto t]) ∧
      List.Sublist (limitParts r) x := by
    unfold limitParts
    split
    · exact ⟨_, Or.inl rfl, List.Sublist.refl _⟩
    · split
      · exact ⟨_, Or.inr ⟨_, rfl⟩, List.Sublist.refl _⟩
      · exact ⟨_, Or.inl rfl, by simp⟩
  obtain ⟨x, hx, hs⟩ := hlim
  refine (key x hx).sublist ?_
  unfold partsOf
  refine ((((((((((((List.Sublist.refl _).append hs).append ?_).append (hsub _ _)).append
    (hsub _ _)).append (hsub _ _)).append ?_).append (hsub _ _)).append (hsub _ _)).append
    (hsub _ _)).append (hsub _ _)).append (hsub _ _)).append ?_
  all_goals split <;> simp

/-- C44 (partial): parsing the text generated for a rule gives the rule back, all fields.

Needed (`Writable`): allowed values, and nothing set that is not in use.  UNTIL must be a date, UTC
or floating: a time zone, which RFC 5545 does not allow there, is lost.

Missing: UNTIL in a time zone, `C44_fails_zone`, COUNT and UNTIL together, `C44_fails_both`, and a rule that is to use
an UNTIL it does not have, `C44_fails_missing`. -/
theorem C44_roundtrip_partial (sr : Bool) (r : Rule) (h : Writable r) :
    Rule.parse sr r.generate = some r := by
  rw [C56_accepts sr _ _ ⟨generate_text h, partsOf_noclash r⟩, partsOf_rule h]

/-- The conditions are met: "every other month on the last Friday and the second Monday, week
starting on Sunday, until the end of 2021". -/
example : Writable
    { freq := .monthly, interval := 2, byDay := [(-1, 5), (2, 1)], weekStart := 0, useUntil := true,
      untilDate := some ⟨2021, 12, 31, 23, 59, 59, false, true, none⟩ } where
  count := by decide
  until_ := ⟨_, rfl, rfl, by decide +kernel⟩
  interval := by decide
  bySeconds := by simp
  byMinutes := by simp
  byHours := by simp
  byDay := by decide
  byMonthDay := by simp
  byYearDay := by simp
  byWeekNo := by simp
  byMonth := by simp
  bySetPos := by simp
  weekStart := by decide

/-- C44 fails: the time zone of UNTIL is lost, and with it its meaning. -/
theorem C44_fails_zone : ∃ (env : DateTime.TzEnv) (r r' : Rule) (t t' : DateTime),
    r.useUntil = true ∧ r.untilDate = some t ∧ t.Valid ∧ Rule.parse true r.generate = some r' ∧
    r'.untilDate = some t' ∧ t'.posix env ≠ t.posix env :=
  ⟨fun z _ _ => if z = some "X" then 3600 else 0,
    { useUntil := true, untilDate := some ⟨2020, 1, 1, 12, 0, 0, false, false, some (.name "X")⟩ },
    { useUntil := true, untilDate := some ⟨2020, 1, 1, 12, 0, 0, false, false, none⟩ },
    ⟨2020, 1, 1, 12, 0, 0, false, false, some (.name "X")⟩,
    ⟨2020, 1, 1, 12, 0, 0, false, false, none⟩, rfl, rfl, by decide +kernel, by decide +kernel, rfl,
    by decide +kernel⟩

/-- C44 fails: of a rule with both COUNT and UNTIL (which the setters allow) only COUNT is written. -/
theorem C44_fails_both : ∃ r r' : Rule, r.useCount = true ∧ r.useUntil = true ∧ 1 ≤ r.count ∧
    Rule.parse true r.generate = some r' ∧ r'.useUntil = false :=
  ⟨{ useCount := true, count := 5, useUntil := true, untilDate := some (ofDate 2020 1 1) },
    { useCount := true, count := 5 }, by decide +kernel⟩

/-- C44 fails: `setUseUntil(True)` without `setUntil`: the error while writing is swallowed and all
later parts are missing from the text, which cannot be parsed. -/
theorem C44_fails_missing : ∃ r : Rule, r.useUntil = true ∧ r.byMonth = [1] ∧
    r.generate = "FREQ=YEARLY;UNTIL=".toList ∧ Rule.parse true r.generate = none :=
  ⟨{ useUntil := true, byMonth := [1] }, by decide +kernel⟩

/-! ## C56: accepted texts -/

/-- What is true of every rule that has been parsed.  (Nothing about UNTIL, see C25; BYSETPOS is
not checked, see `C56_fails_setpos`.) -/
structure Parsed (r : Rule) : Prop where
  count : if r.useCount then 1 ≤ r.count ∧ r.useUntil = false else r.count = 0
  until_ : r.useUntil = r.untilDate.isSome
  interval : 1 ≤ r.interval
  bySeconds : ∀ v ∈ r.bySeconds, By.second.Allows v
  byMinutes : ∀ v ∈ r.byMinutes, By.minute.Allows v
  byHours : ∀ v ∈ r.byHours, By.hour.Allows v
  byDay : ∀ v ∈ r.byDay, (0 ≤ v.2 ∧ v.2 < 7) ∧ -53 ≤ v.1 ∧ v.1 ≤ 53
  byMonthDay : ∀ v ∈ r.byMonthDay, By.monthDay.Allows v
  byYearDay : ∀ v ∈ r.byYearDay, By.yearDay.Allows v
  byWeekNo : ∀ v ∈ r.byWeekNo, By.weekNo.Allows v
  byMonth : ∀ v ∈ r.byMonth, By.month.Allows v
  weekStart : 0 ≤ r.weekStart ∧ r.weekStart < 7

theorem mapM_mem {α : Type} {f : List Char → Option α} {Q : α → Prop}
    (hf : ∀ s a, f s = some a → Q a) : ∀ {ss : List (List Char)} {l : List α},
    ss.mapM f = some l → ∀ a ∈ l, Q a
  | [], l, h => by simp at h; simp [h]
  | s :: ss, l, h => by
    rw [List.mapM_cons] at h
    cases h1 : f s with
    | none => rw [h1] at h; simp at h
    | some a =>
      cases h2 : ss.mapM f with
      | none => rw [h1, h2] at h; simp at h
      | some l' =>
        rw [h1, h2] at h
        simp at h
        subst h
        intro b hb
        rcases List.mem_cons.mp hb with rfl | hb
        · exact hf _ _ h1
        · exact mapM_mem hf h2 b hb

theorem parseNum_bounds {s : List Char} {v lo : Int} {hi : Option Int} {neg : Bool}
    (h : Rule.parseNum lo hi neg s = some v) :
    (neg = false → 0 ≤ v) ∧ lo ≤ (v.natAbs : Int) ∧ ∀ b, hi = some b → (v.natAbs : Int) ≤ b := by
  unfold Rule.parseNum at h
  split at h
  · simp at h
  · next n _ =>
    split at h
    · simp at h
    · next h1 =>
      split at h
      · simp at h
      · next h2 =>
        have h1' : neg = false → 0 ≤ n := by
          intro hn
          simp [hn] at h1
          exact h1
        split at h
        · next b =>
          split at h
          · simp at h
          · next h3 =>
            simp only [Option.some.injEq] at h
            subst h
            exact ⟨h1', by omega, fun b' hb => by simp only [Option.some.injEq] at hb; omega⟩
        · simp only [Option.some.injEq] at h
          subst h
          exact ⟨h1', by omega, by simp⟩

theorem parseList_allows {k : By} (hk : k ≠ .setPos) {s : List Char} {l : List Int}
    (h : Rule.parseList s (boundsOf k).1 (boundsOf k).2.1 (boundsOf k).2.2 = some l) :
    ∀ v ∈ l, k.Allows v := by
  refine mapM_mem (fun s v hv => ?_) h
  obtain ⟨h1, h2, h3⟩ := parseNum_bounds hv
  clear h hv
  cases k <;> simp only [By.Allows, boundsOf, Option.some.injEq, forall_eq'] at * <;>
    first
      | exact absurd rfl hk
      | (have := h1 True.intro; omega)
      | omega

theorem weekdayOf_range {s : List Char} {d : Int} (h : Rule.weekdayOf s = some d) :
    0 ≤ d ∧ d < 7 := by
  unfold Rule.weekdayOf at h
  repeat' split at h
  all_goals first | (cases h; decide) | cases h

theorem parseDay_range {s : List Char} {v : Int × Int} (h : Rule.parseDay s = some v) :
    (0 ≤ v.2 ∧ v.2 < 7) ∧ -53 ≤ v.1 ∧ v.1 ≤ 53 := by
  unfold Rule.parseDay at h
  split at h
  · simp only [Option.map_eq_some_iff] at h
    obtain ⟨d, hd, rfl⟩ := h
    exact ⟨weekdayOf_range hd, by simp⟩
  · split at h
    · simp at h
    · split at h
      · simp at h
      · next h1 =>
        simp only [Option.map_eq_some_iff] at h
        obtain ⟨d, hd, rfl⟩ := h
        exact ⟨weekdayOf_range hd, by simp only; omega⟩

theorem setOnce_some {α : Type} {old : List α} {new : Option (List α)} {f : List α → Rule} {r : Rule}
    (h : Rule.setOnce old new f = some r) : ∃ l, new = some l ∧ r = f l := by
  unfold Rule.setOnce at h
  split at h
  · simp only [Option.map_eq_some_iff] at h
    obtain ⟨l, h1, h2⟩ := h
    exact ⟨l, h1, h2.symm⟩
  · simp at h

theorem ite_or {α : Type} {c : Prop} [Decidable c] {a b x : α} (h : (if c then a else b) = x) :
    a = x ∨ b = x := by
  split at h
  · exact .inl h
  · exact .inr h

theorem parsePart_parsed {sr : Bool} {r r' : Rule} {name value : List Char} (hp : Parsed r)
    (h : Rule.parsePart sr r name value = some r') : Parsed r' := by
  unfold Rule.parsePart at h
  rcases ite_or h with h | h
  · simp only [Option.map_eq_some_iff] at h
    obtain ⟨f, _, rfl⟩ := h
    exact { hp with }
  rcases ite_or h with h | h
  · split at h
    · simp at h
    · next hc =>
      simp only [Option.map_eq_some_iff] at h
      obtain ⟨t, _, rfl⟩ := h
      have := hp.count
      rw [if_neg hc] at this
      exact { hp with count := by simp [hc, this], until_ := rfl }
  rcases ite_or h with h | h
  · split at h
    · simp at h
    · next hc =>
      rw [Option.bind_eq_some_iff] at h
      obtain ⟨n, _, h⟩ := h
      split at h
      · simp at h
      · next hn =>
        simp only [Option.some.injEq] at h
        subst h
        exact { hp with count := by simp only [if_true]; exact ⟨by omega, by simpa using hc⟩ }
  rcases ite_or h with h | h
  · rw [Option.bind_eq_some_iff] at h
    obtain ⟨n, _, h⟩ := h
    split at h
    · simp at h
    · next hn =>
      simp only [Option.some.injEq] at h
      subst h
      exact { hp with interval := by simp only; omega }
  rcases ite_or h with h | h
  · obtain ⟨l, hl, rfl⟩ := setOnce_some h
    exact { hp with bySeconds := parseList_allows (k := .second) (by simp) hl }
  rcases ite_or h with h | h
  · obtain ⟨l, hl, rfl⟩ := setOnce_some h
    exact { hp with byMinutes := parseList_allows (k := .minute) (by simp) hl }
  rcases ite_or h with h | h
  · obtain ⟨l, hl, rfl⟩ := setOnce_some h
    exact { hp with byHours := parseList_allows (k := .hour) (by simp) hl }
  rcases ite_or h with h | h
  · obtain ⟨l, hl, rfl⟩ := setOnce_some h
    exact { hp with byDay := mapM_mem (fun _ _ => parseDay_range) hl }
  rcases ite_or h with h | h
  · obtain ⟨l, hl, rfl⟩ := setOnce_some h
    exact { hp with byMonthDay := parseList_allows (k := .monthDay) (by simp) hl }
  rcases ite_or h with h | h
  · obtain ⟨l, hl, rfl⟩ := setOnce_some h
    exact { hp with byYearDay := parseList_allows (k := .yearDay) (by simp) hl }
  rcases ite_or h with h | h
  · obtain ⟨l, hl, rfl⟩ := setOnce_some h
    exact { hp with byWeekNo := parseList_allows (k := .weekNo) (by simp) hl }
  rcases ite_or h with h | h
  · obtain ⟨l, hl, rfl⟩ := setOnce_some h
    exact { hp with byMonth := parseList_allows (k := .month) (by simp) hl }
  rcases ite_or h with h | h
  · obtain ⟨l, hl, rfl⟩ := setOnce_some h
    exact { hp with }
  rcases ite_or h with h | h
  · simp only [Option.map_eq_some_iff] at h
    obtain ⟨d, hd, rfl⟩ := h
    exact { hp with weekStart := weekdayOf_range hd }
  · simp at h

/-- C56 (partial): a rule that has been parsed has only allowed values: COUNT and INTERVAL at least
1, not both COUNT and UNTIL, all BYxxx values but those of BYSETPOS in their ranges.  Missing:
BYSETPOS (`C56_fails_setpos`) and UNTIL. -/
theorem C56_values_partial (sr : Bool) (s : List Char) (r : Rule) (h : Rule.parse sr s = some r) :
    Parsed r := by
  have key : ∀ (ss : List (List Char)) (r0 : Rule), Parsed r0 →
      ss.foldlM (Rule.parseToken sr) r0 = some r → Parsed r := by
    intro ss
    induction ss with
    | nil => intro r0 h0 h; simp at h; rwa [← h]
    | cons t ss ih =>
      intro r0 h0 h
      rw [List.foldlM_cons] at h
      cases ht : Rule.parseToken sr r0 t with
      | none => rw [ht] at h; simp at h
      | some r1 =>
        rw [ht] at h
        refine ih r1 ?_ h
        unfold Rule.parseToken at ht
        split at ht
        · exact parsePart_parsed h0 ht
        · simp at ht
  refine key _ _ ?_ h
  constructor <;> simp

/-- C56 fails: zero, which names no position, is accepted for BYSETPOS (and leaves the rule without
any dates). -/
theorem C56_fails_setpos : Rule.parse true "FREQ=MONTHLY;BYDAY=MO;BYSETPOS=0".toList =
    some { freq := .monthly, byDay := [(0, 1)], bySetPos := [0] } := by decide +kernel

/-- C56 fails: a part may be repeated, if it is FREQ, UNTIL, COUNT, INTERVAL or WKST; the last one
counts.  The required FREQ may be missing. -/
theorem C56_fails_repeated : Rule.parse true "FREQ=DAILY;COUNT=2;FREQ=WEEKLY;COUNT=3".toList =
      some { freq := .weekly, useCount := true, count := 3 } ∧
    Rule.parse true "COUNT=3".toList = some { freq := .yearly, useCount := true, count := 3 } := by
  decide +kernel

/-- C44 (partial), from the text: what has been parsed is written and parsed again without a
change, unless it has an odd UNTIL or BYSETPOS.

Missing: those rules. -/
theorem C44_reparse_partial (sr sr' : Bool) (s : List Char) (r : Rule)
    (h : Rule.parse sr s = some r) (hu : ∀ t, r.untilDate = some t → UntilText t.getText t)
    (hp : ∀ v ∈ r.bySetPos, By.setPos.Allows v) : Rule.parse sr' r.generate = some r := by
  have h := C56_values_partial sr s r h
  refine C44_roundtrip_partial sr' r { h with until_ := ?_, bySetPos := hp }
  have := h.until_
  cases ht : r.untilDate with
  | none => simp [this, ht]
  | some t =>
    rw [ht] at this
    have this : r.useUntil = true := this
    rw [if_pos this]
    exact ⟨t, rfl, hu t ht⟩

/-! ## C45 -/

theorem sort_eq_iff {α : Type} {le : α → α → Prop} [DecidableRel le]
    [Std.Total le] [IsTrans α le] [Std.Antisymm le] (a b : List α) :
    a.insertionSort le = b.insertionSort le ↔ a.Perm b := by
  constructor
  · intro h
    exact (List.perm_insertionSort le a).symm.trans (h ▸ List.perm_insertionSort le b)
  · intro h
    refine List.Perm.eq_of_pairwise' (List.pairwise_insertionSort le a)
      (List.pairwise_insertionSort le b) ?_
    exact (List.perm_insertionSort le a).trans (h.trans (List.perm_insertionSort le b).symm)

instance : Std.Total Rule.dayLe := ⟨fun a b => by unfold Rule.dayLe; omega⟩
instance : IsTrans _ Rule.dayLe := ⟨fun a b c => by unfold Rule.dayLe; omega⟩
instance : Std.Antisymm Rule.dayLe :=
  ⟨fun a b h1 h2 => by unfold Rule.dayLe at *; exact Prod.ext (by omega) (by omega)⟩

theorem equalsNum_iff (a b : List Int) : Rule.equalsNum a b = true ↔ a.Perm b := by
  unfold Rule.equalsNum
  rw [Bool.and_eq_true, decide_eq_true_iff, decide_eq_true_iff, sort_eq_iff]
  exact ⟨And.right, fun h => ⟨h.length_eq, h⟩⟩

theorem equalsDayNum_iff (a b : List (Int × Int)) : Rule.equalsDayNum a b = true ↔ a.Perm b := by
  unfold Rule.equalsDayNum
  rw [Bool.and_eq_true, decide_eq_true_iff, decide_eq_true_iff, sort_eq_iff]
  exact ⟨And.right, fun h => ⟨h.length_eq, h⟩⟩

/-- Two rules say the same: the same parts, lists in any order, UNTIL the same for `DateTime`'s
comparison. -/
structure SameRule (env : DateTime.TzEnv) (a b : Rule) : Prop where
  freq : a.freq = b.freq
  count : (if a.useCount then some a.count else none) = if b.useCount then some b.count else none
  untilSet : a.useUntil = b.useUntil
  untilDate : (a.untilDate = none ↔ b.untilDate = none) ∧
    ∀ t u, a.untilDate = some t → b.untilDate = some u → t.eq env u = true
  interval : a.interval = b.interval
  bySeconds : a.bySeconds.Perm b.bySeconds
  byMinutes : a.byMinutes.Perm b.byMinutes
  byHours : a.byHours.Perm b.byHours
  byDay : a.byDay.Perm b.byDay
  byMonthDay : a.byMonthDay.Perm b.byMonthDay
  byYearDay : a.byYearDay.Perm b.byYearDay
  byWeekNo : a.byWeekNo.Perm b.byWeekNo
  byMonth : a.byMonth.Perm b.byMonth
  bySetPos : a.bySetPos.Perm b.bySetPos
  weekStart : a.weekStart = b.weekStart

/-- C45: `==` says exactly that two rules say the same, whatever the order of the values.  For
rules without COUNT that hold no stale count (parsed ones do not). -/
theorem C45_equals (env : DateTime.TzEnv) (a b : Rule) (ha : a.useCount = false → a.count = 0)
    (hb : b.useCount = false → b.count = 0) : a.equals env b = true ↔ SameRule env a b := by
  unfold Rule.equals
  simp only [Bool.and_eq_true, decide_eq_true_iff, equalsNum_iff, equalsDayNum_iff]
  have hu : Rule.equalsUntil env a.untilDate b.untilDate = true ↔
      (a.untilDate = none ↔ b.untilDate = none) ∧
      ∀ t u, a.untilDate = some t → b.untilDate = some u → t.eq env u = true := by
    unfold Rule.equalsUntil
    cases a.untilDate <;> cases b.untilDate <;> simp
  rw [hu]
  have hc : (if a.useCount then some a.count else none) =
      (if b.useCount then some b.count else none) ↔
      a.useCount = b.useCount ∧ a.count = b.count := by
    cases h1 : a.useCount <;> cases h2 : b.useCount <;> simp
    rw [ha h1, hb h2]
  constructor
  · rintro ⟨⟨⟨⟨⟨⟨⟨⟨⟨⟨⟨⟨⟨⟨⟨h1, h2⟩, h3⟩, h4⟩, h5⟩, h6⟩, h7⟩, h8⟩, h9⟩, h10⟩, h11⟩, h12⟩, h13⟩, h14⟩,
      h15⟩, h16⟩
    exact ⟨h1, hc.mpr ⟨h2, h3⟩, h4, h5, h6, h7, h8, h9, h10, h11, h12, h13, h14, h15, h16⟩
  · intro h
    have := hc.mp h.count
    exact ⟨⟨⟨⟨⟨⟨⟨⟨⟨⟨⟨⟨⟨⟨⟨h.freq, this.1⟩, this.2⟩, h.untilSet⟩, h.untilDate⟩, h.interval⟩,
      h.bySeconds⟩, h.byMinutes⟩, h.byHours⟩, h.byDay⟩, h.byMonthDay⟩, h.byYearDay⟩, h.byWeekNo⟩,
      h.byMonth⟩, h.bySetPos⟩, h.weekStart⟩

/-- C45 fails without the condition: a rule that had a COUNT once differs from one that had not. -/
theorem C45_fails_stale (env : DateTime.TzEnv) : ∃ a b : Rule, SameRule env a b ∧
    a.equals env b = false :=
  ⟨{ count := 3 }, {}, by constructor <;> simp, by simp [Rule.equals]⟩

/-- C45, hash, the part that holds: without the lists, equal rules have equal hash keys if their
UNTIL have (that is C18).

Missing: the lists, whose order changes the hash, `C45_fails_hash`. -/
theorem C45_hash_partial (env : DateTime.TzEnv) (a b : Rule) (h : a.equals env b = true)
    (hs : a.bySeconds = b.bySeconds ∧ a.byMinutes = b.byMinutes ∧ a.byHours = b.byHours ∧
      a.byDay = b.byDay ∧ a.byMonthDay = b.byMonthDay ∧ a.byYearDay = b.byYearDay ∧
      a.byWeekNo = b.byWeekNo ∧ a.byMonth = b.byMonth ∧ a.bySetPos = b.bySetPos)
    (hu : ∀ t u, a.untilDate = some t → b.untilDate = some u → t.eq env u = true →
      t.hashKey env = u.hashKey env) : a.hashKey env = b.hashKey env := by
  unfold Rule.equals at h
  simp only [Bool.and_eq_true, decide_eq_true_iff] at h
  obtain ⟨⟨⟨⟨⟨⟨⟨⟨⟨⟨⟨⟨⟨⟨⟨h1, h2⟩, h3⟩, h4⟩, h5⟩, h6⟩, _⟩, _⟩, _⟩, _⟩, _⟩, _⟩, _⟩, _⟩, _⟩, h16⟩ := h
  obtain ⟨s1, s2, s3, s4, s5, s6, s7, s8, s9⟩ := hs
  have : a.untilDate.map (DateTime.hashKey env) = b.untilDate.map (DateTime.hashKey env) := by
    unfold Rule.equalsUntil at h5
    cases ha : a.untilDate <;> cases hb : b.untilDate <;> simp [ha, hb] at h5 ⊢
    exact hu _ _ ha hb h5
  unfold Rule.hashKey
  rw [h1, h2, h3, h4, this, h6, h16, s1, s2, s3, s4, s5, s6, s7, s8, s9]

/-- C45 fails for the hash: equal rules, both parsed, with different hash keys. -/
theorem C45_fails_hash (env : DateTime.TzEnv) : ∃ a b : Rule,
    Rule.parse true "FREQ=DAILY;BYMONTH=1,2".toList = some a ∧
    Rule.parse true "FREQ=DAILY;BYMONTH=2,1".toList = some b ∧
    a.equals env b = true ∧ a.hashKey env ≠ b.hashKey env := by
  refine ⟨{ freq := .daily, byMonth := [1, 2] }, { freq := .daily, byMonth := [2, 1] },
    by decide +kernel, by decide +kernel, ?_, by simp [Rule.hashKey]⟩
  rw [C45_equals env _ _ (fun _ => rfl) fun _ => rfl]
  constructor <;> simp
  exact List.Perm.swap 2 1 []

end PyCal
