import Verif.Lemmas.Text
import Verif.Model.Duration
import Verif.Spec.DurationGrammar
import Verif.Props.C14_Duration

/-! # C15, C16: duration text -/

namespace PyCal.Duration
open Spec.Dur

/-! ## Digits -/

theorem digits_decNat (n : Nat) : Digits (decNat n) n := by
  induction n using decNat.induct with
  | case1 n h => rw [decNat, if_pos h]; exact Digits.one n h
  | case2 n h ih =>
    rw [decNat, if_neg h]
    have := Digits.snoc (n % 10) (n / 10) (Nat.mod_lt _ (by omega)) _ ih
    rwa [show 10 * (n / 10) + n % 10 = n by omega] at this

theorem _root_.Spec.Dur.Digits.allDigits {s n} (h : Digits s n) : ∀ c ∈ s, isDigit c = true := by
  induction h with
  | one k h => intro c hc; simp at hc; subst hc; exact isDigit_digitChar h
  | snoc k n h s _ ih =>
    intro c hc; simp at hc
    rcases hc with hc | rfl
    · exact ih c hc
    · exact isDigit_digitChar h

theorem _root_.Spec.Dur.Digits.value {s n} (h : Digits s n) : readNat s = n := by
  induction h with
  | one k h =>
    show readNat [digitChar k] = k
    simp [readNat, digitVal_digitChar h]
  | snoc k n h s _ ih =>
    show readNat (s ++ [digitChar k]) = _
    rw [readNat_append_digit, ih, digitVal_digitChar h]; omega

theorem _root_.Spec.Dur.Digits.ne_nil {s n} (h : Digits s n) : s ≠ [] := by
  cases h <;> simp

theorem _root_.Spec.Dur.Digits.strtoul {s n} (h : Digits s n) (rest : List Char)
    (hr : ∀ c ∈ rest.head?, isDigit c = false) : strtoul (s ++ rest) = some (n, rest) := by
  unfold PyCal.strtoul
  rw [takeWhile_append_stop h.allDigits hr, dropWhile_append_stop h.allDigits hr]
  simp [h.ne_nil, h.value]

theorem _root_.Spec.Dur.Digits.head {s n} (h : Digits s n) : ∃ c r, s = c :: r ∧ isDigit c = true := by
  cases hs : s with
  | nil => exact absurd hs h.ne_nil
  | cons c r => exact ⟨c, r, rfl, h.allDigits c (by simp [hs])⟩

/-! ## The parser accepts the grammar -/

theorem parseSec_ok {s k} (h : Second s k) (d : Duration) :
    ∃ n r, strtoul s = some (n, r) ∧ n = k ∧ r = ['S'] ∧
      parseSec d n r = some { d with seconds := k } := by
  cases h with
  | mk hd => exact ⟨_, _, hd.strtoul ['S'] (by simp; decide), rfl, rfl, rfl⟩

theorem second_ne_nil {s k} (h : Second s k) : s ≠ [] := by cases h; simp

theorem parseMin_ok {s k} (h : Minute s k) (d : Duration) :
    ∃ n r, strtoul s = some (n, r) ∧ (∀ q, r ≠ 'H' :: q) ∧ ∃ (m : Nat) (x : Option Nat),
      parseMin d n r = some { d with minutes := m, seconds := x.getD d.seconds } ∧
      60 * m + x.getD 0 = k := by
  cases h with
  | @bare s n hd =>
    refine ⟨n, ['M'], hd.strtoul ['M'] (by simp; decide), by simp, n, none, ?_, by simp⟩
    simp [parseMin]
  | @more s n r k hd hs =>
    refine ⟨n, 'M' :: r, by simpa using hd.strtoul ('M' :: r) (by simp; decide), by simp, n, some k,
      ?_, by simp⟩
    obtain ⟨n', r', h1, rfl, rfl, h2⟩ := parseSec_ok hs { d with minutes := n }
    simp [parseMin, second_ne_nil hs, h1, h2]

theorem minute_ne_nil {s k} (h : Minute s k) : s ≠ [] := by cases h <;> simp

theorem parseTime_ok {s k} (h : Spec.Dur.Time ('T' :: s) k) (strict : Bool) (d : Duration) :
    ∃ (hh mi se : Option Nat), parseTime strict d s = some { d with
        hours := Option.getD hh d.hours, minutes := Option.getD mi d.minutes,
        seconds := Option.getD se d.seconds } ∧
      3600 * hh.getD 0 + 60 * mi.getD 0 + se.getD 0 = k := by
  generalize hS : 'T' :: s = S at h
  cases h with
  | @second s' k hs =>
    obtain rfl : s = s' := by simpa using hS
    obtain ⟨n, r, h1, rfl, rfl, h2⟩ := parseSec_ok hs d
    refine ⟨none, none, some n, ?_, by simp⟩
    simp [parseTime, second_ne_nil hs, h1, parseMin, h2]
  | @minute s' k hm =>
    obtain rfl : s = s' := by simpa using hS
    obtain ⟨n, r, h1, hr, m, x, h2, h3⟩ := parseMin_ok hm d
    refine ⟨none, some m, x, ?_, by simpa using h3⟩
    unfold parseTime
    rw [if_neg (minute_ne_nil hm), h1]
    split
    · simp_all
    · rename_i heq
      simp at heq
      exact absurd heq.2 (hr _)
    · rename_i heq
      simp at heq
      rw [← heq.1, ← heq.2, h2]; simp
  | @hour s' k hh =>
    obtain rfl : s = s' := by simpa using hS
    cases hh with
    | @bare s n hd =>
      refine ⟨some n, none, none, ?_, by simp⟩
      have := hd.strtoul ['H'] (by simp; decide)
      simp [parseTime, this]
    | @more s n r k hd hm =>
      have := hd.strtoul ('H' :: r) (by simp; decide)
      obtain ⟨n', r', h1, hr, m, x, h2, h3⟩ := parseMin_ok hm { d with hours := n }
      refine ⟨some n, some m, x, ?_, by simp; omega⟩
      have hne : s ++ 'H' :: r ≠ [] := by simp
      simp [parseTime, this, minute_ne_nil hm, h1, h2]

theorem time_head {r k} (h : Spec.Dur.Time r k) : ∃ s, r = 'T' :: s := by
  cases h <;> exact ⟨_, rfl⟩

theorem digit_ne {c : Char} (h : isDigit c = true) (x : Char) (hx : isDigit x = false) : c ≠ x := by
  rintro rfl; simp [h] at hx

theorem parseBody_digits {s n} (h : Digits s n) (strict : Bool) (d : Duration) (c : Char)
    (hc : isDigit c = false) (rest : List Char) :
    strtoul (s ++ c :: rest) = some (n, c :: rest) ∧
    parseBody strict d ('P' :: (s ++ c :: rest)) =
      parseDate strict d n (c :: rest) := by
  have hs := h.strtoul (c :: rest) (by simpa using hc)
  refine ⟨hs, ?_⟩
  obtain ⟨c', r', rfl, hd⟩ := h.head
  unfold parseBody
  split
  · rename_i heq
    simp at heq
    exact absurd heq.1 (digit_ne hd 'T' (by decide))
  · rename_i s' _ heq
    simp only [List.cons.injEq, true_and] at heq
    rw [← heq, hs]
  · rename_i _ h2
    exact absurd rfl (h2 _)

theorem parseBody_ok {s k} (h : Body s k) (strict : Bool) (d : Duration)
    (hd : d.weeks = 0 ∧ d.days = 0 ∧ d.hours = 0 ∧ d.minutes = 0 ∧ d.seconds = 0) :
    ∃ r, parseBody strict d ('P' :: s) = some r ∧ r.forward = d.forward ∧
      r.totalSeconds = (if d.forward then 1 else -1) * (k : Int) := by
  cases h with
  | @week s n hs =>
    refine ⟨{ d with weeks := n }, ?_, rfl, ?_⟩
    · rw [(parseBody_digits hs strict d 'W' (by decide) []).2]; simp [parseDate]
    · simp only [totalSeconds, hd.2.1, hd.2.2.1, hd.2.2.2.1, hd.2.2.2.2]; split <;> omega
  | @day s n hs =>
    refine ⟨{ d with days := n }, ?_, rfl, ?_⟩
    · rw [(parseBody_digits hs strict d 'D' (by decide) []).2]; rfl
    · simp only [totalSeconds, hd.1, hd.2.2.1, hd.2.2.2.1, hd.2.2.2.2]; split <;> omega
  | @dayTime s n r k hs ht =>
    obtain ⟨t, rfl⟩ := time_head ht
    obtain ⟨hh, mi, se, h1, h2⟩ := parseTime_ok ht strict { d with days := n }
    have h1' := (parseBody_digits hs strict d 'D' (by decide) ('T' :: t)).2.trans h1
    rw [List.append_assoc]
    refine ⟨_, h1', rfl, ?_⟩
    · simp only [totalSeconds, hd.1, hd.2.2.1, hd.2.2.2.1, hd.2.2.2.2]
      split <;> omega
  | @time r k ht =>
    obtain ⟨t, rfl⟩ := time_head ht
    obtain ⟨hh, mi, se, h1, h2⟩ := parseTime_ok ht strict d
    have h1' : parseBody strict d ('P' :: 'T' :: t) = _ := h1
    refine ⟨_, h1', rfl, ?_⟩
    · simp only [totalSeconds, hd.1, hd.2.1, hd.2.2.1, hd.2.2.2.1, hd.2.2.2.2]
      split <;> omega

/-! ## C15 -/

/-- C15: every text of the RFC 5545 duration grammar is accepted (in either parser mode) and
gives the duration it denotes. -/
theorem C15_parse_grammar (s : List Char) (k : Int) (h : Value s k) (strict : Bool) :
    ∃ d, parseText strict s = some d ∧ d.totalSeconds = k := by
  unfold parseText
  have h0 : ∀ b : Bool, (({ (ofSeconds 0) with forward := b } : Duration).weeks = 0 ∧ _) := fun b =>
    ⟨rfl, (⟨rfl, rfl, rfl, rfl⟩ : (ofSeconds 0).days = 0 ∧ (ofSeconds 0).hours = 0 ∧
      (ofSeconds 0).minutes = 0 ∧ (ofSeconds 0).seconds = 0)⟩
  cases h with
  | plain hb =>
    obtain ⟨r, h1, _, h3⟩ := parseBody_ok hb strict { (ofSeconds 0) with forward := true } (h0 _)
    exact ⟨r, h1, by simpa using h3⟩
  | plus hb =>
    obtain ⟨r, h1, _, h3⟩ := parseBody_ok hb strict { (ofSeconds 0) with forward := true } (h0 _)
    exact ⟨r, h1, by simpa using h3⟩
  | minus hb =>
    obtain ⟨r, h1, _, h3⟩ := parseBody_ok hb strict { (ofSeconds 0) with forward := false } (h0 _)
    exact ⟨r, h1, by simpa using h3⟩

/-- Durations that have either weeks or the other parts, but not both: all durations made from a
number of seconds and all parsed into a fresh object. -/
def Unmixed (d : Duration) : Prop :=
  d.weeks = 0 ∨ (d.days = 0 ∧ d.hours = 0 ∧ d.minutes = 0 ∧ d.seconds = 0)

/-- C15: the generated text of an unmixed duration conforms to the grammar and denotes the
duration. -/
theorem C15_generate_grammar (d : Duration) (h : Unmixed d) : Value d.generate d.totalSeconds := by
  obtain ⟨fw, w, dd, hh, m, s⟩ := d
  have body : ∃ b, (⟨fw, w, dd, hh, m, s⟩ : Duration).generate =
      (if (!fw && (decide (w ≠ 0) || decide (dd ≠ 0) || decide (hh ≠ 0) || decide (m ≠ 0)
        || decide (s ≠ 0))) = true then ['-'] else []) ++ 'P' :: b ∧
      Body b (604800 * w + 86400 * dd + 3600 * hh + 60 * m + s) := by
    unfold Unmixed at h
    simp only at h
    unfold generate
    simp only
    by_cases hw : w = 0
    · subst hw
      have htime : (hh ≠ 0 ∨ m ≠ 0 ∨ s ≠ 0) → Spec.Dur.Time ('T' ::
          ((if hh ≠ 0 then decNat hh ++ ['H'] else []) ++
          (if m ≠ 0 ∨ (hh ≠ 0 ∧ s ≠ 0) then decNat m ++ ['M'] else []) ++
          (if s ≠ 0 then decNat s ++ ['S'] else []))) (3600 * hh + 60 * m + s) := by
        intro hne
        have hS := Second.mk (digits_decNat s)
        by_cases h1 : hh = 0
        · subst h1
          by_cases h2 : m = 0
          · subst h2
            have h3 : s ≠ 0 := by simpa using hne
            simpa [h3] using Spec.Dur.Time.second hS
          · by_cases h3 : s = 0
            · subst h3
              simpa [h2] using Spec.Dur.Time.minute (Minute.bare (digits_decNat m))
            · simpa [h2, h3] using Spec.Dur.Time.minute (Minute.more (digits_decNat m) hS)
        · by_cases h3 : s = 0
          · subst h3
            by_cases h2 : m = 0
            · subst h2
              simpa [h1] using Spec.Dur.Time.hour (Hour.bare (digits_decNat hh))
            · simpa [h1, h2] using Spec.Dur.Time.hour
                (Hour.more (digits_decNat hh) (Minute.bare (digits_decNat m)))
          · have := Spec.Dur.Time.hour (Hour.more (digits_decNat hh)
              (Minute.more (digits_decNat m) hS))
            simpa [h1, h3, Nat.add_assoc] using this
      by_cases hd : dd = 0
      · subst hd
        by_cases hne : hh ≠ 0 ∨ m ≠ 0 ∨ s ≠ 0
        · refine ⟨_, ?_, by simpa using Body.time (htime hne)⟩
          simp [hne]
        · have : hh = 0 ∧ m = 0 ∧ s = 0 := by omega
          obtain ⟨rfl, rfl, rfl⟩ := this
          refine ⟨['T', '0', 'S'], by simp, ?_⟩
          exact Body.time (Spec.Dur.Time.second (Second.mk (Digits.one 0 (by omega))))
      · by_cases hne : hh ≠ 0 ∨ m ≠ 0 ∨ s ≠ 0
        · have hb := Body.dayTime (digits_decNat dd) (htime hne)
          rw [show 86400 * dd + (3600 * hh + 60 * m + s) =
            604800 * 0 + 86400 * dd + 3600 * hh + 60 * m + s by omega] at hb
          refine ⟨_, ?_, hb⟩
          simp [hne, hd]
        · have : hh = 0 ∧ m = 0 ∧ s = 0 := by omega
          obtain ⟨rfl, rfl, rfl⟩ := this
          refine ⟨decNat dd ++ ['D'], by simp [hd], ?_⟩
          simpa using Body.day (digits_decNat dd)
    · have : dd = 0 ∧ hh = 0 ∧ m = 0 ∧ s = 0 := by omega
      obtain ⟨rfl, rfl, rfl, rfl⟩ := this
      refine ⟨decNat w ++ ['W'], by simp [hw], ?_⟩
      simpa using Body.week (digits_decNat w)
  obtain ⟨b, hg, hb⟩ := body
  rw [hg]
  have ht : (⟨fw, w, dd, hh, m, s⟩ : Duration).totalSeconds =
      (if fw then 1 else -1) * ((604800 * w + 86400 * dd + 3600 * hh + 60 * m + s : Nat) : Int) := by
    unfold totalSeconds; simp only; split <;> omega
  rw [ht]
  split
  · rename_i hneg
    simp at hneg
    rw [hneg.1]
    simpa using Value.minus hb
  · rename_i hneg
    cases fw with
    | true => simpa using Value.plain hb
    | false =>
      simp at hneg
      have : (604800 * w + 86400 * dd + 3600 * hh + 60 * m + s : Nat) = 0 := by omega
      rw [this] at hb ⊢
      simpa using Value.plain hb

/-- C15: round trip of every unmixed duration, in either parser mode. -/
theorem C15_roundtrip (d : Duration) (h : Unmixed d) (strict : Bool) :
    ∃ d', parseText strict d.generate = some d' ∧ d'.eq d = true := by
  obtain ⟨d', h1, h2⟩ := C15_parse_grammar _ _ (C15_generate_grammar d h) strict
  exact ⟨d', h1, by simp [eq, h2]⟩

theorem unmixed_ofSeconds (n : Int) : Unmixed (ofSeconds n) := by
  unfold ofSeconds Unmixed; simp only; split <;> simp

/-- C15: for durations made from a number of seconds the round trip restores the number. -/
theorem C15_roundtrip_seconds (n : Int) (strict : Bool) :
    ∃ d', parseText strict (ofSeconds n).generate = some d' ∧ d'.totalSeconds = n := by
  obtain ⟨d', h1, h2⟩ :=
    C15_parse_grammar _ _ (C15_generate_grammar _ (unmixed_ofSeconds n)) strict
  exact ⟨d', h1, by rw [h2, C14_total_ofSeconds]⟩

/-! Parsing only ever sets the weeks, or else the other parts. -/

theorem parseSec_weeks {d n s r} (h : parseSec d n s = some r) : r.weeks = d.weeks := by
  unfold parseSec at h
  split at h <;> simp at h
  subst h; rfl

theorem parseMin_weeks {d n s r} (h : parseMin d n s = some r) : r.weeks = d.weeks := by
  unfold parseMin at h
  split at h
  · simp only at h
    split at h
    · simp at h; subst h; rfl
    · split at h
      · simp at h
      · exact (parseSec_weeks h :)
  · exact parseSec_weeks h

theorem parseTime_weeks {b d s r} (h : parseTime b d s = some r) : r.weeks = d.weeks := by
  unfold parseTime at h
  split at h
  · split at h <;> simp at h
    subst h; rfl
  · split at h
    · simp at h
    · simp only at h
      split at h
      · simp at h; subst h; rfl
      · split at h
        · simp at h
        · exact (parseMin_weeks h :)
    · exact parseMin_weeks h

theorem parseDate_unmixed {b d n s r} (h : parseDate b d n s = some r) (hw : d.weeks = 0)
    (hd : d.days = 0 ∧ d.hours = 0 ∧ d.minutes = 0 ∧ d.seconds = 0) : Unmixed r := by
  unfold parseDate at h
  split at h
  · split at h
    · simp at h
    · simp at h; subst h; exact Or.inr hd
  · simp at h; subst h; exact Or.inl hw
  · exact Or.inl ((parseTime_weeks h).trans hw)
  · simp at h

theorem parseBody_unmixed {b d s r} (h : parseBody b d s = some r) (hw : d.weeks = 0)
    (hd : d.days = 0 ∧ d.hours = 0 ∧ d.minutes = 0 ∧ d.seconds = 0) : Unmixed r := by
  unfold parseBody at h
  split at h
  · exact Or.inl ((parseTime_weeks h).trans hw)
  · split at h
    · simp at h
    · exact parseDate_unmixed h hw hd
  · simp at h

theorem unmixed_parseText {b s d} (h : parseText b s = some d) : Unmixed d := by
  unfold parseText parse at h
  split at h <;> exact parseBody_unmixed h rfl ⟨rfl, rfl, rfl, rfl⟩

/-- C15: whatever text was parsed, generating and parsing again gives an equal duration, and the
generated text conforms to the grammar (even when the text parsed did not). -/
theorem C15_roundtrip_parsed (s : List Char) (d : Duration) (strict : Bool)
    (h : parseText strict s = some d) :
    Value d.generate d.totalSeconds ∧
    ∃ d', parseText strict d.generate = some d' ∧ d'.eq d = true :=
  ⟨C15_generate_grammar d (unmixed_parseText h), C15_roundtrip d (unmixed_parseText h) strict⟩

example : (parseText false "P2WT".toList).isSome = true := by decide +kernel
example : (parseText true "-PT1H5S".toList).isSome = true := by decide +kernel

/-- C15 does not extend to durations mixing weeks with other parts, which arise when a text in
weeks is parsed into an object already holding days: their text loses everything but the weeks. -/
theorem C15_reused_fails : ∃ (s : List Char) (d d' : Duration),
    parse true (ofSeconds 86400) s = some d ∧ parseText true d.generate = some d' ∧
    d'.eq d = false :=
  ⟨"P1W".toList, ⟨true, 1, 1, 0, 0, 0⟩, ofSeconds 604800, by decide +kernel, by decide +kernel,
    by decide +kernel⟩

/-! ## C16 -/

/-- C16 is false: parsing into an object that already holds a duration keeps the parts the text
does not mention. -/
theorem C16_fails : ∃ (a b : Duration) (s : List Char) (ra rb : Duration),
    parse true a s = some ra ∧ parse true b s = some rb ∧ ra.eq rb = false :=
  ⟨ofSeconds 0, ofSeconds 86400, "PT1H".toList, ofSeconds 3600, ofSeconds 90000,
    by decide +kernel, by decide +kernel, by decide +kernel⟩

/-- C16, part that holds: starting from objects that hold no amounts (fresh ones; the direction is
irrelevant) the result is determined by the text.  Missing: objects holding a nonzero duration. -/
theorem C16_fresh_partial (a b : Duration) (s : List Char) (strict : Bool)
    (ha : a.weeks = 0 ∧ a.days = 0 ∧ a.hours = 0 ∧ a.minutes = 0 ∧ a.seconds = 0)
    (hb : b.weeks = 0 ∧ b.days = 0 ∧ b.hours = 0 ∧ b.minutes = 0 ∧ b.seconds = 0) :
    parse strict a s = parse strict b s := by
  obtain ⟨fa, wa, da, ha', ma, sa⟩ := a
  obtain ⟨fb, wb, db, hb', mb, sb⟩ := b
  obtain ⟨rfl, rfl, rfl, rfl, rfl⟩ := ha
  obtain ⟨rfl, rfl, rfl, rfl, rfl⟩ := hb
  rfl

/-- C16, part that holds for every prior state: whether the text is accepted, and the sign of the
result, do not depend on the prior state.

Missing: the amounts, `C16_fails`. -/
theorem C16_accept_partial (a b : Duration) (s : List Char) (strict : Bool) :
    (parse strict a s).isSome = (parse strict b s).isSome ∧
    ∀ ra rb, parse strict a s = some ra → parse strict b s = some rb → ra.forward = rb.forward := by
  have key : ∀ a b : Duration, a.forward = b.forward → ∀ s,
      (parseBody strict a s).isSome = (parseBody strict b s).isSome ∧
      ∀ ra, parseBody strict a s = some ra → ra.forward = a.forward := by
    have sec : ∀ (a b : Duration) n s, (parseSec a n s).isSome = (parseSec b n s).isSome ∧
        ∀ r, parseSec a n s = some r → r.forward = a.forward := by
      intro a b n s
      unfold parseSec
      split
      · exact ⟨rfl, by rintro r h; cases h; rfl⟩
      · exact ⟨rfl, by simp⟩
    have min : ∀ (a b : Duration) n s, (parseMin a n s).isSome = (parseMin b n s).isSome ∧
        ∀ r, parseMin a n s = some r → r.forward = a.forward := by
      intro a b n s
      unfold parseMin
      split
      · simp only
        split
        · exact ⟨rfl, by rintro r h; cases h; rfl⟩
        · split
          · exact ⟨rfl, by simp⟩
          · exact sec _ _ _ _
      · exact sec _ _ _ _
    have time : ∀ (a b : Duration) s, (parseTime strict a s).isSome = (parseTime strict b s).isSome ∧
        ∀ r, parseTime strict a s = some r → r.forward = a.forward := by
      intro a b s
      unfold parseTime
      split
      · split
        · exact ⟨rfl, by simp⟩
        · exact ⟨rfl, by rintro r h; cases h; rfl⟩
      · split
        · exact ⟨rfl, by simp⟩
        · simp only
          split
          · exact ⟨rfl, by rintro r h; cases h; rfl⟩
          · split
            · exact ⟨rfl, by simp⟩
            · exact min _ _ _ _
        · exact min _ _ _ _
    have date : ∀ (a b : Duration) n s,
        (parseDate strict a n s).isSome = (parseDate strict b n s).isSome ∧
        ∀ r, parseDate strict a n s = some r → r.forward = a.forward := by
      intro a b n s
      unfold parseDate
      split
      · split
        · exact ⟨rfl, by simp⟩
        · exact ⟨rfl, by rintro r h; cases h; rfl⟩
      · exact ⟨rfl, by rintro r h; cases h; rfl⟩
      · exact time _ _ _
      · exact ⟨rfl, by simp⟩
    intro a b hab s
    unfold parseBody
    split
    · exact time _ _ _
    · split
      · exact ⟨rfl, by simp⟩
      · exact date _ _ _ _
    · exact ⟨rfl, by simp⟩
  unfold parse
  split
  · refine ⟨(key { a with forward := false } { b with forward := false } rfl _).1, fun ra rb h1 h2 => ?_⟩
    rw [(key { a with forward := false } { b with forward := false } rfl _).2 _ h1,
      (key { b with forward := false } { b with forward := false } rfl _).2 _ h2]
  · refine ⟨(key { a with forward := true } { b with forward := true } rfl _).1, fun ra rb h1 h2 => ?_⟩
    rw [(key { a with forward := true } { b with forward := true } rfl _).2 _ h1,
      (key { b with forward := true } { b with forward := true } rfl _).2 _ h2]
  · refine ⟨(key { a with forward := true } { b with forward := true } rfl _).1, fun ra rb h1 h2 => ?_⟩
    rw [(key { a with forward := true } { b with forward := true } rfl _).2 _ h1,
      (key { b with forward := true } { b with forward := true } rfl _).2 _ h2]

example : (ofSeconds (-90061)).generate = "-P1DT1H1M1S".toList := by decide +kernel
example : Unmixed (ofSeconds (-90061)) := unmixed_ofSeconds _

end PyCal.Duration
