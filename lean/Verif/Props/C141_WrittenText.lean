import Verif.Spec.WrittenText
import Verif.Spec.ZoneText
import Verif.Props.C132_EventText
import Verif.Props.C46_Lines

/-!
# C141: what is written is as RFC 5545 has it

Texts, dates and times, UTC offsets, recurrence rules and whole lines, against the grammar of the standard.
-/

namespace PyCal
open Spec Spec.EventText DateTime
open Spec.ZoneText (OffsetText)

namespace L141
open L132

theorem fixed2 {n : Int} (h0 : 0 ≤ n) (h : n < 100) : Fixed 2 (padInt 2 n) n.toNat := by
  rw [padInt2 h0 h]
  refine ⟨?_, rfl⟩
  have := Dur.Digits.snoc (n.toNat % 10) (n.toNat / 10) (by omega) _ (Dur.Digits.one (n.toNat / 10) (by omega))
  rw [show 10 * (n.toNat / 10) + n.toNat % 10 = n.toNat by omega] at this
  exact this

theorem fixed4 {n : Int} (h0 : 0 ≤ n) (h : n < 10000) : Fixed 4 (padInt 4 n) n.toNat := by
  rw [padInt4 h0 h]
  refine ⟨?_, rfl⟩
  have h1 := Dur.Digits.one (n.toNat / 1000) (by omega)
  have h2 := Dur.Digits.snoc (n.toNat / 100 % 10) _ (by omega) _ h1
  have h3 := Dur.Digits.snoc (n.toNat / 10 % 10) _ (by omega) _ h2
  have h4 := Dur.Digits.snoc (n.toNat % 10) _ (by omega) _ h3
  rw [show 10 * (10 * (10 * (n.toNat / 1000) + n.toNat / 100 % 10) + n.toNat / 10 % 10) + n.toNat % 10 = n.toNat by omega] at h4
  exact h4

theorem until_dateTimeText {s : List Char} {t : DateTime} (h : UntilText s t) : DateTimeText s t := by
  obtain ⟨rfl, hv, hy, hd, hz⟩ := h
  obtain ⟨r1, r2, r3, r4, r5⟩ := hv.ranges
  obtain ⟨hc, hdo⟩ := hv
  obtain ⟨y, m, d, hh, mi, s, do_, u, tz⟩ := t
  simp only at *
  subst hz
  obtain ⟨y, rfl⟩ := Int.eq_ofNat_of_zero_le hy.1
  obtain ⟨m, rfl⟩ := Int.eq_ofNat_of_zero_le r1.1
  obtain ⟨d, rfl⟩ := Int.eq_ofNat_of_zero_le r2.1
  obtain ⟨hh, rfl⟩ := Int.eq_ofNat_of_zero_le r3.1
  obtain ⟨mi, rfl⟩ := Int.eq_ofNat_of_zero_le r4.1
  obtain ⟨s, rfl⟩ := Int.eq_ofNat_of_zero_le r5.1
  have f1 := fixed4 hy.1 (by omega)
  have f2 := fixed2 r1.1 r1.2
  have f3 := fixed2 r2.1 r2.2
  have f4 := fixed2 r3.1 r3.2
  have f5 := fixed2 r4.1 r4.2
  have f6 := fixed2 r5.1 r5.2
  cases do_ with
  | true =>
    obtain ⟨h1, h2, h3⟩ := hdo rfl
    have hu := hd rfl
    subst hu
    have := DateTimeText.date f1 f2 f3 hc.1
    simpa [getText, dateText, h1, h2, h3] using this
  | false =>
    have := DateTimeText.time u f1 f2 f3 f4 f5 f6 hc
    simpa [getText, dateText, timeText, zoneText] using this

theorem until_iff {s : List Char} {t : DateTime} : DateTimeText s t ↔ UntilText s t :=
  ⟨dateTimeText_until, until_dateTimeText⟩

theorem offset_bound {s : List Char} {v : Int} (h : OffsetText s v) : v.natAbs < 86400 := by
  cases h with
  | minutes neg _ _ h1 h2 => cases neg <;> simp <;> omega
  | seconds neg _ _ _ h1 h2 h3 => cases neg <;> simp <;> omega

theorem encode_free (s : List Char) (h : ∀ c ∈ s, isControl c = true → c = '\n' ∨ c = '\r') :
    ∀ c ∈ encodeParam s, isControl c = false := by
  rw [encodeParam_eq]
  generalize (none : Option Char) = last
  induction s generalizing last with
  | nil => simp [encodeParamLoop]
  | cons c s ih =>
    intro d hd
    rw [encodeParamLoop, List.mem_append] at hd
    rcases hd with hd | hd
    · have hc := h c (by simp)
      split at hd
      · simp at hd; rcases hd with rfl | rfl <;> decide
      · split at hd
        · split at hd
          · simp at hd; rcases hd with rfl | rfl <;> decide
          · simp at hd
        · split at hd
          · simp at hd; rcases hd with rfl | rfl <;> decide
          · split at hd
            · simp at hd; subst hd; decide
            · simp at hd
              subst hd
              rename_i h1 h2 _ _
              by_contra hx
              rcases hc (by simpa using hx) with h' | h'
              · exact h2 h'
              · exact h1 h'
    · exact ih (fun c hc => h c (by simp [hc])) _ d hd

/-- A value of a parameter as it is written. -/
def shown (v : List Char) : Shown :=
  if ':' ∈ encodeParam v ∨ ';' ∈ encodeParam v ∨ ',' ∈ encodeParam v then .quoted (encodeParam v) else .plain (encodeParam v)

theorem shown_text (v : List Char) : (shown v).text = PropText.genValue v := by
  unfold shown PropText.genValue
  simp only
  split <;> rfl

theorem shown_inner (v : List Char) : rfc6868Decode (shown v).inner = normaliseBreaks v := by
  have : (shown v).inner = encodeParam v := by unfold shown; split <;> rfl
  rw [this, ← C21_decode_rfc, C21_roundtrip]

theorem shown_allowed (v : List Char) (h : ∀ c ∈ v, isControl c = true → c = '\n' ∨ c = '\r') : (shown v).Allowed := by
  have h1 := encode_free v h
  have h2 := C21_encoded_safe v
  unfold shown
  split
  · exact fun c hc => ⟨h1 c hc, (h2 c hc).1⟩
  · rename_i hx
    push Not at hx
    refine fun c hc => ⟨h1 c hc, ?_⟩
    simp only [List.mem_cons, List.not_mem_nil, or_false, not_or]
    refine ⟨(h2 c hc).1, ?_, ?_, ?_⟩
    · rintro rfl; exact hx.2.1 hc
    · rintro rfl; exact hx.1 hc
    · rintro rfl; exact hx.2.2 hc

theorem param_exists (p : PropText.Param) (hv : p.values ≠ [])
    (hc : ∀ v ∈ p.values, ∀ c ∈ v, isControl c = true → c = '\n' ∨ c = '\r') :
    ∃ q : ShownParam, q.name = p.name ∧ q.text = PropText.genParam p ∧ q.meaning = Line46.readBack p ∧
      ∀ v ∈ q.values, v.Allowed := by
  have hperm := List.perm_insertionSort (· ≤ ·) p.values
  unfold PropText.genParam Line46.readBack
  rw [if_neg hv]
  generalize p.values.insertionSort (· ≤ ·) = s at hperm ⊢
  cases s with
  | nil => exact absurd (List.nil_perm.mp hperm) hv
  | cons v vs =>
    refine ⟨⟨p.name, shown v, vs.map shown⟩, rfl, ?_, ?_, ?_⟩
    · rw [List.map_cons, Line46.joinSep_cons]
      simp [ShownParam.text, shown_text, List.flatMap_map]
    · simp [ShownParam.meaning, ShownParam.values, shown_inner]
    · intro w hw
      have : w ∈ (v :: vs).map shown := by simpa [ShownParam.values] using hw
      obtain ⟨u, hu, rfl⟩ := List.mem_map.mp this
      exact shown_allowed u (hc u (hperm.subset hu))

theorem params_exist {ps : List PropText.Param} (h : ∀ p ∈ ps, Name p.name ∧ p.values ≠ [] ∧
      ∀ v ∈ p.values, ∀ c ∈ v, isControl c = true → c = '\n' ∨ c = '\r') :
    ∃ qs : List ShownParam, (qs.flatMap fun p => ';' :: p.text) = (ps.flatMap fun p => ';' :: PropText.genParam p) ∧
      qs.map ShownParam.meaning = ps.map Line46.readBack ∧ ∀ q ∈ qs, Name q.name ∧ ∀ v ∈ q.values, v.Allowed := by
  induction ps with
  | nil => exact ⟨[], rfl, rfl, by simp⟩
  | cons p ps ih =>
    obtain ⟨qs, h1, h2, h3⟩ := ih fun p hp => h p (by simp [hp])
    obtain ⟨hn, hv, hc⟩ := h p (by simp)
    obtain ⟨q, e1, e2, e3, e4⟩ := param_exists p hv hc
    refine ⟨q :: qs, by simp [h1, e2], by simp [h2, e3], ?_⟩
    intro x hx
    rcases List.mem_cons.mp hx with rfl | hx
    · exact ⟨e1 ▸ hn, e4⟩
    · exact h3 x hx

theorem decode_control (s : List Char) (h : ∀ c ∈ s, isControl c = false) :
    ∀ c ∈ rfc6868Decode s, isControl c = true → c = '\n' := by
  induction s using rfc6868Decode.induct with
  | case1 s ih => 
    intro c hc
    rw [rfc6868Decode, List.mem_cons] at hc
    rcases hc with rfl | hc
    · simp
    · exact ih (fun c hc => h c (by simp [hc])) c hc
  | case2 s ih =>
    intro c hc
    rw [rfc6868Decode, List.mem_cons] at hc
    rcases hc with rfl | hc
    · exact fun h => absurd h (by decide)
    · exact ih (fun c hc => h c (by simp [hc])) c hc
  | case3 s ih =>
    intro c hc
    rw [rfc6868Decode, List.mem_cons] at hc
    rcases hc with rfl | hc
    · exact fun h => absurd h (by decide)
    · exact ih (fun c hc => h c (by simp [hc])) c hc
  | case4 c s h1 h2 h3 ih =>
    intro d hd
    rw [rfc6868Decode.eq_4 c s h1 h2 h3, List.mem_cons] at hd
    rcases hd with rfl | hd
    · intro hx; rw [h d (by simp)] at hx; simp at hx
    · exact ih (fun c hc => h c (by simp [hc])) d hd
  | case5 => simp [rfc6868Decode]

end L141
open L141

/-- C141, texts: what `TextValue.generate` writes is a `text` that says the value, exactly if the value has no control
characters but line feeds and tabs. -/
theorem C141_text (s : List Char) :
    TextValue (escapeText s) s ↔ ∀ c ∈ s, isControl c = true → c = '\n' := by
  constructor
  · intro h c hc hx
    generalize escapeText s = e at h
    induction h with
    | nil => simp at hc
    | safe d h1 _ _ ih =>
      rcases List.mem_cons.mp hc with rfl | hc
      · rw [h1] at hx; simp at hx
      · exact ih hc
    | escaped d h1 _ ih =>
      rcases List.mem_cons.mp hc with rfl | hc
      · exfalso
        have : isControl c = false := by
          simp at h1; rcases h1 with rfl | rfl | rfl <;> decide
        rw [this] at hx; simp at hx
      · exact ih hc
    | break_ d _ _ ih =>
      rcases List.mem_cons.mp hc with rfl | hc
      · rfl
      · exact ih hc
  · intro h
    induction s with
    | nil => rw [escapeText_nil]; exact .nil
    | cons c s ih =>
      have ih := ih fun d hd => h d (by simp [hd])
      rw [escapeText_cons]
      have hc := h c (by simp)
      by_cases h1 : c = '\n'
      · subst h1; exact .break_ 'n' (Or.inl rfl) ih
      by_cases h2 : c ∈ ['\\', ';', ',']
      · have : isEscapee c = true ∧ escapeLetter c = c := by
          simp at h2; rcases h2 with rfl | rfl | rfl <;> decide
        rw [if_pos this.1, this.2]
        exact .escaped c h2 ih
      · have hcc : isControl c = false := by
          by_contra hx; exact h1 (hc (by simpa using hx))
        have : isEscapee c = false := by
          have : c ≠ '\r' := by rintro rfl; revert hcc; decide
          simp at h2
          simp [isEscapee, h1, h2, this]
        rw [if_neg (by simp [this])]
        exact .safe c hcc h2 ih

/-- C141, dates and times: what `DateTime.getText` writes for a valid value says that value (but for its time zone, which is a
parameter), exactly if the year is one of 0 to 9999 and the value is neither a date with the UTC flag nor a time with a numeric
offset. -/
theorem C141_time (t : DateTime) (hv : t.Valid) :
    DateTimeText t.getText { t with tzid := none } ↔ (0 ≤ t.year ∧ t.year ≤ 9999) ∧ t.Shown := by
  rw [until_iff]
  constructor
  · rintro ⟨h1, _, hy, hd, _⟩
    refine ⟨hy, hd, ?_⟩
    by_contra hx
    push Not at hx
    obtain ⟨hu, hdo, n, hn⟩ := hx
    have hdo : t.dateOnly = false := by simpa using hdo
    have hu : t.utc = false := by simpa using hu
    have := congrArg List.length h1
    simp [getText, dateText, timeText, zoneText, hdo, hu, hn] at this
  · rintro ⟨hy, hs⟩
    refine ⟨?_, hv, hy, hs.1, rfl⟩
    unfold getText
    by_cases hdo : t.dateOnly = true
    · simp [hdo, dateText]
    · have hdo : t.dateOnly = false := by simpa using hdo
      simp only [hdo, dateText, timeText, zoneText, Bool.false_eq_true, if_false]
      by_cases hu : t.utc = true
      · simp [hu]
      · rcases hs.2 with h | h | h
        · exact absurd h hu
        · rw [hdo] at h; simp at h
        · have hu : t.utc = false := by simpa using hu
          cases htz : t.tzid with
          | none => simp [hu]
          | some z => cases z with
            | fixed n => exact absurd htz (h n)
            | name s => simp [hu]

/-- C141 fails: the text of a time with a numeric offset says no date-time at all. -/
theorem C141_fails_offset (t : DateTime) (hv : t.Valid) (hy : 0 ≤ t.year ∧ t.year ≤ 9999) (hd : t.dateOnly = false)
    (hu : t.utc = false) (n : Int) (hn : t.tzid = some (.fixed n)) (u : DateTime) : ¬ DateTimeText t.getText u := by
  intro h
  rw [until_iff] at h
  obtain ⟨h1, hv', hy', _, hz⟩ := h
  have p2 : ∀ m : Int, 0 ≤ m → m < 100 → (padInt 2 m).length = 2 := fun m h0 h => by rw [padInt2 h0 h]; rfl
  have p4 : ∀ m : Int, 0 ≤ m → m < 10000 → (padInt 4 m).length = 4 := fun m h0 h => by rw [padInt4 h0 h]; rfl
  have hlen := congrArg List.length h1
  obtain ⟨r1, r2, r3, r4, r5⟩ := hv.ranges
  obtain ⟨s1, s2, s3, s4, s5⟩ := hv'.ranges
  have hw : ∀ m : Nat, m < 60 → (padInt 2 (m : Int)).length = 2 := fun m h => p2 _ (by omega) (by omega)
  have hl : 17 ≤ t.getText.length := by
    simp [getText, dateText, timeText, zoneText, hd, hu, hn, p2 _ r1.1 r1.2, p2 _ r2.1 r2.2, p2 _ r3.1 r3.2, p2 _ r4.1 r4.2,
      p2 _ r5.1 r5.2, p4 _ hy.1 (by omega)]
    have := hw (n.natAbs / 60 % 60) (by omega)
    push_cast at this
    omega
  have hl' : u.getText.length ≤ 16 := by
    unfold getText
    split
    · simp [dateText, p2 _ s1.1 s1.2, p2 _ s2.1 s2.2, p4 _ hy'.1 (by omega)]
    · simp [dateText, timeText, zoneText, hz, p2 _ s1.1 s1.2, p2 _ s2.1 s2.2, p2 _ s3.1 s3.2, p2 _ s4.1 s4.2,
        p2 _ s5.1 s5.2, p4 _ hy'.1 (by omega)]
      split <;> simp
  omega

/-- C141, offsets: what `UTCOffsetValue.generate` writes is a `utc-offset` that says the value, exactly if it is less than a day. -/
theorem C141_offset (v : Int) : OffsetText (utcOffsetGenerate false v) v ↔ v.natAbs < 86400 := by
  constructor
  · exact offset_bound
  · intro h
    have f1 := fixed2 (n := (v.natAbs / 3600 : Nat)) (by omega) (by omega)
    have f2 := fixed2 (n := (v.natAbs / 60 % 60 : Nat)) (by omega) (by omega)
    have f3 := fixed2 (n := (v.natAbs % 60 : Nat)) (by omega) (by omega)
    simp only [Int.toNat_natCast] at f1 f2 f3
    unfold utcOffsetGenerate
    simp only
    by_cases hs : v.natAbs % 60 = 0
    · have := OffsetText.minutes (decide (v < 0)) f1 f2 (by omega) (by omega)
      convert this using 1
      · by_cases hv : v < 0 <;> simp [hv, hs]
      · by_cases hv : v < 0 <;> simp only [hv, decide_true, decide_false, if_true, if_false, Bool.false_eq_true] <;> omega
    · have := OffsetText.seconds (decide (v < 0)) f1 f2 f3 (by omega) (by omega) (by omega)
      convert this using 1
      · by_cases hv : v < 0 <;> simp [hv, hs]
      · by_cases hv : v < 0 <;> simp only [hv, decide_true, decide_false, if_true, if_false, Bool.false_eq_true] <;> omega

/-- C141 (partial), rules: what `Recurrence.generate` writes is a `recur` that says the rule.

Needed: at most one of COUNT and UNTIL, UNTIL in UTC, floating or a date, of the years 0 to 9999, and values that the parts may
have.  Missing: UNTIL in a time zone, COUNT with UNTIL (`C44_fails_zone`, `C44_fails_both`), a rule that is to use an UNTIL it
does not have (`C141_fails_missing`), and lists that the setters let be empty or with values out of range. -/
theorem C141_rule_partial (r : Rule) (hw : Writable r) :
    ∃ ps, Recur.RuleText DateTimeText r.generate ps ∧ Recur.rule ps = r :=
  ⟨partsOf r, L132.ruleText_mono (fun _ _ => until_dateTimeText) ⟨generate_text hw, partsOf_noclash r⟩, partsOf_rule hw⟩

/-- C141 fails: a rule that is to use an UNTIL that it does not have is written as no rule. -/
theorem C141_fails_missing : ∃ r : Rule, r.useUntil = true ∧ ∀ ps, ¬ Recur.RuleText DateTimeText r.generate ps := by
  refine ⟨{ useUntil := true, byMonth := [1] }, rfl, fun ps h => ?_⟩
  have := C56_accepts true _ _ (L132.ruleText_mono (fun _ _ => L132.dateTimeText_until) h)
  have h' : Rule.parse true ({ useUntil := true, byMonth := [1] } : Rule).generate = none := by decide +kernel
  rw [h'] at this
  simp at this

/-- C141 (partial), lines: what is written for a property is a content line of the standard with its name, its group, its value and, for
each name, parameters with its values.

Needed: names of letters, digits and hyphens, parameters with values, values of parameters without control characters but line
breaks and tabs.  Missing: parameters without values, `C141_fails_no_value`, and control characters, `C141_fails_control`.  (That
the value is of the grammar of its type is for the theorems above.) -/
theorem C141_line_partial (vcard : Bool) (l : PropText.Line) (hn : Name l.name)
    (hg : l.group = none ∨ vcard = true ∧ ∃ g, l.group = some g ∧ Name g)
    (hp : ∀ p ∈ l.params, Name p.name ∧ p.values ≠ [] ∧
      ∀ v ∈ p.values, ∀ c ∈ v, isControl c = true → c = '\n' ∨ c = '\r') :
    ∃ cl : ContentLine, cl.Allowed vcard ∧ cl.text = PropText.generate l ∧ cl.group = l.group ∧ cl.name = l.name ∧
      cl.value = l.value ∧ SameParams l.params (cl.params.map ShownParam.meaning) := by
  have hperm := List.perm_insertionSort (fun a b : PropText.Param => a.key ≤ b.key) l.params
  obtain ⟨qs, h1, h2, h3⟩ := params_exist (ps := l.params.insertionSort fun a b => a.key ≤ b.key)
    fun p h => hp p (hperm.subset h)
  refine ⟨⟨l.group, l.name, qs, l.value⟩, ⟨hn, ?_, h3⟩, ?_, rfl, rfl, rfl, ?_⟩
  · intro g h
    rcases hg with hg | ⟨hc, g', hg, h'⟩
    · rw [hg] at h; simp at h
    · rw [hg] at h; cases h; exact ⟨hc, h'⟩
  · unfold ContentLine.text PropText.generate
    simp only [h1]
    congr 3
    rcases hg with hg | ⟨_, g', hg, h'⟩
    · rw [hg]
    · rw [hg]; simp [h'.1]
  · simp only [h2]
    exact Line46.same_sorted l.params

/-- C141 fails: no line of the standard says a control character in a value of a parameter, and it is written as it is. -/
theorem C141_fails_control (l : PropText.Line) (p : PropText.Param) (hp : p ∈ l.params) (v : List Char) (hv : v ∈ p.values) (c : Char)
    (hc : c ∈ v) (h : isControl c = true) (h1 : c ≠ '\n') (h2 : c ≠ '\r') (vcard : Bool) (cl : ContentLine) (ha : cl.Allowed vcard) :
    ¬ SameParams l.params (cl.params.map ShownParam.meaning) := by
  intro hs
  have hmem : p ∈ l.params.filter fun q => decide (q.key = p.key) := by simp [hp]
  obtain ⟨i, hi, he⟩ := List.mem_iff_getElem.mp hmem
  have hf := hs p.key
  have hi' := hf.length_eq ▸ hi
  have hpi := (List.forall₂_iff_get.mp hf).2 i hi hi'
  simp only [List.get_eq_getElem, he] at hpi
  have hm := List.getElem_mem hi'
  generalize ((cl.params.map ShownParam.meaning).filter fun q => decide (q.key = p.key))[i] = q at hpi hm
  have hm := (List.mem_filter.mp hm).1
  obtain ⟨sp, hsp, rfl⟩ := List.mem_map.mp hm
  have hw : normaliseBreaks v ∈ sp.meaning.values := hpi.2.1.mem_iff.mpr (List.mem_map_of_mem hv)
  obtain ⟨x, hx, e⟩ := List.mem_map.mp hw
  have hall := (ha.params sp hsp).2 x hx
  have hfree : ∀ c ∈ x.inner, isControl c = false := by
    cases x with
    | plain s => exact fun c hc => (hall c hc).1
    | quoted s => exact fun c hc => (hall c hc).1
  have hin : c ∈ normaliseBreaks v := by
    clear e hw hv
    induction v using normaliseBreaks.induct with
    | case1 s ih =>
      rw [normaliseBreaks]
      simp [h1, h2] at hc ⊢
      exact ih hc
    | case2 s h' ih =>
      rw [normaliseBreaks.eq_2 _ h']
      simp [h1, h2] at hc ⊢
      exact ih hc
    | case3 d s h' h'' ih =>
      rw [normaliseBreaks.eq_3 _ _ h' h'']
      rcases List.mem_cons.mp hc with rfl | hc
      · simp
      · simp [ih hc]
    | case4 => simp at hc
  rw [← e] at hin
  exact h1 (decode_control _ hfree c hin h)

/-- C141 fails: a parameter without a value, as it may be read from a card, is written as such. -/
theorem C141_fails_no_value (vcard : Bool) (cl : ContentLine) (ha : cl.Allowed vcard) :
    cl.text ≠ PropText.generate ⟨none, "PHOTO".toList, [⟨"BASE64".toList, []⟩], "AA".toList⟩ := by
  have e : PropText.generate ⟨none, "PHOTO".toList, [⟨"BASE64".toList, []⟩], "AA".toList⟩ = "PHOTO;BASE64:AA".toList := by
    decide +kernel
  rw [e]
  obtain ⟨group, name, params, value⟩ := cl
  obtain ⟨hn, hg, hp⟩ := ha
  intro h
  simp only [ContentLine.text] at h hn
  have h1 : '=' ∉ "PHOTO;BASE64:AA".toList := by decide +kernel
  have h2 : '.' ∉ "PHOTO;BASE64:AA".toList := by decide +kernel
  cases group with
  | some g => rw [← h] at h2; simp at h2
  | none =>
    cases params with
    | cons p ps => rw [← h] at h1; simp [ShownParam.text] at h1
    | nil =>
      simp only [List.nil_append, List.flatMap_nil, List.append_nil] at h
      have hc : ':' ∉ name := fun hm => by
        have := hn.2 _ hm
        revert this; decide +kernel
      have h3 : (name ++ ':' :: value).takeWhile (fun c => decide (c ≠ ':')) = name := by
        rw [List.takeWhile_append_of_pos (by intro c hm; simp; rintro rfl; exact hc hm)]
        simp
      rw [h] at h3
      have h4 : ';' ∈ "PHOTO;BASE64:AA".toList.takeWhile fun c => decide (c ≠ ':') := by decide +kernel
      rw [h3] at h4
      have := hn.2 _ h4
      revert this; decide +kernel

/-! ## Examples -/

example : TextValue (escapeText "a;b,c\\d\ne:\"f\"".toList) "a;b,c\\d\ne:\"f\"".toList :=
  (C141_text _).2 (by decide +kernel)
example : escapeText "a;b\n".toList = "a\\;b\\n".toList := by decide +kernel

/-- A time in a named zone and a date. -/
example : DateTimeText "20200229T233000".toList { year := 2020, month := 2, day := 29, hours := 23, minutes := 30 } := by
  have := (C141_time { year := 2020, month := 2, day := 29, hours := 23, minutes := 30, tzid := some (.name "Europe/Paris") }
    (by decide)).2 ⟨by decide, by simp, by simp⟩
  rwa [show DateTime.getText { year := 2020, month := 2, day := 29, hours := 23, minutes := 30, tzid := some (.name "Europe/Paris") } =
    "20200229T233000".toList by decide +kernel] at this

example : ¬ DateTimeText (DateTime.getText { year := 2020, tzid := some (.fixed 3600) }) { year := 2020, tzid := none } :=
  C141_fails_offset _ (by decide) (by decide) rfl rfl 3600 rfl _

example : OffsetText "-0330".toList (-12600) := by
  have := (C141_offset (-12600)).2 (by decide)
  rwa [show utcOffsetGenerate false (-12600) = "-0330".toList by decide +kernel] at this

/-- `PHOTO;TYPE="a,b",jpeg:x` for a card with a group. -/
example : ∃ cl : ContentLine, cl.Allowed true ∧ cl.text = "item1.PHOTO;TYPE=\"a,b\",jpeg:x".toList := by
  obtain ⟨cl, h1, h2, -⟩ := C141_line_partial true ⟨some "item1".toList, "PHOTO".toList,
    [⟨"TYPE".toList, ["jpeg".toList, "a,b".toList]⟩], "x".toList⟩ ⟨by simp, by decide +kernel⟩
    (Or.inr ⟨rfl, _, rfl, by simp, by decide +kernel⟩)
    (by
      intro p hp
      simp only [List.mem_singleton] at hp
      subst hp
      exact ⟨⟨by simp, by decide +kernel⟩, by simp, by decide +kernel⟩)
  exact ⟨cl, h1, by rw [h2]; decide +kernel⟩

end PyCal
