import Verif.Model.PeriodObject
import Verif.Model.Container
import Verif.Props.C01_C05_Arithmetic
import Verif.Props.C15_C16_DurationText
import Verif.Props.C25_C26_DateTimeText

/-!
# C79: period texts; C80: the values a period stores lazily
-/

namespace PyCal
open DateTime (TzEnv FixedOffset NoSkip textForm Shown)
open Duration (Unmixed)

namespace PeriodObj

/-! ## C79: which texts are periods -/

theorem splitSlash_some {s a b : List Char} :
    splitSlash s = some (a, b) ↔ s = a ++ '/' :: b ∧ '/' ∉ a := by
  induction s generalizing a b with
  | nil => simp [splitSlash]
  | cons c s ih =>
    unfold splitSlash
    by_cases hc : c = '/'
    · subst hc
      simp only [if_true, Option.some.injEq, Prod.mk.injEq]
      constructor
      · rintro ⟨rfl, rfl⟩; simp
      · rintro ⟨h1, h2⟩
        cases a with
        | nil => simpa using h1
        | cons x a => simp at h1; exact absurd (h1.1 ▸ List.mem_cons_self) h2
    · simp only [hc, if_false, Option.map_eq_some_iff, Prod.exists, Prod.mk.injEq]
      constructor
      · rintro ⟨a', b', h, rfl, rfl⟩
        obtain ⟨h1, h2⟩ := ih.mp h
        exact ⟨by simp [h1], by simp [h2, Ne.symm hc]⟩
      · rintro ⟨h1, h2⟩
        cases a with
        | nil => simp at h1; exact absurd h1.1 hc
        | cons x a =>
          simp at h1 h2
          exact ⟨a, b, ih.mpr ⟨h1.2, h2.2⟩, by rw [h1.1], rfl⟩

theorem parseText_nil (sr iso : Bool) : DateTime.parseText sr [] iso = none := by
  cases sr <;> cases iso <;> decide +kernel

/-- C79: the texts read as a period are exactly a date-time, a slash and a date-time, or a
date-time, a slash and a duration that starts with `P`; the period holds what these two texts are
read as. -/
theorem C79_accepts (sr strict iso : Bool) (data : List Char) (p : PeriodObj) :
    parseText sr strict data iso = .ok p ↔
      ∃ a b s, data = a ++ '/' :: b ∧ '/' ∉ a ∧ DateTime.parseText sr a iso = some s ∧
        ((b.head? = some 'P' ∧ ∃ d, Duration.parseText strict b = some d ∧ p = ofDuration s d) ∨
          (b.head? ≠ some 'P' ∧ ∃ e, DateTime.parseText sr b iso = some e ∧ p = ofEnd s e)) := by
  unfold parseText parse
  cases hsp : splitSlash data with
  | none =>
    simp only [reduceCtorEq, false_iff]
    rintro ⟨a, b, s, h1, h2, _⟩
    rw [splitSlash_some.mpr ⟨h1, h2⟩] at hsp
    cases hsp
  | some r =>
    obtain ⟨a, b⟩ := r
    have hab := splitSlash_some.mp hsp
    have key : ∀ Q : List Char → List Char → Prop,
        (∃ a' b', data = a' ++ '/' :: b' ∧ '/' ∉ a' ∧ Q a' b') ↔ Q a b := by
      intro Q
      constructor
      · rintro ⟨a', b', h1, h2, h3⟩
        have := (splitSlash_some.mpr ⟨h1, h2⟩).symm.trans hsp
        simp only [Option.some.injEq, Prod.mk.injEq] at this
        rwa [← this.1, ← this.2]
      · exact fun h => ⟨a, b, hab.1, hab.2, h⟩
    have key' := key fun a b => ∃ s, DateTime.parseText sr a iso = some s ∧
      ((b.head? = some 'P' ∧ ∃ d, Duration.parseText strict b = some d ∧ p = ofDuration s d) ∨
        (b.head? ≠ some 'P' ∧ ∃ e, DateTime.parseText sr b iso = some e ∧ p = ofEnd s e))
    simp only [exists_and_left] at key' ⊢
    rw [key']
    show (match DateTime.parseText sr a iso with
      | none => Except.error Err.value
      | some s => _) = _ ↔ _
    cases ha : DateTime.parseText sr a iso with
    | none => simp
    | some s =>
      simp only [Option.some.injEq, exists_eq_left']
      cases b with
      | nil => simp [parseText_nil]
      | cons c b =>
        by_cases hc : c = 'P'
        · subst hc
          simp only [if_true, List.head?_cons, true_and, ne_eq, not_true_eq_false, false_and, or_false]
          cases hd : Duration.parseText strict ('P' :: b) with
          | none => simp
          | some d => simp [ofDuration, eq_comm]
        · simp only [hc, if_false, List.head?_cons, Option.some.injEq, false_and, false_or, ne_eq,
            not_false_eq_true, true_and]
          show (match DateTime.parseText sr (c :: b) iso with
            | none => Except.error Err.value
            | some e => _) = _ ↔ _
          cases he : DateTime.parseText sr (c :: b) iso with
          | none => simp
          | some e => simp [ofEnd, eq_comm]

/-! ## C79: round trips -/

theorem padInt_chars (w : Nat) (n : Int) : ∀ c ∈ padInt w n, isDigit c = true ∨ c = '-' := by
  have hp : ∀ w n, ∀ c ∈ padNat w n, isDigit c = true := by
    intro w n c hc
    unfold padNat at hc
    simp only [List.mem_append, List.mem_replicate] at hc
    rcases hc with ⟨_, rfl⟩ | hc
    · decide
    · exact decNat_all_digits _ c hc
  intro c hc
  unfold padInt at hc
  split at hc
  · simp only [List.mem_cons] at hc
    rcases hc with rfl | hc
    · exact .inr rfl
    · exact .inl (hp _ _ c hc)
  · exact .inl (hp _ _ c hc)

theorem padInt_ne_nil (w : Nat) (n : Int) : padInt w n ≠ [] := by
  unfold padInt padNat
  split <;> simp [decNat_ne_nil]

theorem padInt_not_mem (w : Nat) (n : Int) {c : Char} (h1 : isDigit c = false) (h2 : c ≠ '-') :
    c ∉ padInt w n := fun h => by
  rcases padInt_chars w n c h with h | h
  · rw [h1] at h; cases h
  · exact h2 h

/-- The texts of a date-time have no slash. -/
theorem textForm_slash (ext : Bool) (t : DateTime) : '/' ∉ textForm ext t := by
  have hp := fun w n => padInt_not_mem w n (c := '/') (by decide) (by decide)
  have hz : ∀ sep : List Char, '/' ∉ sep → '/' ∉ DateTime.zoneText sep t := by
    intro sep hs
    unfold DateTime.zoneText
    split
    · decide
    · split
      · simp only [List.mem_append, List.mem_singleton, not_or]
        refine ⟨⟨⟨by split <;> decide, hp _ _⟩, hs⟩, hp _ _⟩
      · simp
  unfold textForm DateTime.getXMLText DateTime.getText DateTime.dateText DateTime.timeText
  cases ext
  · simp only [Bool.false_eq_true, if_false]
    split <;> simp [hp, hz]
  · simp only [if_true]
    split <;> simp [hp, hz]

/-- … and do not start with `P`. -/
theorem textForm_head (ext : Bool) (t : DateTime) : (textForm ext t).head? ≠ some 'P' := by
  have hd : ∃ r, textForm ext t = padInt 4 t.year ++ r := by
    unfold textForm DateTime.getXMLText DateTime.getText DateTime.dateText
    cases ext
    · simp only [Bool.false_eq_true, if_false]
      split <;> simp
    · simp only [if_true]
      split <;> simp
  obtain ⟨r, hr⟩ := hd
  rw [hr]
  cases hp : padInt 4 t.year with
  | nil => exact absurd hp (padInt_ne_nil _ _)
  | cons c s =>
    intro h
    simp only [List.cons_append, List.head?_cons, Option.some.injEq] at h
    exact padInt_not_mem 4 t.year (c := 'P') (by decide) (by decide) (by rw [hp, h]; simp)

/-- `u` is what the text of `t` is read as: the same date-time without the name of its timezone; in
the ISO form also a numeric offset of whole minutes is kept.  -/
def ReadAs (ext iso : Bool) (t u : DateTime) : Prop :=
  t.Valid ∧ 0 ≤ t.year ∧ t.year ≤ 9999 ∧ (ext = true → iso = true) ∧
  ((t.Shown ∧ u = { t with tzid := none }) ∨
    (iso = true ∧ u = t ∧ t.utc = false ∧ t.dateOnly = false ∧
      ∃ n : Int, t.tzid = some (.fixed n) ∧ n % 60 = 0 ∧ n.natAbs < 360000))

theorem readAs_parse {ext iso : Bool} {t u : DateTime} (h : ReadAs ext iso t u) (sr : Bool) :
    DateTime.parseText sr (textForm ext t) iso = some u := by
  obtain ⟨hv, h1, h2, he, ⟨hs, rfl⟩ | ⟨rfl, rfl, hu, hd, n, hn, hm, hb⟩⟩ := h
  · exact DateTime.C25_text_partial t hv ⟨h1, h2⟩ hs ext iso sr he
  · exact DateTime.C25_offset u hv ⟨h1, h2⟩ n hn hu hd hm hb ext sr

/-- C79: the text of a period with an end is read as the period of what the texts of its start and
end are read as; with either parser. -/
theorem C79_end (sr strict iso : Bool) (s s' e e' : DateTime) (hs : ReadAs false iso s s')
    (he : ReadAs false iso e e') :
    parseText sr strict (ofEnd s e).generate iso = .ok (ofEnd s' e') := by
  refine (C79_accepts _ _ _ _ _).mpr ⟨textForm false s, textForm false e, s', ?_,
    textForm_slash _ _, readAs_parse hs sr, .inr ⟨textForm_head _ _, e', readAs_parse he sr, rfl⟩⟩
  simp [generate, ofEnd, secondText, textForm]

theorem generate_head {d : Duration} (h : 0 ≤ d.totalSeconds) : d.generate.head? = some 'P' := by
  have : (!d.forward && (decide (d.weeks ≠ 0) || decide (d.days ≠ 0) || decide (d.hours ≠ 0) ||
      decide (d.minutes ≠ 0) || decide (d.seconds ≠ 0))) = false := by
    unfold Duration.totalSeconds at h
    obtain ⟨f, w, dd, hh, m, s⟩ := d
    cases f
    · simp only [Bool.false_eq_true, if_false] at h
      have : w = 0 ∧ dd = 0 ∧ hh = 0 ∧ m = 0 ∧ s = 0 := by omega
      simp [this]
    · simp
  unfold Duration.generate
  rw [this]
  simp

/-- C79 (partial): the text of a period with a duration that is not negative is read as a period with
that duration.  Missing: negative durations (`C79_fails_negative`). -/
theorem C79_duration_partial (sr strict iso : Bool) (s s' : DateTime) (d : Duration)
    (hs : ReadAs false iso s s') (hd : Unmixed d) (h0 : 0 ≤ d.totalSeconds) :
    ∃ d', parseText sr strict (ofDuration s d).generate iso = .ok (ofDuration s' d') ∧
      d'.totalSeconds = d.totalSeconds := by
  obtain ⟨d', h1, h2⟩ := Duration.C15_parse_grammar _ _ (Duration.C15_generate_grammar d hd) strict
  refine ⟨d', (C79_accepts _ _ _ _ _).mpr ⟨textForm false s, d.generate, s', ?_,
    textForm_slash _ _, readAs_parse hs sr, .inl ⟨generate_head h0, d', h1, rfl⟩⟩, h2⟩
  simp [generate, ofDuration, secondText, textForm]

/-- C79: the same for the jCal form, which is a pair of texts in the ISO form. -/
theorem C79_json_end (sr strict : Bool) (s s' e e' : DateTime) (hs : ReadAs true true s s')
    (he : ReadAs true true e e') :
    parseJSON sr strict fresh (ofEnd s e).writeJSON = .ok (ofEnd s' e') := by
  refine (C79_accepts _ _ _ _ _).mpr ⟨textForm true s, textForm true e, s', ?_,
    textForm_slash _ _, readAs_parse hs sr, .inr ⟨textForm_head _ _, e', readAs_parse he sr, rfl⟩⟩
  simp [writeJSON, ofEnd, secondText, textForm]

/-- C79 (partial): and for the jCal form of a period with a duration.  Missing: negative durations. -/
theorem C79_json_duration_partial (sr strict : Bool) (s s' : DateTime) (d : Duration)
    (hs : ReadAs true true s s') (hd : Unmixed d) (h0 : 0 ≤ d.totalSeconds) :
    ∃ d', parseJSON sr strict fresh (ofDuration s d).writeJSON = .ok (ofDuration s' d') ∧
      d'.totalSeconds = d.totalSeconds := by
  obtain ⟨d', h1, h2⟩ := Duration.C15_parse_grammar _ _ (Duration.C15_generate_grammar d hd) strict
  refine ⟨d', (C79_accepts _ _ _ _ _).mpr ⟨textForm true s, d.generate, s', ?_,
    textForm_slash _ _, readAs_parse hs sr, .inl ⟨generate_head h0, d', h1, rfl⟩⟩, h2⟩
  simp [writeJSON, ofDuration, secondText, textForm]

/-- C79 fails for a duration with the optional plus sign, which the grammar allows
(RFC 5545 3.3.6): the text of a date-time is expected. -/
theorem C79_fails_plus : Spec.Dur.Value "+PT1H".toList 3600 ∧
    parseText false false "20240101T000000Z/+PT1H".toList = .error .value :=
  ⟨.plus (.time (.hour (.bare (.one 1 (by decide))))), by decide +kernel⟩

/-- C79 fails for a negative duration: its text is written but not read. -/
theorem C79_fails_negative : ∃ s d, Unmixed d ∧ ReadAs false false s s ∧
    parseText false false (ofDuration s d).generate = .error .value :=
  ⟨{ year := 2024, utc := true }, Duration.ofSeconds (-3600), Duration.unmixed_ofSeconds _,
    ⟨by decide, by decide, by decide, by decide, .inl ⟨⟨by decide, .inl rfl⟩, rfl⟩⟩,
    by decide +kernel⟩

/-- C79 fails for an object that was read before: after a text with a duration it cannot be given a
text with an end. -/
theorem C79_fails_reuse : ∃ t u p, parseText false false t = .ok p ∧
    (parseText false false u).isOk = true ∧ parse false false p u false = .error .attribute :=
  ⟨"20240101T000000Z/PT1H".toList, "20240101T000000Z/20240101T010000Z".toList,
    ofDuration { year := 2024, utc := true } (Duration.ofSeconds 3600), by decide +kernel⟩

/-! ## C80 -/

/-- The calls that look at a period or choose how it is written. -/
inductive Look where
  | getEnd
  | getDuration
  | use (duration : Bool)

/-- The period after the call. -/
def look (env : TzEnv) (p : PeriodObj) : Look → PeriodObj
  | .getEnd => p.getEnd.2
  | .getDuration => (p.getDuration env).2
  | .use b => p.setUseDuration env b

/-- The value `generate` prints is there. -/
def Ok (p : PeriodObj) : Prop :=
  if p.useDuration then p.duration.isSome = true else p.stop.isSome = true

theorem ok_ofEnd (s e : DateTime) : (ofEnd s e).Ok := rfl
theorem ok_ofDuration (s : DateTime) (d : Duration) : (ofDuration s d).Ok := rfl

theorem look_keeps (env : TzEnv) (p : PeriodObj) (h : p.Ok) (l : Look) :
    (look env p l).Ok ∧ (look env p l).start = p.start ∧
    (look env p l).getEnd.1 = p.getEnd.1 ∧
    ((look env p l).getDuration env).1 = (p.getDuration env).1 := by
  obtain ⟨s, e, d, u⟩ := p
  cases l <;> cases e <;> cases d <;> cases u <;>
    simp_all [Ok, look, getEnd, getDuration, setUseDuration] <;> split <;> simp_all

/-- C80: looking at a period, and choosing how it is to be written, never changes its start, its
end or its duration; and it can always be written. -/
theorem C80_look (env : TzEnv) (p : PeriodObj) (h : p.Ok) (ls : List Look) :
    (ls.foldl (look env) p).Ok ∧ (ls.foldl (look env) p).start = p.start ∧
    (ls.foldl (look env) p).getEnd.1 = p.getEnd.1 ∧
    ((ls.foldl (look env) p).getDuration env).1 = (p.getDuration env).1 := by
  induction ls generalizing p with
  | nil => exact ⟨h, rfl, rfl, rfl⟩
  | cons l ls ih =>
    obtain ⟨h1, h2, h3, h4⟩ := look_keeps env p h l
    obtain ⟨i1, i2, i3, i4⟩ := ih (look env p l) h1
    exact ⟨i1, i2.trans h2, i3.trans h3, i4.trans h4⟩

/-- C80: there is always an end and a duration. -/
theorem C80_values (env : TzEnv) (p : PeriodObj) (h : p.Ok) :
    (∃ e, p.getEnd.1 = some e) ∧ ∃ d, (p.getDuration env).1 = some d := by
  obtain ⟨s, e, d, u⟩ := p
  cases e <;> cases d <;> cases u <;> simp_all [Ok, getEnd, getDuration]

/-- What is written once the way has been chosen. -/
theorem use_form (env : TzEnv) (p : PeriodObj) (h : p.Ok) {e : DateTime} {d : Duration}
    (he : p.getEnd.1 = some e) (hd : (p.getDuration env).1 = some d) (b : Bool) :
    (p.setUseDuration env b).generate =
      (if b then ofDuration p.start d else ofEnd p.start e).generate ∧
    (p.setUseDuration env b).duplicate =
      some (if b then ofDuration p.start d else ofEnd p.start e) := by
  obtain ⟨s, e', d', u⟩ := p
  cases b <;> cases e' <;> cases d' <;> cases u <;>
    simp_all [Ok, getEnd, getDuration, setUseDuration, generate, secondText, ofEnd, ofDuration,
      duplicate]

/-- The two ways to make the period from `s` to `d` after `s`. -/
def Made (p : PeriodObj) (s : DateTime) (d : Duration) : Prop :=
  p = ofEnd s (s.add d) ∨ (p = ofDuration s d ∧ Unmixed d)

theorem made_duration {env : TzEnv} {p : PeriodObj} {s : DateTime} {d : Duration}
    (h : Made p s d) (hv : s.Valid) (hd : s.dateOnly = false) (hz : FixedOffset env s)
    (hs : NoSkip s.year (s.add d).year) :
    p.Ok ∧ p.start = s ∧ p.getEnd.1 = some (s.add d) ∧
    ∃ d', (p.getDuration env).1 = some d' ∧ Unmixed d' ∧ d'.totalSeconds = d.totalSeconds := by
  rcases h with rfl | ⟨rfl, hu⟩
  · refine ⟨ok_ofEnd _ _, rfl, rfl, _, rfl, ?_, DateTime.C04_diff_partial env s hv hd hz d hs⟩
    unfold DateTime.subDateTime
    repeat' split
    all_goals exact Duration.unmixed_ofSeconds _
  · exact ⟨ok_ofDuration _ _, rfl, rfl, d, rfl, hu, rfl⟩

theorem add_congr {s : DateTime} {d d' : Duration} (h : d'.totalSeconds = d.totalSeconds) :
    s.add d' = s.add d := by unfold DateTime.add; rw [h]

/-- C80 (partial): for a period in UTC or floating time that does not end before it starts, however
it was made, whatever was asked of it before and whichever way of writing is chosen, its copy and
what its text is read as have the same start and end.  Missing: periods in a timezone
(`C80_fails_zone`), dates, and spans over the end of a non-leap century year, where the difference
of two date-times is off by a day (C03). -/
theorem C80_written_partial (env : TzEnv) (sr strict : Bool) (p : PeriodObj) (s : DateTime)
    (d : Duration) (h : Made p s d) (h0 : 0 ≤ d.totalSeconds) (hv : s.Valid)
    (hd : s.dateOnly = false) (htz : s.tzid = none) (hz : FixedOffset env s)
    (hs : NoSkip s.year (s.add d).year) (hy : 0 ≤ s.year ∧ s.year ≤ 9999)
    (hy' : 0 ≤ (s.add d).year ∧ (s.add d).year ≤ 9999) (ls : List Look) (b : Bool) :
    ∃ q c, parseText sr strict ((ls.foldl (look env) p).setUseDuration env b).generate = .ok q ∧
      ((ls.foldl (look env) p).setUseDuration env b).duplicate = some c ∧
      q.start = s ∧ q.getEnd.1 = some (s.add d) ∧ c.start = s ∧ c.getEnd.1 = some (s.add d) := by
  obtain ⟨h1, h2, h3, d', h4, h5, h6⟩ := made_duration h hv hd hz hs
  obtain ⟨i1, i2, i3, i4⟩ := C80_look env p h1 ls
  obtain ⟨f1, f2⟩ := use_form env _ i1 (i3.trans h3) (i4.trans h4) b
  rw [f1, f2, i2, h2]
  have hr : ∀ t : DateTime, t.Valid → 0 ≤ t.year → t.year ≤ 9999 → t.dateOnly = false →
      t.tzid = none → ReadAs false false t t := by
    intro t hv h1 h2 hd hz
    refine ⟨hv, h1, h2, by simp, .inl ⟨⟨by simp [hd], .inr (.inr (by simp [hz]))⟩, ?_⟩⟩
    obtain ⟨y, m, d, h, mi, s, do_, u, tz⟩ := t
    simp only at hz
    subst hz
    rfl
  have hrs := hr s hv hy.1 hy.2 hd htz
  have hre := hr (s.add d) (DateTime.add_valid _ _) hy'.1 hy'.2 hd htz
  cases b
  · refine ⟨_, _, C79_end sr strict false s s _ _ hrs hre, rfl, rfl, rfl, rfl, rfl⟩
  · obtain ⟨d'', g1, g2⟩ := C79_duration_partial sr strict false s s d' hrs h5 (by omega)
    refine ⟨_, _, g1, rfl, rfl, ?_, rfl, ?_⟩
    · show some (s.add d'') = _
      rw [add_congr (g2.trans h6)]
    · show some (s.add d') = _
      rw [add_congr h6]

theorem utcOf_local {env : TzEnv} {t : DateTime} (h : (t.isLocal && !t.dateOnly) = true) :
    utcOf env t = ({ t with utc := true, tzid := none } : DateTime).offsetSeconds (-t.tzOffset env) := by
  unfold utcOf; rw [if_pos h]

theorem utcOf_other {env : TzEnv} {t : DateTime} (h : (t.isLocal && !t.dateOnly) = false) :
    utcOf env t = t := by
  unfold utcOf; rw [h]; rfl

/-- C80 (partial): where the offset from UTC does not depend on the date, it makes no difference to
the period in UTC whether the end had been asked for before.  Missing: timezones
(`C80_fails_adjust`). -/
theorem C80_adjust_partial (env : TzEnv) (s : DateTime) (d : Duration)
    (hz : FixedOffset env s) :
    (ofDuration s d).getEnd.2.adjustToUTC env = (ofDuration s d).adjustToUTC env := by
  have hk : DateTime.SameKind (s.add d) s := ⟨rfl, rfl, rfl⟩
  simp only [ofDuration, getEnd, adjustToUTC, Option.map_some, PeriodObj.mk.injEq,
    Option.some.injEq, true_and, and_true]
  have hl : (s.add d).isLocal = s.isLocal := by simp [DateTime.isLocal]
  by_cases h : (s.isLocal && !s.dateOnly) = true
  · have hd : s.dateOnly = false := by simp at h; exact h.2
    rw [utcOf_local h, utcOf_local (t := s.add d) (by rw [hl]; exact h), hz.eq hk]
    generalize -s.tzOffset env = n
    rw [utcOf_other (by simp [DateTime.isLocal, DateTime.offsetSeconds, DateTime.normalise_utc])]
    refine DateTime.eq_of_secNum ⟨rfl, rfl, rfl⟩ (DateTime.normalise_valid _) (DateTime.add_valid _ _) ?_
    have a1 := DateTime.addSeconds_secNum (t := { s.add d with utc := true, tzid := none }) hd n
    have a2 := DateTime.addSeconds_secNum (t := { s with utc := true, tzid := none }) hd n
    have a3 := DateTime.add_secNum (t := ({ s with utc := true, tzid := none } : DateTime).offsetSeconds n) hd d
    have a4 := DateTime.add_secNum (t := s) hd d
    have a5 : ({ s.add d with utc := true, tzid := none } : DateTime).secNum = (s.add d).secNum := rfl
    have a6 : ({ s with utc := true, tzid := none } : DateTime).secNum = s.secNum := rfl
    rw [a3]
    unfold DateTime.offsetSeconds
    rw [a1, a2, a5, a6, a4]
    omega
  · have h' : (s.isLocal && !s.dateOnly) = false := by simpa using h
    rw [utcOf_other (t := s) h', utcOf_other (t := s.add d) (by rw [hl]; exact h')]

/-- A zone that is an hour ahead of UTC, two from 29 March 2024 on. -/
def springZone : TzEnv := fun n t _ =>
  if n = some "Z" then (if t.month < 3 ∨ (t.month = 3 ∧ t.day < 29) then 3600 else 7200) else 0

/-- C80 fails in a timezone: the duration of the period is the time that passes, but the end is
found by adding it to the clock, so a copy made after choosing to write the duration ends an hour
later. -/
theorem C80_fails_zone : ∃ s e d c, (ofEnd s e).getDuration springZone = (some d, ⟨s, some e, some d, false⟩) ∧
    ((ofEnd s e).setUseDuration springZone true).duplicate = some c ∧
    ((ofEnd s e).setUseDuration springZone true).getEnd.1 = some e ∧
    ∃ e', c.getEnd.1 = some e' ∧ e'.posix springZone ≠ e.posix springZone :=
  ⟨{ year := 2024, month := 3, day := 28, hours := 22, tzid := some (.name "Z") },
    { year := 2024, month := 3, day := 29, hours := 4, tzid := some (.name "Z") },
    Duration.ofSeconds 18000, _, by decide +kernel, rfl, by decide +kernel, _, rfl, by decide +kernel⟩

/-- C80 fails for `adjustToUTC` in a timezone: the end it leaves depends on whether the end had been
asked for before. -/
theorem C80_fails_adjust : ∃ s d a b,
    ((ofDuration s d).adjustToUTC springZone).getEnd.1 = some a ∧
    ((ofDuration s d).getEnd.2.adjustToUTC springZone).getEnd.1 = some b ∧
    a.posix springZone ≠ b.posix springZone :=
  ⟨{ year := 2024, month := 3, day := 28, hours := 22, tzid := some (.name "Z") },
    Duration.ofSeconds 18000, _, _, rfl, rfl, by decide +kernel⟩

/-! ## Examples -/

example : (ofDuration { year := 2024, utc := true } (Duration.ofSeconds 5400)).generate =
    "20240101T000000Z/PT1H30M".toList := by decide +kernel

example : (ofEnd { year := 2024, utc := true } { year := 2024, day := 2 }).writeJSON =
    ("2024-01-01T00:00:00Z".toList, "2024-01-02T00:00:00".toList) := by decide +kernel

example : ReadAs true true { year := 2024, tzid := some (.fixed (-18000)) }
    { year := 2024, tzid := some (.fixed (-18000)) } :=
  ⟨by decide, by decide, by decide, by decide, .inr ⟨rfl, rfl, rfl, rfl, _, rfl, by decide, by decide⟩⟩

example : Made (ofDuration { year := 2024, utc := true } (Duration.ofSeconds 5400))
    { year := 2024, utc := true } (Duration.ofSeconds 5400) :=
  .inr ⟨rfl, Duration.unmixed_ofSeconds _⟩

end PeriodObj
end PyCal
