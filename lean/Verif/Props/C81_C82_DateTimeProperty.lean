import Verif.Model.DateTimeProperty
import Verif.Props.C44_C45_RuleText
import Verif.Props.C64_C68_Values
import Verif.Props.C79_C80_PeriodObject

/-!
# C81: properties keep the timezones of their date-times; C82: jCal keeps the type of a value
-/

namespace PyCal
open ValueType
open DateTime (TzEnv textForm Shown)

/-! ## The type of the value is found again -/

theorem program_tables {T : Tables} (hT : Program ical T) :
    T.byName = ical.byName ∧ T.nameOf = ical.nameOf :=
  (program_coherent ical_coherent hT).2

theorem determine_written {T : Tables} (hT : Program ical T) {name : String}
    (hs : T.special.lookup name = none) {t : VType} (ht : t ∈ [VType.date, .dateTime, .period]) :
    determine T name (writtenValue T name t) = t := by
  obtain ⟨hb, hn⟩ := program_tables hT
  have hv : ∃ v, ical.nameOf.lookup t = some v ∧ ical.byName.lookup v = some t := by
    simp only [List.mem_cons, List.not_mem_nil, or_false] at ht
    rcases ht with rfl | rfl | rfl
    · exact ⟨"DATE", by decide +kernel, by decide +kernel⟩
    · exact ⟨"DATE-TIME", by decide +kernel, by decide +kernel⟩
    · exact ⟨"PERIOD", by decide +kernel, by decide +kernel⟩
  have htext : t ≠ .text := by rintro rfl; revert ht; decide
  obtain ⟨v, h1, h2⟩ := hv
  rw [determine_of_none hs, writtenValue_plain hs, hn, h1]
  split
  · simp [htext, Tables.asked, hb, h2]
  · rename_i h
    simp only [not_or, ne_eq, not_not] at h
    simp [Tables.asked, h.2.1]

theorem determine_json {T : Tables} {name : String}
    (hs : T.special.lookup name = none) {v : String} {t : VType}
    (h : T.byName.lookup v.toUpper = some t) : determine T name (jsonValue T name v) = t := by
  rw [determine_of_none hs]
  unfold jsonValue
  rw [h]
  split
  · simpa [Tables.asked] using by assumption
  · simp [Tables.asked, h]

theorem json_dtType {T : Tables} (hT : Program ical T) (dts : List DateTime) :
    ∃ v, jsonName (dtType dts) = some (some v) ∧ T.byName.lookup v.toUpper = some (dtType dts) := by
  have h : dtType dts = .date ∨ dtType dts = .dateTime := by
    unfold dtType; split
    · split <;> simp
    · simp
  rw [(program_tables hT).1]
  rcases h with h | h <;> rw [h]
  · exact ⟨"date", rfl, by decide +kernel⟩
  · exact ⟨"date-time", rfl, by decide +kernel⟩

theorem dtType_mem (dts : List DateTime) : dtType dts = .date ∨ dtType dts = .dateTime := by
  unfold dtType; split
  · split <;> simp
  · simp

/-! ## Texts of lists -/

theorem splitOn_joinSep {c : Char} : ∀ {l : List (List Char)}, l ≠ [] → (∀ s ∈ l, c ∉ s) →
    splitOn c (joinSep c l) = l
  | [], h, _ => absurd rfl h
  | [a], _, h => splitOn_free (h a (by simp))
  | a :: b :: r, _, h => by
    rw [joinSep, splitOn_append (h a (by simp)),
      splitOn_joinSep (by simp) fun s hs => h s (by simp [hs])]

theorem textForm_comma (ext : Bool) (t : DateTime) : ',' ∉ textForm ext t := by
  have hp := fun w n => PeriodObj.padInt_not_mem w n (c := ',') (by decide) (by decide)
  have hz : ∀ sep : List Char, ',' ∉ sep → ',' ∉ DateTime.zoneText sep t := by
    intro sep hs
    unfold DateTime.zoneText
    split
    · decide
    · split
      · simp only [List.mem_append, List.mem_singleton, not_or]
        refine ⟨⟨⟨by split <;> decide, hp _ _⟩, hs⟩, hp _ _⟩
      · simp
  unfold textForm DateTime.getXMLText DateTime.getText DateTime.dateText DateTime.timeText
  cases ext
  · simp only [Bool.false_eq_true, if_false]
    split <;> simp [hp, hz]
  · simp only [if_true]
    split <;> simp [hp, hz]

theorem mapM_map_some {α β γ : Type} {f : β → Option γ} {g : α → β} {k : α → γ} :
    ∀ {l : List α}, (∀ a ∈ l, f (g a) = some (k a)) → (l.map g).mapM f = some (l.map k)
  | [], _ => rfl
  | a :: l, h => by
    rw [List.map_cons, List.mapM_cons, h a (by simp), mapM_map_some fun x hx => h x (by simp [hx])]
    rfl

/-! ## C81 -/

/-- A date-time that a property can hold: a real one in the years that have four digits, with or
without the name of a timezone; in particular neither a numeric offset, nor a date in UTC. -/
def Plain (t : DateTime) : Prop :=
  t.Valid ∧ 0 ≤ t.year ∧ t.year ≤ 9999 ∧ (t.dateOnly = true → t.utc = false) ∧
    ∀ n, t.tzid ≠ some (.fixed n)

/-- The date-time up to what has no meaning: a timezone name of a date, or of a date-time in UTC, and an
empty name. -/
def essence (t : DateTime) : DateTime :=
  { t with tzid := if !t.dateOnly && t.isLocal then t.tzid else none }

/-- The essence tells the same time. -/
theorem essence_posix (env : TzEnv) (t : DateTime) (hd : t.dateOnly = false)
    (he : t.tzid ≠ some (.name "")) (hf : ∀ n, t.tzid ≠ some (.fixed n)) :
    (essence t).posix env = t.posix env := by
  obtain ⟨y, m, d, h, mi, s, do_, u, tz⟩ := t
  simp only at hd he hf
  subst hd
  cases u
  · cases tz with
    | none => rfl
    | some z =>
      cases z with
      | fixed n => exact absurd rfl (hf n)
      | name z =>
        have : z ≠ "" := fun h => he (by rw [h])
        simp [essence, DateTime.isLocal, tzTruthy, this]
  · rfl

theorem plain_parse {t : DateTime} (h : Plain t) (ext sr : Bool) :
    DateTime.parseText sr (textForm ext t) ext = some { t with tzid := none } :=
  DateTime.C25_text_partial t h.1 ⟨h.2.1, h.2.2.1⟩ ⟨h.2.2.2.1, .inr (.inr h.2.2.2.2)⟩ ext ext sr id

/-- All have the timezone and the UTC and date flags of the first. -/
def Alike (dts : List DateTime) : Prop :=
  ∀ t ∈ dts, ∀ h ∈ dts.head?, t.dateOnly = h.dateOnly ∧ t.utc = h.utc ∧ t.tzid = h.tzid

theorem apply_alike {dts : List DateTime} (ha : Alike dts) :
    applyTzid (dtType dts) (dtTzid dts) (dts.map fun t => { t with tzid := none }) =
      dts.map essence := by
  cases dts with
  | nil => rfl
  | cons h dts =>
    have ha' : ∀ t ∈ h :: dts, t.dateOnly = h.dateOnly ∧ t.utc = h.utc ∧ t.tzid = h.tzid :=
      fun t ht => ha t ht h (by simp)
    by_cases hl : (!h.dateOnly && h.isLocal) = true
    · have hz : ∃ z, h.tzid = some z := by
        simp only [Bool.and_eq_true, DateTime.isLocal] at hl
        cases hh : h.tzid with
        | none => rw [hh] at hl; simp [tzTruthy] at hl
        | some z => exact ⟨z, rfl⟩
      obtain ⟨z, hz⟩ := hz
      have hd : h.dateOnly = false := by simp at hl; exact hl.1
      have hu : h.utc = false := by simp [DateTime.isLocal] at hl; exact hl.2.1
      have hl' : h.isLocal = true := by simp at hl; exact hl.2
      simp only [dtTzid, hl', Bool.not_false, Bool.and_true, if_true, dtType, hd, Bool.false_eq_true,
        if_false, applyTzid, hz, or_true]
      rw [List.map_map]
      refine List.map_congr_left fun t ht => ?_
      obtain ⟨t1, t2, t3⟩ := ha' t ht
      have : (!t.dateOnly && t.isLocal) = true := by
        rw [← hl]; simp only [DateTime.isLocal, t1, t2, t3]
      simp only [Function.comp_apply, essence, this, if_true, t3, hz]
      obtain ⟨y, m, d, hh, mi, s, do_, u, tz⟩ := t
      simp only at t2
      rw [t2, hu]
    · simp only [dtTzid, hl, applyTzid]
      refine List.map_congr_left fun t ht => ?_
      obtain ⟨t1, t2, t3⟩ := ha' t ht
      have : (!t.dateOnly && t.isLocal) = false := by
        have : (!t.dateOnly && t.isLocal) = (!h.dateOnly && h.isLocal) := by
          simp only [DateTime.isLocal, t1, t2, t3]
        rw [this]; simpa using hl
      simp [essence, this]

/-- C81: a date-time given to a property is read from the text of the property, with its timezone,
whatever the name of the property (except GEO and REQUEST-STATUS, whose values have another
form). -/
theorem C81_single {T : Tables} (hT : Program ical T) (name : String)
    (hs : T.special.lookup name = none) (sr : Bool) (t : DateTime) (h : Plain t) :
    readDates T sr name (writeDates T name [t]) = some [essence t] := by
  have ha : Alike [t] := by
    intro u hu v hv; simp at hu hv; subst hu; subst hv; exact ⟨rfl, rfl, rfl⟩
  unfold readDates writeDates
  rw [determine_written hT hs (by rcases dtType_mem [t] with h | h <;> rw [h] <;> simp)]
  simp only [dtType_mem, if_true]
  have he : (if name ∈ T.multi then splitOn ',' (joinSep ',' ([t].map DateTime.getText)) else
      [joinSep ',' ([t].map DateTime.getText)]) = [t].map (textForm false) := by
    split
    · rw [splitOn_joinSep (by simp)]
      · rfl
      · intro s hs; simp at hs; subst hs; exact textForm_comma false t
    · rfl
  rw [he, mapM_map_some (k := fun t => { t with tzid := none })]
  · rw [Option.map_some, apply_alike ha]; rfl
  · intro u hu; simp at hu; subst hu; exact plain_parse h false sr

/-- C81 (partial): the same for a list of date-times of one kind in a property that can have several
values (RDATE, EXDATE).  Missing: other lists (`C81_fails_mixed`, `C81_fails_list`). -/
theorem C81_list_partial {T : Tables} (hT : Program ical T) (name : String)
    (hs : T.special.lookup name = none) (hm : name ∈ T.multi) (sr : Bool) (dts : List DateTime)
    (h0 : dts ≠ []) (h : ∀ t ∈ dts, Plain t) (ha : Alike dts) :
    readDates T sr name (writeDates T name dts) = some (dts.map essence) := by
  unfold readDates writeDates
  rw [determine_written hT hs (by rcases dtType_mem dts with h | h <;> rw [h] <;> simp)]
  simp only [dtType_mem, if_true, hm]
  rw [splitOn_joinSep (by simpa using h0)]
  · show Option.map _ ((dts.map (textForm false)).mapM _) = _
    rw [mapM_map_some (k := fun t => { t with tzid := none })]
    · rw [Option.map_some, apply_alike ha]
    · exact fun u hu => plain_parse (h u hu) false sr
  · intro s hs
    obtain ⟨t, _, rfl⟩ := List.mem_map.mp hs
    exact textForm_comma false t

/-- C81 (partial): the same from jCal.  Missing: as for the text. -/
theorem C81_json_partial {T : Tables} (hT : Program ical T) (name : String)
    (hs : T.special.lookup name = none) (sr : Bool) (dts : List DateTime)
    (h0 : dts ≠ []) (hm : name ∈ T.multi ∨ dts.length = 1) (h : ∀ t ∈ dts, Plain t)
    (ha : Alike dts) :
    readDatesJSON T sr name (writeDatesJSON dts) = some (dts.map essence) := by
  obtain ⟨v, h1, h2⟩ := json_dtType hT dts
  unfold readDatesJSON writeDatesJSON
  simp only [h1, Option.getD_some, determine_json hs h2, dtType_mem, if_true]
  have hp : ∀ u ∈ dts, DateTime.parseText sr u.getXMLText true = some { u with tzid := none } :=
    fun u hu => plain_parse (h u hu) true sr
  by_cases hm' : name ∈ T.multi
  · simp only [hm', if_true]
    rw [mapM_map_some (k := fun t => { t with tzid := none }) hp, Option.map_some, apply_alike ha]
  · simp only [hm', if_false]
    obtain ⟨t, rfl⟩ : ∃ t, dts = [t] := by
      rcases hm with hm | hm
      · exact absurd hm hm'
      · exact List.length_eq_one_iff.mp hm
    simp only [List.map_cons, List.map_nil, hp t (by simp), Option.map_some]
    have := apply_alike ha
    simp only [List.map_cons, List.map_nil] at this
    rw [this]

/-- C81 (partial): periods in UTC, floating or with dates are read from the text.  Missing: periods in a
timezone, which is not written (`C81_fails_period`). -/
theorem C81_periods_partial {T : Tables} (hT : Program ical T) (name : String)
    (hs : T.special.lookup name = none) (hm : name ∈ T.multi) (sr strict : Bool)
    (ps : List (DateTime × DateTime)) (h0 : ps ≠ [])
    (h : ∀ p ∈ ps, Plain p.1 ∧ Plain p.2 ∧ p.1.tzid = none ∧ p.2.tzid = none) :
    readPeriods T sr strict name (writePeriods T name (ps.map fun p => .ofEnd p.1 p.2)) =
      some (ps.map fun p => .ofEnd p.1 p.2) := by
  unfold readPeriods writePeriods
  rw [determine_written hT hs (by simp)]
  simp only [if_true, hm]
  rw [splitOn_joinSep (by simpa using h0), List.map_map]
  · refine mapM_map_some fun p hp => ?_
    obtain ⟨h1, h2, h3, h4⟩ := h p hp
    have hr : ∀ t : DateTime, Plain t → t.tzid = none → PeriodObj.ReadAs false false t t := by
      intro t ht hz
      refine ⟨ht.1, ht.2.1, ht.2.2.1, by simp, .inl ⟨⟨ht.2.2.2.1, .inr (.inr ht.2.2.2.2)⟩, ?_⟩⟩
      obtain ⟨y, m, d, h, mi, s, do_, u, tz⟩ := t
      simp only at hz
      subst hz
      rfl
    have := PeriodObj.C79_end sr strict false _ _ _ _ (hr _ h1 h3) (hr _ h2 h4)
    simp only [Function.comp_apply, this]
  · intro s hs
    simp only [List.map_map, List.mem_map, Function.comp_apply] at hs
    obtain ⟨p, _, rfl⟩ := hs
    have e : (PeriodObj.ofEnd p.1 p.2).generate = textForm false p.1 ++ '/' :: textForm false p.2 := by
      simp [PeriodObj.generate, PeriodObj.ofEnd, PeriodObj.secondText, textForm]
    rw [e]
    simp [textForm_comma]

/-- 10 o'clock on a day of 2024. -/
def ten (day : Int) (utc : Bool := false) (tz : Option TzId := none) : DateTime :=
  { year := 2024, month := 6, day := day, hours := 10, utc := utc, tzid := tz }

/-- C81 fails for a list of different kinds: a date-time in UTC after one in a timezone is read in that
timezone; one in a timezone after one in UTC becomes floating. -/
theorem C81_fails_mixed : ∃ a b c, Plain a ∧ Plain b ∧
    readDates ical true "RDATE" (writeDates ical "RDATE" [a, b]) = some [a, c] ∧ b.utc = true ∧
      c.isLocal = true ∧
    ∃ d, readDates ical true "RDATE" (writeDates ical "RDATE" [b, a]) = some [b, d] ∧
      a.isLocal = true ∧ d.floating = true :=
  ⟨ten 1 false (some (.name "Z")), ten 2 true, ten 2 false (some (.name "Z")),
    ⟨by decide, by decide, by decide, by decide, by intro n; simp [ten]⟩,
    ⟨by decide, by decide, by decide, by decide, by intro n; simp [ten]⟩,
    by decide +kernel, by decide, by decide, ten 1, by decide +kernel, by decide, by decide⟩

/-- C81 fails for a list in a property with a single value: the text is written but not read, and from
jCal only the first value is read. -/
theorem C81_fails_list : ∃ a b, Plain a ∧ Plain b ∧
    readDates ical true "DTSTART" (writeDates ical "DTSTART" [a, b]) = none ∧
    readDatesJSON ical true "DTSTART" (writeDatesJSON [a, b]) = some [a] :=
  ⟨ten 1 true, ten 2 true,
    ⟨by decide, by decide, by decide, by decide, by intro n; simp [ten]⟩,
    ⟨by decide, by decide, by decide, by decide, by intro n; simp [ten]⟩,
    by decide +kernel, by decide +kernel⟩

/-- C81 fails for periods: the timezone is not written, and where another program has written it, it is
not read. -/
theorem C81_fails_period : ∃ p q, p.start.isLocal = true ∧ q.start.floating = true ∧
    readPeriods ical true true "RDATE" (writePeriods ical "RDATE" [p]) = some [q] ∧
    readPeriods ical true true "RDATE"
      ⟨some "PERIOD", some (.name "Z"), "20240601T100000/PT1H".toList⟩ = some [q] :=
  ⟨.ofDuration (ten 1 false (some (.name "Z"))) (Duration.ofSeconds 3600),
    .ofDuration (ten 1) (Duration.ofSeconds 3600), by decide, by decide, by decide +kernel,
    by decide +kernel⟩

/-- C81 fails for `setValue` on a property that already has a TZID parameter: the value that is set gets
that timezone, so that a date-time in UTC no longer is. -/
theorem C81_fails_setValue : ∃ t u, Plain t ∧ t.utc = true ∧
    setDates ical "DTSTART" none (some (.name "Z")) [t] = some [u] ∧ u.isLocal = true :=
  ⟨ten 1 true, ten 1 false (some (.name "Z")),
    ⟨by decide, by decide, by decide, by decide, by intro n; simp [ten]⟩, by decide, by decide +kernel,
    by decide⟩

/-- C81: without a TZID parameter `setValue` keeps the values, if the type of the property, by its VALUE parameter or
without one by its name, is DATE or DATE-TIME; if it is another one, no date-times can be set. -/
theorem C81_setValue {T : Tables} (name : String) (value : Option String) (dts : List DateTime) (t : VType)
    (ht : value = none ∧ T.defaultOf name = some t ∨ ∃ v, value = some v ∧ T.byName.lookup v = some t) :
    ((t = .date ∨ t = .dateTime) → setDates T name value none dts = some dts) ∧
    (¬ (t = .date ∨ t = .dateTime) → setDates T name value none dts = none) := by
  have h : setType T name value = t := by
    rcases ht with ⟨rfl, h⟩ | ⟨v, rfl, h⟩ <;> simp [setType, Tables.asked, h]
  unfold setDates
  rw [h]
  exact ⟨fun h => by simp [h, applyTzid], fun h => by simp [h]⟩

/-! Examples. -/

example : writeDates ical "DTSTART" [ten 1 false (some (.name "Z"))] =
    ⟨none, some (.name "Z"), "20240601T100000".toList⟩ := by decide +kernel

example : ical.defaultOf "DTSTART" = some .dateTime ∧ ical.byName.lookup "DATE" = some .date ∧
    ical.byName.lookup "PERIOD" = some .period := by decide +kernel

example : writeDates ical "TRIGGER" [ten 1 true] =
    ⟨some "DATE-TIME", none, "20240601T100000Z".toList⟩ := by decide +kernel

example : Alike [ten 1 true, ten 2 true] ∧ "RDATE" ∈ ical.multi ∧ ical.special.lookup "RDATE" = none := by
  refine ⟨?_, by decide, by decide +kernel⟩
  intro t ht h hh
  simp at ht hh
  subst hh
  rcases ht with rfl | rfl <;> exact ⟨rfl, rfl, rfl⟩

/-! ## C82 -/

/-- The type of the value read from the jCal form of a value of type `t`; `none` if writing or reading
raises. -/
def throughJSON (S : Tables) (name : String) (t : VType) (isDate : Bool) : Option VType :=
  (jsonName t).bind fun v => readTypeJSON S name v isDate

/-- The types that jCal never keeps: those the library has no class for, and the structured values of
vCards, which are written without a type. -/
def lost : List VType := [.boolean, .time, .vcard, .adr, .n, .org]

theorem throughJSON_lost {S : Tables} {name : String} {t : VType} (h : t ∈ lost) (b : Bool) :
    throughJSON S name t b = none := by
  simp only [lost, List.mem_cons, List.not_mem_nil, or_false] at h
  rcases h with rfl | rfl | rfl | rfl | rfl | rfl <;> rfl

theorem json_kept {T : Tables} {name v : String} {t : VType} {b : Bool}
    (hv : jsonName t = some (some v)) (hk : T.byName.lookup v.toUpper = some t)
    (hs : (T.special.lookup name).isSome → t ≠ (T.defaultOf name).getD .unknown)
    (hi : valueType T name b t = t) : throughJSON T name t b = some t := by
  simp only [throughJSON, hv, Option.bind_some, readTypeJSON, Option.map_some, Option.some.injEq]
  cases hsp : T.special.lookup name with
  | none => rw [determine_json hsp hk]; exact hi
  | some s =>
    have hne := hs (by simp [hsp])
    rw [determine_of_some hsp]
    simp only [jsonValue, hk, Option.getD_some, Ne.symm hne, if_false, Tables.asked, hne]
    exact hi

/-- A name that is not in the table has no effect. -/
theorem json_unknown {T : Tables} {name v : String} {t : VType} {b : Bool}
    (hv : jsonName t = some (some v)) (hk : T.byName.lookup v.toUpper = none) :
    throughJSON T name t b = some (readType T name none b) := by
  simp only [throughJSON, hv, Option.bind_some, readTypeJSON, Option.map_some, Option.some.injEq,
    readType]
  congr 1
  unfold jsonValue
  rw [hk]
  split
  · rfl
  · simp only [determine, Tables.asked, hk, Option.getD_none]

/-- Where the type of a value comes from: the property, or the VALUE parameter. -/
theorem readType_source (T : Tables) (name : String) (value : Option String) (b : Bool) :
    readType T name value b = readType T name none b ∨
    ∃ w x, T.byName.lookup w = some x ∧ readType T name value b = valueType T name b x ∧
      ((T.special.lookup name).isSome → x ≠ (T.defaultOf name).getD .unknown) := by
  cases value with
  | none => exact .inl rfl
  | some w =>
    cases hw : T.byName.lookup w with
    | none =>
      left
      simp only [readType, determine, Tables.asked, hw, Option.getD_none]
    | some x =>
      cases hsp : T.special.lookup name with
      | none =>
        right
        exact ⟨w, x, hw, by simp [readType, determine, hsp, Tables.asked, hw], by simp⟩
      | some s =>
        by_cases hx : x = (T.defaultOf name).getD .unknown
        · left
          simp only [readType, determine, hsp, Tables.asked, hw, Option.getD_some, hx]
        · right
          refine ⟨w, x, hw, ?_, fun _ => hx⟩
          simp only [readType, determine, hsp, Tables.asked, hw, Option.getD_some, hx, if_false]

theorem program_same {S T : Tables} (hT : Program S T) :
    T.special = S.special ∧ T.multi = S.multi ∧
      ∀ n d, S.defaultOf n = some d → T.defaultOf n = some d := by
  induction hT with
  | base => exact ⟨rfl, rfl, fun _ _ h => h⟩
  | @register T name t al ht _ ih =>
    refine ⟨ih.1, ih.2.1, fun n d h => ?_⟩
    rcases register_default T name t al n with h1 | ⟨_, h2, _⟩
    · rw [h1]; exact ih.2.2 n d h
    · rw [ih.2.2 n d h] at h2; cases h2

theorem ical_found : ∀ t : VType, t ∉ lost → t ≠ .unknown → t ≠ .geo → t ≠ .requestStatus →
    ∃ v, jsonName t = some (some v) ∧ ical.byName.lookup v.toUpper = some t := by
  have : ∀ t : VType, t ∉ lost → t ≠ .unknown → t ≠ .geo → t ≠ .requestStatus →
      ((jsonName t).bind id).bind (fun v => ical.byName.lookup v.toUpper) = some t := by
    intro t
    cases t <;> decide +kernel
  intro t h1 h2 h3 h4
  have := this t h1 h2 h3 h4
  cases hj : jsonName t with
  | none => rw [hj] at this; cases this
  | some o =>
    cases o with
    | none => rw [hj] at this; cases this
    | some v => rw [hj] at this; exact ⟨v, rfl, this⟩

theorem madeType_default (b : Bool) (x : VType) {d : VType} (hd : d = .float ∨ d = .text)
    (hx : x ≠ d) : madeType b x ≠ d := by
  rcases hd with rfl | rfl <;> cases b <;> cases x <;> first | decide | exact absurd rfl hx

theorem ical_special {T : Tables} (hT : Program ical T) {name : String} {s : VType}
    (h : T.special.lookup name = some s) :
    name ∉ T.multi ∧ ((s = .geo ∧ T.defaultOf name = some .float) ∨
      (s = .requestStatus ∧ T.defaultOf name = some .text)) := by
  obtain ⟨h1, h2, h3⟩ := program_same hT
  rw [h1] at h
  have hm := lookup_mem h
  have : name = "GEO" ∧ s = .geo ∨ name = "REQUEST-STATUS" ∧ s = .requestStatus := by
    simpa [ical] using hm
  rw [h2]
  rcases this with ⟨rfl, rfl⟩ | ⟨rfl, rfl⟩
  · exact ⟨by decide, .inl ⟨rfl, h3 _ _ (by decide +kernel)⟩⟩
  · exact ⟨by decide, .inr ⟨rfl, h3 _ _ (by decide +kernel)⟩⟩

/-- C82, where it holds in iCalendar: the type of the value of a property is the same after writing and
reading jCal, exactly if the library has a class for the type that the property asks for.  Missing: the
types BOOLEAN and TIME. -/
theorem C82_ical_partial {T : Tables} (hT : Program ical T) (name : String) (value : Option String)
    (b : Bool) :
    throughJSON T name (readType T name value b) b = some (readType T name value b) ↔
      readType T name value b ∉ lost ∧
      (readType T name value b = .unknown → readType T name none b = .unknown) := by
  have hsrc := readType_source T name value b
  generalize ht : readType T name value b = t at *
  have hi : valueType T name b t = t := by rw [← ht]; exact valueType_idem _ _ _ _
  by_cases hl : t ∈ lost
  · rw [throughJSON_lost hl]; simp [hl]
  by_cases hu : t = .unknown
  · subst hu
    have : T.byName.lookup "unknown".toUpper = none := by
      rw [(program_tables hT).1]; decide +kernel
    rw [json_unknown (v := "unknown") rfl this]
    simp [hl, eq_comm]
  simp only [hl, not_false_eq_true, hu, false_imp_iff, and_self, iff_true]
  have hnam : ∀ n d, T.defaultOf n = some d → Nameable T d :=
    (program_coherent ical_coherent hT).1.default
  have hbad : ¬ Nameable T .geo ∧ ¬ Nameable T .requestStatus := by
    unfold Nameable
    rw [(program_tables hT).1, (program_tables hT).2]
    refine ⟨fun h => ?_, fun h => ?_⟩
    · have := h "FLOAT" (by decide +kernel); revert this; decide +kernel
    · have := h "TEXT" (by decide +kernel); revert this; decide +kernel
  have hval : ∀ w x, T.byName.lookup w = some x → x ≠ .geo ∧ x ≠ .requestStatus := by
    intro w x h
    have := ((program_coherent ical_coherent hT).1.named w x h).1
    exact ⟨fun hx => hbad.1 (hx ▸ this), fun hx => hbad.2 (hx ▸ this)⟩
  have hvt : ∀ x : VType, x ≠ .geo ∧ x ≠ .requestStatus → valueType T name b x ≠ .geo ∧
      valueType T name b x ≠ .requestStatus := by
    intro x hx
    unfold valueType
    split
    · exact hx
    · cases b <;> cases x <;> first | decide | exact absurd rfl hx.1 | exact absurd rfl hx.2
  cases hsp : T.special.lookup name with
  | none =>
    have hne : t ≠ .geo ∧ t ≠ .requestStatus := by
      rcases hsrc with h | ⟨w, x, h1, h2, _⟩
      · rw [h, readType, determine_of_none hsp]
        apply hvt
        simp only [Tables.asked]
        cases hd : T.defaultOf name with
        | none => simp
        | some d =>
          exact ⟨fun hx => hbad.1 (hx ▸ hnam _ _ hd), fun hx => hbad.2 (hx ▸ hnam _ _ hd)⟩
      · rw [h2]; exact hvt _ (hval w x h1)
    obtain ⟨v, h1, h2⟩ := ical_found t hl hu hne.1 hne.2
    exact json_kept h1 (by rw [(program_tables hT).1]; exact h2) (by simp [hsp]) hi
  | some s =>
    obtain ⟨hm, hs⟩ := ical_special hT hsp
    rcases hsrc with h | ⟨w, x, h1, h2, h3⟩
    · have hr : readType T name none b = s := by
        rw [readType, determine_of_some hsp]
        simp only [Tables.asked, if_true, valueType, hm, if_false]
        rcases hs with ⟨rfl, _⟩ | ⟨rfl, _⟩ <;> cases b <;> rfl
      rw [hr] at h
      subst h
      rcases hs with ⟨rfl, hd⟩ | ⟨rfl, hd⟩
      · have hk : T.byName.lookup "float".toUpper = some .float := by
          rw [(program_tables hT).1]; decide +kernel
        show some (valueType T name b (determine T name (jsonValue T name "float"))) = _
        have : jsonValue T name "float" = none := by simp [jsonValue, hd, hk]
        rw [this]; exact congrArg some hr
      · have hk : T.byName.lookup "text".toUpper = some .text := by
          rw [(program_tables hT).1]; decide +kernel
        show some (valueType T name b (determine T name (jsonValue T name "text"))) = _
        have : jsonValue T name "text" = none := by simp [jsonValue, hd, hk]
        rw [this]; exact congrArg some hr
    · have h3 := h3 (by simp [hsp])
      have hne : t ≠ .geo ∧ t ≠ .requestStatus := by rw [h2]; exact hvt _ (hval w x h1)
      obtain ⟨v, g1, g2⟩ := ical_found t hl hu hne.1 hne.2
      refine json_kept g1 (by rw [(program_tables hT).1]; exact g2) (fun _ => ?_) hi
      rw [h2, valueType, if_neg hm]
      rcases hs with ⟨_, hd⟩ | ⟨_, hd⟩ <;> rw [hd] at h3 ⊢
      · exact madeType_default b x (.inl rfl) h3
      · exact madeType_default b x (.inr rfl) h3

/-- The types that can be asked for or defaulted to in vCards. -/
theorem vcard_types : (∀ w x, vcard.byName.lookup w = some x → x ≠ .geo ∧ x ≠ .requestStatus ∧
      x ∉ [VType.period, .recur, .duration, .calAddress]) ∧
    ∀ n x, vcard.defaultOf n = some x → x ≠ .geo ∧ x ≠ .requestStatus ∧
      x ∉ [VType.period, .recur, .duration, .calAddress] := by
  have h1 : ∀ p ∈ vcard.byName, p.2 ≠ .geo ∧ p.2 ≠ .requestStatus ∧
      p.2 ∉ [VType.period, .recur, .duration, .calAddress] := by decide +kernel
  have h2 : ∀ p ∈ vcard.default, p.2 ≠ .geo ∧ p.2 ≠ .requestStatus ∧
      p.2 ∉ [VType.period, .recur, .duration, .calAddress] := by decide +kernel
  exact ⟨fun w x h => h1 _ (lookup_mem h), fun n x h => h2 _ (lookup_mem h)⟩

theorem vcard_found : ∀ t : VType, t ∉ lost → t ≠ .unknown → t ≠ .utcOffset →
    (t ≠ .geo ∧ t ≠ .requestStatus ∧ t ∉ [VType.period, .recur, .duration, .calAddress]) →
    ∃ v, jsonName t = some (some v) ∧ vcard.byName.lookup v.toUpper = some t := by
  have : ∀ t : VType, t ∉ lost → t ≠ .unknown → t ≠ .utcOffset →
      (t ≠ .geo ∧ t ≠ .requestStatus ∧ t ∉ [VType.period, .recur, .duration, .calAddress]) →
      ((jsonName t).bind id).bind (fun v => vcard.byName.lookup v.toUpper) = some t := by
    intro t
    cases t <;> decide +kernel
  intro t h1 h2 h3 h4
  have := this t h1 h2 h3 h4
  cases hj : jsonName t with
  | none => rw [hj] at this; cases this
  | some o =>
    cases o with
    | none => rw [hj] at this; cases this
    | some v => rw [hj] at this; exact ⟨v, rfl, this⟩

/-- C82, where it holds in vCards: the type is the same after writing and reading jCal, exactly if the
library has a class for it, it is not a structured one, and it is not an offset from UTC that only the
VALUE parameter tells.  Missing: those. -/
theorem C82_vcard_partial (name : String) (value : Option String) (b : Bool) :
    throughJSON vcard name (readType vcard name value b) b = some (readType vcard name value b) ↔
      readType vcard name value b ∉ lost ∧
      (readType vcard name value b = .unknown ∨ readType vcard name value b = .utcOffset →
        readType vcard name none b = readType vcard name value b) := by
  have hsrc := readType_source vcard name value b
  generalize ht : readType vcard name value b = t at *
  have hi : valueType vcard name b t = t := by rw [← ht]; exact valueType_idem _ _ _ _
  by_cases hl : t ∈ lost
  · rw [throughJSON_lost hl]; simp [hl]
  by_cases hu : t = .unknown ∨ t = .utcOffset
  · have hj : throughJSON vcard name t b = some (readType vcard name none b) := by
      rcases hu with rfl | rfl
      · exact json_unknown (v := "unknown") rfl (by decide +kernel)
      · exact json_unknown (v := "utc-offset") rfl (by decide +kernel)
    rw [hj]
    simp [hl, hu]
  simp only [hl, not_false_eq_true, hu, false_imp_iff, and_self, iff_true]
  simp only [not_or] at hu
  have hvt : ∀ x : VType, (x ≠ .geo ∧ x ≠ .requestStatus ∧
      x ∉ [VType.period, .recur, .duration, .calAddress]) → (valueType vcard name b x ≠ .geo ∧
      valueType vcard name b x ≠ .requestStatus ∧
      valueType vcard name b x ∉ [VType.period, .recur, .duration, .calAddress]) := by
    intro x hx
    unfold valueType
    split
    · exact hx
    · revert hx
      cases b <;> cases x <;> decide
  cases hsp : vcard.special.lookup name with
  | none =>
    have hne : t ≠ .geo ∧ t ≠ .requestStatus ∧
        t ∉ [VType.period, .recur, .duration, .calAddress] := by
      rcases hsrc with h | ⟨w, x, h1, h2, _⟩
      · rw [h, readType, determine_of_none hsp]
        apply hvt
        simp only [Tables.asked]
        cases hd : vcard.defaultOf name with
        | none => simp
        | some d => exact vcard_types.2 _ _ hd
      · rw [h2]; exact hvt _ (vcard_types.1 w x h1)
    obtain ⟨v, h1, h2⟩ := vcard_found t hl hu.1 hu.2 hne
    exact json_kept h1 h2 (by simp [hsp]) hi
  | some s =>
    have hm : name = "ADR" ∧ s = .adr ∨ name = "GEO" ∧ s = .geo ∨ name = "N" ∧ s = .n ∨
        name = "ORG" ∧ s = .org := by simpa [vcard] using lookup_mem hsp
    have hd : name ∉ vcard.multi ∧
        (vcard.defaultOf name = some .float ∨ vcard.defaultOf name = some .text) := by
      rcases hm with ⟨rfl, _⟩ | ⟨rfl, _⟩ | ⟨rfl, _⟩ | ⟨rfl, _⟩ <;> decide +kernel
    rcases hsrc with h | ⟨w, x, h1, h2, h3⟩
    · rcases hm with ⟨rfl, rfl⟩ | ⟨rfl, rfl⟩ | ⟨rfl, rfl⟩ | ⟨rfl, rfl⟩
      · exact absurd (h ▸ (by cases b <;> decide +kernel)) hl
      · have hr : readType vcard "GEO" none b = .geo := by cases b <;> decide +kernel
        rw [h, hr]
        cases b <;> decide +kernel
      · exact absurd (h ▸ (by cases b <;> decide +kernel)) hl
      · exact absurd (h ▸ (by cases b <;> decide +kernel)) hl
    · have h3 := h3 (by simp [hsp])
      obtain ⟨v, g1, g2⟩ := vcard_found t hl hu.1 hu.2
        (by rw [h2]; exact hvt _ (vcard_types.1 w x h1))
      refine json_kept g1 g2 (fun _ => ?_) hi
      rw [h2, valueType, if_neg hd.1]
      rcases hd.2 with hd | hd <;> rw [hd] at h3 ⊢
      · exact madeType_default b x (.inl rfl) h3
      · exact madeType_default b x (.inr rfl) h3

/-- C82 is false: `DTSTART;VALUE=TIME` comes back as a date and time. -/
theorem C82_fails_class : readType ical "DTSTART" (some "TIME") false = .unknown ∧
    throughJSON ical "DTSTART" .unknown false = some .dateTime := by
  constructor <;> decide +kernel

/-- C82 is false in vCards: names, addresses and organizations are written with null for a type, which is
not read; `X-FOO;VALUE=UTCOFFSET` comes back without a type. -/
theorem C82_fails_vcard :
    (readType vcard "N" none false = .n ∧ throughJSON vcard "N" .n false = none) ∧
    (readType vcard "ADR" none false = .adr ∧ throughJSON vcard "ADR" .adr false = none) ∧
    (readType vcard "ORG" none false = .org ∧ throughJSON vcard "ORG" .org false = none) ∧
    (readType vcard "X-FOO" (some "UTCOFFSET") false = .utcOffset ∧
      throughJSON vcard "X-FOO" .utcOffset false = some .unknown) := by
  refine ⟨⟨?_, ?_⟩, ⟨?_, ?_⟩, ⟨?_, ?_⟩, ?_, ?_⟩ <;> decide +kernel

/-- Examples: `X-FOO;VALUE=TEXT` and `GEO;VALUE=TEXT`, which are not kept by the text form (C64). -/
example : throughJSON ical "X-FOO" (readType ical "X-FOO" (some "TEXT") false) false = some .text ∧
    throughJSON ical "GEO" (readType ical "GEO" (some "TEXT") false) false = some .text ∧
    throughJSON ical "GEO" (readType ical "GEO" none false) false = some .geo := by
  refine ⟨?_, ?_, ?_⟩ <;> decide +kernel

end PyCal
