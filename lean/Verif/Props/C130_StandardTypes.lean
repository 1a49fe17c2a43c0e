import Verif.Spec.ValueTypes
import Verif.Props.C64_C68_Values

/-!
# C130: properties are read as the types that the standards give them
-/

namespace PyCal
open ValueType Spec

/-- What a program registers leaves what there is. -/
theorem program_keeps {S T : Tables} (hT : Program S T) :
    T.byName = S.byName ∧ T.special = S.special ∧ T.multi = S.multi ∧
      ∀ n d, S.defaultOf n = some d → T.defaultOf n = some d := by
  induction hT with
  | base => exact ⟨rfl, rfl, rfl, fun _ _ h => h⟩
  | @register T name t al _ _ ih =>
    refine ⟨ih.1, ih.2.1, ih.2.2.1, fun n d h => ?_⟩
    have h' := ih.2.2.2 n d h
    rcases register_default T name t al n with e | ⟨_, e, _⟩
    · rw [e]; exact h'
    · rw [e] at h'; cases h'

theorem readType_keeps {S T : Tables} (hT : Program S T) {name : String} (hd : (S.defaultOf name).isSome)
    (v : Option String) (isDate : Bool) : readType T name v isDate = readType S name v isDate := by
  obtain ⟨h1, h2, h3, h4⟩ := program_keeps hT
  obtain ⟨d, hd⟩ := Option.isSome_iff_exists.1 hd
  simp only [readType, valueType, determine, Tables.asked, h1, h2, h3, hd, h4 name d hd]

/-- The check of a table against a standard. -/
def agrees (S : Tables) (p : Typed) : Bool :=
  (S.defaultOf p.name).isSome && decide (p.name ∈ S.multi ↔ p.list = true) &&
    p.options.all fun o => [true, false].all fun b =>
      !((o.2 != .date || b) && (o.2 != .dateTime || !b)) || readType S p.name o.1 b == o.2

theorem agrees_spec {S : Tables} {p : Typed} (h : agrees S p = true) :
    (S.defaultOf p.name).isSome ∧ (p.name ∈ S.multi ↔ p.list = true) ∧
      ∀ o ∈ p.options, ∀ b, Fits b o.2 → readType S p.name o.1 b = o.2 := by
  simp only [agrees, Bool.and_eq_true, decide_eq_true_eq, List.all_eq_true] at h
  refine ⟨h.1.1, h.1.2, fun o ho b hb => ?_⟩
  have := h.2 o ho b (by cases b <;> simp)
  obtain ⟨hb1, hb2⟩ := hb
  simp only [Bool.or_eq_true, Bool.not_eq_true', beq_iff_eq] at this
  rcases this with h' | h'
  · exfalso
    cases b <;> simp_all
  · exact h'

theorem ical_agrees : ∀ p ∈ rfc5545Types, agrees ical p = true := by decide +kernel

theorem vcard_agrees : ∀ p ∈ rfc2426Types, p.name ≠ "AGENT" → agrees vcard p = true := by decide +kernel

/-- C130 (partial), iCalendar: a property of RFC 5545 that is read without VALUE, or with a VALUE that the RFC allows it,
gets a value of the type that the RFC gives, and a list of values exactly if the RFC allows one, whatever a program
registers.

Missing: VALUE parameters not in capitals, `C130_fails_case`, and the properties that the RFC does not name, whose values
are texts, `C130_fails_other`. -/
theorem C130_ical_partial {T : Tables} (hT : Program ical T) (p : Typed) (hp : p ∈ rfc5545Types) :
    (∀ o ∈ p.options, ∀ isDate, Fits isDate o.2 → readType T p.name o.1 isDate = o.2) ∧
      (p.name ∈ T.multi ↔ p.list = true) := by
  obtain ⟨h1, h2, h3⟩ := agrees_spec (ical_agrees p hp)
  refine ⟨fun o ho b hb => ?_, ?_⟩
  · rw [readType_keeps hT h1]; exact h3 o ho b hb
  · rw [(program_keeps hT).2.2.1]; exact h2

/-- C130 (partial), vCard: the same for the properties of RFC 2426 other than AGENT.

Missing: as before, and the card in an AGENT property, `C130_fails_agent`. -/
theorem C130_vcard_partial {T : Tables} (hT : Program vcard T) (p : Typed) (hp : p ∈ rfc2426Types)
    (ha : p.name ≠ "AGENT") :
    (∀ o ∈ p.options, ∀ isDate, Fits isDate o.2 → readType T p.name o.1 isDate = o.2) ∧
      (p.name ∈ T.multi ↔ p.list = true) := by
  obtain ⟨h1, h2, h3⟩ := agrees_spec (vcard_agrees p hp ha)
  refine ⟨fun o ho b hb => ?_, ?_⟩
  · rw [readType_keeps hT h1]; exact h3 o ho b hb
  · rw [(program_keeps hT).2.2.1]; exact h2

theorem written_keeps {S T : Tables} (hS : Coherent S) (hT : Program S T) {name : String} (hd : (S.defaultOf name).isSome) (t : VType) :
    writtenValue T name t = writtenValue { S with always := if name ∈ T.always then [name] else [] } name t := by
  obtain ⟨h1, h2, h3, h4⟩ := program_keeps hT
  have h5 := (program_coherent hS hT).2.2
  obtain ⟨d, hd⟩ := Option.isSome_iff_exists.1 hd
  have hd' : ({ S with always := if name ∈ T.always then [name] else [] } : Tables).defaultOf name = some d := hd
  have ha : name ∈ (if name ∈ T.always then [name] else []) ↔ name ∈ T.always := by split <;> simp_all
  simp only [writtenValue, h2, h4 name d hd, h5, hd', ha]

/-- The check of what is written against a standard. -/
def agreesWritten (S : Tables) (p : Typed) : Bool :=
  p.options.all fun o => writtenValue { S with always := [] } p.name o.2 == (if o.2 = p.type then none else o.1) &&
    (o.1.isNone || o == (some "UTC-OFFSET", .utcOffset) && p.name == "TZ" ||
      writtenValue { S with always := [p.name] } p.name o.2 == o.1)

theorem ical_agreesWritten : ∀ p ∈ rfc5545Types, agreesWritten ical p = true := by decide +kernel

theorem vcard_agreesWritten : ∀ p ∈ rfc2426Types, p.name ≠ "AGENT" → agreesWritten vcard p = true := by decide +kernel

theorem agreesWritten_spec {S T : Tables} (hS : Coherent S) (hT : Program S T) {p : Typed} (hd : (S.defaultOf p.name).isSome)
    (h : agreesWritten S p = true) {o : Option String × VType} (ho : o ∈ p.options) :
    (p.name ∉ T.always → writtenValue T p.name o.2 = if o.2 = p.type then none else o.1) ∧
      (p.name ∈ T.always → o.1 ≠ none → ¬ (o = (some "UTC-OFFSET", .utcOffset) ∧ p.name = "TZ") →
        writtenValue T p.name o.2 = o.1) := by
  simp only [agreesWritten, List.all_eq_true, Bool.and_eq_true, Bool.or_eq_true, beq_iff_eq] at h
  obtain ⟨h1, h2⟩ := h o ho
  rw [written_keeps hS hT hd]
  refine ⟨fun ha => by rw [if_neg ha, h1], fun ha hn hz => ?_⟩
  rw [if_pos ha]
  rcases h2 with (h2 | h2) | h2
  · exact absurd (Option.isNone_iff_eq_none.1 h2) hn
  · exact absurd h2 hz
  · exact h2

/-- C130, what is written of iCalendar: a property of RFC 5545 with a value of the type that the RFC gives is written without VALUE,
and with the VALUE that the RFC names for a value of another type that it allows; always with VALUE if a program has asked for it. -/
theorem C130_ical_written {T : Tables} (hT : Program ical T) (p : Typed) (hp : p ∈ rfc5545Types) (o : Option String × VType)
    (ho : o ∈ p.options) :
    (p.name ∉ T.always → writtenValue T p.name o.2 = if o.2 = p.type then none else o.1) ∧
      (p.name ∈ T.always → o.1 ≠ none → writtenValue T p.name o.2 = o.1) := by
  have h := agreesWritten_spec ical_coherent hT (agrees_spec (ical_agrees p hp)).1 (ical_agreesWritten p hp) ho
  have hz : ∀ p ∈ rfc5545Types, p.name ≠ "TZ" := by decide +kernel
  exact ⟨h.1, fun ha hn => h.2 ha hn fun h => hz p hp h.2⟩

/-- C130 (partial), what is written of vCard: the same for the properties of RFC 2426 other than AGENT.

Missing: AGENT, and the offset in TZ if a program has asked for VALUE, `C130_fails_offset`. -/
theorem C130_vcard_written_partial {T : Tables} (hT : Program vcard T) (p : Typed) (hp : p ∈ rfc2426Types) (ha : p.name ≠ "AGENT")
    (o : Option String × VType) (ho : o ∈ p.options) :
    (p.name ∉ T.always → writtenValue T p.name o.2 = if o.2 = p.type then none else o.1) ∧
      (p.name ∈ T.always → o.1 ≠ none → ¬ (o = (some "UTC-OFFSET", .utcOffset) ∧ p.name = "TZ") →
        writtenValue T p.name o.2 = o.1) :=
  agreesWritten_spec vcard_coherent hT (agrees_spec (vcard_agrees p hp ha)).1 (vcard_agreesWritten p hp ha) ho

/-- C130 fails: in cards the type of offsets has a name that the RFC does not know, and the name in the RFC is not known. -/
theorem C130_fails_offset {T : Tables} (hT : Program vcard T) (ha : "TZ" ∈ T.always) :
    writtenValue T "TZ" .utcOffset = some "UTCOFFSET" ∧ T.byName.lookup "UTC-OFFSET" = none := by
  rw [written_keeps vcard_coherent hT (by decide +kernel), if_pos ha, (program_keeps hT).1]
  decide +kernel

/-- C130: a program that registers a type for a property that has none gets values of that type when there is no VALUE;
if it registers several, the first counts. -/
theorem C130_registered {S T : Tables} (hS : S = ical ∨ S = vcard) (hT : Program S T) (name : String) (t : VType)
    (always : Bool) (hn : T.defaultOf name = none) (ht : registered t = true) (isDate : Bool) (hf : Fits isDate t)
    {U : Tables} (hU : Program (T.register name t always) U) : readType U name none isDate = t := by
  have hd : (T.register name t always).defaultOf name = some t := by
    rcases register_default T name t always name with e | ⟨_, _, e⟩
    · have hl : ∀ l : List (String × VType), l.lookup name = none → name ∉ l.map (·.1) := by
        intro l
        induction l with
        | nil => simp
        | cons x l ih =>
          obtain ⟨a, b⟩ := x
          rw [List.lookup_cons]
          intro h
          split at h
          · cases h
          · rename_i hne
            simp only [List.map_cons, List.mem_cons, not_or]
            exact ⟨by simpa using hne, ih h⟩
      have hm := hl _ hn
      unfold Tables.defaultOf at e hn ⊢
      simp only [Tables.register, if_neg hm] at e ⊢
      rw [lookup_append_single, hn]
      simp
    · exact e
  have hs : T.special.lookup name = none := by
    cases h : T.special.lookup name with
    | none => rfl
    | some s =>
      have := (program_cases hS hT).special name s h
      rw [hn] at this
      simp at this
  rw [readType_keeps hU (by rw [hd]; rfl)]
  have hs' : (T.register name t always).special.lookup name = none := hs
  have hdet : determine (T.register name t always) name none = t := by
    rw [determine_of_none hs', hd]; rfl
  unfold readType valueType
  rw [hdet]
  split
  · rfl
  · obtain ⟨f1, f2⟩ := hf
    unfold madeType
    rw [if_pos ht]
    by_cases h : t = .date ∨ t = .dateTime
    · rw [if_pos h]
      rcases h with rfl | rfl
      · simp [f1 rfl]
      · simp [f2 rfl]
    · rw [if_neg h]

/-- C130 fails: a VALUE that is not exactly one of the names in the table, such as one in small letters, is as if it were
not there.  So an alarm at a time, `TRIGGER;VALUE=date-time`, is read as one after a time, and the address of a picture,
`PHOTO;VALUE=uri` (as the examples in RFC 2426 have it), as the picture, which is then written without VALUE. -/
theorem C130_fails_case :
    (∀ (T : Tables) (name v : String) (isDate : Bool), T.byName.lookup v = none →
      readType T name (some v) isDate = readType T name none isDate) ∧
    readType ical "TRIGGER" (some "date-time") false = .duration ∧
    readType vcard "PHOTO" (some "uri") false = .binary ∧
    writtenValue vcard "PHOTO" (readType vcard "PHOTO" (some "uri") false) = none := by
  refine ⟨fun T name v b h => ?_, ?_, ?_, ?_⟩
  · simp only [readType, determine, Tables.asked, h, Option.getD_none]
  all_goals decide +kernel

/-- C130 fails: a property that is in no table, as BUSYTYPE of the availability components, and for which no program has
registered a type, has no text but a value of unknown type, in which nothing is decoded. -/
theorem C130_fails_other :
    (∀ {S T : Tables}, (S = ical ∨ S = vcard) → Program S T → ∀ (name : String) (isDate : Bool),
      T.defaultOf name = none → readType T name none isDate = .unknown) ∧
    ical.defaultOf "BUSYTYPE" = none ∧
    ∃ s : List Char, readString .ignore .ignore (readType ical "X-NOTE" none false) s ≠
      readString .ignore .ignore .text s := by
  refine ⟨fun hS hT name b hn => ?_, by decide +kernel, "a\\, b".toList, by decide +kernel⟩
  rename_i S T
  have hs : T.special.lookup name = none := by
    cases h : T.special.lookup name with
    | none => rfl
    | some s =>
      have := (program_cases hS hT).special name s h
      rw [hn] at this
      simp at this
  unfold readType
  rw [determine_of_none hs, hn]
  simp only [Tables.asked, Option.getD_none, valueType_unknown]

/-- C130 fails: no card is made of the value of AGENT. -/
theorem C130_fails_agent {T : Tables} (hT : Program vcard T) (isDate : Bool) :
    readType T "AGENT" none isDate = .unknown ∧ readType T "AGENT" (some "VCARD") isDate = .unknown := by
  rw [readType_keeps hT (by decide +kernel), readType_keeps hT (by decide +kernel)]
  cases isDate <;> decide +kernel

/-- Dates of exceptions, as days, in a program that has registered a property. -/
example : readType (ical.register "X-A" .integer true) "EXDATE" (some "DATE") true = .date ∧
    "EXDATE" ∈ (ical.register "X-A" .integer true).multi := by
  have h := C130_ical_partial (.register "X-A" .integer true (by decide +kernel) .base)
    { name := "EXDATE", type := .dateTime, typeName := "DATE-TIME", others := [("DATE", .date)], list := true }
    (by simp [rfc5545Types, texts])
  exact ⟨h.1 (some "DATE", .date) (by simp [Typed.options]) true (by simp [Fits]), h.2.2 rfl⟩

/-- A number of a program, registered twice. -/
example : readType ((ical.register "X-A" .integer true).register "X-A" .text false) "X-A" none false = .integer :=
  C130_registered (.inl rfl) .base "X-A" .integer true (by decide +kernel) (by decide +kernel) false (by simp [Fits])
    (.register "X-A" .text false (by decide +kernel) .base)

/-- The day on which a task is due, and the offset in a card of a program that has asked for VALUE. -/
example : writtenValue ical "DUE" .date = some "DATE" ∧ writtenValue ical "DUE" .dateTime = none ∧
    writtenValue (vcard.register "TZ" .utcOffset true) "TZ" .utcOffset = some "UTCOFFSET" := by
  have h := fun o => C130_ical_written .base { name := "DUE", type := .dateTime, typeName := "DATE-TIME", others := [("DATE", .date)] }
    (by simp [rfc5545Types, texts]) o
  exact ⟨(h (some "DATE", .date) (by simp [Typed.options])).1 (by decide), (h (none, .dateTime) (by simp [Typed.options])).1 (by decide),
    (C130_fails_offset (.register "TZ" .utcOffset true (by decide +kernel) .base) (by decide +kernel)).1⟩

end PyCal
