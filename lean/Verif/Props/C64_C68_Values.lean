import Verif.Model.ValueType
import Verif.Props.C23_C24_Lists
import Verif.Props.C44_C45_RuleText
import Mathlib.Tactic.Tauto

/-!
# C64 to C68: types of values, texts, lists of texts, URIs and request statuses
-/

namespace PyCal
open ValueType

/-! ## C64 -/

/-- A type that a VALUE parameter can name and that is read from the name under which it is written. -/
def Nameable (S : Tables) (t : VType) : Prop :=
  ∀ v, S.nameOf.lookup t = some v → S.byName.lookup v = some t

/-- The tables of a program: those of a kind of data and what the program registers, always with types
that a VALUE parameter can name. -/
inductive Program (S : Tables) : Tables → Prop
  | base : Program S S
  | register {T : Tables} (name : String) (t : VType) (always : Bool) (ht : Nameable S t)
      (h : Program S T) : Program S (T.register name t always)

/-- What is needed of the tables. -/
structure Coherent (S : Tables) : Prop where
  named : ∀ v t, S.byName.lookup v = some t → Nameable S t ∧ (S.nameOf.lookup t).isSome
  date : ∀ t ∈ [VType.date, .dateTime, .text], Nameable S t ∧ (S.nameOf.lookup t).isSome
  unknown : S.nameOf.lookup .unknown = none
  special : ∀ n s, S.special.lookup n = some s →
    n ∉ S.multi ∧ (∀ b, madeType b s = s) ∧ (S.defaultOf n).isSome
  default : ∀ n d, S.defaultOf n = some d → Nameable S d

theorem lookup_mem {α β : Type} [BEq α] [LawfulBEq α] {l : List (α × β)} {a : α} {b : β}
    (h : l.lookup a = some b) : (a, b) ∈ l := by
  induction l with
  | nil => simp at h
  | cons x l ih =>
    obtain ⟨x1, x2⟩ := x
    rw [List.lookup_cons] at h
    split at h
    · rename_i he
      have := beq_iff_eq.1 he
      simp at h; subst h; subst this; simp
    · exact List.mem_cons_of_mem _ (ih h)

def nameableB (S : Tables) (t : VType) : Bool :=
  match S.nameOf.lookup t with
  | none => true
  | some v => decide (S.byName.lookup v = some t)

instance (S : Tables) (t : VType) : Decidable (Nameable S t) :=
  decidable_of_iff (nameableB S t = true) (by
    unfold Nameable nameableB
    cases S.nameOf.lookup t with
    | none => simp
    | some v => simp)

theorem coherent_of {S : Tables}
    (hn : ∀ x ∈ S.byName, Nameable S x.2 ∧ (S.nameOf.lookup x.2).isSome)
    (hd : ∀ t ∈ [VType.date, .dateTime, .text], Nameable S t ∧ (S.nameOf.lookup t).isSome)
    (hu : S.nameOf.lookup .unknown = none)
    (hs : ∀ x ∈ S.special, x.1 ∉ S.multi ∧ (∀ b, madeType b x.2 = x.2) ∧ (S.defaultOf x.1).isSome)
    (hf : ∀ x ∈ S.default, Nameable S x.2) : Coherent S where
  named v t h := hn (v, t) (lookup_mem h)
  date := hd
  unknown := hu
  special n s h := hs (n, s) (lookup_mem h)
  default n d h := hf (n, d) (lookup_mem h)

theorem ical_coherent : Coherent ical :=
  coherent_of (by decide +kernel) (by decide +kernel) (by decide +kernel) (by decide +kernel)
    (by decide +kernel)

theorem vcard_coherent : Coherent vcard :=
  coherent_of (by decide +kernel) (by decide +kernel) (by decide +kernel) (by decide +kernel)
    (by decide +kernel)

theorem lookup_append_single {α β : Type} [BEq α] [LawfulBEq α] (l : List (α × β)) (a : α) (b : β)
    (x : α) : (l ++ [(a, b)]).lookup x = (l.lookup x).or (if x == a then some b else none) := by
  induction l with
  | nil =>
    simp only [List.nil_append, List.lookup_cons, List.lookup_nil, Option.none_or]
    cases x == a <;> rfl
  | cons y l ih =>
    obtain ⟨y1, y2⟩ := y
    rw [List.cons_append, List.lookup_cons, List.lookup_cons]
    cases x == y1 <;> simp [ih]

theorem register_default (S : Tables) (name : String) (t : VType) (al : Bool) (n : String) :
    (S.register name t al).defaultOf n = S.defaultOf n ∨
      (n = name ∧ S.defaultOf n = none ∧ (S.register name t al).defaultOf n = some t) := by
  unfold Tables.register Tables.defaultOf
  dsimp only
  split
  · exact Or.inl rfl
  · rw [lookup_append_single]
    cases hl : S.default.lookup n with
    | some d => simp
    | none =>
      by_cases he : n = name
      · right; subst he; simp
      · left; simp [he]

theorem program_coherent {S T : Tables} (hS : Coherent S) (hT : Program S T) :
    Coherent T ∧ T.byName = S.byName ∧ T.nameOf = S.nameOf := by
  induction hT with
  | base => exact ⟨hS, rfl, rfl⟩
  | @register T name t al ht _ ih =>
    obtain ⟨hc, h1, h2⟩ := ih
    have hN : ∀ x, Nameable (T.register name t al) x ↔ Nameable T x := fun x => Iff.rfl
    refine ⟨⟨hc.named, hc.date, hc.unknown, ?_, ?_⟩, h1, h2⟩
    · intro n s h
      have := hc.special n s h
      refine ⟨this.1, this.2.1, ?_⟩
      rcases register_default T name t al n with h' | ⟨_, _, h'⟩ <;> rw [h'] <;> simp_all
    · intro n d h
      rw [hN]
      rcases register_default T name t al n with h' | ⟨_, _, h'⟩
      · exact hc.default n d (h' ▸ h)
      · rw [h'] at h
        have : t = d := by simpa using h
        subst this
        unfold Nameable at ht ⊢
        rw [h1, h2]; exact ht

theorem valueType_idem (S : Tables) (name : String) (b : Bool) (t : VType) :
    valueType S name b (valueType S name b t) = valueType S name b t := by
  unfold valueType
  split
  · rfl
  · cases b <;> cases t <;> decide

theorem valueType_unknown (S : Tables) (name : String) (b : Bool) :
    valueType S name b .unknown = .unknown := by
  unfold valueType
  split
  · rfl
  · cases b <;> decide

theorem valueType_cases (S : Tables) (name : String) (b : Bool) (t : VType) :
    valueType S name b t = t ∨ valueType S name b t = .date ∨ valueType S name b t = .dateTime ∨
      valueType S name b t = .unknown := by
  unfold valueType
  split
  · exact Or.inl rfl
  · cases b <;> cases t <;> decide

theorem determine_of_none {S : Tables} {name : String} (h : S.special.lookup name = none)
    (v : Option String) : determine S name v = S.asked v ((S.defaultOf name).getD .unknown) := by
  simp [determine, h]

theorem determine_of_some {S : Tables} {name : String} {s : VType}
    (h : S.special.lookup name = some s) (v : Option String) :
    determine S name v = if S.asked v ((S.defaultOf name).getD .unknown) =
      (S.defaultOf name).getD .unknown then s else S.asked v ((S.defaultOf name).getD .unknown) := by
  simp [determine, h]

theorem writtenValue_plain {S : Tables} {name : String} (h : S.special.lookup name = none) (t : VType) :
    writtenValue S name t =
      if S.defaultOf name = none ∨ S.defaultOf name ≠ some t ∨ name ∈ S.always then
        (S.nameOf.lookup t).bind fun v => if S.defaultOf name ≠ none ∨ t ≠ .text then some v else none
      else none := by
  simp only [writtenValue, h, Option.isSome_none, Bool.false_eq_true, if_false]
  split
  · cases S.nameOf.lookup t <;> rfl
  · rfl

/-- What is read back of a property without a special type. -/
theorem reread_plain {T : Tables} (hc : Coherent T) {name : String} (h : T.special.lookup name = none)
    (v : Option String) (b : Bool) :
    readType T name (writtenValue T name (readType T name v b)) b = readType T name v b ↔
      ¬ (T.defaultOf name = none ∧ readType T name v b = .text) ∧
      ¬ (readType T name v b = .unknown ∧ readType T name none b ≠ .unknown) := by
  generalize ht : readType T name v b = t
  have hr : readType T name none b = valueType T name b ((T.defaultOf name).getD .unknown) := by
    simp [readType, determine_of_none h, Tables.asked]
  have hidem : valueType T name b t = t := by rw [← ht]; exact valueType_idem _ _ _ _
  -- where the type comes from
  have hsrc : t = readType T name none b ∨ t = .unknown ∨
      (Nameable T t ∧ (T.nameOf.lookup t).isSome) := by
    rw [← ht, hr]
    unfold readType
    rw [determine_of_none h]
    cases v with
    | none => exact Or.inl rfl
    | some v =>
      simp only [Tables.asked]
      cases hv : T.byName.lookup v with
      | none => exact Or.inl rfl
      | some x =>
        right
        simp only [Option.getD_some]
        rcases valueType_cases T name b x with h' | h' | h' | h' <;> rw [h']
        · exact Or.inr (hc.named v x hv)
        · exact Or.inr (hc.date _ (by simp))
        · exact Or.inr (hc.date _ (by simp))
        · exact Or.inl rfl
  have hname : Nameable T t := by
    have hun : Nameable T .unknown := fun w hw => by rw [hc.unknown] at hw; simp at hw
    rcases hsrc with h' | h' | h'
    · rw [hr] at h'
      rcases valueType_cases T name b ((T.defaultOf name).getD .unknown) with h2 | h2 | h2 | h2 <;>
        rw [h2] at h' <;> rw [h']
      · cases hd : T.defaultOf name with
        | none => exact hun
        | some d => exact hc.default name d hd
      · exact (hc.date _ (by simp)).1
      · exact (hc.date _ (by simp)).1
      · exact hun
    · rw [h']; exact hun
    · exact h'.1
  rw [writtenValue_plain h]
  split
  · rename_i hcond
    cases hn : T.nameOf.lookup t with
    | none =>
      have h1 : t ≠ .text := fun he => by
        have := (hc.date .text (by simp)).2
        rw [← he, hn] at this; simp at this
      simp only [Option.bind_none, h1, and_false, not_false_eq_true, true_and]
      rcases hsrc with h' | h' | h'
      · rw [← h']; simp
      · rw [h']; simp
      · rw [hn] at h'; simp at h'
    | some w =>
      have h1 : t ≠ .unknown := fun he => by rw [he, hc.unknown] at hn; simp at hn
      simp only [Option.bind_some, h1, false_and, not_false_eq_true, and_true]
      split
      · rename_i h2
        constructor
        · intro _ h3
          rcases h2 with h2 | h2
          · exact h2 h3.1
          · exact h2 h3.2
        · intro _
          unfold readType
          rw [determine_of_none h]
          simp only [Tables.asked, hname w hn, Option.getD_some]
          exact hidem
      · rename_i h2
        simp only [not_or, ne_eq, not_not] at h2
        rw [hr, h2.1, Option.getD_none, valueType_unknown, h2.2]
        simp
  · rename_i hcond
    simp only [not_or, ne_eq, not_not] at hcond
    rw [hr, hcond.2.1, Option.getD_some, hidem]
    simp

/-- What is read back of a property with a special type. -/
theorem reread_special {T : Tables} (hc : Coherent T) {name : String} {s : VType}
    (h : T.special.lookup name = some s) (t : VType) (b : Bool) :
    readType T name (writtenValue T name t) b = s := by
  obtain ⟨h1, h2, h3⟩ := hc.special name s h
  obtain ⟨d, hd⟩ := Option.isSome_iff_exists.1 h3
  have hw : T.asked (writtenValue T name t) d = d := by
    simp only [writtenValue, h, Option.isSome_some, if_true, hd]
    split
    · cases hn : T.nameOf.lookup d with
      | none => rfl
      | some w =>
        have := hc.default name d hd w hn
        simp [Tables.asked, this]
    · rfl
  unfold readType
  rw [determine_of_some h, hd, Option.getD_some, hw, if_pos rfl]
  simp [valueType, h1, h2]

/-- C64, where it holds: a property read from a text and written is read again with the same type of
value, in iCalendar and in vCard and whatever default types a program registers, unless it has no
default type and VALUE=TEXT, or the library has no class for the VALUE it has, or it is one of GEO,
REQUEST-STATUS, ADR, N and ORG and has a VALUE other than the default.  Missing: those properties. -/
theorem C64_reread_partial {S T : Tables} (hS : S = ical ∨ S = vcard) (hT : Program S T)
    (name : String) (value : Option String) (isDate : Bool) :
    readType T name (writtenValue T name (readType T name value isDate)) isDate =
        readType T name value isDate ↔
      match T.special.lookup name with
      | some s => readType T name value isDate = s
      | none =>
        ¬ (T.defaultOf name = none ∧ readType T name value isDate = .text) ∧
        ¬ (readType T name value isDate = .unknown ∧ readType T name none isDate ≠ .unknown) := by
  have hc : Coherent T := by
    rcases hS with rfl | rfl
    · exact (program_coherent ical_coherent hT).1
    · exact (program_coherent vcard_coherent hT).1
  cases h : T.special.lookup name with
  | some s =>
    rw [reread_special hc h]
    exact eq_comm
  | none => exact reread_plain hc h value isDate

theorem program_cases {S T : Tables} (hS : S = ical ∨ S = vcard) (hT : Program S T) : Coherent T := by
  rcases hS with rfl | rfl
  · exact (program_coherent ical_coherent hT).1
  · exact (program_coherent vcard_coherent hT).1

/-- C64: after being written and read once a property keeps the type of its value for good. -/
theorem C64_settles {S T : Tables} (hS : S = ical ∨ S = vcard) (hT : Program S T)
    (name : String) (value : Option String) (isDate : Bool) :
    readType T name (writtenValue T name
        (readType T name (writtenValue T name (readType T name value isDate)) isDate)) isDate =
      readType T name (writtenValue T name (readType T name value isDate)) isDate := by
  have hc := program_cases hS hT
  rw [C64_reread_partial hS hT]
  cases h : T.special.lookup name with
  | some s => exact reread_special hc h _ _
  | none =>
    dsimp only
    have hr : T.defaultOf name = none → readType T name none isDate = .unknown := fun hd => by
      simp [readType, determine_of_none h, Tables.asked, hd, valueType_unknown]
    by_cases hw : writtenValue T name (readType T name value isDate) = none
    · rw [hw]
      refine ⟨fun h' => ?_, fun h' => h'.2 h'.1⟩
      rw [hr h'.1] at h'; simp at h'
    · have hcond : ¬ (T.defaultOf name = none ∧ readType T name value isDate = .text) ∧
          ¬ (readType T name value isDate = .unknown ∧ readType T name none isDate ≠ .unknown) := by
        rw [writtenValue_plain h] at hw
        split at hw
        · cases hn : T.nameOf.lookup (readType T name value isDate) with
          | none => rw [hn] at hw; simp at hw
          | some w =>
            rw [hn, Option.bind_some] at hw
            split at hw
            · rename_i h2
              refine ⟨fun h3 => ?_, fun h3 => ?_⟩
              · rcases h2 with h2 | h2
                · exact h2 h3.1
                · exact h2 h3.2
              · rw [h3.1, hc.unknown] at hn; simp at hn
            · exact absurd rfl hw
        · exact absurd rfl hw
      have := (reread_plain hc h value isDate).2 hcond
      rw [this]; exact hcond

/-- C64: of a property with dates or date-times, what is written says what the text is, whatever VALUE
said of it when it was read: VALUE=DATE for a date, VALUE=DATE-TIME for another, and nothing if that is the
default (unless the program asked for it always). -/
theorem C64_dates {S T : Tables} (hS : S = ical ∨ S = vcard) (hT : Program S T) (name : String)
    (d : VType) (hd : T.defaultOf name = some d) (hd2 : d = .date ∨ d = .dateTime) (hm : name ∉ T.multi)
    (hs : T.special.lookup name = none) (v : Option String) (hv : v ∈ [none, some "DATE", some "DATE-TIME"])
    (isDate : Bool) :
    writtenValue T name (readType T name v isDate) =
      if (d = .date ↔ isDate = true) ∧ name ∉ T.always then none
      else some (if isDate then "DATE" else "DATE-TIME") := by
  have hc : T.byName = S.byName ∧ T.nameOf = S.nameOf := by
    rcases hS with rfl | rfl
    · exact (program_coherent ical_coherent hT).2
    · exact (program_coherent vcard_coherent hT).2
  have hb : T.byName.lookup "DATE" = some .date ∧ T.byName.lookup "DATE-TIME" = some .dateTime ∧
      T.nameOf.lookup .date = some "DATE" ∧ T.nameOf.lookup .dateTime = some "DATE-TIME" := by
    rw [hc.1, hc.2]
    rcases hS with rfl | rfl <;> decide +kernel
  have hr : readType T name v isDate = if isDate then .date else .dateTime := by
    have : determine T name v = .date ∨ determine T name v = .dateTime := by
      rw [determine_of_none hs, hd]
      simp only [List.mem_cons, List.not_mem_nil, or_false] at hv
      rcases hv with rfl | rfl | rfl
      · simpa [Tables.asked] using hd2
      · left; simp [Tables.asked, hb.1]
      · right; simp [Tables.asked, hb.2.1]
    unfold readType valueType
    rw [if_neg hm]
    rcases this with h | h <;> rw [h] <;> rfl
  rw [hr, writtenValue_plain hs, hd]
  rcases hd2 with rfl | rfl <;> cases isDate <;> by_cases ha : name ∈ T.always <;> simp [ha, hb.2.2]

/-- The start of an event that is a day, with and without VALUE=DATE. -/
example : ical.defaultOf "DTSTART" = some .dateTime ∧ "DTSTART" ∉ ical.multi ∧
    ical.special.lookup "DTSTART" = none ∧
    writtenValue ical "DTSTART" (readType ical "DTSTART" none true) = some "DATE" := by decide +kernel

/-- C64 is false: `X-FOO;VALUE=TEXT` is read again without a type. -/
theorem C64_fails_text : readType ical "X-FOO" (some "TEXT") false = .text ∧
    readType ical "X-FOO" (writtenValue ical "X-FOO" .text) false = .unknown := by
  constructor <;> decide +kernel

/-- C64 is false: `DTSTART;VALUE=TIME` is read again as a date and time, `ATTACH;VALUE=BOOLEAN` as a
URI. -/
theorem C64_fails_class :
    (readType ical "DTSTART" (some "TIME") false = .unknown ∧
      readType ical "DTSTART" (writtenValue ical "DTSTART" .unknown) false = .dateTime) ∧
    (readType ical "ATTACH" (some "BOOLEAN") false = .unknown ∧
      readType ical "ATTACH" (writtenValue ical "ATTACH" .unknown) false = .uri) := by
  refine ⟨⟨?_, ?_⟩, ?_, ?_⟩ <;> decide +kernel

/-- C64 is false: `GEO;VALUE=TEXT` is read again as a pair of numbers, `ADR;VALUE=URI` as an address. -/
theorem C64_fails_special :
    (readType ical "GEO" (some "TEXT") false = .text ∧
      readType ical "GEO" (writtenValue ical "GEO" .text) false = .geo) ∧
    (readType vcard "ADR" (some "URI") false = .uri ∧
      readType vcard "ADR" (writtenValue vcard "ADR" .uri) false = .adr) := by
  refine ⟨⟨?_, ?_⟩, ?_, ?_⟩ <;> decide +kernel

example : Program ical ((ical.register "X-A" .integer true).register "X-B" .unknown false) :=
  .register _ _ _ (by decide +kernel) (.register _ _ _ (by decide +kernel) .base)

example : readType ical "TRIGGER" (writtenValue ical "TRIGGER"
    (readType ical "TRIGGER" (some "DATE-TIME") false)) false = .dateTime := by decide +kernel

example : writtenValue (ical.register "X-A" .integer true) "X-A" .integer = some "INTEGER" ∧
    writtenValue ical "DTSTART" .date = some "DATE" ∧ writtenValue ical "DTSTART" .dateTime = none := by
  refine ⟨?_, ?_, ?_⟩ <;> decide +kernel

/-! ## C65 -/

theorem escapeText_eq_self : ∀ s : List Char, escapeText s = s ↔ ∀ c ∈ s, isEscapee c = false
  | [] => by simp [escapeText_nil]
  | c :: s => by
    rw [escapeText_cons]
    cases hc : isEscapee c with
    | false => simp [escapeText_eq_self s, hc]
    | true =>
      simp only [if_true, List.mem_cons, forall_eq_or_imp, hc, Bool.true_eq_false, false_and, iff_false]
      intro h
      have hlen : ∀ s : List Char, s.length ≤ (escapeText s).length := by
        intro s
        induction s with
        | nil => simp
        | cons c s ih => rw [escapeText_cons]; split <;> simp <;> omega
      have := congrArg List.length h
      simp at this
      have := hlen s
      omega

/-- C65, where it holds: a string given to a property that has no other type is the string read from
what is written, if the property has a default type that says so: TEXT.

Missing: other properties, `C65_fails` and `C65_fails_break`. -/
theorem C65_text_partial {S T : Tables} (hS : S = ical ∨ S = vcard) (hT : Program S T) (name : String)
    (hm : name ∉ T.multi) (hs : T.special.lookup name = none) (hd : T.defaultOf name = some .text)
    (colon other : PMode) (ifNone : VType) (s : List Char) :
    rereadString colon other T name (constructType T ifNone name) s = some s ∧
    rereadString colon other T name (setType T name none) s = some s := by
  have h0 : readType T name none false = .text := by
    simp [readType, determine_of_none hs, Tables.asked, hd, valueType, hm]; decide
  have h1 : readType T name (writtenValue T name .text) false = .text := by
    have := (reread_plain (program_cases hS hT) hs none false).2
      ⟨by simp [hd], by simp [h0]⟩
    rwa [h0] at this
  have h2 : constructType T ifNone name = .text := by simp [constructType, hd]
  have h3 : setType T name none = .text := by simp [setType, Tables.asked, hd]
  rw [h2, h3]
  simp [rereadString, writeString, h1, readString, C20_decode_escape]

/-- C65, for a property that the tables do not have: a string given to the constructor of an iCalendar
property is restored (it is written as it stands); a string given to the constructor of a vCard property
or to `setValue` comes back in its escaped form, so that it is restored exactly if it has no comma,
semicolon, backslash or line break.

Missing: strings with one of these, `C65_fails`, and line breaks in the first case, `C65_fails_break`. -/
theorem C65_other_partial {S T : Tables} (name : String)
    (hs : T.special.lookup name = none) (hd : T.defaultOf name = none)
    (hS : S = ical ∨ S = vcard) (hT : Program S T)
    (colon other : PMode) (s : List Char) :
    rereadString colon other T name (constructType T .unknown name) s = some s ∧
    rereadString colon other T name (constructType T .text name) s = some (escapeText s) ∧
    rereadString colon other T name (setType T name none) s = some (escapeText s) ∧
    (escapeText s = s ↔ ∀ c ∈ s, isEscapee c = false) := by
  have hu : writtenValue T name .unknown = none := by
    rw [writtenValue_plain hs, (program_cases hS hT).unknown]; simp
  have ht : writtenValue T name .text = none := by
    rw [writtenValue_plain hs, hd]
    cases T.nameOf.lookup .text <;> simp
  have h0 : readType T name none false = .unknown := by
    simp [readType, determine_of_none hs, Tables.asked, hd, valueType_unknown]
  have h1 : constructType T .unknown name = .unknown := by simp [constructType, hd]
  have h2 : constructType T .text name = .text := by simp [constructType, hd]
  have h3 : setType T name none = .text := by simp [setType, Tables.asked, hd]
  rw [h1, h2, h3]
  simp [rereadString, writeString, readString, hu, ht, h0, escapeText_eq_self]

/-- C65, for a property with a VALUE parameter that names TEXT: a string given to `setValue` is the string
read from what is written, if the property has a default type, whichever that is; otherwise no VALUE is
written and the string comes back in its escaped form.  A VALUE that names no type leaves the type as it
is without.

Missing: properties without a default type, `C65_fails`. -/
theorem C65_asked_partial {S T : Tables} (hS : S = ical ∨ S = vcard) (hT : Program S T) (name v : String)
    (hm : name ∉ T.multi) (hs : T.special.lookup name = none) (colon other : PMode) (s : List Char) :
    (T.byName.lookup v = some .text →
      rereadString colon other T name (setType T name (some v)) s =
        some (if T.defaultOf name = none then escapeText s else s)) ∧
    (T.byName.lookup v = none → setType T name (some v) = setType T name none) := by
  constructor
  · intro hv
    have h1 : setType T name (some v) = .text := by simp [setType, Tables.asked, hv]
    rw [h1]
    cases hd : T.defaultOf name with
    | none =>
      have := (C65_other_partial name hs hd hS hT colon other s).2.2.1
      rw [show setType T name none = .text by simp [setType, Tables.asked, hd]] at this
      simpa using this
    | some d =>
      have h0 : readType T name (some v) false = .text := by
        simp [readType, determine_of_none hs, Tables.asked, hv, valueType, hm]; decide
      have h2 : readType T name (writtenValue T name .text) false = .text := by
        have := (reread_plain (program_cases hS hT) hs (some v) false).2 ⟨by simp [hd], by simp [h0]⟩
        rwa [h0] at this
      simp [rereadString, writeString, h2, readString, C20_decode_escape]
  · intro hv
    simp [setType, Tables.asked, hv]

example : "URL" ∉ ical.multi ∧ ical.special.lookup "URL" = none ∧ ical.defaultOf "URL" = some .uri ∧
    ical.byName.lookup "TEXT" = some .text ∧ ical.byName.lookup "X-ANY" = none := by
  refine ⟨?_, ?_, ?_, ?_, ?_⟩ <;> decide +kernel

/-- C65 is false: `setValue("a,b")` on a new `X-FOO` property is read again as `a\,b`; in vCard so is a
string given to the constructor. -/
theorem C65_fails :
    rereadString .fix .raise ical "X-FOO" (setType ical "X-FOO" none) "a,b".toList =
      some "a\\,b".toList ∧
    rereadString .fix .raise vcard "X-FOO" (constructType vcard .text "X-FOO") "a,b".toList =
      some "a\\,b".toList := by
  constructor <;> decide +kernel

/-- C65 is false in another way: a line break in a string given to a new `X-FOO` property of iCalendar is
written as it stands. -/
theorem C65_fails_break : writeString (constructType ical .unknown "X-FOO") "a\nBEGIN:VALARM".toList =
    some "a\nBEGIN:VALARM".toList := by decide +kernel

example : "SUMMARY" ∉ ical.multi ∧ ical.special.lookup "SUMMARY" = none ∧
    ical.defaultOf "SUMMARY" = some .text ∧ ical.defaultOf "X-FOO" = none := by
  refine ⟨?_, ?_, ?_, ?_⟩ <;> decide +kernel

/-! ## C66 -/

theorem splitOn_nonempty (c : Char) (a : List Char) : splitOn c a ≠ [] := by
  cases a with
  | nil => simp [splitOn]
  | cons x a =>
    rw [splitOn]
    split
    · simp
    · split <;> simp

theorem splitOn_append_all (c : Char) : ∀ a b : List Char,
    splitOn c (a ++ c :: b) = splitOn c a ++ splitOn c b
  | [], b => by simp [splitOn]
  | x :: a, b => by
    rw [List.cons_append, splitOn, splitOn]
    have ih := splitOn_append_all c a b
    split
    · rw [ih]; rfl
    · rw [ih]
      cases h : splitOn c a with
      | nil => exact absurd h (splitOn_nonempty c a)
      | cons p ps => rfl

/-- The pieces of an escaped text. -/
theorem mapM_split_escape (colon other : PMode) : ∀ s : List Char,
    (splitOn ',' (escapeText s)).mapM (decodeText colon other) = some (splitOn ',' s)
  | [] => by simp [escapeText_nil, splitOn, decodeText_nil]
  | c :: s => by
    have ih := mapM_split_escape colon other s
    rw [escapeText_cons]
    by_cases hc : c = ','
    · subst hc
      have h1 : (if isEscapee ',' then ['\\', escapeLetter ','] else [',']) ++ escapeText s =
          ['\\'] ++ ',' :: escapeText s := by
        rw [show isEscapee ',' = true by decide, show escapeLetter ',' = ',' by decide]; rfl
      have h4 : splitOn ',' (',' :: s) = [] :: splitOn ',' s := by rw [splitOn, if_pos rfl]
      rw [h1, splitOn_append_all, h4]
      have h2 : decodeText colon other ['\\'] = some [] :=
        decodeText_stop (Or.inr ⟨'\\', by decide⟩)
      have h3 : splitOn ',' ['\\'] = [['\\']] := by decide
      rw [h3, List.singleton_append, List.mapM_cons, h2, ih]
      rfl
    · have key : ∀ (pre : List Char), ',' ∉ pre →
          (∀ x, decodeText colon other (pre ++ x) = (decodeText colon other x).map (c :: ·)) →
          (splitOn ',' (pre ++ escapeText s)).mapM (decodeText colon other) =
            some (splitOn ',' (c :: s)) := by
        intro pre hpre hdec
        obtain ⟨q, qs, hq⟩ := List.exists_cons_of_ne_nil (splitOn_nonempty ',' (escapeText s))
        obtain ⟨r, rs, hr⟩ := List.exists_cons_of_ne_nil (splitOn_nonempty ',' s)
        have h1 : ∀ pre : List Char, ',' ∉ pre → splitOn ',' (pre ++ escapeText s) = (pre ++ q) :: qs := by
          intro pre hpre
          induction pre with
          | nil => exact hq
          | cons x pre ihp =>
            rw [List.mem_cons, not_or] at hpre
            rw [List.cons_append, splitOn, if_neg (Ne.symm hpre.1), ihp hpre.2]
            rfl
        rw [h1 pre hpre, splitOn, if_neg hc, hr]
        rw [hq, hr, List.mapM_cons] at ih
        rw [List.mapM_cons, hdec]
        cases hd : decodeText colon other q with
        | none => rw [hd] at ih; simp at ih
        | some y =>
          rw [hd] at ih
          cases hm : qs.mapM (decodeText colon other) with
          | none => rw [hm] at ih; simp at ih
          | some ys =>
            rw [hm] at ih
            simp at ih
            simp [ih.1, ih.2]
      cases he : isEscapee c with
      | false =>
        have hb : c ≠ '\\' := by rintro rfl; revert he; decide
        exact key [c] (by simpa using Ne.symm hc) (fun x => decodeText_plain _ _ hb x)
      | true =>
        refine key ['\\', escapeLetter c] ?_ ?_
        · have : escapeLetter c ≠ ',' := by
            unfold escapeLetter
            split
            · decide
            · split
              · decide
              · exact hc
          simp [Ne.symm this]
        · intro x
          have hu : unescape colon other (escapeLetter c) = some [c] := by
            simp only [isEscapee, Bool.or_eq_true, decide_eq_true_eq] at he
            rcases he with (((rfl | rfl) | rfl) | rfl) | rfl <;> rfl
          exact decodeText_esc colon other (escapeLetter c) x hu

/-- C66, exactly: of a list of texts that is written and read again each text is split at its commas.
Missing for C66: texts with commas, and the empty list. -/
theorem C66_split_partial (colon other : PMode) (old vs : List (List Char)) (hne : vs ≠ []) :
    readTexts colon other old (writeTexts vs) = some (old ++ vs.flatMap (splitOn ',')) := by
  have key : (splitOn ',' (writeTexts vs)).mapM (decodeText colon other) =
      some (vs.flatMap (splitOn ',')) := by
    unfold writeTexts
    induction vs with
    | nil => exact absurd rfl hne
    | cons v vs ih =>
      cases vs with
      | nil => simpa [joinSep] using mapM_split_escape colon other v
      | cons w ws =>
        simp only [List.map_cons, joinSep] at ih ⊢
        rw [splitOn_append_all, List.mapM_append, mapM_split_escape, ih (by simp)]
        simp
  rw [readTexts, key]; rfl

theorem splitOn_length_pos (c : Char) (s : List Char) : 1 ≤ (splitOn c s).length :=
  List.length_pos_iff.2 (splitOn_nonempty c s)

theorem splitOn_length_two {c : Char} : ∀ {s : List Char}, c ∈ s → 2 ≤ (splitOn c s).length
  | x :: s, h => by
    rw [splitOn]
    split
    · have := splitOn_length_pos c s; simp; omega
    · rename_i hx
      have h' : c ∈ s := by
        rcases List.mem_cons.1 h with h | h
        · exact absurd h.symm hx
        · exact h
      have ih := splitOn_length_two h'
      split
      · rename_i he; rw [he] at ih; simp at ih
      · rename_i he; rw [he] at ih; simpa using ih

/-- C66, where it holds: a list of texts is restored exactly if no text has a comma.

Missing: texts with a comma, `C66_fails`. -/
theorem C66_restored_partial (colon other : PMode) (vs : List (List Char)) (hne : vs ≠ []) :
    readTexts colon other [] (writeTexts vs) = some vs ↔ ∀ v ∈ vs, ',' ∉ v := by
  rw [C66_split_partial _ _ _ _ hne, List.nil_append, Option.some_inj]
  clear hne
  have hlen : ∀ vs : List (List Char), vs.length ≤ (vs.flatMap (splitOn ',')).length := by
    intro vs
    induction vs with
    | nil => simp
    | cons v vs ih =>
      have := splitOn_length_pos ',' v
      rw [List.flatMap_cons, List.length_append, List.length_cons]; omega
  induction vs with
  | nil => simp
  | cons v vs ih =>
    rw [List.forall_mem_cons, List.flatMap_cons]
    constructor
    · intro h
      have hv : ',' ∉ v := fun hc => by
        have h1 := congrArg List.length h
        have h2 := splitOn_length_two hc
        have h3 := hlen vs
        rw [List.length_append, List.length_cons] at h1; omega
      rw [splitOn_free hv] at h
      exact ⟨hv, ih.1 (by simpa using h)⟩
    · rintro ⟨h1, h2⟩
      rw [splitOn_free h1, ih.2 h2]; rfl

/-- C66 is false: the category `A, B` is read again as two; no categories are read again as one that is
empty; and a value that is parsed twice holds both lists. -/
theorem C66_fails :
    readTexts .fix .raise [] (writeTexts ["A,B".toList]) = some ["A".toList, "B".toList] ∧
    readTexts .fix .raise [] (writeTexts []) = some [[]] ∧
    readTexts .fix .raise ["A".toList] "B".toList = some ["A".toList, "B".toList] := by
  refine ⟨?_, ?_, ?_⟩ <;> decide +kernel

example : ∀ v ∈ ["a;b".toList, "c\\".toList, "".toList], ',' ∉ v := by decide +kernel

/-! ## C67 -/

theorem escapeBreaks_free (s : List Char) : '\n' ∉ escapeBreaks s := by
  induction s with
  | nil => simp [escapeBreaks]
  | cons c s ih =>
    rw [escapeBreaks]
    split
    · simp [ih]
    · rename_i h; simp [ih, Ne.symm h]

theorem unescape_length {colon other : PMode} {c : Char} {w : List Char}
    (h : unescape colon other c = some w) : w.length ≤ 1 := by
  unfold unescape at h
  split at h; · simp_all; subst h; simp
  split at h; · simp_all; subst h; simp
  split at h; · simp_all; subst h; simp
  split at h; · simp_all; subst h; simp
  split at h; · simp_all; subst h; simp
  split at h; · simp_all; subst h; simp
  split at h
  · cases colon <;> simp at h <;> subst h <;> simp
  · cases other <;> simp at h <;> subst h <;> simp

/-- The text after a backslash that is not written for a line break. -/
theorem decode_after {colon other : PMode} (s : List Char) :
    (∀ r, decodeText colon other (escapeBreaks s) = some r → r.length ≤ s.length) ∧
    (∀ r, decodeText colon other ('\\' :: escapeBreaks s) = some r →
      r.length ≤ s.length ∨ ∃ x y, r = '\\' :: 'n' :: x ∧ s = '\n' :: y ∧ r.length ≤ s.length + 1) := by
  induction s with
  | nil =>
    constructor
    · intro r h; rw [escapeBreaks, decodeText_nil] at h; simp at h; simp [← h]
    · intro r h
      rw [escapeBreaks, decodeText_stop (Or.inr ⟨'\\', by decide⟩)] at h
      left; simp at h; simp [← h]
  | cons c s ih =>
    have hn : unescape colon other 'n' = some ['\n'] := rfl
    have hb : unescape colon other '\\' = some ['\\'] := rfl
    constructor
    · intro r h
      rw [escapeBreaks] at h
      split at h
      · rw [decodeText_esc _ _ _ _ hn] at h
        cases hd : decodeText colon other (escapeBreaks s) with
        | none => rw [hd] at h; simp at h
        | some x =>
          rw [hd] at h; simp at h
          have := ih.1 x hd
          rw [← h]; simp; exact this
      · by_cases hc : c = '\\'
        · subst hc
          rcases ih.2 r h with h' | ⟨_, _, _, h2, h3⟩
          · simp; omega
          · simpa using h3
        · rw [decodeText_plain _ _ hc] at h
          cases hd : decodeText colon other (escapeBreaks s) with
          | none => rw [hd] at h; simp at h
          | some x =>
            rw [hd] at h; simp at h
            have := ih.1 x hd
            rw [← h]; simp; exact this
    · intro r h
      rw [escapeBreaks] at h
      split at h
      · rename_i hc
        right
        rw [decodeText_esc _ _ _ _ hb, decodeText_plain _ _ (by decide)] at h
        cases hd : decodeText colon other (escapeBreaks s) with
        | none => rw [hd] at h; simp at h
        | some x =>
          rw [hd] at h; simp at h
          have := ih.1 x hd
          exact ⟨x, s, h.symm, by rw [hc], by rw [← h]; simp; omega⟩
      · left
        cases hu : unescape colon other c with
        | none =>
          rw [decodeText_go (x := '\\') (c := c) (r := escapeBreaks s) (by simp), hu] at h
          simp at h
        | some w =>
          rw [decodeText_esc _ _ _ _ hu] at h
          cases hd : decodeText colon other (escapeBreaks s) with
          | none => rw [hd] at h; simp at h
          | some x =>
            rw [hd] at h; simp at h
            have := ih.1 x hd
            have := unescape_length hu
            rw [← h]; simp; omega

/-- C67, exactly, for the default setting: a URI is restored exactly if it has no backslash.  Missing:
URIs with one. -/
theorem C67_fix_partial (colon other : PMode) (s : List Char) :
    readURI true colon other (writeURI s) = some s ↔ '\\' ∉ s := by
  unfold readURI writeURI
  rw [if_pos rfl]
  induction s with
  | nil => simp [escapeBreaks, decodeText_nil]
  | cons c s ih =>
    rw [escapeBreaks]
    split
    · rename_i hc
      rw [decodeText_esc colon other 'n' _ (w := ['\n']) rfl, hc]
      have : ('\\' : Char) ∉ '\n' :: s ↔ '\\' ∉ s := by simp
      rw [this, ← ih]
      cases decodeText colon other (escapeBreaks s) <;> simp
    · by_cases hc : c = '\\'
      · subst hc
        simp only [List.mem_cons, true_or, not_true_eq_false, iff_false]
        intro h
        rcases (decode_after s).2 _ h with h' | ⟨x, y, h1, h2, _⟩
        · rw [List.length_cons] at h'; omega
        · rw [h2] at h1; simp at h1
      · rw [decodeText_plain _ _ hc]
        have : ('\\' : Char) ∉ c :: s ↔ '\\' ∉ s := by simp [Ne.symm hc]
        rw [this, ← ih]
        cases decodeText colon other (escapeBreaks s) <;> simp

theorem escapeBreaks_id {s : List Char} (h : '\n' ∉ s) : escapeBreaks s = s := by
  induction s with
  | nil => rfl
  | cons c s ih =>
    rw [List.mem_cons, not_or] at h
    rw [escapeBreaks, if_neg (Ne.symm h.1), ih h.2]

theorem escapeBreaks_length (s : List Char) :
    (escapeBreaks s).length = s.length + s.count '\n' := by
  induction s with
  | nil => rfl
  | cons c s ih =>
    rw [escapeBreaks]
    split
    · rename_i h; subst h; simp [ih]; omega
    · rename_i h
      rw [List.length_cons, List.length_cons, List.count_cons, ih]
      simp [h]; omega

/-- C67, for the other setting, in which nothing is decoded: a URI is restored exactly if it has no line
feed.

Missing: URIs with a line feed, which is written as a backslash and a letter. -/
theorem C67_allow_partial (colon other : PMode) (s : List Char) :
    readURI false colon other (writeURI s) = some s ↔ '\n' ∉ s := by
  simp only [readURI, writeURI, Bool.false_eq_true, if_false, Option.some_inj]
  constructor
  · intro h hc
    have h1 := congrArg List.length h
    rw [escapeBreaks_length] at h1
    have := List.count_pos_iff.2 hc
    omega
  · exact escapeBreaks_id

/-- C67: what is written for a URI has no line feed. -/
theorem C67_no_linefeed (s : List Char) : '\n' ∉ writeURI s := escapeBreaks_free s

/-- C67 is false: `file:\\host\dir` loses its backslashes; a carriage return is written as it stands. -/
theorem C67_fails :
    readURI true .fix .fix (writeURI "file:\\\\host\\dir".toList) = some "file:\\hostdir".toList ∧
    readURI true .fix .raise (writeURI "file:\\\\host\\dir".toList) = none ∧
    '\r' ∈ writeURI "a\rb".toList := by
  refine ⟨?_, ?_, ?_⟩ <;> decide +kernel

example : '\\' ∉ "http://a/b?c=1,2;3\n".toList := by decide +kernel

/-! ## C68 -/

/-- C68 is false: with the setting RAISE no request status whatever can be read. -/
theorem C68_fails_raise (colon other : PMode) (data : List Char) :
    readStatus colon other .raise data = none := by
  unfold readStatus
  split
  · rfl
  · split
    · rfl
    · simp

/-- C68, exactly, for the default setting FIX and for IGNORE: a request status is restored exactly if its
code has no backslash and, if there is a third element, the description does not end in one (and the third
element is not the empty string).  Missing: the others. -/
theorem C68_fix_partial (colon other mode : PMode) (hm : mode = .fix ∨ mode = .ignore) (r : ReqStatus) :
    readStatus colon other mode (writeStatus r) = some r ↔
      '\\' ∉ r.code ∧ r.rest ≠ some [] ∧ (r.rest = none ∨ ¬ EndsInBackslash r.desc) := by
  have hmr : mode ≠ .raise := by rcases hm with rfl | rfl <;> decide
  have hmf : mode = .ignore ∨ mode = .fix := by tauto
  -- a code without a backslash is not changed
  constructor
  · intro h
    have hcode : '\\' ∉ r.code := by
      unfold readStatus at h
      split at h
      · simp at h
      split at h
      · simp at h
      · rename_i code desc rest _
        simp only [hmr, and_false, if_false, hmf, and_true, Option.some_inj] at h
        rw [← h]
        dsimp only
        split
        · simp
        · assumption
    have hrest : r.rest ≠ some [] := by
      intro h0
      unfold readStatus at h
      split at h
      · simp at h
      split at h
      · simp at h
      · simp only [hmr, and_false, if_false, Option.some_inj] at h
        rw [← h] at h0
        dsimp only at h0
        split at h0
        · simp at h0
        · rename_i hne; exact hne (by simpa using h0)
    refine ⟨hcode, hrest, ?_⟩
    by_contra hcon
    rw [not_or, not_not] at hcon
    obtain ⟨hr, hd⟩ := hcon
    obtain ⟨x, hx⟩ := Option.ne_none_iff_exists'.1 hr
    obtain ⟨c, y, rfl⟩ : ∃ c y, x = c :: y := by
      cases x with
      | nil => exact absurd hx hrest
      | cons c y => exact ⟨c, y, rfl⟩
    have hnb : ¬ EndsInBackslash r.code := fun hb => hcode (List.mem_of_getLast? hb)
    have hw : writeStatus r = joinSep ';' ([r.code, r.desc, c :: y].map escapeText) := by
      simp [writeStatus, hx, generateTextList]
    have hlen : (splitList ';' none [] (writeStatus r)).length = 2 := by
      rw [hw, splitList_join_length (Or.inl rfl) _ (by simp) _ (by simp)]
      · simp [endsIn_escapeText, hd, hnb]
      · intro e he
        obtain ⟨s, _, rfl⟩ := List.mem_map.1 he
        exact C20_escaped s
    unfold readStatus parseTextList at h
    split at h
    · simp at h
    · rename_i result hres
      have hl := mapM_length hres
      rw [hlen] at hl
      obtain ⟨a, b, rfl⟩ := List.length_eq_two.1 hl
      simp only [statusParts, hmr, and_false, if_false, Option.some_inj] at h
      rw [← h] at hr
      simp at hr
  · rintro ⟨hcode, hrest, hdesc⟩
    have hnb : ¬ EndsInBackslash r.code := fun hb => hcode (List.mem_of_getLast? hb)
    obtain ⟨code, desc, rest⟩ := r
    dsimp only at hcode hrest hdesc hnb
    cases rest with
    | none =>
      have hp : parseTextList colon other ';' (writeStatus ⟨code, desc, none⟩) = some [code, desc] := by
        refine (C23_roundtrip_partial [code, desc] (by simp) ';' (Or.inl rfl) colon other).2 ?_
        simpa using hnb
      simp [readStatus, hp, statusParts, hcode, hmr]
    | some x =>
      cases x with
      | nil => exact absurd rfl hrest
      | cons c y =>
        have hd : ¬ EndsInBackslash desc := by simpa using hdesc
        have hp : parseTextList colon other ';' (writeStatus ⟨code, desc, some (c :: y)⟩) =
            some [code, desc, c :: y] := by
          refine (C23_roundtrip_partial [code, desc, c :: y] (by simp) ';' (Or.inl rfl) colon other).2 ?_
          simp [hnb, hd]
        simp [readStatus, hp, statusParts, hcode, hmr]

/-- C68: what is read of a request status that was written as one text, with the first semicolon escaped
as well, or without one: the code is what is before the semicolon.  (Settings other than RAISE.)

Missing: the setting RAISE, `C68_fails_raise`. -/
theorem C68_one_text_partial (colon other mode : PMode) (hm : mode ≠ .raise) (code desc : List Char)
    (hs : ';' ∉ code) (hb : '\\' ∉ code) :
    readStatus colon other mode (escapeText (code ++ ';' :: desc)) = some ⟨code, desc, none⟩ ∧
    readStatus colon other mode (escapeText code) = some ⟨code, [], none⟩ := by
  have hone : ∀ x : List Char, parseTextList colon other ';' (escapeText x) = some [x] := by
    intro x
    have := (C23_roundtrip_partial [x] (by simp) ';' (Or.inl rfl) colon other).2 (by simp)
    simpa [generateTextList, joinSep] using this
  have htake : ∀ y : List Char, (code ++ ';' :: y).takeWhile (· ≠ ';') = code := by
    intro y
    rw [List.takeWhile_append_of_pos (by intro c hc; simpa using fun he : c = ';' => hs (he ▸ hc))]
    simp
  have hdrop : ∀ y : List Char, (code ++ ';' :: y).dropWhile (· ≠ ';') = ';' :: y := by
    intro y
    rw [List.dropWhile_append_of_pos (by intro c hc; simpa using fun he : c = ';' => hs (he ▸ hc))]
    simp
  constructor
  · unfold readStatus
    rw [hone]
    have hsf : splitFirst (code ++ ';' :: desc) = (code, desc) := by
      unfold splitFirst
      rw [if_pos (by simp), htake, hdrop]
      rfl
    simp [statusParts, hm, hsf, hb]
  · unfold readStatus
    rw [hone]
    simp [statusParts, hm, splitFirst, hs, hb]

/-- C68: of more than three elements only the first three are read.

Missing: descriptions that end in a backslash, `C68_fails`, and the setting RAISE, `C68_fails_raise`. -/
theorem C68_many_partial (colon other mode : PMode) (hm : mode ≠ .raise) (code desc rest : List Char)
    (more : List (List Char)) (hb : '\\' ∉ code) (hr : rest ≠ [])
    (he : ∀ x ∈ (code :: desc :: rest :: more).dropLast, ¬ EndsInBackslash x) :
    readStatus colon other mode (generateTextList ';' (code :: desc :: rest :: more)) =
      some ⟨code, desc, some rest⟩ := by
  unfold readStatus
  rw [(C23_roundtrip_partial (code :: desc :: rest :: more) (by simp) ';' (Or.inl rfl) colon other).2 he]
  cases more with
  | nil => simp [statusParts, hm, hb, hr]
  | cons m ms => simp [statusParts, hm, hb, hr]

example : readStatus .fix .raise .fix "2.0\\;Success".toList =
      some ⟨"2.0".toList, "Success".toList, none⟩ ∧
    escapeText "2.0;Success".toList = "2.0\\;Success".toList := by
  constructor <;> decide +kernel

/-- C68 is false for the default setting too. -/
theorem C68_fails : ∃ r : ReqStatus, r.code = "2.0".toList ∧
    readStatus .fix .raise .fix (writeStatus r) ≠ some r :=
  ⟨⟨"2.0".toList, "Path C:\\".toList, some "x".toList⟩, rfl, by decide +kernel⟩

example : ∃ r : ReqStatus, '\\' ∉ r.code ∧ r.rest ≠ some [] ∧ ¬ EndsInBackslash r.desc ∧
    r.rest = some "DTSTART:96-Apr-01".toList :=
  ⟨⟨"3.1".toList, "Invalid; value".toList, some "DTSTART:96-Apr-01".toList⟩, by decide +kernel,
    by decide +kernel, by decide +kernel, rfl⟩

end PyCal
