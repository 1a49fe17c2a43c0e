import Verif.Model.PropertyNew
import Verif.Props.C81_C82_DateTimeProperty

/-!
# C129: a property made from a value has that value
-/

namespace PyCal
open ValueType NewProp

/-- The value object is the value that was given: the same string or number, the same object, or a list with the same
elements. -/
inductive Holds : Arg → Val → Prop
  | str (t : VType) (s : List Char) : Holds (.str s) (.plain t s)
  | unicode (t : VType) (s : List Char) : Holds (.unicode s) (.plain t s)
  | int (n : Int) : Holds (.int n) (.int n)
  | dateTime (o : Nat) (d : Bool) : Holds (.dateTime o d) (.dateTime o d)
  | duration (o : Nat) : Holds (.duration o) (.duration o)
  | recur (o : Nat) : Holds (.recur o) (.recur o)
  | period (o : Nat) : Holds (.period o) (.period o)
  | dates (o : Nat) (t : VType) (l : List Item) : Holds (.list o l) (.dates t l)
  | periods (o : Nat) (l : List Item) : Holds (.list o l) (.periods l)
  | status (o : Nat) (l : List Item) : Holds (.list o l) (.reqStatus o)
  | orgList (o : Nat) (l : List Item) : Holds (.list o l) (.org o)
  | orgTuple (o : Nat) (l : List Item) : Holds (.tuple o l) (.org o)
  | utcOffset (n : Int) : Holds (.utcOffset n) (.utcOffset n)
  | adr (o : Nat) : Holds (.adr o) (.adr o)
  | name (o : Nat) : Holds (.name o) (.name o)

/-- The types whose values are strings, in Python as in the text. -/
def stringTypes : List VType := [.text, .uri, .calAddress, .binary, .unknown, .boolean, .time, .vcard]

/-- What an iCalendar property can be made from. -/
def IcalArg (d : VType) (valuetype : Option VType) : Arg → Prop
  | .str _ | .unicode _ => chosen valuetype d ∈ stringTypes
  | .int _ | .dateTime _ _ | .duration _ | .recur _ | .period _ | .list _ _ | .utcOffset _ => True
  | .none | .tuple _ _ | .adr _ | .name _ | .other _ => False

/-- What a vCard property can be made from. -/
def VcardArg (d : VType) (valuetype : Option VType) : Arg → Prop
  | .str _ => chosen valuetype d ∈ stringTypes
  | .int _ | .dateTime _ _ | .list _ _ | .tuple _ _ | .utcOffset _ | .adr _ | .name _ => True
  | .none | .unicode _ | .duration _ | .recur _ | .period _ | .other _ => False

theorem textVal_string {t : VType} (h : t ∈ stringTypes) (s : List Char) :
    textVal t s = .plain (if registered t then t else .unknown) s := by
  cases t <;> simp [stringTypes] at h <;> simp [textVal, classOf, Cls.bases]

theorem textVal_other {t : VType} (h : t ∉ stringTypes) (s : List Char) : textVal t s = .fresh t := by
  cases t <;> simp [stringTypes] at h <;> simp [textVal, classOf, Cls.bases]

theorem not_holds_fresh (a : Arg) (t : VType) : ¬ Holds a (.fresh t) := by
  intro h; cases h

theorem holds_textVal {a : Arg} {s : List Char} (ha : a = .str s ∨ a = .unicode s) (t : VType) :
    Holds a (textVal t s) ↔ t ∈ stringTypes := by
  by_cases h : t ∈ stringTypes
  · rw [textVal_string h]
    rcases ha with rfl | rfl
    · exact ⟨fun _ => h, fun _ => .str _ _⟩
    · exact ⟨fun _ => h, fun _ => .unicode _ _⟩
  · rw [textVal_other h]
    exact ⟨fun h' => absurd h' (not_holds_fresh _ _), fun h' => absurd h' h⟩

/-- C129 (partial), iCalendar: of a property that is made, the value is the one that was given exactly if that is a
number, a date-time, duration, rule or period, a list, a UTC offset, or a string and the type asked for (or the default
one of the name) is one of strings.

Needed: the others, which C129 is false for.

Missing: `C129_fails_string`, `C129_fails_none`. -/
theorem C129_ical_partial (T : Tables) (name : String) (a : Arg) (valuetype : Option VType) (p : P)
    (h : makeIcal T name a valuetype = some p) :
    (∃ v, p.value = some v ∧ Holds a v) ↔ IcalArg ((T.defaultOf name).getD .unknown) valuetype a := by
  cases a with
  | none => simp [makeIcal] at h; subst h; simp [IcalArg]
  | str s => simp [makeIcal, withValue] at h; subst h; simp [IcalArg, holds_textVal (Or.inl rfl)]
  | unicode s => simp [makeIcal, withValue] at h; subst h; simp [IcalArg, holds_textVal (Or.inr rfl)]
  | int n => simp [makeIcal, withValue] at h; subst h; simp [IcalArg]; exact .int n
  | dateTime o d => simp [makeIcal, withValue] at h; subst h; simp [IcalArg]; exact .dateTime o d
  | duration o => simp [makeIcal, withValue] at h; subst h; simp [IcalArg]; exact .duration o
  | recur o => simp [makeIcal, withValue] at h; subst h; simp [IcalArg]; exact .recur o
  | period o => simp [makeIcal, withValue] at h; subst h; simp [IcalArg]; exact .period o
  | list o l =>
    simp only [IcalArg, iff_true]
    simp only [makeIcal] at h
    split at h
    · cases h; exact ⟨_, rfl, .status o l⟩
    · split at h
      · cases h; exact ⟨_, rfl, .periods o _⟩
      · unfold dateList at h
        split at h
        · cases h; exact ⟨_, rfl, .dates o _ _⟩
        · cases h; exact ⟨_, rfl, .dates o _ _⟩
        · cases h
  | tuple o l => simp [makeIcal] at h; subst h; simp [IcalArg]
  | utcOffset n => simp [makeIcal, withValue] at h; subst h; simp [IcalArg]; exact .utcOffset n
  | adr o => simp [makeIcal] at h; subst h; simp [IcalArg]
  | name o => simp [makeIcal] at h; subst h; simp [IcalArg]
  | other o => simp [makeIcal] at h; subst h; simp [IcalArg]

/-- C129 (partial), vCard: of a property that is made, the value is the one that was given exactly if that is a
number, a date-time, a UTC offset, an address, a name, the list of an ORG, or a byte string where the type is one of
strings.

Needed: the others, which C129 is false for.

Missing: `C129_fails_string`, `C129_fails_list`, `C129_fails_none`. -/
theorem C129_vcard_partial (T : Tables) (name : String) (a : Arg) (valuetype : Option VType) (p : P)
    (h : makeVcard T name a valuetype = some p) :
    (∃ v, p.value = some v ∧ Holds a v) ↔ VcardArg ((T.defaultOf name).getD .text) valuetype a := by
  cases a with
  | none => simp [makeVcard] at h; subst h; simp [VcardArg]
  | str s => simp [makeVcard, withValue] at h; subst h; simp [VcardArg, holds_textVal (Or.inl rfl)]
  | unicode s => simp [makeVcard] at h; subst h; simp [VcardArg]
  | int n => simp [makeVcard, withValue] at h; subst h; simp [VcardArg]; exact .int n
  | dateTime o d => simp [makeVcard, withValue] at h; subst h; simp [VcardArg]; exact .dateTime o d
  | duration o => simp [makeVcard] at h; subst h; simp [VcardArg]
  | recur o => simp [makeVcard] at h; subst h; simp [VcardArg]
  | period o => simp [makeVcard] at h; subst h; simp [VcardArg]
  | list o l =>
    simp only [makeVcard] at h
    split at h
    · cases h; simp only [VcardArg, iff_true]; exact ⟨_, rfl, .orgList o l⟩
    · cases h
  | tuple o l =>
    simp only [makeVcard] at h
    split at h
    · cases h; simp only [VcardArg, iff_true]; exact ⟨_, rfl, .orgTuple o l⟩
    · cases h
  | utcOffset n => simp [makeVcard, withValue] at h; subst h; simp [VcardArg]; exact .utcOffset n
  | adr o => simp [makeVcard, withValue] at h; subst h; simp [VcardArg]; exact .adr o
  | name o => simp [makeVcard, withValue] at h; subst h; simp [VcardArg]; exact .name o
  | other o => simp [makeVcard] at h; subst h; simp [VcardArg]

/-- C129, exceptions: an iCalendar property is made of everything but a list that does not begin with a date-time or a
period (and then the property is not a REQUEST-STATUS); a vCard property of everything but the lists and tuples of other
properties than ORG. -/
theorem C129_raises (T : Tables) (name : String) (a : Arg) (valuetype : Option VType) :
    (makeIcal T name a valuetype = none ↔
      name ≠ "REQUEST-STATUS" ∧ ∃ o x l, a = .list o (.other x :: l)) ∧
    (makeVcard T name a valuetype = none ↔
      name ≠ "ORG" ∧ ∃ o l, a = .list o l ∨ a = .tuple o l) := by
  constructor
  · cases a with
    | list o l =>
      simp only [makeIcal]
      by_cases hn : name = "REQUEST-STATUS"
      · simp [hn]
      · rw [if_neg hn]
        rcases l with _ | ⟨x, l⟩
        · simp [dateList]
        · cases x <;> simp [dateList, hn]
    | _ => simp [makeIcal]
  · cases a with
    | list o l => simp only [makeVcard]; by_cases hn : name = "ORG" <;> simp [hn]
    | tuple o l => simp only [makeVcard]; by_cases hn : name = "ORG" <;> simp [hn]
    | _ => simp [makeVcard]

/-- The accessors that are meant for a value, by its type. -/
def meant (multi : Bool) : VType → List Accessor
  | .text | .unknown => [.getText]
  | .uri => [.getText, .getURI]
  | .calAddress => [.getText, .getCalAddress]
  | .binary => [.getText, .getBinary]
  | .integer => [.getInteger]
  | .date | .dateTime => [if multi then .getMulti else .getDateTime]
  | .duration => [.getDuration]
  | .recur => [.getRecurrence]
  | .period => [if multi then .getMulti else .getPeriod]
  | .utcOffset => [.getUTCOffset]
  | _ => []

/-- A value that an iCalendar or vCard property has been made with. -/
theorem made_value {T : Tables} {name : String} {a : Arg} {valuetype : Option VType} {p : P} {v : Val}
    (h : makeIcal T name a valuetype = some p ∨ makeVcard T name a valuetype = some p) (hv : p.value = some v)
    (ha : Holds a v) :
    p.pname = name ∧ p.param = writtenValue T name v.type ∧
      (∀ t s, v = .plain t s → t ∈ [VType.text, .uri, .calAddress, .binary, .unknown]) ∧
      (∀ t l, v = .dates t l → t = .date ∨ t = .dateTime) := by
  have hp : ∀ t s, textVal t s = v → ∀ t' s', v = .plain t' s' →
      t' ∈ [VType.text, .uri, .calAddress, .binary, .unknown] := by
    intro t s h1 t' s' h2
    subst h2
    by_cases hs : t ∈ stringTypes
    · rw [textVal_string hs] at h1
      injection h1 with h1 h3
      subst h1
      cases t <;> simp [stringTypes] at hs <;> decide
    · rw [textVal_other hs] at h1; cases h1
  have hq : ∀ t s, textVal t s = v → ∀ t' l, v ≠ .dates t' l := by
    intro t s h1 t' l h2
    subst h2
    by_cases hs : t ∈ stringTypes
    · rw [textVal_string hs] at h1; cases h1
    · rw [textVal_other hs] at h1; cases h1
  rcases h with h | h
  · cases a with
    | list o l =>
      simp only [makeIcal] at h
      split at h
      · cases h; cases hv; exact ⟨rfl, rfl, by simp, by simp⟩
      · split at h
        · cases h; cases hv; exact ⟨rfl, rfl, by simp, by simp⟩
        · unfold dateList at h
          split at h
          · cases h; cases hv; exact ⟨rfl, rfl, by simp, by simp⟩
          · rename_i d _
            cases h; cases hv; exact ⟨rfl, rfl, by simp, by cases d <;> simp⟩
          · cases h
    | str s =>
      simp only [makeIcal, Option.some.injEq] at h; subst h
      simp only [withValue, Option.some.injEq] at hv
      exact ⟨rfl, by rw [← hv]; rfl, hp _ _ hv, fun t l h => absurd h (hq _ _ hv t l)⟩
    | unicode s =>
      simp only [makeIcal, Option.some.injEq] at h; subst h
      simp only [withValue, Option.some.injEq] at hv
      exact ⟨rfl, by rw [← hv]; rfl, hp _ _ hv, fun t l h => absurd h (hq _ _ hv t l)⟩
    | _ =>
      first
        | (simp only [makeIcal, withValue, Option.some.injEq] at h; subst h; cases hv; exact ⟨rfl, rfl, by simp, by simp⟩)
        | (simp only [makeIcal, Option.some.injEq] at h; subst h; cases hv)
  · cases a with
    | list o l =>
      simp only [makeVcard] at h
      split at h
      · cases h; cases hv; exact ⟨rfl, rfl, by simp, by simp⟩
      · cases h
    | tuple o l =>
      simp only [makeVcard] at h
      split at h
      · cases h; cases hv; exact ⟨rfl, rfl, by simp, by simp⟩
      · cases h
    | str s =>
      simp only [makeVcard, Option.some.injEq] at h; subst h
      simp only [withValue, Option.some.injEq] at hv
      exact ⟨rfl, by rw [← hv]; rfl, hp _ _ hv, fun t l h => absurd h (hq _ _ hv t l)⟩
    | _ =>
      first
        | (simp only [makeVcard, withValue, Option.some.injEq] at h; subst h; cases hv
           exact ⟨rfl, rfl, by simp, by simp⟩)
        | (simp only [makeVcard, Option.some.injEq] at h; subst h; cases hv)

/-- C129, accessors: if the value of the property is the one that was given, it is what the accessors of its type give
(for a list of date-times or periods the accessor of lists; for a URI, an address and binary data that of texts too),
and the other accessors give `None`. -/
theorem C129_accessors {T : Tables} {name : String} {a : Arg} {valuetype : Option VType} {p : P} {v : Val}
    (h : makeIcal T name a valuetype = some p ∨ makeVcard T name a valuetype = some p) (hv : p.value = some v)
    (ha : Holds a v) (acc : Accessor) :
    p.get acc = if acc ∈ meant (match a with | .list _ _ => true | _ => false) v.type then some v else none := by
  obtain ⟨-, -, h1, h2⟩ := made_value h hv ha
  unfold P.get
  rw [hv]
  dsimp only
  cases ha with
  | str t s =>
    have := h1 t s rfl
    simp only [List.mem_cons, List.not_mem_nil, or_false] at this
    rcases this with rfl | rfl | rfl | rfl | rfl <;> cases acc <;> rfl
  | unicode t s =>
    have := h1 t s rfl
    simp only [List.mem_cons, List.not_mem_nil, or_false] at this
    rcases this with rfl | rfl | rfl | rfl | rfl <;> cases acc <;> rfl
  | dateTime o d => cases d <;> cases acc <;> rfl
  | dates o t l =>
    rcases h2 t l rfl with rfl | rfl <;> cases acc <;> rfl
  | _ => cases acc <;> rfl

/-- The tables of iCalendar and vCard name the types of the values that are given, but for some. -/
theorem named_types : ∀ t ∈ [VType.text, .uri, .calAddress, .binary, .integer, .date, .dateTime, .duration, .recur,
    .period, .utcOffset], ∃ w, ValueType.ical.nameOf.lookup t = some w ∧ ValueType.ical.byName.lookup w = some t := by
  intro t ht
  simp only [List.mem_cons, List.not_mem_nil, or_false] at ht
  rcases ht with rfl | rfl | rfl | rfl | rfl | rfl | rfl | rfl | rfl | rfl | rfl
  · exact ⟨"TEXT", by decide +kernel, by decide +kernel⟩
  · exact ⟨"URI", by decide +kernel, by decide +kernel⟩
  · exact ⟨"CAL-ADDRESS", by decide +kernel, by decide +kernel⟩
  · exact ⟨"BINARY", by decide +kernel, by decide +kernel⟩
  · exact ⟨"INTEGER", by decide +kernel, by decide +kernel⟩
  · exact ⟨"DATE", by decide +kernel, by decide +kernel⟩
  · exact ⟨"DATE-TIME", by decide +kernel, by decide +kernel⟩
  · exact ⟨"DURATION", by decide +kernel, by decide +kernel⟩
  · exact ⟨"RECUR", by decide +kernel, by decide +kernel⟩
  · exact ⟨"PERIOD", by decide +kernel, by decide +kernel⟩
  · exact ⟨"UTC-OFFSET", by decide +kernel, by decide +kernel⟩

theorem program_special {S T : Tables} (hT : Program S T) : T.special = S.special ∧ T.multi = S.multi := by
  induction hT with
  | base => exact ⟨rfl, rfl⟩
  | register name t al _ _ ih => exact ih

/-- C129, type: the VALUE parameter that an iCalendar property gets with its value lets the type be found again when
the property is read, whatever the name, unless the name is GEO or REQUEST-STATUS, or it has no default type and the
value is a text (asked for as such), or the value has no known type and the name has. -/
theorem C129_type {T : Tables} (hT : Program ValueType.ical T) {name : String} {a : Arg}
    {valuetype : Option VType} {p : P} {v : Val} (h : makeIcal T name a valuetype = some p) (hv : p.value = some v)
    (ha : Holds a v) (hs : name ≠ "GEO" ∧ name ≠ "REQUEST-STATUS")
    (h1 : T.defaultOf name = none → v.type ≠ .text)
    (h2 : v.type = .unknown → (T.defaultOf name).getD .unknown = .unknown) :
    determine T name p.param = v.type := by
  obtain ⟨-, hp, h3, h4⟩ := made_value (Or.inl h) hv ha
  obtain ⟨hb, hn⟩ := program_tables hT
  have hsp : T.special.lookup name = none := by
    rw [(program_special hT).1]
    simp [ValueType.ical, hs.1, hs.2]
  rw [hp]
  have hstat : ∀ o, v ≠ .reqStatus o := by
    rintro o rfl
    cases ha with
    | status o l =>
      simp only [makeIcal] at h
      rw [if_neg hs.2] at h
      split at h
      · cases h; cases hv
      · unfold dateList at h
        split at h
        · cases h; cases hv
        · cases h; cases hv
        · cases h
  have horg : ∀ o, v ≠ .org o := by
    rintro o rfl
    cases ha with
    | orgList o l =>
      simp only [makeIcal] at h
      rw [if_neg hs.2] at h
      split at h
      · cases h; cases hv
      · unfold dateList at h
        split at h
        · cases h; cases hv
        · cases h; cases hv
        · cases h
    | orgTuple o l => simp [makeIcal] at h; subst h; cases hv
  have hmem : v.type = .unknown ∨ v.type ∈ [VType.text, .uri, .calAddress, .binary, .integer, .date, .dateTime,
      .duration, .recur, .period, .utcOffset] := by
    cases ha with
    | str t s =>
      have := h3 t s rfl
      simp only [List.mem_cons, List.not_mem_nil, or_false] at this
      rcases this with rfl | rfl | rfl | rfl | rfl <;> simp [Val.type]
    | unicode t s =>
      have := h3 t s rfl
      simp only [List.mem_cons, List.not_mem_nil, or_false] at this
      rcases this with rfl | rfl | rfl | rfl | rfl <;> simp [Val.type]
    | dateTime o d => cases d <;> simp [Val.type]
    | dates o t l => rcases h4 t l rfl with rfl | rfl <;> simp [Val.type]
    | status o l => exact absurd rfl (hstat o)
    | orgList o l => exact absurd rfl (horg o)
    | orgTuple o l => exact absurd rfl (horg o)
    | adr o => simp [makeIcal] at h; subst h; cases hv
    | name o => simp [makeIcal] at h; subst h; cases hv
    | _ => simp [Val.type]
  rw [determine_of_none hsp, writtenValue_plain hsp]
  rcases hmem with hu | hm
  · rw [hu, hn]
    have : ValueType.ical.nameOf.lookup .unknown = none := by decide +kernel
    rw [this]
    simp [Tables.asked, h2 hu]
  · obtain ⟨w, hw1, hw2⟩ := named_types _ hm
    rw [hn, hw1]
    split
    · have : T.defaultOf name ≠ none ∨ v.type ≠ .text := by
        by_cases hd : T.defaultOf name = none
        · exact Or.inr (h1 hd)
        · exact Or.inl hd
      simp [this, Tables.asked, hb, hw2]
    · rename_i hx
      simp only [not_or, ne_eq, not_not] at hx
      simp [Tables.asked, hx.2.1]

/-- The type that a value other than a string has in a text. -/
def argType : Arg → Option VType
  | .int _ => some .integer
  | .dateTime _ dateOnly => some (if dateOnly then .date else .dateTime)
  | .duration _ => some .duration
  | .recur _ => some .recur
  | .period _ => some .period
  | .utcOffset _ => some .utcOffset
  | .list _ [] => some .dateTime
  | .list _ (.dateTime _ dateOnly :: _) => some (if dateOnly then .date else .dateTime)
  | .list _ (.period _ :: _) => some .period
  | _ => none

/-- C129, type, for values that are not strings: read again, the property has the type of what it was made with. -/
theorem C129_kinds {T : Tables} (hT : Program ValueType.ical T) {name : String} {a : Arg}
    {valuetype : Option VType} {p : P} {t : VType} (h : makeIcal T name a valuetype = some p)
    (hs : name ≠ "GEO" ∧ name ≠ "REQUEST-STATUS") (ht : argType a = some t) :
    determine T name p.param = t := by
  have key : ∀ v, p.value = some v → Holds a v → v.type = t → t ≠ .text → t ≠ .unknown →
      determine T name p.param = t := by
    intro v hv ha hvt h1 h2
    rw [← hvt]
    exact C129_type hT h hv ha hs (fun _ => by rw [hvt]; exact h1) (fun e => by rw [hvt] at e; exact absurd e h2)
  cases a with
  | int n => cases ht; cases h; exact key _ rfl (.int n) rfl (by decide) (by decide)
  | dateTime o d =>
    cases ht; cases h
    exact key _ rfl (.dateTime o d) rfl (by cases d <;> decide) (by cases d <;> decide)
  | duration o => cases ht; cases h; exact key _ rfl (.duration o) rfl (by decide) (by decide)
  | recur o => cases ht; cases h; exact key _ rfl (.recur o) rfl (by decide) (by decide)
  | period o => cases ht; cases h; exact key _ rfl (.period o) rfl (by decide) (by decide)
  | utcOffset n => cases ht; cases h; exact key _ rfl (.utcOffset n) rfl (by decide) (by decide)
  | list o l =>
    simp only [makeIcal] at h
    rw [if_neg hs.2] at h
    rcases l with _ | ⟨x, l⟩
    · cases ht; cases h; exact key _ rfl (.dates o _ _) rfl (by decide) (by decide)
    · cases x with
      | dateTime o' d =>
        cases ht; cases h
        exact key _ rfl (.dates o _ _) rfl (by cases d <;> decide) (by cases d <;> decide)
      | period o' => cases ht; cases h; exact key _ rfl (.periods o _) rfl (by decide) (by decide)
      | other o' => cases ht
  | _ => cases ht

/-- An EXDATE made with a list of dates is read again as one. -/
example : ∃ p, makeIcal ValueType.ical "EXDATE" (.list 0 [.dateTime 1 true, .dateTime 2 true]) none = some p ∧
    p.param = some "DATE" ∧ argType (.list 0 [.dateTime 1 true, .dateTime 2 true]) = some .date :=
  ⟨_, rfl, by decide +kernel, rfl⟩

/-- C129 fails: a property whose name has a default type that is not one of strings, made with a string, has a value
that does not depend on the string; so with a DTSTART, a GEO, a PRIORITY or a TRIGGER. -/
theorem C129_fails_string (T : Tables) (name : String) (d : VType) (hd : T.defaultOf name = some d)
    (hs : d ∉ stringTypes) (s : List Char) :
    makeIcal T name (.str s) none = makeIcal T name (.str []) none ∧
      makeVcard T name (.str s) none = makeVcard T name (.str []) none := by
  simp only [makeIcal, makeVcard, chosen, hd, Option.getD_some, textVal_other hs, and_self]

/-- C129 fails: no vCard property can be made with a list of texts, though CATEGORIES and NICKNAME are lists of texts:
`AttributeError`. -/
theorem C129_fails_list (T : Tables) (name : String) (hn : name ≠ "ORG") (o : Nat) (l : List Item)
    (valuetype : Option VType) : makeVcard T name (.list o l) valuetype = none := by
  simp [makeVcard, hn]

/-- C129 fails: a vCard property made with a unicode string has no value; an iCalendar one made with a tuple, a `long`
or a `float` neither.  It is written without a value and cannot be copied. -/
theorem C129_fails_none (T : Tables) (name : String) (s : List Char) (o : Nat) (l : List Item)
    (valuetype : Option VType) :
    (∃ p, makeVcard T name (.unicode s) valuetype = some p ∧ p.copies = false) ∧
    (∃ p, makeIcal T name (.tuple o l) valuetype = some p ∧ p.copies = false) ∧
    (∃ p, makeIcal T name (.other o) valuetype = some p ∧ p.copies = false) :=
  ⟨⟨_, rfl, rfl⟩, ⟨_, rfl, rfl⟩, ⟨_, rfl, rfl⟩⟩

/-- C129, copies: what can be copied is what has a value, and that is every property made with a value that is kept. -/
theorem C129_copies {T : Tables} {name : String} {a : Arg} {valuetype : Option VType} {p : P}
    (h : makeIcal T name a valuetype = some p)
    (ha : IcalArg ((T.defaultOf name).getD .unknown) valuetype a) : p.copies = true := by
  obtain ⟨v, hv, -⟩ := (C129_ical_partial T name a valuetype p h).2 ha
  simp [P.copies, hv]

/-- C129 fails: a number given to GEO or REQUEST-STATUS is written without VALUE, so that it is read as something
else. -/
theorem C129_fails_special : ∃ p, makeIcal ValueType.ical "GEO" (.int 5) none = some p ∧
    determine ValueType.ical "GEO" p.param = .geo ∧ p.value = some (.int 5) :=
  ⟨_, rfl, by decide +kernel, rfl⟩

/-- The hypotheses of `C129_accessors` and `C129_type` hold of PRIORITY with a text. -/
example : ∃ p v, makeIcal ValueType.ical "PRIORITY" (.str "high".toList) (some .text) = some p ∧ p.value = some v ∧
    Holds (.str "high".toList) v ∧ v.type = .text ∧ p.param = some "TEXT" ∧ p.get .getText = some v ∧
    p.get .getInteger = none :=
  ⟨_, _, rfl, rfl, .str _ _, rfl, by decide +kernel, rfl, rfl⟩

/-- ... and of RDATE with a list of two dates. -/
example : ∃ p v, makeIcal ValueType.ical "RDATE" (.list 3 [.dateTime 1 true, .dateTime 2 true]) none = some p ∧
    p.value = some v ∧ Holds (.list 3 [.dateTime 1 true, .dateTime 2 true]) v ∧ p.param = some "DATE" ∧
    p.get .getMulti = some v ∧ p.get .getDateTime = none :=
  ⟨_, _, rfl, rfl, .dates _ _ _, by decide +kernel, rfl, rfl⟩

end PyCal
