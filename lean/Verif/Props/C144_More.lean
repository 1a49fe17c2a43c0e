import Verif.Spec.TypedLine
import Verif.Props.C144_Periods
import Verif.Props.C64_C68_Values
import Verif.Props.C114_Numbers
import Verif.Props.C138_ZoneText
import Verif.Props.C141_WrittenText

/-!
# C144: lists of texts, and properties without a type
-/

namespace PyCal
open DateTime Spec Spec.EventText Spec.CalendarText EventRead CalendarRead Rewrite

namespace L144
open L132 L137 ValueType PropText

/-! ## Lists of texts -/

theorem denotes_comma {s v : List Char} (h : Denotes s v) (hs : ',' ∉ s) : ',' ∉ v := by
  induction h with
  | nil => simp
  | plain c _ _ ih =>
    simp only [List.mem_cons, not_or] at hs ⊢
    exact ⟨hs.1, ih hs.2⟩
  | break_ c _ _ ih =>
    simp only [List.mem_cons, not_or] at hs ⊢
    exact ⟨by decide, ih hs.2.2⟩
  | return_ _ ih =>
    simp only [List.mem_cons, not_or] at hs ⊢
    exact ⟨by decide, ih hs.2.2⟩
  | literal c _ _ ih =>
    simp only [List.mem_cons, not_or] at hs ⊢
    exact ⟨hs.2.1, ih hs.2.2⟩

theorem escape_comma {v : List Char} (h : ',' ∉ v) : ',' ∉ escapeText v := by
  induction v with
  | nil => rw [escapeText_nil]; simp
  | cons c v ih =>
    simp only [List.mem_cons, not_or] at h
    rw [escapeText_cons]
    split
    · have hl : escapeLetter c ≠ ',' := by
        unfold escapeLetter
        repeat' split
        all_goals first | decide | exact fun hc => h.1 hc.symm
      simp only [List.cons_append, List.nil_append, List.mem_cons, List.not_mem_nil, not_or]
      exact ⟨by decide, hl.symm, ih h.2⟩
    · simp only [List.cons_append, List.nil_append, List.mem_cons, List.not_mem_nil, not_or]
      exact ⟨h.1, ih h.2⟩

theorem item_again {e : Env} {w : Writer} {tz : Option TzId} {s v : List Char} (h : TextItem s v) :
    TextItem (itemText e w .text tz s) v := by
  unfold itemText
  rw [if_neg (by simp), if_neg (by simp), if_pos rfl, C20_decode_rfc _ _ h.1]
  exact ⟨L142.denotes_escape v, escape_comma (denotes_comma h.1 h.2)⟩

theorem texts_sep {e : Env} {w : Writer} {tz : Option TzId} {s : List Char} {vs : List (List Char)} (h : Recur.Sep ',' TextItem s vs) :
    Recur.Sep ',' TextItem (joinSep ',' ((splitOn ',' s).map (itemText e w .text tz))) vs := by
  induction h with
  | one h =>
    rw [splitOn_free h.2]
    exact .one (item_again h)
  | @more s p r l h _ ih =>
    rw [splitOn_append h.2, List.map_cons]
    cases hs : splitOn ',' r with
    | nil => exact absurd hs (splitOn_ne_nil _ _)
    | cons a b =>
      rw [hs] at ih
      rw [List.map_cons] at ih ⊢
      rw [joinSep]
      exact .more (item_again h) ih

/-- What is made of the value of a property with texts. -/
theorem create_texts {e : Env} (hT : Program ical e.tables) {name : List Char} {ps : List Param} {key : String}
    (hk : key ∈ ["CATEGORIES", "RESOURCES"]) (hn : upper name = key.toList)
    (hv : (paramValue ps "VALUE").map String.ofList = none ∨ (paramValue ps "VALUE").map String.ofList = some "TEXT") {s : List Char}
    {vs : List (List Char)} (hs : Recur.Sep ',' TextItem s vs) : createValue e name ps (some s) = some (.multi (vs.map .text)) := by
  have hkey : String.ofList (upper name) = key := by rw [hn, String.ofList_toList]
  have hall : ∀ k ∈ (["CATEGORIES", "RESOURCES"] : List String), (ical.defaultOf k).isSome ∧ determine ical k none = .text ∧
      determine ical k (some "TEXT") = .text ∧ k ∈ ical.multi := by decide +kernel
  obtain ⟨k1, k2, k3, k4⟩ := hall key hk
  have hdet : determine e.tables key ((paramValue ps "VALUE").map String.ofList) = .text := by
    rw [determine_keeps hT k1]
    rcases hv with h | h <;> rw [h] <;> assumption
  have hsplit := hs.split (fun _ _ h => h.2)
  have hmap : (splitOn ',' s).mapM (parseItem e .text) = some (vs.map RecurLoad.Item.text) := by
    generalize splitOn ',' s = ss at hsplit
    clear hs
    induction hsplit with
    | nil => rfl
    | @cons s t ss ts h1 _ ih =>
      rw [List.mapM_cons, parseItem, if_neg (by simp), if_neg (by simp), if_pos rfl, C20_decode_rfc _ _ h1.1, ih]
      rfl
  unfold createValue
  dsimp only
  rw [hkey, hdet, (program_keeps hT).2.2.1, if_pos k4, hmap]
  simp only [reduceCtorEq, or_self, if_false, Option.map_some, List.map_map]
  rfl

theorem texts_again {e : Env} (hT : Program ical e.tables) {w : Writer} {l : ContentLine} (ha : l.Allowed false)
    (hr : ∀ p ∈ l.params, ∀ v ∈ p.values, v.Readable) (hf : LineFits l) {key : String} (hk : key ∈ ["CATEGORIES", "RESOURCES"])
    (hn : upper l.name = key.toList) (hp : SaysType l "TEXT") {vs : List (List Char)} (ht : Recur.Sep ',' TextItem l.value vs) :
    Again e w l (· = .multi (vs.map .text)) := by
  have hkey : String.ofList (upper l.name) = key := by rw [hn, String.ofList_toList]
  have hall : ∀ k ∈ (["CATEGORIES", "RESOURCES"] : List String), (ical.defaultOf k).isSome ∧ determine ical k none = .text ∧
      determine ical k (some "TEXT") = .text ∧ k ∈ ical.multi ∧
      (writtenValue { ical with always := [k] } k .text = none ∨ writtenValue { ical with always := [k] } k .text = some "TEXT") ∧
      (writtenValue { ical with always := [] } k .text = none ∨ writtenValue { ical with always := [] } k .text = some "TEXT") := by
    decide +kernel
  obtain ⟨k1, k2, k3, k4, k5, k6⟩ := hall key hk
  have hval : (paramValue (l.params.map ShownParam.meaning) "VALUE").map String.ofList = none ∨
      (paramValue (l.params.map ShownParam.meaning) "VALUE").map String.ofList = some "TEXT" := by
    obtain ⟨v, hv, hvv⟩ := hp
    rw [paramValue_of hv]
    rcases hvv with rfl | rfl
    · exact .inl rfl
    · exact .inr rfl
  have hdet : determine e.tables key ((paramValue (l.params.map ShownParam.meaning) "VALUE").map String.ofList) = .text := by
    rw [determine_keeps hT k1]
    rcases hval with h | h <;> rw [h] <;> assumption
  have hc := create_texts hT hk hn hval ht
  have hv : valueOfParam e l (.multi (vs.map .text)) = writtenValue e.tables key .text := by
    unfold valueOfParam
    dsimp only
    rw [hkey, hdet, valueType, (program_keeps hT).2.2.1, if_pos k4]
  have hw : writtenValue e.tables key .text = none ∨ writtenValue e.tables key .text = some "TEXT" := by
    rw [written_keeps ical_coherent hT k1]
    by_cases hal : key ∈ e.tables.always
    · rw [if_pos hal]; exact k5
    · rw [if_neg hal]; exact k6
  obtain ⟨text, ps, r1, r2, r3, r4, r5, r6⟩ := reread (w := w) ha hr hf hc (by
    rw [hv]
    intro x hx
    rcases hw with h | h <;> rw [h] at hx <;> cases hx
    decide +kernel)
  refine ⟨_, text, ps, _, line_created ha hr hc, r1, r2, ?_, .inl rfl, rfl, r6, by
    unfold typeOf
    rw [r4, hv, hkey, hdet, determine_keeps hT k1]
    rcases hw with h | h <;> rw [h] <;> assumption⟩
  have htext : ∃ tz, textOf e w l (.multi (vs.map .text)) = joinSep ',' ((splitOn ',' l.value).map (itemText e w .text tz)) := by
    unfold textOf valueText
    dsimp only
    rw [hkey, hdet, Option.getD_some]
    exact ⟨_, rfl⟩
  obtain ⟨tz, htext⟩ := htext
  rw [r3, htext, create_texts hT hk hn (by rw [r4, hv]; exact hw) (texts_sep (e := e) (w := w) (tz := tz) ht)]
  rfl

/-! ## Properties without a type -/

theorem extra_again {e : Env} (hT : Program ical e.tables) {w : Writer} {l : ContentLine} (ha : l.Allowed false)
    (hr : ∀ p ∈ l.params, ∀ v ∈ p.values, v.Readable) (hf : LineFits l) (hn : e.tables.defaultOf (String.ofList (upper l.name)) = none)
    (hp : HasParam l "VALUE".toList none) : Again e w l (· = .text l.value) := by
  generalize hkey : String.ofList (upper l.name) = key at hn
  obtain ⟨h1, h2, h3, h4⟩ := program_keeps hT
  have hm : key ∉ e.tables.multi := by
    rw [h3]
    intro hk
    have : ∀ k ∈ ical.multi, (ical.defaultOf k).isSome := by decide +kernel
    obtain ⟨d, hd⟩ := Option.isSome_iff_exists.mp (this key hk)
    rw [h4 key d hd] at hn
    cases hn
  have hs : e.tables.special.lookup key = none := by
    rw [h2]
    cases hk : ical.special.lookup key with
    | none => rfl
    | some s =>
      obtain ⟨d, hd⟩ := Option.isSome_iff_exists.mp (ical_coherent.special key s hk).2.2
      rw [h4 key d hd] at hn
      cases hn
  have hdet : determine e.tables key none = .unknown := by
    unfold determine Tables.asked
    rw [hs, hn]
    rfl
  have hwr : writtenValue e.tables key .unknown = none := by
    unfold writtenValue
    rw [hs, hn]
    simp [(program_coherent ical_coherent hT).1.unknown]
  have hcreate : ∀ ps, paramValue ps "VALUE" = none → createValue e l.name ps (some l.value) = some (.text l.value) := by
    intro ps h
    unfold createValue
    dsimp only
    rw [hkey, h, Option.map_none, hdet, if_neg hm, if_neg (by simp), if_neg (by simp), if_neg (by simp), if_neg (by simp), if_pos (by simp)]
  have hval := paramValue_of hp
  have hc := hcreate _ hval
  have hv : valueOfParam e l (.text l.value) = none := by
    unfold valueOfParam
    dsimp only
    rw [hkey, hval, Option.map_none, hdet, valueType, if_neg hm, ← hwr]
    rfl
  obtain ⟨text, ps, r1, r2, r3, r4, r5, r6⟩ := reread (w := w) ha hr hf hc (by
    rw [hv]
    intro x hx
    cases hx)
  refine ⟨_, text, ps, _, line_created ha hr hc, r1, r2, ?_, .inl rfl, rfl, r6, by
    unfold typeOf
    rw [r4, hv, hval]
    rfl⟩
  have htext : textOf e w l (.text l.value) = l.value := by
    unfold textOf valueText
    dsimp only
    rw [hkey, hval, Option.map_none, hdet, if_neg (by simp), if_neg (by simp)]
  rw [r3, htext, hcreate ps (by
    rw [hv] at r4
    cases h : paramValue ps "VALUE" with
    | none => rfl
    | some x => rw [h] at r4; cases r4)]
  rfl

/-! ## Numbers and offsets -/

theorem number_again {e : Env} (hT : Program ical e.tables) {w : Writer} {l : ContentLine} (ha : l.Allowed false)
    (hr : ∀ p ∈ l.params, ∀ v ∈ p.values, v.Readable) (hf : LineFits l) {key : String}
    (hkk : key ∈ ["PERCENT-COMPLETE", "PRIORITY", "REPEAT", "SEQUENCE"]) (hn : upper l.name = key.toList) (hp : SaysType l "INTEGER") {n : Int}
    (h : Recur.Number l.value n) : Again e w l (· = .int n) := by
  obtain ⟨h1, -, h3⟩ := C114_integer h
  refine simple_again hT ha hr hf (key := key) (nm := "INTEGER") (ty := .integer)
    (by clear hn; revert key; decide +kernel) hn hp (f := fun s => (Num.parseInteger s).map .int)
    (fun ps s h => ?_) (v := .int n) (by rw [h1]; rfl) (s := Num.writeInteger n) (fun tz => rfl) (v' := .int n) (by rw [h3]; rfl) rfl rfl (.inl rfl)
  have hkey : String.ofList (upper l.name) = key := by rw [hn, String.ofList_toList]
  have hm : key ∉ ical.multi := by clear hn hkey; revert key; decide +kernel
  unfold createValue
  dsimp only
  rw [h, (program_keeps hT).2.2.1, hkey, if_neg hm, if_neg (by simp), if_neg (by simp), if_neg (by simp), if_neg (by simp),
    if_neg (by simp), if_pos rfl]

theorem offset_again {e : Env} (hT : Program ical e.tables) {w : Writer} {l : ContentLine} (ha : l.Allowed false)
    (hr : ∀ p ∈ l.params, ∀ v ∈ p.values, v.Readable) (hf : LineFits l) {key : String}
    (hkk : key ∈ ["TZOFFSETFROM", "TZOFFSETTO"]) (hn : upper l.name = key.toList) {n : Int}
    (h : ZoneText.OffsetLine l n) : Again e w l (· = .offset n) := by
  have h1 := L138.offset_parse h.2
  have h3 := L138.offset_parse ((C141_offset n).mpr (L141.offset_bound h.2))
  refine simple_again hT ha hr hf (key := key) (nm := "UTC-OFFSET") (ty := .utcOffset)
    (by clear hn; revert key; decide +kernel) hn h.1 (f := fun s => (utcOffsetParse false s).map .offset)
    (fun ps s h => ?_) (v := .offset n) (by rw [h1]; rfl) (s := utcOffsetGenerate false n) (fun tz => rfl) (v' := .offset n) (by rw [h3]; rfl) rfl rfl (.inl rfl)
  have hkey : String.ofList (upper l.name) = key := by rw [hn, String.ofList_toList]
  have hm : key ∉ ical.multi := by clear hn hkey; revert key; decide +kernel
  unfold createValue
  dsimp only
  rw [h, (program_keeps hT).2.2.1, hkey, if_neg hm, if_neg (by simp), if_neg (by simp), if_neg (by simp), if_neg (by simp),
    if_neg (by simp), if_neg (by simp), if_pos rfl]

/-! ## Triggers at a time -/

theorem at_again {e : Env} (hT : Program ical e.tables) {w : Writer} {l : ContentLine} (ha : l.Allowed false)
    (hr : ∀ p ∈ l.params, ∀ v ∈ p.values, v.Readable) (hf : LineFits l) (hn : upper l.name = "TRIGGER".toList)
    (hp : HasParam l "VALUE".toList (some "DATE-TIME".toList)) (hz : HasParam l "TZID".toList none) {t : DateTime}
    (ht : DateTimeText l.value t) (hd : t.dateOnly = false) : Again e w l (· = .date t) := by
  have hkey : String.ofList (upper l.name) = "TRIGGER" := by rw [hn]; rfl
  have hdet : determine e.tables "TRIGGER" (some "DATE-TIME") = .dateTime := by
    rw [determine_keeps hT (by decide +kernel)]
    decide +kernel
  have hwr : writtenValue e.tables "TRIGGER" .dateTime = some "DATE-TIME" := by
    rw [written_keeps ical_coherent hT (by decide +kernel)]
    by_cases hal : "TRIGGER" ∈ e.tables.always
    · rw [if_pos hal]; clear hal; decide +kernel
    · rw [if_neg hal]; clear hal; decide +kernel
  have hcreate : ∀ ps, (paramValue ps "VALUE").map String.ofList = some "DATE-TIME" → paramValue ps "TZID" = none →
      createValue e l.name ps (some l.value) = some (.date t) := by
    intro ps h1 h2
    unfold createValue
    dsimp only
    rw [hkey, h1, hdet, h2, (program_keeps hT).2.2.1, if_neg (by decide +kernel : "TRIGGER" ∉ ical.multi),
      if_pos (.inr rfl : VType.dateTime = .date ∨ VType.dateTime = .dateTime), text_parse ht e.sr]
    simp [setZone]
  have hval : (paramValue (l.params.map ShownParam.meaning) "VALUE").map String.ofList = some "DATE-TIME" := by
    rw [paramValue_of hp]; rfl
  have hc := hcreate _ hval (paramValue_of hz)
  have hv : valueOfParam e l (.date t) = some "DATE-TIME" := by
    unfold valueOfParam
    dsimp only
    rw [hkey, hval, hdet, valueType, (program_keeps hT).2.2.1, if_neg (by decide +kernel), ← hwr]
    show writtenValue e.tables "TRIGGER" (madeType t.dateOnly .dateTime) = _
    rw [hd]
    rfl
  obtain ⟨text, ps, r1, r2, r3, r4, r5, r6⟩ := reread (w := w) ha hr hf hc (by
    rw [hv]
    intro x hx
    cases hx
    decide +kernel)
  refine ⟨_, text, ps, _, line_created ha hr hc, r1, r2, ?_, .inl rfl, rfl, r6, by
    unfold typeOf
    rw [r4, hv, hval]⟩
  have htext : textOf e w l (.date t) = l.value := by
    unfold textOf valueText
    dsimp only
    exact getText_in none ht
  rw [r3, htext, hcreate ps (by rw [r4, hv]) (r5 none hz)]
  rfl

end L144
end PyCal
