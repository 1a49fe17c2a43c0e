import Verif.Model.EventRead
import Verif.Spec.EventText
import Verif.Props.C131_ContentLine
import Verif.Props.C123_RecurLoad
import Verif.Props.C81_C82_DateTimeProperty
import Verif.Props.C44_C45_RuleText
import Verif.Props.C35_Ends
import Verif.Props.C130_StandardTypes

/-!
# C132: an event recurs as its text says
-/

namespace PyCal
open DateTime (TzEnv)
open Spec Spec.EventText EventRead

namespace L132

/-! ## Dates -/

theorem fixed_one {s : List Char} {n : Nat} (h : Fixed 1 s n) : ∃ j, j < 10 ∧ s = [Char.ofNat (48 + j)] ∧ n = j := by
  obtain ⟨h, hl⟩ := h
  cases h with
  | one j hj => exact ⟨_, hj, rfl, rfl⟩
  | snoc k n hk s h =>
    have := h.ne_nil
    simp only [List.length_append, List.length_cons, List.length_nil] at hl
    have : s = [] := List.length_eq_zero_iff.mp (by omega)
    contradiction

theorem fixed_succ {k : Nat} {s : List Char} {n : Nat} (h : Fixed (k + 2) s n) :
    ∃ s' n' j, Fixed (k + 1) s' n' ∧ j < 10 ∧ s = s' ++ [Char.ofNat (48 + j)] ∧ n = 10 * n' + j := by
  obtain ⟨h, hl⟩ := h
  cases h with
  | one k hk => simp at hl
  | snoc j n hj s h =>
    refine ⟨s, n, j, ⟨h, ?_⟩, hj, rfl, rfl⟩
    simpa using hl

theorem fixed_two {s : List Char} {n : Nat} (h : Fixed 2 s n) : s = padInt 2 n ∧ n < 100 := by
  obtain ⟨s', n', j, h', hj, rfl, rfl⟩ := fixed_succ h
  obtain ⟨i, hi, rfl, rfl⟩ := fixed_one h'
  refine ⟨?_, by omega⟩
  rw [padInt2 (by omega) (by omega)]
  simp only [d2, digitChar, Int.toNat_natCast, List.cons_append, List.nil_append, List.cons.injEq, and_true]
  constructor
  · congr 1; omega
  · congr 1; omega

theorem fixed_four {s : List Char} {n : Nat} (h : Fixed 4 s n) : s = padInt 4 n ∧ n < 10000 := by
  obtain ⟨s1, n1, j1, h1, hj1, rfl, rfl⟩ := fixed_succ h
  obtain ⟨s2, n2, j2, h2, hj2, rfl, rfl⟩ := fixed_succ h1
  obtain ⟨s3, n3, j3, h3, hj3, rfl, rfl⟩ := fixed_succ h2
  obtain ⟨i, hi, rfl, rfl⟩ := fixed_one h3
  refine ⟨?_, by omega⟩
  rw [padInt4 (by omega) (by omega)]
  simp only [d4, digitChar, Int.toNat_natCast, List.cons_append, List.nil_append, List.cons.injEq, and_true]
  refine ⟨?_, ?_, ?_, ?_⟩ <;> congr 1 <;> omega

theorem dateTimeText_until {s : List Char} {t : DateTime} (h : DateTimeText s t) : UntilText s t := by
  cases h with
  | date ha hb hc hv =>
    obtain ⟨rfl, hy⟩ := fixed_four ha
    obtain ⟨rfl, _⟩ := fixed_two hb
    obtain ⟨rfl, _⟩ := fixed_two hc
    refine ⟨?_, ⟨⟨hv, by simp [DateTime.civil]⟩, by simp⟩, ⟨by simp, by simp only; omega⟩, by simp, rfl⟩
    simp [DateTime.getText, DateTime.dateText]
  | time utc ha hb hc hh hm hs hv =>
    obtain ⟨rfl, hy⟩ := fixed_four ha
    obtain ⟨rfl, _⟩ := fixed_two hb
    obtain ⟨rfl, _⟩ := fixed_two hc
    obtain ⟨rfl, _⟩ := fixed_two hh
    obtain ⟨rfl, _⟩ := fixed_two hm
    obtain ⟨rfl, _⟩ := fixed_two hs
    refine ⟨?_, ⟨hv, by simp⟩, ⟨by simp, by simp only; omega⟩, by simp, rfl⟩
    cases utc <;> simp [DateTime.getText, DateTime.dateText, DateTime.timeText, DateTime.zoneText]

theorem partText_mono {D E : List Char → DateTime → Prop} (h : ∀ s t, D s t → E s t) {s : List Char} {p : Recur.Part}
    (hp : Recur.PartText D s p) : Recur.PartText E s p := by
  cases hp with
  | freq h => exact .freq h
  | upto h' => exact .upto (h _ _ h')
  | count h h' => exact .count h h'
  | interval h h' => exact .interval h h'
  | num h h' => exact .num h h'
  | byDay h h' => exact .byDay h h'
  | wkst h => exact .wkst h

theorem ruleText_mono {D E : List Char → DateTime → Prop} (h : ∀ s t, D s t → E s t) {s : List Char}
    {ps : List Recur.Part} (hp : Recur.RuleText D s ps) : Recur.RuleText E s ps := by
  refine ⟨?_, hp.2⟩
  have := hp.1
  clear hp
  induction this with
  | one h1 => exact .one (partText_mono h h1)
  | more h1 _ ih => exact .more (partText_mono h h1) ih

theorem text_parse {s : List Char} {t : DateTime} (h : DateTimeText s t) (sr : Bool) :
    DateTime.parseText sr s false = some t := by
  rw [DateTime.parseText]
  exact (dateTimeText_until h).parse sr

theorem text_comma {s : List Char} {t : DateTime} (h : DateTimeText s t) : ',' ∉ s := by
  rw [(dateTimeText_until h).1]
  exact textForm_comma false t

/-! ## Lines -/

theorem paramValue_of {l : ContentLine} {key : String} {v : Option (List Char)} (h : HasParam l key.toList v) :
    paramValue (l.params.map ShownParam.meaning) key = v := by
  unfold paramValue
  cases h with
  | none h =>
    have : (l.params.map ShownParam.meaning).find? (fun p => decide (p.key = key.toList)) = none := by
      rw [List.find?_eq_none]
      intro p hp
      obtain ⟨q, hq, rfl⟩ := List.mem_map.mp hp
      have := h q hq
      show ¬ decide (PropText.upper q.name = key.toList) = true
      rw [decide_eq_true_eq]; exact this
    rw [this]
  | some p hp hk hu =>
    have : (l.params.map ShownParam.meaning).find? (fun p => decide (p.key = key.toList)) = some p.meaning := by
      cases hf : (l.params.map ShownParam.meaning).find? (fun p => decide (p.key = key.toList)) with
      | none =>
        rw [List.find?_eq_none] at hf
        have := hf p.meaning (List.mem_map_of_mem hp)
        exact absurd (decide_eq_true hk) this
      | some x =>
        have h1 := List.mem_of_find?_eq_some hf
        have h2 := List.find?_some hf
        obtain ⟨q, hq, rfl⟩ := List.mem_map.mp h1
        rw [hu q hq (of_decide_eq_true h2)]
    rw [this]
    simp [ShownParam.meaning, ShownParam.values]

theorem determine_keeps {S T : ValueType.Tables} (hT : Program S T) {name : String}
    (hd : (S.defaultOf name).isSome) (v : Option String) : ValueType.determine T name v = ValueType.determine S name v := by
  obtain ⟨h1, h2, h3, h4⟩ := program_keeps hT
  obtain ⟨d, hd⟩ := Option.isSome_iff_exists.1 hd
  simp only [ValueType.determine, ValueType.Tables.asked, h1, h2, hd, h4 name d hd]

/-- The value that a line gives. -/
def valueOf : Fact → Value
  | .start t => .date t
  | .rule _ ps => .recur (Recur.rule ps)
  | .dates _ l => .multi (l.map .date)
  | .other => .other

theorem line_value {e : Env} {l : ContentLine} (ha : l.Allowed false)
    (hr : ∀ p ∈ l.params, ∀ v ∈ p.values, v.Readable) : readLine e l.text =
      (createValue e l.name (l.params.map ShownParam.meaning) (some l.value)).map fun v => ⟨l.name, l.params.map ShownParam.meaning, v⟩ := by
  unfold readLine
  rw [C131_read_partial false e.cfg l ha hr]

theorem setZone_in {z : Option (List Char)} {t : DateTime} (h : z ≠ none → t.utc = false) :
    setZone (z.map fun z => TzId.name (String.ofList z)) t = inZone z t := by
  cases z with
  | none => rfl
  | some z =>
    have := h (by simp)
    obtain ⟨y, m, d, hh, mi, s, do_, u, tz⟩ := t
    simp only at this
    subst this
    rfl

/-- The type of a value of a property with dates, and the zone that is given to it. -/
theorem date_type {e : Env} (hT : Program ValueType.ical e.tables) {l : ContentLine} {d : Bool} {z : Option (List Char)}
    (h : DateParams l d z) {key : String} (hk : key ∈ ["DTSTART", "RDATE", "EXDATE", "DTEND", "RECURRENCE-ID"]) :
    ∃ t, ValueType.determine e.tables key
        ((paramValue (l.params.map ShownParam.meaning) "VALUE").map String.ofList) = t ∧
      (t = .date ∨ t = .dateTime) ∧
      (if t = .time ∨ t = .dateTime then
        (paramValue (l.params.map ShownParam.meaning) "TZID").map fun z => TzId.name (String.ofList z) else none) =
        z.map fun z => TzId.name (String.ofList z) := by
  obtain ⟨⟨v, hv, hd⟩, hz, hdz⟩ := h
  rw [paramValue_of hv, paramValue_of hz]
  have hsome : (ValueType.ical.defaultOf key).isSome := by
    revert key; decide +kernel
  rw [determine_keeps hT hsome]
  rcases hd with ⟨rfl, rfl⟩ | ⟨rfl, rfl | rfl⟩
  · refine ⟨.date, ?_, .inl rfl, ?_⟩
    · revert key; decide +kernel
    · rw [hdz rfl]; simp
  · refine ⟨.dateTime, ?_, .inr rfl, by simp⟩
    revert key; decide +kernel
  · refine ⟨.dateTime, ?_, .inr rfl, by simp⟩
    revert key; decide +kernel

theorem line_says {e : Env} (hT : Program ValueType.ical e.tables) {l : ContentLine} (ha : l.Allowed false)
    (hr : ∀ p ∈ l.params, ∀ v ∈ p.values, v.Readable) {f : Fact} (h : Says l f) (hf : f ≠ .other) :
    readLine e l.text = some ⟨l.name, l.params.map ShownParam.meaning, valueOf f⟩ := by
  rw [line_value ha hr]
  have hmulti := (program_keeps hT).2.2.1
  cases h with
  | @start d z t hn hd ht hdo hz =>
    obtain ⟨ty, h1, h2, h3⟩ := date_type hT hd (key := "DTSTART") (by simp)
    have hkey : String.ofList (PropText.upper l.name) = "DTSTART" := by rw [hn]; rfl
    unfold createValue
    dsimp only
    rw [hkey, h1, h3, hmulti, if_neg (by decide +kernel), if_pos h2, text_parse ht e.sr]
    simp only [Option.map_some, setZone_in hz, valueOf]
  | @rule ps ex hn hv ht =>
    obtain ⟨v, hv, hvv⟩ := hv
    have hkey : String.ofList (PropText.upper l.name) = if ex then "EXRULE" else "RRULE" := by
      rw [hn]; cases ex <;> rfl
    have hdet : ValueType.determine e.tables (if ex then "EXRULE" else "RRULE")
        ((paramValue (l.params.map ShownParam.meaning) "VALUE").map String.ofList) = .recur := by
      rw [paramValue_of hv, determine_keeps hT (by cases ex <;> decide +kernel)]
      rcases hvv with rfl | rfl <;> cases ex <;> decide +kernel
    unfold createValue
    dsimp only
    rw [hkey, hdet, hmulti, if_neg (by cases ex <;> decide +kernel), if_neg (by simp), if_pos rfl,
      C56_accepts e.sr _ _ (ruleText_mono (fun _ _ => dateTimeText_until) ht)]
    rfl
  | @dates d z ts ex hn hd ht hts =>
    have hkey : String.ofList (PropText.upper l.name) = if ex then "EXDATE" else "RDATE" := by
      rw [hn]; cases ex <;> rfl
    obtain ⟨ty, h1, h2, h3⟩ := date_type hT hd (key := if ex then "EXDATE" else "RDATE") (by cases ex <;> simp)
    have hsplit := ht.split (fun _ _ => text_comma)
    have hmap : (splitOn ',' l.value).mapM (parseItem e ty) = some (ts.map RecurLoad.Item.date) := by
      generalize splitOn ',' l.value = ss at hsplit
      clear ht hts hf
      induction hsplit with
      | nil => rfl
      | @cons s t ss ts h1 _ ih =>
        rw [List.mapM_cons, parseItem, if_pos h2, text_parse h1 e.sr, ih]
        rfl
    unfold createValue
    dsimp only
    rw [hkey, h1, h3, hmulti, if_pos (by cases ex <;> decide +kernel), hmap]
    simp only [Option.map_some, valueOf, List.map_map]
    congr 3
    apply List.map_congr_left
    intro t ht
    simp only [Function.comp, setItemZone, setZone_in (hts t ht).2]
  | other => exact absurd rfl hf

/-! ## Components -/

/-- The property is what the fact says. -/
def Agrees (f : Fact) (p : RProp) : Prop :=
  match f with
  | .start t => PropText.upper p.name = "DTSTART".toList ∧ p.value = .date t
  | .rule ex ps => PropText.upper p.name = ruleName ex ∧ p.value = .recur (Recur.rule ps)
  | .dates ex l => PropText.upper p.name = datesName ex ∧ p.value = .multi (l.map .date)
  | .other => PropText.upper p.name ∉ names

theorem says_agrees {l : ContentLine} {f : Fact} (h : Says l f) (v : Value) (hv : f ≠ .other → v = valueOf f) :
    Agrees f ⟨l.name, l.params.map ShownParam.meaning, v⟩ := by
  cases h with
  | start hn _ _ _ _ => exact ⟨hn, hv (by simp)⟩
  | rule ex hn _ _ => exact ⟨hn, hv (by simp)⟩
  | dates ex hn _ _ _ => exact ⟨hn, hv (by simp)⟩
  | other hn => exact hn

theorem lines_agree {e : Env} (hT : Program ValueType.ical e.tables) {ls : List ContentLine} {fs : List Fact}
    (h : List.Forall₂ Says ls fs) (ha : ∀ l ∈ ls, l.Allowed false)
    (hr : ∀ l ∈ ls, ∀ p ∈ l.params, ∀ v ∈ p.values, v.Readable)
    (ho : ∀ l ∈ ls, PropText.upper l.name ∉ names → (readLine e l.text).isSome) :
    ∃ ps, (ls.map ContentLine.text).mapM (readLine e) = some ps ∧ List.Forall₂ Agrees fs ps := by
  induction h with
  | nil => exact ⟨[], rfl, .nil⟩
  | @cons l f ls fs h1 _ ih =>
    obtain ⟨ps, hps, hag⟩ := ih (fun x hx => ha x (List.mem_cons_of_mem _ hx)) (fun x hx => hr x (List.mem_cons_of_mem _ hx))
      (fun x hx => ho x (List.mem_cons_of_mem _ hx))
    have key : ∃ v, readLine e l.text = some ⟨l.name, l.params.map ShownParam.meaning, v⟩ ∧ (f ≠ .other → v = valueOf f) := by
      by_cases hf : f = .other
      · subst hf
        cases h1 with
        | other hn =>
          have := ho l (by simp) hn
          rw [line_value (ha l (by simp)) (hr l (by simp))] at this ⊢
          cases hc : createValue e l.name (l.params.map ShownParam.meaning) (some l.value) with
          | none => rw [hc] at this; simp at this
          | some v => exact ⟨v, rfl, by simp⟩
      · exact ⟨valueOf f, line_says hT (ha l (by simp)) (hr l (by simp)) h1 hf, fun _ => rfl⟩
    obtain ⟨v, hv, hvf⟩ := key
    refine ⟨⟨l.name, _, v⟩ :: ps, ?_, .cons (says_agrees h1 v hvf) hag⟩
    rw [List.map_cons, List.mapM_cons, hv, hps]
    rfl

theorem values_cons (p : RProp) (ps : List RProp) (key : String) :
    values (p :: ps) key = if PropText.upper p.name = key.toList then p.value :: values ps key else values ps key := by
  unfold values
  rw [List.filter_cons]
  split
  · next h => rw [if_pos (by simpa using h)]; rfl
  · next h => rw [if_neg (by simpa using h)]

theorem start_agrees {fs : List Fact} {ps : List RProp} (h : List.Forall₂ Agrees fs ps) :
    start ps = (startOf fs).getD {} := by
  unfold start
  induction h with
  | nil => rfl
  | @cons f p fs ps h1 _ ih =>
    rw [values_cons]
    cases f with
    | start t =>
      rw [if_pos h1.1, h1.2]; rfl
    | rule ex ps => rw [if_neg (by rw [h1.1]; cases ex <;> decide +kernel)]; exact ih
    | dates ex l => rw [if_neg (by rw [h1.1]; cases ex <;> decide +kernel)]; exact ih
    | other =>
      rw [if_neg ?_]
      · exact ih
      · intro he; apply h1; rw [he]; decide +kernel

theorem rules_agree {fs : List Fact} {ps : List RProp} (h : List.Forall₂ Agrees fs ps) (ex : Bool) :
    (values ps (if ex then "EXRULE" else "RRULE")).map Value.pval =
      (rulesOf ex fs).map fun p => .recur (Recur.rule p) {} := by
  induction h with
  | nil => rfl
  | @cons f p fs ps h1 _ ih =>
    rw [values_cons]
    cases f with
    | start t => rw [if_neg (by rw [h1.1]; cases ex <;> decide +kernel)]; exact ih
    | rule ex' ps' =>
      rw [rulesOf]
      by_cases he : ex' = ex
      · subst he
        rw [if_pos (by rw [h1.1]; cases ex' <;> rfl), if_pos rfl, List.map_cons, List.map_cons, ih, h1.2]
        rfl
      · rw [if_neg (by rw [h1.1]; cases ex <;> cases ex' <;> first | exact absurd rfl he | decide +kernel), if_neg he]
        exact ih
    | dates ex' l =>
      rw [if_neg (by rw [h1.1]; cases ex <;> cases ex' <;> decide +kernel)]; exact ih
    | other =>
      rw [if_neg ?_]
      · exact ih
      · intro he; apply h1; rw [he]; cases ex <;> decide +kernel

/-- The lists of dates, one for each line. -/
def dateLists (ex : Bool) : List Fact → List (List DateTime)
  | [] => []
  | .dates x l :: fs => if x = ex then l :: dateLists ex fs else dateLists ex fs
  | _ :: fs => dateLists ex fs

theorem dates_agree {fs : List Fact} {ps : List RProp} (h : List.Forall₂ Agrees fs ps) (ex : Bool) :
    (values ps (if ex then "EXDATE" else "RDATE")).map Value.pval =
      (dateLists ex fs).map fun l => .multi (l.map .date) := by
  induction h with
  | nil => rfl
  | @cons f p fs ps h1 _ ih =>
    rw [values_cons]
    cases f with
    | start t => rw [if_neg (by rw [h1.1]; cases ex <;> decide +kernel)]; exact ih
    | dates ex' ps' =>
      rw [dateLists]
      by_cases he : ex' = ex
      · subst he
        rw [if_pos (by rw [h1.1]; cases ex' <;> rfl), if_pos rfl, List.map_cons, List.map_cons, ih, h1.2]
        rfl
      · rw [if_neg (by rw [h1.1]; cases ex <;> cases ex' <;> first | exact absurd rfl he | decide +kernel), if_neg he]
        exact ih
    | rule ex' l =>
      rw [if_neg (by rw [h1.1]; cases ex <;> cases ex' <;> decide +kernel)]; exact ih
    | other =>
      rw [if_neg ?_]
      · exact ih
      · intro he; apply h1; rw [he]; cases ex <;> decide +kernel

theorem loadItems_dates (l : List DateTime) : RecurLoad.loadItems (l.map .date) = (l, []) := by
  induction l with
  | nil => rfl
  | cons t l ih => rw [List.map_cons, RecurLoad.loadItems, ih]

theorem loadDates_lists (ex : Bool) (fs : List Fact) :
    RecurLoad.loadDates ((dateLists ex fs).map fun l => .multi (l.map .date)) = (datesOf ex fs, []) := by
  induction fs with
  | nil => rfl
  | cons f fs ih =>
    cases f with
    | dates x l =>
      rw [dateLists, datesOf]
      by_cases h : x = ex
      · rw [if_pos h, if_pos h, List.map_cons, RecurLoad.loadDates, ih, loadItems_dates]; rfl
      · rw [if_neg h, if_neg h, ih]
    | start t => exact ih
    | rule x ps => exact ih
    | other => exact ih

theorem loadRules_rules (rs : List (List Recur.Part)) :
    RecurLoad.loadRules (rs.map fun p => .recur (Recur.rule p) {}) = rs.map fun p => (Recur.rule p, {}) := by
  induction rs with
  | nil => rfl
  | cons r rs ih => rw [List.map_cons, RecurLoad.loadRules, ih]; rfl

theorem recurs_iff (fs : List Fact) : Recurs fs ↔ rulesOf false fs ≠ [] ∨ dateLists false fs ≠ [] ∨
    rulesOf true fs ≠ [] ∨ dateLists true fs ≠ [] := by
  induction fs with
  | nil => simp [Recurs, rulesOf, dateLists]
  | cons f fs ih =>
    have hr : Recurs (f :: fs) ↔ ((∃ ex ps, f = .rule ex ps) ∨ ∃ ex l, f = .dates ex l) ∨ Recurs fs := by
      unfold Recurs; rw [List.exists_mem_cons_iff]
    rw [hr, ih]
    cases f with
    | start t => simp [rulesOf, dateLists]
    | other => simp [rulesOf, dateLists]
    | rule x ps => cases x <;> simp [rulesOf, dateLists]
    | dates x l => cases x <;> simp [rulesOf, dateLists]

end L132
open L132

/-- The recurrence set that the lines describe. -/
def EventRead.loaded (fs : List Fact) : RecurLoad.Loaded where
  rrules := (rulesOf false fs).map fun p => (Recur.rule p, {})
  exrules := (rulesOf true fs).map fun p => (Recur.rule p, {})
  rdates := datesOf false fs
  exdates := datesOf true fs

/-- C132 (partial), the start and the recurrence set: a component written as the standards say has the start of its DTSTART line
and the recurrence set of its RRULE, EXRULE, RDATE and EXDATE lines, in their order, whatever other lines there are between
them, whatever the case of names, and in the time zone of the TZID parameter; without such lines it has none.

Missing: RDATE with periods (`C123_fails_period`); parameter values that are not `Readable` (`C131_fails_space`,
`C131_fails_backslash`). -/
theorem C132_read_partial {e : Env} (hT : Program ValueType.ical e.tables) {ls : List ContentLine} {fs : List Fact}
    (h : List.Forall₂ Says ls fs) (ha : ∀ l ∈ ls, l.Allowed false)
    (hr : ∀ l ∈ ls, ∀ p ∈ l.params, ∀ v ∈ p.values, v.Readable)
    (ho : ∀ l ∈ ls, PropText.upper l.name ∉ names → (readLine e l.text).isSome) :
    ∃ s, readEvent e (ls.map ContentLine.text) = some ((startOf fs).getD {}, s) ∧
      (Recurs fs → s = some (loaded fs)) ∧ (¬ Recurs fs → s = none) := by
  obtain ⟨ps, hps, hag⟩ := lines_agree hT h ha hr ho
  refine ⟨RecurLoad.reset (props ps), ?_, ?_⟩
  · rw [readEvent, hps, Option.map_some, start_agrees hag]
  · have e1 := rules_agree hag false
    have e2 := rules_agree hag true
    have e3 := dates_agree hag false
    have e4 := dates_agree hag true
    simp only [if_true, Bool.false_eq_true, if_false] at e1 e2 e3 e4
    have hlen : ∀ {α β : Type} (l : List α) (g : α → β), (l.map g).length ≠ 0 ↔ l ≠ [] := by
      intro α β l g; cases l <;> simp
    unfold RecurLoad.reset props
    dsimp only
    rw [e1, e2, e3, e4, loadDates_lists, loadDates_lists, loadRules_rules, loadRules_rules]
    constructor
    · intro hc
      rw [if_pos (by simpa only [hlen] using (recurs_iff fs).mp hc)]; rfl
    · intro hc
      rw [if_neg (fun hn => hc ((recurs_iff fs).mpr (by simpa only [hlen] using hn)))]

/-! ## A case -/

namespace L132

/-- Lines without parameters. -/
def line (n v : String) : ContentLine := ⟨none, n.toList, [], v.toList⟩

/-- Digits. -/
theorem digits (s : List Char) (n : Nat) (h : s ≠ [] ∧ s.all Char.isDigit ∧ s.foldl (fun a c => 10 * a + (c.toNat - 48)) 0 = n) :
    Dur.Digits s n := by
  obtain ⟨h0, h1, rfl⟩ := h
  induction s using List.reverseRecOn with
  | nil => exact absurd rfl h0
  | append_singleton s c ih =>
    rw [List.all_append, Bool.and_eq_true, List.all_cons, List.all_nil, Bool.and_true] at h1
    have hc := h1.2
    have h9 : c.toNat - 48 < 10 ∧ Char.ofNat (48 + (c.toNat - 48)) = c := by
      simp only [Char.isDigit, Bool.and_eq_true, decide_eq_true_eq] at hc
      have e1 : 48 ≤ c.toNat := by simpa using UInt32.le_iff_toNat_le.mp hc.1
      have e2 : c.toNat ≤ 57 := by simpa using UInt32.le_iff_toNat_le.mp hc.2
      exact ⟨by omega, by rw [Nat.add_sub_cancel' e1]; exact Char.ofNat_toNat c⟩
    rw [List.foldl_append, List.foldl_cons, List.foldl_nil]
    by_cases hs : s = []
    · subst hs
      have := Dur.Digits.one (c.toNat - 48) h9.1
      rw [h9.2] at this
      simpa using this
    · have := Dur.Digits.snoc (c.toNat - 48) _ h9.1 s (ih hs h1.1)
      rw [h9.2] at this
      exact this

theorem fixed (k : Nat) (s : List Char) (n : Nat)
    (h : s ≠ [] ∧ s.all Char.isDigit ∧ s.foldl (fun a c => 10 * a + (c.toNat - 48)) 0 = n ∧ s.length = k) : Fixed k s n :=
  ⟨digits s n ⟨h.1, h.2.1, h.2.2.1⟩, h.2.2.2⟩

/-- At nine on the given day of January 2020. -/
def nine (d : Int) : DateTime := ⟨2020, 1, d, 9, 0, 0, false, true, none⟩

theorem nine_text (a : String) (d : Nat) (h : Fixed 2 a.toList d) (hd : 1 ≤ d ∧ d ≤ 31) :
    DateTimeText ("202001".toList ++ a.toList ++ "T090000Z".toList) (nine d) := by
  have := DateTimeText.time (a := "2020".toList) (b := "01".toList) (c := a.toList) (h := "09".toList) (mi := "00".toList)
    (s := "00".toList) true (fixed 4 _ 2020 (by decide +kernel)) (fixed 2 _ 1 (by decide +kernel)) h
    (fixed 2 _ 9 (by decide +kernel)) (fixed 2 _ 0 (by decide +kernel)) (fixed 2 _ 0 (by decide +kernel))
    (by
      have : monthLen 2020 1 = 31 := by decide
      simp only [Time.Valid, Date.Valid, Nat.cast_ofNat, Nat.cast_one, Nat.cast_zero, this]
      omega)
  have e : "202001".toList ++ a.toList ++ "T090000Z".toList = "2020".toList ++ "01".toList ++ a.toList ++
      'T' :: ("09".toList ++ "00".toList ++ "00".toList ++ if true then ['Z'] else []) := by
    rw [show "202001".toList = "2020".toList ++ "01".toList by decide +kernel,
      show "T090000Z".toList = 'T' :: ("09".toList ++ "00".toList ++ "00".toList ++ ['Z']) by decide +kernel]
    rfl
  rw [e]
  exact this

theorem noParam (n v : String) (key : List Char) : HasParam (line n v) key none := .none (by simp [line])

theorem noParams (n v : String) : DateParams (line n v) false none :=
  ⟨⟨none, noParam n v _, .inr ⟨rfl, .inl rfl⟩⟩, noParam n v _, by simp⟩

/-- An event at nine every second day, three times, but not on the second of them. -/
def event : List ContentLine :=
  [line "dtstart" "20200101T090000Z", line "SUMMARY" "x", line "RRULE" "FREQ=DAILY;INTERVAL=2;COUNT=3",
    line "EXDATE" "20200103T090000Z"]

def eventFacts : List Fact :=
  [.start (nine 1), .other, .rule false [.freq .daily, .interval 2, .count 3], .dates true [nine 3]]

theorem event_says : List.Forall₂ Says event eventFacts := by
  refine .cons ?_ (.cons ?_ (.cons ?_ (.cons ?_ .nil)))
  · have := nine_text "01" 1 (fixed 2 _ 1 (by decide +kernel)) (by decide)
    exact .start (z := none) (by decide +kernel) (noParams _ _) (by
      rw [show (line "dtstart" "20200101T090000Z").value = "202001".toList ++ "01".toList ++ "T090000Z".toList by
        decide +kernel]
      exact this) rfl (by simp)
  · exact .other (by decide +kernel)
  · refine .rule false (by decide +kernel) ⟨none, noParam _ _ _, .inl rfl⟩ ⟨?_, by simp [Recur.Part.Clash]⟩
    rw [show (line "RRULE" "FREQ=DAILY;INTERVAL=2;COUNT=3").value = ("FREQ=".toList ++ "DAILY".toList) ++
      ';' :: (("INTERVAL=".toList ++ "2".toList) ++ ';' :: ("COUNT=".toList ++ "3".toList)) by decide +kernel]
    exact .more (.freq .daily) (.more (.interval (.plain (digits _ 2 (by decide +kernel))) (by decide))
      (.one (.count (.plain (digits _ 3 (by decide +kernel))) (by decide))))
  · have := nine_text "03" 3 (fixed 2 _ 3 (by decide +kernel)) (by decide)
    exact .dates (z := none) (ts := [nine 3]) true (by decide +kernel) (noParams _ _) (.one (by
      rw [show (line "EXDATE" "20200103T090000Z").value = "202001".toList ++ "03".toList ++ "T090000Z".toList by
        decide +kernel]
      exact this)) (by simp [nine])

theorem event_allowed : ∀ l ∈ event, l.Allowed false := by
  intro l hl
  simp only [event, List.mem_cons, List.not_mem_nil, or_false] at hl
  rcases hl with rfl | rfl | rfl | rfl <;>
    exact ⟨⟨by decide +kernel, by decide +kernel⟩, by simp [line], by simp [line]⟩

end L132

/-- The conditions are met; what is read. -/
example : ∃ s, readEvent ⟨true, true, {}, ValueType.ical, fun _ _ => true, .fix, .raise, true⟩ (event.map ContentLine.text) = some (nine 1, some s) ∧
    s.rrules = [({ freq := .daily, interval := 2, useCount := true, count := 3 }, {})] ∧ s.exdates = [nine 3] ∧
    s.exrules = [] ∧ s.rdates = [] := by
  obtain ⟨s, h1, h2, _⟩ := C132_read_partial (e := ⟨true, true, {}, ValueType.ical, fun _ _ => true, .fix, .raise, true⟩) .base event_says
    event_allowed (by simp [event, line]) (by decide +kernel)
  have := h2 ⟨.rule false [.freq .daily, .interval 2, .count 3], by simp [eventFacts], .inl ⟨_, _, rfl⟩⟩
  subst this
  exact ⟨_, h1, rfl, rfl, rfl, rfl⟩

end PyCal
