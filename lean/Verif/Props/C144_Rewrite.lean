import Verif.Model.Rewrite
import Verif.Props.C137_Calendar
import Verif.Props.C142_ZoneWritten

/-!
# C144: a calendar that is read, written and read again has the same instances
-/

namespace PyCal
open DateTime (TzEnv)
open Spec Spec.EventText Spec.CalendarText EventRead CalendarRead Rewrite

namespace L144
open L132 L137 ValueType PropText

/-! ## Parameters -/

theorem breaks_id {v : List Char} (h : '\r' ∉ v) : normaliseBreaks v = v := by
  induction v using normaliseBreaks.induct with
  | case1 s ih => simp at h
  | case2 s _ ih => simp at h
  | case3 c s h1 h2 ih =>
    rw [normaliseBreaks]
    · rw [ih (by simp only [List.mem_cons, not_or] at h; exact h.2)]
    · assumption
    · assumption
  | case4 => rfl

theorem decode_noCR {v : List Char} (h : '\r' ∉ v) : '\r' ∉ rfc6868Decode v := by
  induction v using rfc6868Decode.induct with
  | case1 s ih =>
    rw [rfc6868Decode]
    simp only [List.mem_cons, not_or] at h ⊢
    exact ⟨by decide, ih h.2.2⟩
  | case2 s ih =>
    rw [rfc6868Decode]
    simp only [List.mem_cons, not_or] at h ⊢
    exact ⟨by decide, ih h.2.2⟩
  | case3 s ih =>
    rw [rfc6868Decode]
    simp only [List.mem_cons, not_or] at h ⊢
    exact ⟨by decide, ih h.2.2⟩
  | case4 c s h1 h2 h3 ih =>
    rw [rfc6868Decode]
    · simp only [List.mem_cons, not_or] at h ⊢
      exact ⟨h.1, ih h.2⟩
    all_goals assumption
  | case5 => simp [rfc6868Decode]

theorem allowed_noCR {v : Shown} (h : v.Allowed) : '\r' ∉ rfc6868Decode v.inner := by
  apply decode_noCR
  intro hc
  cases v with
  | plain s => exact absurd (h _ hc).1 (by decide +kernel)
  | quoted s => exact absurd (h _ hc).1 (by decide +kernel)

/-- The first parameter with the key. -/
theorem find_filter {ps : List Param} {key : List Char} :
    ps.find? (fun p => decide (p.key = key)) = (ps.filter fun p => decide (p.key = key)).head? := by
  rw [List.head?_filter]

theorem param_none {ps ps' : List Param} (h : SameParams ps ps') {key : String} (hn : ∀ p ∈ ps, p.key ≠ key.toList) :
    paramValue ps' key = none := by
  have := h key.toList
  rw [show ps.filter (fun p => decide (p.key = key.toList)) = [] from by
    rw [List.filter_eq_nil_iff]; intro p hp; simpa using hn p hp] at this
  rw [paramValue, find_filter]
  cases h1 : ps'.filter fun p => decide (p.key = key.toList) with
  | nil => rfl
  | cons a l => rw [h1] at this; cases this

theorem param_some {ps ps' : List Param} (h : SameParams ps ps') {key : String} {v : List Char} (hv : '\r' ∉ v)
    (hp : ∃ p ∈ ps, p.key = key.toList) (hu : ∀ p ∈ ps, p.key = key.toList → p.values = [v]) : paramValue ps' key = some v := by
  have := h key.toList
  rw [paramValue, find_filter]
  cases h0 : ps.filter fun p => decide (p.key = key.toList) with
  | nil =>
    obtain ⟨p, h1, h2⟩ := hp
    rw [List.filter_eq_nil_iff] at h0
    exact absurd (h0 p h1) (by simpa using h2)
  | cons a l =>
    have ha : a ∈ ps.filter fun p => decide (p.key = key.toList) := by rw [h0]; simp
    rw [List.mem_filter, decide_eq_true_eq] at ha
    have hval := hu a ha.1 ha.2
    rw [h0] at this
    cases h1 : ps'.filter fun p => decide (p.key = key.toList) with
    | nil => rw [h1] at this; cases this
    | cons b l' =>
      rw [h1] at this
      cases this with
      | cons hab _ =>
        have := hab.2.1
        rw [hval, List.map_cons, List.map_nil, breaks_id hv, List.perm_singleton] at this
        simp only [List.head?_cons, this]

/-- A line of an event whose parameters are written as they were read: C46. -/
structure LineFits (l : ContentLine) : Prop where
  values : ∀ p ∈ l.params, ∀ v ∈ p.values, ValueOk (rfc6868Decode v.inner)
  zone : ∀ p ∈ l.params, upper p.name = "TZID".toList → p.more = []

/-- What is written for a property with this value. -/
def textOf (e : Env) (w : Writer) (l : ContentLine) (v : Value) : List Char :=
  let key := String.ofList (upper l.name)
  let ps := l.params.map ShownParam.meaning
  let t := determine e.tables key ((paramValue ps "VALUE").map String.ofList)
  let tz := if t = .time ∨ t = .dateTime then (paramValue ps "TZID").map fun z => TzId.name (String.ofList z) else none
  valueText e w t tz (some l.value) v

/-- The VALUE parameter that is written. -/
def valueOfParam (e : Env) (l : ContentLine) (v : Value) : Option String :=
  let key := String.ofList (upper l.name)
  let ps := l.params.map ShownParam.meaning
  let t := determine e.tables key ((paramValue ps "VALUE").map String.ofList)
  writtenValue e.tables key (valueType e.tables key (isDate v) t)

/-- The parameters but VALUE have the values that they had, if those have but one each. -/
def Carried (qs ps : List Param) : Prop :=
  ∀ (key : String) (v : List Char), key.toList ≠ "VALUE".toList → (∀ p ∈ qs, p.key = key.toList → p.values = [v]) →
    paramValue ps key = paramValue qs key

theorem Carried.has {l : ContentLine} {ps : List Param} (h : Carried (l.params.map ShownParam.meaning) ps) {key : String}
    {z : Option (List Char)} (hk : key.toList ≠ "VALUE".toList) (hz : HasParam l key.toList z)
    (hone : ∀ p ∈ l.params, upper p.name = key.toList → p.more = []) : paramValue ps key = z := by
  rw [← paramValue_of hz]
  cases hz with
  | none hn =>
    refine h key [] hk fun p hp hpk => ?_
    obtain ⟨q, hq, rfl⟩ := List.mem_map.mp hp
    exact absurd hpk (hn q hq)
  | some p hp hpk hu =>
    refine h key (rfc6868Decode p.first.inner) hk fun q hq hqk => ?_
    obtain ⟨r, hr, rfl⟩ := List.mem_map.mp hq
    rw [hu r hr hqk]
    simp [ShownParam.meaning, ShownParam.values, hone p hp hpk]

theorem Carried.range {l : ContentLine} {ps : List Param} (h : Carried (l.params.map ShownParam.meaning) ps)
    (hr : HasParam l "RANGE".toList none) : paramValue ps "RANGE" = none := by
  refine h.has (by decide +kernel) hr fun p hp hk => ?_
  cases hr with
  | none hn => exact absurd hk (hn p hp)

theorem reread {e : Env} {w : Writer} {l : ContentLine} (ha : l.Allowed false)
    (hr : ∀ p ∈ l.params, ∀ v ∈ p.values, v.Readable) (hf : LineFits l) {v : Value}
    (hv : createValue e l.name (l.params.map ShownParam.meaning) (some l.value) = some v)
    (hok : ∀ x, valueOfParam e l v = some x → ValueOk x.toList ∧ '\r' ∉ x.toList) :
    ∃ text ps, rewriteLine e w l.text = some text ∧ (∃ r, text = l.name ++ r ∧ r ≠ []) ∧
      readLine e text = (createValue e l.name ps (some (textOf e w l v))).map (fun v => ⟨l.name, ps, v⟩) ∧
      (paramValue ps "VALUE").map String.ofList = valueOfParam e l v ∧
      (∀ z, HasParam l "TZID".toList z → paramValue ps "TZID" = z) ∧
      Carried (l.params.map ShownParam.meaning) ps := by
  generalize hwv : valueOfParam e l v = wv at hok
  have hrw : rewriteLine e w l.text = some (generate ⟨none, l.name,
      ((l.params.map ShownParam.meaning).filter fun p => decide (p.key ≠ "VALUE".toList)) ++ valueParam wv, textOf e w l v⟩) := by
    unfold rewriteLine
    rw [C131_read_partial false e.cfg l ha hr]
    dsimp only
    rw [hv, Option.map_some]
    unfold writtenParams
    rw [← hwv]
    rfl
  generalize hps : ((l.params.map ShownParam.meaning).filter fun p => decide (p.key ≠ "VALUE".toList)) ++ valueParam wv = ps0 at hrw
  have hmem : ∀ p ∈ ps0, (∃ q ∈ l.params, p = q.meaning ∧ upper q.name ≠ "VALUE".toList) ∨
      ∃ x, wv = some x ∧ p = ⟨"VALUE".toList, [x.toList]⟩ := by
    intro p hp
    rw [← hps, List.mem_append] at hp
    rcases hp with hp | hp
    · rw [List.mem_filter] at hp
      obtain ⟨q, hq, rfl⟩ := List.mem_map.mp hp.1
      exact .inl ⟨q, hq, rfl, of_decide_eq_true hp.2⟩
    · cases wv with
      | none => cases hp
      | some x => exact .inr ⟨x, rfl, List.mem_singleton.mp hp⟩
  have hin : ∀ q ∈ l.params, upper q.name ≠ "VALUE".toList → q.meaning ∈ ps0 := by
    intro q hq hk
    rw [← hps, List.mem_append, List.mem_filter]
    exact .inl ⟨List.mem_map_of_mem hq, decide_eq_true hk⟩
  have hkey : ∀ q : ShownParam, q.meaning.key = upper q.name := fun _ => rfl
  obtain ⟨ps, h1, h2⟩ := C46_roundtrip_partial false e.cfg ⟨none, l.name, ps0, textOf e w l v⟩ (L131.name_token ha.name) (.inl rfl) (by
    intro p hp
    rcases hmem p hp with ⟨q, hq, rfl, -⟩ | ⟨x, hx, rfl⟩
    · refine ⟨L131.name_token (ha.params q hq).1, ?_, ?_⟩
      · intro y hy
        obtain ⟨z, hz, rfl⟩ := List.mem_map.mp hy
        exact hf.values q hq z hz
      · intro h; simp [ShownParam.meaning, ShownParam.values] at h
    · refine ⟨(by decide +kernel : Token "VALUE".toList), ?_, by simp⟩
      intro y hy
      rw [List.mem_singleton] at hy
      rw [hy]
      exact (hok x hx).1)
  have hcar : Carried (l.params.map ShownParam.meaning) ps := by
    intro key v hkv hone
    have hV : upper "VALUE".toList = "VALUE".toList := by decide +kernel
    by_cases hex : ∃ q ∈ l.params, upper q.name = key.toList
    · obtain ⟨q, hq, hqk⟩ := hex
      have hval := hone _ (List.mem_map_of_mem hq) hqk
      rw [param_some h2 (key := key) (v := v) ?_ ⟨_, hin q hq (by rw [hqk]; exact hkv), hqk⟩ ?_]
      · symm
        unfold paramValue
        cases hfind : (l.params.map ShownParam.meaning).find? (fun p => decide (p.key = key.toList)) with
        | none =>
          rw [List.find?_eq_none] at hfind
          exact absurd (decide_eq_true (show q.meaning.key = key.toList from hqk)) (hfind _ (List.mem_map_of_mem hq))
        | some p =>
          have h1 := List.mem_of_find?_eq_some hfind
          have h2 : p.key = key.toList := by simpa using List.find?_some hfind
          dsimp only
          rw [hone p h1 h2]
          rfl
      · have : rfc6868Decode q.first.inner = v := by
          simp only [ShownParam.meaning, ShownParam.values, List.map_cons, List.cons.injEq] at hval
          exact hval.1
        rw [← this]
        exact allowed_noCR ((ha.params q hq).2 _ (by simp [ShownParam.values]))
      · intro p hp hk
        rcases hmem p hp with ⟨r, hr', rfl, -⟩ | ⟨x, hx, rfl⟩
        · exact hone _ (List.mem_map_of_mem hr') hk
        · exact absurd (hk.symm.trans hV) hkv
    · rw [param_none h2 (key := key) ?_]
      · symm
        unfold paramValue
        rw [List.find?_eq_none.mpr]
        intro p hp hk
        obtain ⟨q, hq, rfl⟩ := List.mem_map.mp hp
        exact hex ⟨q, hq, of_decide_eq_true hk⟩
      · intro p hp hk
        rcases hmem p hp with ⟨q, hq, rfl, -⟩ | ⟨x, hx, rfl⟩
        · exact hex ⟨q, hq, hk⟩
        · exact hkv (hk.symm.trans hV)
  refine ⟨_, ps, hrw, ?_, ?_, ?_, ?_, ?_⟩
  · unfold generate
    simp only [List.nil_append, List.append_assoc]
    exact ⟨_, rfl, by simp⟩
  · unfold readLine
    rw [h1]
  · cases hwv' : wv with
    | none =>
      rw [param_none h2 (key := "VALUE") ?_]
      · rfl
      · intro p hp hk
        rcases hmem p hp with ⟨q, hq, rfl, hn⟩ | ⟨x, hx, rfl⟩
        · exact hn hk
        · rw [hwv'] at hx; cases hx
    | some x =>
      rw [param_some h2 (key := "VALUE") (v := x.toList) (hok x hwv').2 ?_ ?_]
      · simp
      · refine ⟨⟨"VALUE".toList, [x.toList]⟩, ?_, (by decide +kernel : upper "VALUE".toList = "VALUE".toList)⟩
        rw [← hps, hwv']
        simp [valueParam]
      · intro p hp hk
        rcases hmem p hp with ⟨q, hq, rfl, hn⟩ | ⟨y, hy, rfl⟩
        · exact absurd hk hn
        · rw [hwv'] at hy; cases hy; rfl
  · exact fun z hz => hcar.has (by decide +kernel) hz hf.zone
  · exact hcar

/-! ## Values -/

theorem created {e : Env} {l : ContentLine} (ha : l.Allowed false) (hr : ∀ p ∈ l.params, ∀ v ∈ p.values, v.Readable) {ps : List Param}
    {v : Value} (h : readLine e l.text = some ⟨l.name, ps, v⟩) :
    createValue e l.name (l.params.map ShownParam.meaning) (some l.value) = some v := by
  rw [line_value ha hr, Option.map_eq_some_iff] at h
  obtain ⟨v', h1, h2⟩ := h
  cases h2
  exact h1

/-- The same value, but that durations may be put differently. -/
def SameValue (v v' : Value) : Prop := v' = v ∨ ∃ D D' : Duration, v = .dur D ∧ v' = .dur D' ∧ D'.totalSeconds = D.totalSeconds

/-- The type of the values of a property of this name with these parameters. -/
def typeOf (e : Env) (name : List Char) (ps : List Param) : VType :=
  determine e.tables (String.ofList (upper name)) ((paramValue ps "VALUE").map String.ofList)

/-- The property is written and read again as one with such a value, the same as before. -/
def Again (e : Env) (w : Writer) (l : ContentLine) (R : Value → Prop) : Prop :=
  ∃ v0 text ps v, readLine e l.text = some ⟨l.name, l.params.map ShownParam.meaning, v0⟩ ∧ rewriteLine e w l.text = some text ∧
    (∃ r, text = l.name ++ r ∧ r ≠ []) ∧ readLine e text = some ⟨l.name, ps, v⟩ ∧ SameValue v0 v ∧ R v ∧
    Carried (l.params.map ShownParam.meaning) ps ∧ typeOf e l.name ps = typeOf e l.name (l.params.map ShownParam.meaning)

theorem line_created {e : Env} {l : ContentLine} (ha : l.Allowed false) (hr : ∀ p ∈ l.params, ∀ v ∈ p.values, v.Readable) {v : Value}
    (h : createValue e l.name (l.params.map ShownParam.meaning) (some l.value) = some v) :
    readLine e l.text = some ⟨l.name, l.params.map ShownParam.meaning, v⟩ := by
  rw [line_value ha hr, h]; rfl

/-- The properties with dates. -/
def dateKeys : List String :=
  ["DTSTART", "RDATE", "EXDATE", "DTEND", "RECURRENCE-ID", "DUE", "COMPLETED", "CREATED", "DTSTAMP", "LAST-MODIFIED", "ACKNOWLEDGED",
   "X-MULBERRY-LAST-TRIGGER"]

/-- Those with one date. -/
def singleKeys : List String :=
  ["DTSTART", "DTEND", "RECURRENCE-ID", "DUE", "COMPLETED", "CREATED", "DTSTAMP", "LAST-MODIFIED", "ACKNOWLEDGED",
   "X-MULBERRY-LAST-TRIGGER"]

/-- The VALUE parameter of dates, or of date-times. -/
def Said (d : Bool) (x : Option String) : Prop := d = true ∧ x = some "DATE" ∨ d = false ∧ (x = none ∨ x = some "DATE-TIME")

theorem said_type {T : Tables} (hT : Program ical T) {key : String} (hk : key ∈ dateKeys) {d : Bool} {x : Option String}
    (h : Said d x) : determine T key x = if d then .date else .dateTime := by
  rw [determine_keeps hT (by revert key; decide +kernel)]
  rcases h with ⟨rfl, rfl⟩ | ⟨rfl, rfl | rfl⟩ <;> revert key <;> decide +kernel

theorem written_said {T : Tables} (hT : Program ical T) {key : String} (hk : key ∈ dateKeys) (d : Bool) :
    Said d (writtenValue T key (if d then .date else .dateTime)) := by
  rw [written_keeps ical_coherent hT (by revert key; decide +kernel)]
  unfold Said
  by_cases ha : key ∈ T.always
  · rw [if_pos ha]; clear ha; cases d <;> revert key <;> decide +kernel
  · rw [if_neg ha]; clear ha; cases d <;> revert key <;> decide +kernel

theorem said_ok {d : Bool} {x : Option String} (h : Said d x) (s : String) (hs : x = some s) : ValueOk s.toList ∧ '\r' ∉ s.toList := by
  rcases h with ⟨rfl, rfl⟩ | ⟨rfl, rfl | rfl⟩
  · cases hs; decide +kernel
  · cases hs
  · cases hs; decide +kernel

theorem params_said {l : ContentLine} {d : Bool} {z : Option (List Char)} (h : DateParams l d z) :
    Said d ((paramValue (l.params.map ShownParam.meaning) "VALUE").map String.ofList) := by
  obtain ⟨⟨v, hv, hd⟩, -⟩ := h
  rw [paramValue_of hv]
  rcases hd with ⟨rfl, rfl⟩ | ⟨rfl, rfl | rfl⟩
  · exact .inl ⟨rfl, rfl⟩
  · exact .inr ⟨rfl, .inl rfl⟩
  · exact .inr ⟨rfl, .inr rfl⟩

/-- The zone that is given to the values. -/
theorem zone_given {d : Bool} {z : Option (List Char)} (h : d = true → z = none) {ps : List Param} (hz : paramValue ps "TZID" = z) :
    (if (if d then VType.date else .dateTime) = .time ∨ (if d then VType.date else .dateTime) = .dateTime then
      (paramValue ps "TZID").map fun z => TzId.name (String.ofList z) else none) = z.map fun z => TzId.name (String.ofList z) := by
  rw [hz]
  cases d with
  | true => rw [h rfl]; simp
  | false => simp

theorem getText_in (z : Option (List Char)) {s : List Char} {t : DateTime} (h : DateTimeText s t) : (inZone z t).getText = s := by
  obtain ⟨h1, -, -, -, h2⟩ := dateTimeText_until h
  rw [h1]
  cases z with
  | none => rfl
  | some z =>
    obtain ⟨y, m, d, hh, mi, s, do_, u, tz⟩ := t
    simp only at h2
    subst h2
    cases u <;> cases do_ <;> simp [inZone, DateTime.getText, DateTime.dateText, DateTime.timeText, DateTime.zoneText]

theorem inZone_dateOnly (z : Option (List Char)) (t : DateTime) : (inZone z t).dateOnly = t.dateOnly := by cases z <;> rfl

theorem single_keys : ∀ key ∈ singleKeys, key ∈ dateKeys ∧ key ∉ ical.multi := by decide +kernel

theorem create_date {e : Env} (hT : Program ical e.tables) {name : List Char} {ps : List Param} {key : String}
    (hn : upper name = key.toList) (hk : key ∈ singleKeys) {d : Bool} {z : Option (List Char)}
    (hs : Said d ((paramValue ps "VALUE").map String.ofList)) (hz : paramValue ps "TZID" = z) (hd : d = true → z = none)
    {s : List Char} {t : DateTime} (ht : DateTimeText s t) (hu : z ≠ none → t.utc = false) :
    createValue e name ps (some s) = some (.date (inZone z t)) := by
  have hkey : String.ofList (upper name) = key := by rw [hn, String.ofList_toList]
  have hk' := (single_keys key hk).1
  unfold createValue
  dsimp only
  rw [hkey, said_type hT hk' hs, zone_given hd hz, (program_keeps hT).2.2.1, if_neg (single_keys key hk).2,
    if_pos (by cases d <;> simp), text_parse ht e.sr]
  simp only [Option.map_some, setZone_in hu]

theorem date_again {e : Env} (hT : Program ical e.tables) {w : Writer} {l : ContentLine} (ha : l.Allowed false)
    (hr : ∀ p ∈ l.params, ∀ v ∈ p.values, v.Readable) (hf : LineFits l) {key : String} (hn : upper l.name = key.toList)
    (hk : key ∈ singleKeys) {t : DateTime} (h : DateLine l t) : Again e w l (· = .date t) := by
  obtain ⟨d, z, t', hp, ht, hd, hz, rfl⟩ := h
  have hk' := (single_keys key hk).1
  have hkey : String.ofList (upper l.name) = key := by rw [hn, String.ofList_toList]
  have hc := create_date hT hn hk (params_said hp) (paramValue_of hp.2.1) hp.2.2 ht hz
  have hv : valueOfParam e l (.date (inZone z t')) = writtenValue e.tables key (if d then .date else .dateTime) := by
    unfold valueOfParam
    dsimp only
    rw [hkey, said_type hT hk' (params_said hp), valueType, (program_keeps hT).2.2.1, if_neg (single_keys key hk).2,
      isDate, inZone_dateOnly, hd]
    cases d <;> rfl
  have hw := written_said hT hk' d
  obtain ⟨text, ps, r1, r2, r3, r4, r5, r6⟩ := reread (w := w) ha hr hf hc (by rw [hv]; exact said_ok hw)
  refine ⟨_, text, ps, _, line_created ha hr hc, r1, r2, ?_, .inl rfl, rfl, r6, by
    unfold typeOf; rw [r4, hv, hkey, said_type hT hk' hw, said_type hT hk' (params_said hp)]⟩
  rw [r3, show textOf e w l (.date (inZone z t')) = l.value from getText_in z ht,
    create_date hT hn hk (by rw [r4, hv]; exact hw) (r5 z hp.2.1) hp.2.2 ht hz]
  rfl

theorem multi_keys (ex : Bool) : (if ex then "EXDATE" else "RDATE") ∈ dateKeys ∧ (if ex then "EXDATE" else "RDATE") ∈ ical.multi := by
  cases ex <;> decide +kernel

theorem create_dates {e : Env} (hT : Program ical e.tables) {name : List Char} {ps : List Param} {ex : Bool}
    (hn : upper name = datesName ex) {d : Bool} {z : Option (List Char)} (hs : Said d ((paramValue ps "VALUE").map String.ofList))
    (hz : paramValue ps "TZID" = z) (hd : d = true → z = none) {s : List Char} {ts : List DateTime}
    (ht : Recur.Sep ',' DateTimeText s ts) (hu : ∀ t ∈ ts, z ≠ none → t.utc = false) :
    createValue e name ps (some s) = some (.multi ((ts.map (inZone z)).map .date)) := by
  have hkey : String.ofList (upper name) = if ex then "EXDATE" else "RDATE" := by rw [hn]; cases ex <;> rfl
  have hsplit := ht.split (fun _ _ => text_comma)
  have hmap : (splitOn ',' s).mapM (parseItem e (if d then .date else .dateTime)) = some (ts.map RecurLoad.Item.date) := by
    generalize splitOn ',' s = ss at hsplit
    clear ht hu
    induction hsplit with
    | nil => rfl
    | @cons s t ss ts h1 _ ih =>
      rw [List.mapM_cons, parseItem, if_pos (by cases d <;> simp), text_parse h1 e.sr, ih]
      rfl
  unfold createValue
  dsimp only
  rw [hkey, said_type hT (multi_keys ex).1 hs, zone_given hd hz, (program_keeps hT).2.2.1, if_pos (multi_keys ex).2, hmap]
  simp only [Option.map_some, List.map_map]
  congr 2
  apply List.map_congr_left
  intro t ht
  simp only [Function.comp, setItemZone, setZone_in (hu t ht)]

theorem splitOn_ne_nil (c : Char) (s : List Char) : splitOn c s ≠ [] := by
  cases s with
  | nil => simp [splitOn]
  | cons a s =>
    rw [splitOn]
    split
    · simp
    · split <;> simp

theorem join_split (c : Char) (s : List Char) : joinSep c (splitOn c s) = s := by
  induction s with
  | nil => rfl
  | cons a s ih =>
    rw [splitOn]
    split
    · next h =>
      subst h
      cases hs : splitOn a s with
      | nil => exact absurd hs (splitOn_ne_nil _ _)
      | cons p ps => rw [hs] at ih; rw [joinSep, ih]; rfl
    · cases hs : splitOn c s with
      | nil => exact absurd hs (splitOn_ne_nil _ _)
      | cons p ps =>
        rw [hs] at ih
        cases ps with
        | nil => simp only [joinSep] at ih ⊢; rw [ih]
        | cons q qs => simp only [joinSep] at ih ⊢; rw [List.cons_append, ih]

theorem items_text {e : Env} {w : Writer} {d : Bool} {z : Option (List Char)} {s : List Char} {ts : List DateTime}
    (ht : Recur.Sep ',' DateTimeText s ts) (hu : ∀ t ∈ ts, z ≠ none → t.utc = false) :
    (splitOn ',' s).map (itemText e w (if d then .date else .dateTime) (z.map fun z => TzId.name (String.ofList z))) = splitOn ',' s := by
  have hsplit := ht.split (fun _ _ => text_comma)
  generalize splitOn ',' s = ss at hsplit
  clear ht
  induction hsplit with
  | nil => rfl
  | @cons s t ss ts h1 _ ih =>
    rw [List.map_cons, ih fun t ht => hu t (by simp [ht]), itemText, if_pos (by cases d <;> simp), text_parse h1 e.sr]
    dsimp only
    rw [setZone_in (hu t (by simp)), getText_in z h1]

theorem dates_again {e : Env} (hT : Program ical e.tables) {w : Writer} {l : ContentLine} (ha : l.Allowed false)
    (hr : ∀ p ∈ l.params, ∀ v ∈ p.values, v.Readable) (hf : LineFits l) {ex : Bool} (hn : upper l.name = datesName ex)
    {d : Bool} {z : Option (List Char)} {ts : List DateTime} (hp : DateParams l d z) (ht : Recur.Sep ',' DateTimeText l.value ts)
    (hu : ∀ t ∈ ts, z ≠ none → t.utc = false) : Again e w l (· = .multi ((ts.map (inZone z)).map .date)) := by
  have hkey : String.ofList (upper l.name) = if ex then "EXDATE" else "RDATE" := by rw [hn]; cases ex <;> rfl
  have hc := create_dates hT hn (params_said hp) (paramValue_of hp.2.1) hp.2.2 ht hu
  have hv : valueOfParam e l (.multi ((ts.map (inZone z)).map .date)) =
      writtenValue e.tables (if ex then "EXDATE" else "RDATE") (if d then .date else .dateTime) := by
    unfold valueOfParam
    dsimp only
    rw [hkey, said_type hT (multi_keys ex).1 (params_said hp), valueType, (program_keeps hT).2.2.1, if_pos (multi_keys ex).2]
  have hw := written_said hT (multi_keys ex).1 d
  obtain ⟨text, ps, r1, r2, r3, r4, r5, r6⟩ := reread (w := w) ha hr hf hc (by rw [hv]; exact said_ok hw)
  refine ⟨_, text, ps, _, line_created ha hr hc, r1, r2, ?_, .inl rfl, rfl, r6, by
    unfold typeOf; rw [r4, hv, hkey, said_type hT (multi_keys ex).1 hw, said_type hT (multi_keys ex).1 (params_said hp)]⟩
  have htext : textOf e w l (.multi ((ts.map (inZone z)).map .date)) = l.value := by
    unfold textOf valueText
    dsimp only
    rw [hkey, said_type hT (multi_keys ex).1 (params_said hp), zone_given hp.2.2 (paramValue_of hp.2.1), Option.getD_some,
      items_text ht hu, join_split]
  rw [r3, htext, create_dates hT hn (by rw [r4, hv]; exact hw) (r5 z hp.2.1) hp.2.2 ht hu]
  rfl

/-- The properties with a text. -/
def textKeys : List String :=
  ["CALSCALE", "METHOD", "PRODID", "VERSION", "CLASS", "COMMENT", "DESCRIPTION", "LOCATION", "STATUS", "SUMMARY", "TRANSP", "TZID", "TZNAME",
   "CONTACT", "RELATED-TO", "UID", "ACTION", "X-WR-CALNAME", "X-WR-CALDESC", "X-WR-ALARMUID", "X-MULBERRY-SPEAK-TEXT", "X-MULBERRY-ALARM-STATUS"]

/-- The properties with values of one type, and its name. -/
def simpleKeys : List (String × String × VType) :=
  [("RRULE", "RECUR", .recur), ("EXRULE", "RECUR", .recur), ("DURATION", "DURATION", .duration), ("TRIGGER", "DURATION", .duration),
   ("ATTENDEE", "CAL-ADDRESS", .calAddress), ("ORGANIZER", "CAL-ADDRESS", .calAddress), ("VOTER", "CAL-ADDRESS", .calAddress),
   ("ATTACH", "URI", .uri), ("TZURL", "URI", .uri), ("URL", "URI", .uri), ("PERCENT-COMPLETE", "INTEGER", .integer),
   ("PRIORITY", "INTEGER", .integer), ("REPEAT", "INTEGER", .integer), ("SEQUENCE", "INTEGER", .integer), ("GEO", "FLOAT", .geo),
   ("TZOFFSETFROM", "UTC-OFFSET", .utcOffset), ("TZOFFSETTO", "UTC-OFFSET", .utcOffset), ("REQUEST-STATUS", "TEXT", .requestStatus)] ++
  textKeys.map fun k => (k, "TEXT", .text)

theorem simple_again {e : Env} (hT : Program ical e.tables) {w : Writer} {l : ContentLine} (ha : l.Allowed false)
    (hr : ∀ p ∈ l.params, ∀ v ∈ p.values, v.Readable) (hf : LineFits l) {key nm : String} {ty : VType}
    (hk : (key, nm, ty) ∈ simpleKeys) (hn : upper l.name = key.toList)
    (hp : ∃ v, HasParam l "VALUE".toList v ∧ (v = none ∨ v = some nm.toList)) {f : List Char → Option Value}
    (hcf : ∀ ps s, determine e.tables (String.ofList (upper l.name)) ((paramValue ps "VALUE").map String.ofList) = ty →
      createValue e l.name ps (some s) = f s) {v v' : Value} {s : List Char} {R : Value → Prop} (hv : f l.value = some v)
    (hs : ∀ tz, valueText e w ty tz (some l.value) v = s) (hv' : f s = some v') (hR : R v') (hd : isDate v = false)
    (hsame : SameValue v v') : Again e w l R := by
  have hkey : String.ofList (upper l.name) = key := by rw [hn, String.ofList_toList]
  have htype : ∀ x, x = none ∨ x = some nm → determine e.tables key x = ty := by
    intro x hx
    have : ∀ a ∈ simpleKeys, (ical.defaultOf a.1).isSome ∧ determine ical a.1 none = a.2.2 ∧ determine ical a.1 (some a.2.1) = a.2.2 := by
      decide +kernel
    have := this _ hk
    rw [determine_keeps hT this.1]
    rcases hx with rfl | rfl
    · exact this.2.1
    · exact this.2.2
  have hwr : writtenValue e.tables key ty = none ∨ writtenValue e.tables key ty = some nm := by
    have h1 : ∀ a ∈ simpleKeys, (ical.defaultOf a.1).isSome ∧
        (writtenValue { ical with always := [a.1] } a.1 a.2.2 = none ∨ writtenValue { ical with always := [a.1] } a.1 a.2.2 = some a.2.1) ∧
        (writtenValue { ical with always := [] } a.1 a.2.2 = none ∨ writtenValue { ical with always := [] } a.1 a.2.2 = some a.2.1) := by
      decide +kernel
    have := h1 _ hk
    rw [written_keeps ical_coherent hT this.1]
    by_cases hal : key ∈ e.tables.always
    · rw [if_pos hal]; exact this.2.1
    · rw [if_neg hal]; exact this.2.2
  have hdet : determine e.tables key ((paramValue (l.params.map ShownParam.meaning) "VALUE").map String.ofList) = ty := by
    apply htype
    obtain ⟨x, hx, hxv⟩ := hp
    rw [paramValue_of hx]
    rcases hxv with rfl | rfl
    · exact .inl rfl
    · right; rw [Option.map_some, String.ofList_toList]
  have hvp : valueOfParam e l v = writtenValue e.tables key ty := by
    have h1 : ∀ a ∈ simpleKeys, a.1 ∉ ical.multi ∧ madeType false a.2.2 = a.2.2 := by decide +kernel
    unfold valueOfParam
    dsimp only
    rw [hkey, hdet, valueType, (program_keeps hT).2.2.1, if_neg (h1 _ hk).1, hd, (h1 _ hk).2]
  have hok : ∀ a ∈ simpleKeys, ValueOk a.2.1.toList ∧ '\r' ∉ a.2.1.toList := by decide +kernel
  have hcv : createValue e l.name (l.params.map ShownParam.meaning) (some l.value) = some v := by
    rw [hcf _ _ (by rw [hkey]; exact hdet), hv]
  obtain ⟨text, ps, r1, r2, r3, r4, r5, r6⟩ := reread (w := w) ha hr hf hcv (by
      intro x hx
      rw [hvp] at hx
      rcases hwr with h | h
      · rw [h] at hx; cases hx
      · rw [h] at hx; cases hx; exact hok _ hk)
  refine ⟨v, text, ps, v', line_created ha hr hcv, r1, r2, ?_, hsame, hR, r6, by unfold typeOf; rw [r4, hvp, hkey, htype _ hwr, hdet]⟩
  have htext : textOf e w l v = s := by
    unfold textOf
    dsimp only
    rw [hkey, hdet]
    exact hs _
  rw [r3, htext, hcf _ _ (by rw [r4, hvp, hkey]; exact htype _ hwr), hv']
  rfl

theorem rule_again {e : Env} (hT : Program ical e.tables) {w : Writer} {l : ContentLine} (ha : l.Allowed false)
    (hr : ∀ p ∈ l.params, ∀ v ∈ p.values, v.Readable) (hf : LineFits l) {ex : Bool} (hn : upper l.name = ruleName ex)
    (hp : ∃ v, HasParam l "VALUE".toList v ∧ (v = none ∨ v = some "RECUR".toList)) {ps : List Recur.Part}
    (ht : Recur.RuleText DateTimeText l.value ps) : Again e w l (· = .recur (Recur.rule ps)) := by
  have hparse := C56_accepts e.sr _ _ (ruleText_mono (fun _ _ => dateTimeText_until) ht)
  have hmem : ∀ p ∈ ps, ∃ s, Recur.PartText DateTimeText s p := by
    have h1 := ht.1
    clear ht hparse
    generalize l.value = s at h1
    induction h1 with
    | one h => intro p hp; rw [List.mem_singleton] at hp; subst hp; exact ⟨_, h⟩
    | more h _ ih =>
      intro p hp
      rcases List.mem_cons.mp hp with rfl | hp
      · exact ⟨_, h⟩
      · exact ih p hp
  have hagain : Rule.parse e.sr (Recur.rule ps).generate = some (Recur.rule ps) := by
    apply C44_reparse_partial e.sr e.sr _ _ hparse
    · intro t ht
      obtain ⟨p, hp, hpt⟩ := List.exists_of_findSome?_eq_some ht
      obtain ⟨s, hs⟩ := hmem p hp
      cases hs with
      | upto h =>
        cases hpt
        have := dateTimeText_until h
        have h2 := this.1
        have h3 : t.getText = _ := getText_in none h
        rw [h3]
        exact this
      | _ => cases hpt
    · intro v hv
      have : (Recur.rule ps).bySetPos = (ps.findSome? (Recur.byOf .setPos)).getD [] := rfl
      rw [this] at hv
      cases hf : ps.findSome? (Recur.byOf .setPos) with
      | none => rw [hf] at hv; cases hv
      | some vs =>
        rw [hf] at hv
        obtain ⟨p, hp, hpt⟩ := List.exists_of_findSome?_eq_some hf
        obtain ⟨s, hs⟩ := hmem p hp
        cases hs with
        | @num s k vals h1 h2 =>
          rw [Recur.byOf] at hpt
          split at hpt
          · next hk => subst hk; cases hpt; exact h2 v hv
          · cases hpt
        | _ => cases hpt
  refine simple_again hT ha hr hf (key := if ex then "EXRULE" else "RRULE") (nm := "RECUR") (ty := .recur)
    (by cases ex <;> decide +kernel) (by rw [hn]; cases ex <;> rfl) hp (f := fun s => (Rule.parse e.sr s).map .recur)
    (fun ps s h => ?_) (v := .recur (Recur.rule ps)) (s := (Recur.rule ps).generate) (by rw [hparse]; rfl) (fun tz => rfl) (v' := .recur (Recur.rule ps))
    (by rw [hagain]; rfl) rfl rfl (.inl rfl)
  have hkey : String.ofList (upper l.name) = if ex then "EXRULE" else "RRULE" := by rw [hn]; cases ex <;> rfl
  unfold createValue
  dsimp only
  rw [h, (program_keeps hT).2.2.1, hkey, if_neg (by cases ex <;> decide +kernel), if_neg (by simp), if_pos rfl]

theorem length_again {e : Env} (hT : Program ical e.tables) {w : Writer} {l : ContentLine} (ha : l.Allowed false)
    (hr : ∀ p ∈ l.params, ∀ v ∈ p.values, v.Readable) (hf : LineFits l) {key : String} (hkk : key ∈ ["DURATION", "TRIGGER"])
    (hn : upper l.name = key.toList) {k : Int} (h : LengthLine l k) : Again e w l (fun v => ∃ D : Duration, v = .dur D ∧ D.totalSeconds = k) := by
  obtain ⟨hp, hk⟩ := h
  obtain ⟨D, h1, h2⟩ := Duration.C15_parse_grammar _ _ hk e.strict
  obtain ⟨h3, -⟩ := Duration.C15_roundtrip_parsed _ _ _ h1
  obtain ⟨D', h4, h5⟩ := Duration.C15_parse_grammar _ _ h3 e.strict
  refine simple_again hT ha hr hf (key := key) (nm := "DURATION") (ty := .duration)
    (by revert hkk; clear hn; revert key; decide +kernel) hn hp (f := fun s => (Duration.parseText e.strict s).map .dur)
    (fun ps s h => ?_) (v := .dur D) (s := D.generate) (by rw [h1]; rfl) (fun tz => rfl) (v' := .dur D')
    (by rw [h4]; rfl) ⟨D', rfl, h5.trans h2⟩ rfl (.inr ⟨D, D', rfl, rfl, h5⟩)
  have hkey : String.ofList (upper l.name) = key := by rw [hn, String.ofList_toList]
  have hm : key ∉ ical.multi := by revert hkk; clear hn hkey; revert key; decide +kernel
  unfold createValue
  dsimp only
  rw [h, (program_keeps hT).2.2.1, hkey, if_neg hm, if_neg (by simp), if_neg (by simp), if_pos rfl]

theorem text_again {e : Env} (hT : Program ical e.tables) {w : Writer} {l : ContentLine} (ha : l.Allowed false)
    (hr : ∀ p ∈ l.params, ∀ v ∈ p.values, v.Readable) (hf : LineFits l) {key : String} (hkk : key ∈ textKeys)
    (hn : upper l.name = key.toList) {s : List Char} (h : TextLine l s) : Again e w l (· = .text s) := by
  obtain ⟨hp, hd⟩ := h
  refine simple_again hT ha hr hf (key := key) (nm := "TEXT") (ty := .text)
    (by clear hn; revert key; decide +kernel) hn hp (f := fun s => (decodeText e.escColon e.escOther s).map .text)
    (fun ps s h => ?_) (v := .text s) (by rw [C20_decode_rfc _ _ hd]; rfl) (fun tz => rfl) (v' := .text s)
    (by rw [C20_decode_escape]; rfl) rfl rfl (.inl rfl)
  have hkey : String.ofList (upper l.name) = key := by rw [hn, String.ofList_toList]
  have hm : key ∉ ical.multi := by clear hn hkey; revert key; decide +kernel
  unfold createValue
  dsimp only
  rw [h, (program_keeps hT).2.2.1, hkey, if_neg hm, if_neg (by simp), if_neg (by simp), if_neg (by simp),
    if_pos (.inl rfl)]

/-! ## The properties of an event -/

/-- The property is read, written and read again with the same value. -/
def Twice (e : Env) (w : Writer) (l : ContentLine) : Prop :=
  ∃ v text ps v', readLine e l.text = some ⟨l.name, l.params.map ShownParam.meaning, v⟩ ∧ rewriteLine e w l.text = some text ∧
    (∃ r, text = l.name ++ r ∧ r ≠ []) ∧ readLine e text = some ⟨l.name, ps, v'⟩ ∧ SameValue v v' ∧
    (upper l.name = "RECURRENCE-ID".toList → paramValue ps "RANGE" = none) ∧ Carried (l.params.map ShownParam.meaning) ps ∧
    typeOf e l.name ps = typeOf e l.name (l.params.map ShownParam.meaning)

theorem twice_of {e : Env} {w : Writer} {l : ContentLine} {v : Value} {R : Value → Prop}
    (h1 : readLine e l.text = some ⟨l.name, l.params.map ShownParam.meaning, v⟩) (h2 : Again e w l R) (h3 : ∀ v', R v' → SameValue v v')
    (h4 : upper l.name = "RECURRENCE-ID".toList → HasParam l "RANGE".toList none) : Twice e w l := by
  obtain ⟨-, text, ps, v', -, a, b, c, -, d, f⟩ := h2
  exact ⟨v, text, ps, v', h1, a, b, c, h3 v' d, fun h => f.1.range (h4 h), f⟩

theorem twice {e : Env} (hT : Program ical e.tables) {w : Writer} {ls : List ContentLine} {d : EventDesc} (h : Describes ls d)
    (ha : ∀ l ∈ ls, l.Allowed false) (hr : ∀ l ∈ ls, ∀ p ∈ l.params, ∀ v ∈ p.values, v.Readable) {l : ContentLine} (hl : l ∈ ls)
    (hk : upper l.name ∈ known) (hf : LineFits l) : Twice e w l := by
  have hone : ∀ {α : Type} {key : List Char} {R : ContentLine → α → Prop} {a : Option α}, HasLine ls key R a → upper l.name = key →
      ∃ x, R l x := by
    intro α key R a h hk
    cases h with
    | none h => exact absurd hk (h l hl)
    | some m x h1 h2 h3 h4 => rw [h3 l hl hk]; exact ⟨x, h4⟩
  have ha := ha l hl
  have hr := hr l hl
  unfold known at hk
  rw [List.mem_append] at hk
  rcases hk with hk | hk
  · obtain ⟨f, -, hs⟩ := forall₂_left h.lines hl
    have hne : upper l.name ≠ "RECURRENCE-ID".toList := by
      intro hc; rw [hc] at hk; revert hk; decide +kernel
    have hfo : f ≠ .other := by
      rintro rfl
      cases hs with
      | other h => exact h hk
    refine twice_of (line_says hT ha hr hs hfo) (R := (· = valueOf f)) ?_ (fun v' h => .inl h) fun h => absurd h hne
    cases hs with
    | start hn hp ht hd hz => exact date_again hT ha hr hf hn (by decide +kernel) ⟨_, _, _, hp, ht, hd, hz, rfl⟩
    | rule ex hn hp ht => exact rule_again hT ha hr hf hn hp ht
    | dates ex hn hp ht hd => exact dates_again hT ha hr hf hn hp ht fun t ht => (hd t ht).2
    | other h => exact absurd rfl hfo
  · simp only [List.mem_cons, List.not_mem_nil, or_false] at hk
    rcases hk with hk | hk | hk | hk
    · obtain ⟨x, hx⟩ := hone h.uid hk
      exact twice_of (text_line hT ha hr hk hx) (text_again hT ha hr hf (key := "UID") (by decide +kernel) hk hx) (fun v' h => .inl h)
        fun h => absurd (hk.symm.trans h) (by decide +kernel)
    · obtain ⟨x, hx⟩ := hone h.dtend hk
      exact twice_of (date_line hT ha hr (by simp) hk hx) (date_again hT ha hr hf (key := _) hk (by decide +kernel) hx) (fun v' h => .inl h)
        fun h => absurd (hk.symm.trans h) (by decide +kernel)
    · obtain ⟨x, hx⟩ := hone h.dur hk
      obtain ⟨D, d1, d2⟩ := length_line hT ha hr hk hx
      exact twice_of d2 (length_again hT ha hr hf (key := "DURATION") (by decide +kernel) hk hx) (fun v' ⟨D', e1, e2⟩ => .inr ⟨D, D', rfl, e1, e2.trans d1.symm⟩)
        fun h => absurd (hk.symm.trans h) (by decide +kernel)
    · obtain ⟨x, hx⟩ := hone h.rid hk
      exact twice_of (date_line hT ha hr (by simp) hk hx.1) (date_again hT ha hr hf (key := _) hk (by decide +kernel) hx.1) (fun v' h => .inl h)
        fun _ => hx.2

theorem known_head : ∀ n ∈ known, n.take 2 ≠ "BE".toList ∧ n.take 2 ≠ "EN".toList ∧ 2 ≤ n.length := by decide +kernel

theorem upper_take (n : List Char) (k : Nat) : (upper n).take k = upper (n.take k) := by
  unfold upper; rw [List.map_take]

/-- What is written for a property of an event can be read as a property of that name. -/
theorem line_readBack {s : Settings} {w : Writer} {p : Cont.CProp} {l : ContentLine}
    (hk : (upper l.name).take 2 ≠ "BE".toList ∧ (upper l.name).take 2 ≠ "EN".toList ∧ 2 ≤ (upper l.name).length)
    (ht : p.text = l.text) (hn : p.name = l.name) {text : List Char} (h2 : rewriteLine s.toEnv w l.text = some text)
    (hr : ∃ r, text = l.name ++ r ∧ r ≠ []) {ps : List Param} {v' : Value} (h5 : readLine s.toEnv text = some ⟨l.name, ps, v'⟩) :
    ReadBack (container s) (reline s.toEnv w p) := by
  obtain ⟨r, h3, h4⟩ := hr
  have htext : (reline s.toEnv w p).text = text := by
    unfold reline
    rw [ht, h2]; rfl
  have hname : (reline s.toEnv w p).name = l.name := hn
  obtain ⟨k1, k2, k3⟩ := hk
  have hlen : 2 ≤ l.name.length := by simpa [upper] using k3
  have htake : text.take 2 = l.name.take 2 := by rw [h3, List.take_append_of_le_length hlen]
  rw [upper_take] at k1 k2
  refine ⟨?_, ?_, ?_, ?_⟩
  · rw [htext, h3]; simp [h4]
  · rw [htext]
    rintro ⟨t, ht⟩
    apply k1
    rw [← htake, ← ht]
    rfl
  · rw [htext]
    rintro ⟨t, ht⟩
    apply k2
    rw [← htake, ← ht]
    rfl
  · show (readLine s.toEnv (reline s.toEnv w p).text).map _ = _
    rw [htext, h5, Option.map_some]
    unfold reline at htext ⊢
    rw [ht, h2] at htext ⊢
    rw [hn]; rfl

theorem twice_readBack {s : Settings} {w : Writer} {p : Cont.CProp} {l : ContentLine}
    (hk : (upper l.name).take 2 ≠ "BE".toList ∧ (upper l.name).take 2 ≠ "EN".toList ∧ 2 ≤ (upper l.name).length)
    (ht : p.text = l.text) (hn : p.name = l.name) (h : Twice s.toEnv w l) : ReadBack (container s) (reline s.toEnv w p) := by
  obtain ⟨v, text, ps, v', -, h2, h3, h5, -⟩ := h
  exact line_readBack hk ht hn h2 h3 h5

theorem values_filter {e : Env} {ps : List Cont.CProp} (hp : ∀ p ∈ ps, ∃ q, readLine e p.text = some q ∧ q.name = p.name)
    {qs : List RProp} (hq : (ps.mapM fun p => readLine e p.text) = some qs) (key : List Char) :
    ((ps.filter fun p => decide (p.key = key)).mapM fun p => readLine e p.text) =
      some (qs.filter fun q => decide (upper q.name = key)) := by
  induction ps generalizing qs with
  | nil => cases hq; rfl
  | cons p ps ih =>
    obtain ⟨q, h1, h2⟩ := hp p (by simp)
    rw [List.mapM_cons, h1] at hq
    cases h3 : ps.mapM fun p => readLine e p.text with
    | none => rw [h3] at hq; cases hq
    | some rs =>
      rw [h3] at hq
      cases hq
      have ih' := ih (fun p hp' => hp p (by simp [hp'])) h3
      show _ = some ((q :: rs).filter _)
      by_cases hk : p.key = key
      · rw [List.filter_cons_of_pos (by simpa using hk), List.filter_cons_of_pos (by rw [h2]; exact decide_eq_true hk), List.mapM_cons, h1, ih']
        rfl
      · rw [List.filter_cons_of_neg (by simpa using hk), List.filter_cons_of_neg (by rw [h2, decide_eq_true_eq]; exact hk), ih']

theorem mapM_forall₂ {α β γ : Type} {f : α → Option β} {g : α → Option γ} {R : β → γ → Prop} {l : List α} {bs : List β} {cs : List γ}
    (h : ∀ a ∈ l, ∃ b c, f a = some b ∧ g a = some c ∧ R b c) (hb : l.mapM f = some bs) (hc : l.mapM g = some cs) :
    List.Forall₂ R bs cs := by
  induction l generalizing bs cs with
  | nil => cases hb; cases hc; exact .nil
  | cons a l ih =>
    obtain ⟨b, c, h1, h2, h3⟩ := h a (by simp)
    rw [List.mapM_cons, h1] at hb
    rw [List.mapM_cons, h2] at hc
    cases h4 : l.mapM f with
    | none => rw [h4] at hb; cases hb
    | some bs' =>
      cases h5 : l.mapM g with
      | none => rw [h5] at hc; cases hc
      | some cs' =>
        rw [h4] at hb; rw [h5] at hc
        cases hb; cases hc
        exact .cons h3 (ih (fun a ha => h a (by simp [ha])) h4 h5)

/-- The properties of one name, as they are read and as they are read again. -/
def SameRead (key : List Char) (q q' : RProp) : Prop :=
  SameValue q.value q'.value ∧ (key = "RECURRENCE-ID".toList → paramValue q'.params "RANGE" = none)

theorem filter_reline {e : Env} {w : Writer} (ps : List Cont.CProp) (key : List Char) :
    ((ps.map (reline e w)).filter fun p => decide (p.key = key)) = (ps.filter fun p => decide (p.key = key)).map (reline e w) := by
  rw [List.filter_map]
  rfl

theorem props_again {e : Env} (hT : Program ical e.tables) {w : Writer} {ls : List ContentLine} {d : EventDesc} (h : Describes ls d)
    (ha : ∀ l ∈ ls, l.Allowed false) (hr : ∀ l ∈ ls, ∀ p ∈ l.params, ∀ v ∈ p.values, v.Readable)
    (hf : ∀ l ∈ ls, upper l.name ∈ known → LineFits l)
    {ps ps' : List Cont.CProp} (ht : ps.map (·.text) = ls.map ContentLine.text)
    (hp : ∀ p ∈ ps, ∃ q, readLine e p.text = some q ∧ q.name = p.name)
    (hp' : ∀ p ∈ ps', ∃ q, readLine e p.text = some q ∧ q.name = p.name)
    (hs : ∀ key, ps'.filter (fun p => decide (p.key = key)) = (ps.map (reline e w)).filter fun p => decide (p.key = key))
    {qs qs' : List RProp} (hq : (ps.mapM fun p => readLine e p.text) = some qs) (hq' : (ps'.mapM fun p => readLine e p.text) = some qs')
    {key : List Char} (hk : key ∈ known) : List.Forall₂ (SameRead key) (qs.filter fun q => decide (upper q.name = key))
      (qs'.filter fun q => decide (upper q.name = key)) := by
  have e1 := values_filter hp hq key
  have e2 := values_filter hp' hq' key
  rw [hs, filter_reline, List.mapM_map] at e2
  refine mapM_forall₂ ?_ e1 e2
  intro p hpm
  rw [List.mem_filter, decide_eq_true_eq] at hpm
  have htx : p.text ∈ ls.map ContentLine.text := by rw [← ht]; exact List.mem_map_of_mem hpm.1
  obtain ⟨l, hl, hlt⟩ := List.mem_map.mp htx
  obtain ⟨q, q1, q2⟩ := hp p hpm.1
  have hname : l.name = p.name := by
    rw [← q2]
    rw [← hlt, line_value (ha l hl) (hr l hl), Option.map_eq_some_iff] at q1
    obtain ⟨_, _, rfl⟩ := q1
    rfl
  have hlk : upper l.name = key := by rw [hname]; exact hpm.2
  obtain ⟨v, text, ps, v', h1, h2, -, h4, h5, h6, -⟩ := twice hT (w := w) h ha hr hl (by rw [hlk]; exact hk) (hf l hl (by rw [hlk]; exact hk))
  refine ⟨⟨l.name, l.params.map ShownParam.meaning, v⟩, ⟨l.name, ps, v'⟩, by rw [← hlt]; exact h1, ?_, h5, fun hc => h6 (by rw [hlk]; exact hc)⟩
  show readLine e ((rewriteLine e w p.text).getD p.text) = _
  rw [← hlt, h2]
  exact h4

theorem pval_same {v v' : Value} (h : SameValue v v') : v'.pval = v.pval := by
  rcases h with rfl | ⟨D, D', rfl, rfl, -⟩ <;> rfl

theorem values_same {key : List Char} {qs qs' : List RProp} (h : List.Forall₂ (SameRead key) qs qs') :
    List.Forall₂ SameValue (qs.map (·.value)) (qs'.map (·.value)) := by
  induction h with
  | nil => exact .nil
  | cons a _ ih => exact .cons a.1 ih

theorem head_same {l l' : List Value} (h : List.Forall₂ SameValue l l') : (l = [] ∧ l' = []) ∨
    ∃ v v', l.head? = some v ∧ l'.head? = some v' ∧ SameValue v v' := by
  cases h with
  | nil => exact .inl ⟨rfl, rfl⟩
  | cons a _ => exact .inr ⟨_, _, rfl, rfl, a⟩

theorem pvals_same {l l' : List Value} (h : List.Forall₂ SameValue l l') : l'.map Value.pval = l.map Value.pval := by
  induction h with
  | nil => rfl
  | cons a _ ih => rw [List.map_cons, List.map_cons, pval_same a, ih]

theorem date_same {l l' : List Value} (h : List.Forall₂ SameValue l l') :
    (match l'.head? with | some (.date t) => some t | _ => none) = (match l.head? with | some (.date t) => some t | _ => none) := by
  rcases head_same h with ⟨rfl, rfl⟩ | ⟨v, v', e1, e2, rfl | ⟨D, D', rfl, rfl, -⟩⟩
  · rfl
  · rw [e1, e2]
  · rw [e1, e2]

/-- What is read again of an event is what is said of it. -/
theorem reads_again {e : Env} (hT : Program ical e.tables) {w : Writer} {ls : List ContentLine} {d : EventDesc} (h : Describes ls d)
    (ha : ∀ l ∈ ls, l.Allowed false) (hr : ∀ l ∈ ls, ∀ p ∈ l.params, ∀ v ∈ p.values, v.Readable)
    (hf : ∀ l ∈ ls, upper l.name ∈ known → LineFits l)
    {ps ps' : List Cont.CProp} (ht : ps.map (·.text) = ls.map ContentLine.text)
    (hp : ∀ p ∈ ps, ∃ q, readLine e p.text = some q ∧ q.name = p.name)
    (hp' : ∀ p ∈ ps', ∃ q, readLine e p.text = some q ∧ q.name = p.name)
    (hs : ∀ key, ps'.filter (fun p => decide (p.key = key)) = (ps.map (reline e w)).filter fun p => decide (p.key = key)) :
    ∃ qs' t', (ps'.mapM fun p => readLine e p.text) = some qs' ∧ finalised qs' = some t' ∧ Reads t' d := by
  obtain ⟨qs, hq⟩ := mapM_some (f := fun p : Cont.CProp => readLine e p.text) (l := ps) fun p h => (hp p h).imp fun _ h => h.1
  obtain ⟨qs', hq'⟩ := mapM_some (f := fun p : Cont.CProp => readLine e p.text) (l := ps') fun p h => (hp' p h).imp fun _ h => h.1
  have hqt : (ls.map ContentLine.text).mapM (readLine e) = some qs := by
    rw [← ht, List.mapM_map]; exact hq
  obtain ⟨t, t1, t2⟩ := reads hT h ha hr hqt
  have hkey : ∀ key : String, key.toList ∈ known → List.Forall₂ SameValue (values qs key) (values qs' key) := fun key hk =>
    values_same (props_again hT (w := w) h ha hr hf ht hp hp' hs hq hq' hk)
  have hdate : ∀ key : String, key.toList ∈ known → loadDate qs' key = loadDate qs key := fun key hk => by
    rcases head_same (hkey key hk) with ⟨e1, e2⟩ | ⟨v, v', e1, e2, rfl | ⟨D, D', rfl, rfl, -⟩⟩
    · rw [loadDate, loadDate, e1, e2]
    · rw [loadDate, loadDate, e1, e2]
    · rw [loadDate, loadDate, e1, e2]
  have htext : EventRead.loadText qs' "UID" = EventRead.loadText qs "UID" := by
    rcases head_same (hkey "UID" (by decide +kernel)) with ⟨e1, e2⟩ | ⟨v, v', e1, e2, rfl | ⟨D, D', rfl, rfl, -⟩⟩
    · rw [EventRead.loadText, EventRead.loadText, e1, e2]
    · rw [EventRead.loadText, EventRead.loadText, e1, e2]
    · rw [EventRead.loadText, EventRead.loadText, e1, e2]
  have hstart : start qs' = start qs := by
    rcases head_same (hkey "DTSTART" (by decide +kernel)) with ⟨e1, e2⟩ | ⟨v, v', e1, e2, rfl | ⟨D, D', rfl, rfl, -⟩⟩
    · rw [start, start, e1, e2]
    · rw [start, start, e1, e2]
    · rw [start, start, e1, e2]
  have hdur : (loadDuration qs "DURATION" = none → loadDuration qs' "DURATION" = none) ∧
      ∀ D, loadDuration qs "DURATION" = some D → ∃ D', loadDuration qs' "DURATION" = some D' ∧ D'.totalSeconds = D.totalSeconds := by
    rcases head_same (hkey "DURATION" (by decide +kernel)) with ⟨e1, e2⟩ | ⟨v, v', e1, e2, rfl | ⟨D, D', rfl, rfl, h5⟩⟩
    · rw [loadDuration, loadDuration, e1, e2]; exact ⟨id, fun D h => by cases h⟩
    · rw [loadDuration, loadDuration, e1, e2]; exact ⟨id, fun D h => ⟨D, h, rfl⟩⟩
    · rw [loadDuration, loadDuration, e1, e2]; exact ⟨(fun h => by cases h), (fun D1 h => ⟨D', rfl, by cases h; exact h5⟩)⟩
  have hprops : props qs' = props qs := by
    unfold props
    rw [pvals_same (hkey "RRULE" (by decide +kernel)), pvals_same (hkey "RDATE" (by decide +kernel)),
      pvals_same (hkey "EXRULE" (by decide +kernel)), pvals_same (hkey "EXDATE" (by decide +kernel))]
  have hrange : rangeOf qs' = none := by
    have := props_again hT (w := w) h ha hr hf ht hp hp' hs hq hq' (key := "RECURRENCE-ID".toList) (by decide +kernel)
    unfold rangeOf
    rw [← List.head?_filter]
    generalize (qs'.filter fun q => decide (upper q.name = "RECURRENCE-ID".toList)) = l' at this ⊢
    generalize (qs.filter fun q => decide (upper q.name = "RECURRENCE-ID".toList)) = l at this
    cases this with
    | nil => rfl
    | cons a _ => exact a.2 rfl
  have hrid := hdate "RECURRENCE-ID" (by decide +kernel)
  have hnil : values qs' "RECURRENCE-ID" ≠ [] ↔ values qs "RECURRENCE-ID" ≠ [] := by
    rcases head_same (hkey "RECURRENCE-ID" (by decide +kernel)) with ⟨e1, e2⟩ | ⟨v, v', e1, e2, -⟩
    · rw [e1, e2]
    · constructor
      · intro _ hc; rw [hc] at e1; cases e1
      · intro _ hc; rw [hc] at e2; cases e2
  unfold finalised at t1
  split at t1
  · cases t1
  · next hn =>
    cases t1
    have hfin : ∃ t', finalised qs' = some t' := by
      unfold finalised
      rw [if_neg (by rw [hnil, hrid]; exact hn)]
      exact ⟨_, rfl⟩
    obtain ⟨t', ht'⟩ := hfin
    refine ⟨qs', t', hq', ht', ?_⟩
    unfold finalised at ht'
    rw [if_neg (by rw [hnil, hrid]; exact hn)] at ht'
    cases ht'
    · constructor
      · dsimp only; rw [htext]; exact t2.uid
      · exact hstart.trans t2.start
      · exact (hdate "DTEND" (by decide +kernel)).trans t2.dtend
      · intro hd; exact hdur.1 (t2.noDur hd)
      · intro k hk
        obtain ⟨D, d1, d2⟩ := t2.dur k hk
        obtain ⟨D', d3, d4⟩ := hdur.2 D d1
        exact ⟨D', d3, d4.trans d2⟩
      · exact hrid.trans t2.rid
      · dsimp only; rw [hrange]; rfl
      · dsimp only; rw [hrange]; rfl
      · rfl
      · intro hc; dsimp only; rw [hprops]; exact t2.recurs hc
      · intro hc; dsimp only; rw [hprops]; exact t2.single hc

/-! ## The components -/

/-- A component, everywhere in which the components are where they may be, and none of a type that cannot be read. -/
inductive Formed : Cont.Component → Prop
  | mk {t ps cs} (hc : t ≠ "VCALENDAR".toList) (hu : t ≠ "UNKNOWN".toList) (ha : ∀ c ∈ cs, Takes t c.type) (hs : ∀ c ∈ cs, Formed c) :
      Formed (.mk t ps cs)

theorem finalise_same {s : Settings} {c c' : Cont.Component} (h : (container s).finalise c = some c') : c' = c := by
  have h : (if (if isRecur c.type then (timed s.toEnv c).isSome else s.finishes c) then some c else none) = some c' := h
  generalize (if isRecur c.type then (timed s.toEnv c).isSome else s.finishes c) = b at h
  cases b with
  | false => cases h
  | true => cases h; rfl

theorem body_formed {s : Settings} {top : Bool} {t : List Char} {body : List (List Char)} {ps : List Cont.CProp}
    {ss : List Cont.Component} (h : Spec.Body (container s) top t body ps ss) : ∀ c ∈ ss, Takes t c.type ∧ Formed c := by
  induction h with
  | nil => simp
  | blank _ _ ih => exact ih
  | prop _ _ _ _ _ _ ih => exact ih
  | @comp top t t' body ps' ss' c ls ps ss hc hu hf ha _ _ ih1 ih2 =>
    intro d hd
    rcases List.mem_cons.mp hd with rfl | hd
    · cases finalise_same hf
      exact ⟨ha, .mk hc hu (fun c hc => (ih1 c hc).1) fun c hc => (ih1 c hc).2⟩
    · exact ih2 d hd

section
variable {s : Settings} {w : Writer} {order : Cont.Order}

theorem relinesAll_map (e : Env) (w : Writer) (cs : List Cont.Component) : relinesAll e w cs = cs.map (relines e w) := by
  induction cs with
  | nil => rfl
  | cons c cs ih => rw [relinesAll, ih]; rfl

theorem relines_type (e : Env) (w : Writer) (c : Cont.Component) : (relines e w c).type = c.type := by cases c; rfl

theorem reline_key (e : Env) (w : Writer) (p : Cont.CProp) : (reline e w p).key = p.key := rfl

theorem readBack_read {p : Cont.CProp} (h : ReadBack (container s) p) : ∃ q, readLine s.toEnv p.text = some q ∧ q.name = p.name :=
  parse_prop h.2.2.2

theorem timed_some {t : List Char} {ps : List Cont.CProp} {cs : List Cont.Component}
    (h : ∀ p ∈ ps, ∃ q, readLine s.toEnv p.text = some q ∧ q.name = p.name) (hk : ∀ p ∈ ps, p.key ≠ "RECURRENCE-ID".toList) :
    (timed s.toEnv (.mk t ps cs)).isSome := by
  obtain ⟨qs, hq⟩ := mapM_some (f := fun p : Cont.CProp => readLine s.toEnv p.text) (l := ps) fun p hp => (h p hp).imp fun _ h => h.1
  have hn := no_rid h hk hq
  show ((ps.mapM fun p => readLine s.toEnv p.text).bind finalised).isSome = true
  rw [hq, Option.bind_some, finalised, if_neg (by rw [hn]; simp)]
  rfl

theorem finalise_some (hfin : ∀ c, isRecur c.type = false → s.finishes c = true) {t : List Char} {ps : List Cont.CProp}
    {cs : List Cont.Component} (h : isRecur t = true → (timed s.toEnv (.mk t ps cs)).isSome) :
    (container s).finalise (.mk t ps cs) = some (.mk t ps cs) := by
  show (if (if isRecur t then (timed s.toEnv (.mk t ps cs)).isSome else s.finishes (.mk t ps cs)) then _ else _) = _
  cases hr : isRecur t with
  | true => rw [if_pos rfl, if_pos (h hr)]
  | false => rw [if_neg Bool.false_ne_true, if_pos (hfin (.mk t ps cs) hr)]

/-- What is written for the component can be read as what is written: each property by itself.  No component of which there may be
instances has a RECURRENCE-ID. -/
inductive Kept (s : Settings) (w : Writer) : Cont.Component → Prop
  | mk {t ps cs} (hp : ∀ p ∈ ps, ReadBack (container s) (reline s.toEnv w p))
      (hk : isRecur t = true → ∀ p ∈ ps, p.key ≠ "RECURRENCE-ID".toList) (hs : ∀ c ∈ cs, Kept s w c) : Kept s w (.mk t ps cs)

theorem good_of (hfin : ∀ c, isRecur c.type = false → s.finishes c = true) (heq : ∀ a b, order.eq a b = true → a.type = b.type)
    {t : List Char} {ps : List Cont.CProp} {cs : List Cont.Component} (hf : Formed (.mk t ps cs))
    (hp : ∀ p ∈ ps, ReadBack (container s) (reline s.toEnv w p))
    (ht : isRecur t = true → ∀ ps' ss, (∀ p ∈ ps', ∃ q, readLine s.toEnv p.text = some q ∧ q.name = p.name) →
      (∀ key, ps'.filter (fun p => decide (p.key = key)) = (ps.map (reline s.toEnv w)).filter fun p => decide (p.key = key)) →
      (timed s.toEnv (.mk t ps' ss)).isSome)
    (hs : ∀ c ∈ cs, Tree41.Good (container s) order (relines s.toEnv w c) ∧ Spec.Writable (container s) (relines s.toEnv w c)) :
    Tree41.Good (container s) order (relines s.toEnv w (.mk t ps cs)) ∧ Spec.Writable (container s) (relines s.toEnv w (.mk t ps cs)) := by
  cases hf with
  | mk hc hu ha _ =>
    rw [relines, relinesAll_map]
    have hp' : ∀ p ∈ ps.map (reline s.toEnv w), ReadBack (container s) p := by
      intro p h
      obtain ⟨q, hq, rfl⟩ := List.mem_map.mp h
      exact hp q hq
    have hg : ∀ c ∈ cs.map (relines s.toEnv w), Tree41.Good (container s) order c ∧ Spec.Writable (container s) c := by
      intro c h
      obtain ⟨d, hd, rfl⟩ := List.mem_map.mp h
      exact hs d hd
    have ha' : ∀ c ∈ cs.map (relines s.toEnv w), Takes t c.type := by
      intro c h
      obtain ⟨d, hd, rfl⟩ := List.mem_map.mp h
      rw [relines_type]
      exact ha d hd
    obtain ⟨body, ss, l, h1, h2, h3, h4⟩ := Tree41.write (env := container s) (o := order) (top := false) heq (t := t) hp' (by simp)
      (fun c hc => (hg c hc).1) ha' fun c hc => (hg c hc).2
    refine ⟨⟨body, _, ss, ss, h1, h2, finalise_some hfin fun hr => ht hr _ _ (body_sound h2).1 (C42_same_name _ _),
      .mk (C42_same_name _ _) h3 h4⟩, .mk hc hu hp' ha' fun c hc => (hg c hc).2⟩

theorem keys_perm {ps ps' : List Cont.CProp} {e : Env}
    (h : ∀ key, ps'.filter (fun p => decide (p.key = key)) = (ps.map (reline e w)).filter fun p => decide (p.key = key))
    {key : List Char} (hk : ∀ p ∈ ps, p.key ≠ key) : ∀ p ∈ ps', p.key ≠ key := by
  intro p hp
  obtain ⟨q, hq, rfl⟩ := List.mem_map.mp ((L142.same_perm h).subset hp)
  exact hk q hq

theorem kept_good (hfin : ∀ c, isRecur c.type = false → s.finishes c = true) (heq : ∀ a b, order.eq a b = true → a.type = b.type)
    {c : Cont.Component} (hf : Formed c) (hk : Kept s w c) :
    Tree41.Good (container s) order (relines s.toEnv w c) ∧ Spec.Writable (container s) (relines s.toEnv w c) := by
  induction hf with
  | @mk t ps cs hc hu ha hs ih =>
    cases hk with
    | mk hp hr hks =>
      exact good_of hfin heq (.mk hc hu ha hs) hp (fun h ps' ss h1 h2 => timed_some h1 (keys_perm h2 (hr h)))
        fun c hc => ih c hc (hks c hc)

/-- An event that is kept: of the lines that bear on its times what `LineFits` says, and the others, and all in the components in it, by
themselves. -/
structure EventKept (s : Settings) (w : Writer) (c : Cont.Component) (d : EventDesc) : Prop where
  type : c.type = "VEVENT".toList
  lines : ∃ ls : List ContentLine, c.props.map (·.text) = ls.map ContentLine.text ∧ (∀ l ∈ ls, l.Allowed false) ∧
    (∀ l ∈ ls, ∀ p ∈ l.params, ∀ v ∈ p.values, v.Readable) ∧ Describes ls d ∧ (∀ l ∈ ls, upper l.name ∈ known → LineFits l)
  props : ∀ p ∈ c.props, p.key ∉ known → ReadBack (container s) (reline s.toEnv w p)
  subs : ∀ b ∈ c.subs, Kept s w b

theorem EventKept.inside {c : Cont.Component} {d : EventDesc} (h : EventKept s w c d) : EventIn c d := by
  obtain ⟨ls, a, b, f, g, -⟩ := h.lines
  exact ⟨h.type, ls, a, b, f, g⟩

theorem event_timed (hT : Program ical s.tables) {c : Cont.Component} {d : EventDesc} (h : EventKept s w c d) (hs : Sound s c)
    {t : List Char} {ps' : List Cont.CProp} {ss : List Cont.Component}
    (hp : ∀ p ∈ ps', ∃ q, readLine s.toEnv p.text = some q ∧ q.name = p.name)
    (hk : ∀ key, ps'.filter (fun p => decide (p.key = key)) = (c.props.map (reline s.toEnv w)).filter fun p => decide (p.key = key)) :
    ∃ t' ls, timed s.toEnv (.mk t ps' ss) = some t' ∧ Reads t' d ∧ List.Forall₂ Says ls d.facts := by
  obtain ⟨ls, a, b, f, g, k⟩ := h.lines
  obtain ⟨qs', t', h1, h2, h3⟩ := reads_again hT (w := w) g b f k a hs.1 hp hk
  refine ⟨t', ls, ?_, h3, g.lines⟩
  show (ps'.mapM fun p => readLine s.toEnv p.text).bind finalised = some t'
  rw [h1, Option.bind_some, h2]

theorem event_good (hT : Program ical s.tables) (hfin : ∀ c, isRecur c.type = false → s.finishes c = true)
    (heq : ∀ a b, order.eq a b = true → a.type = b.type) {c : Cont.Component} {d : EventDesc} (hf : Formed c) (hs : Sound s c)
    (h : EventKept s w c d) :
    Tree41.Good (container s) order (relines s.toEnv w c) ∧ Spec.Writable (container s) (relines s.toEnv w c) := by
  cases hf with
  | @mk t ps cs hc hu ha hss =>
    refine good_of hfin heq (.mk hc hu ha hss) (fun p hp => ?_) (fun _ ps' ss h1 h2 => ?_) fun c hc => kept_good hfin heq (hss c hc)
      (h.subs c hc)
    · by_cases hk : p.key ∈ known
      · obtain ⟨ls, a, b, f, g, k⟩ := h.lines
        obtain ⟨l, hl, hlt⟩ := List.mem_map.mp (show p.text ∈ ls.map ContentLine.text by rw [← a]; exact List.mem_map_of_mem hp)
        obtain ⟨q, q1, q2⟩ := hs.1 p hp
        have hname : p.name = l.name := by
          rw [← q2]
          rw [← hlt, line_value (b l hl) (f l hl), Option.map_eq_some_iff] at q1
          obtain ⟨_, _, rfl⟩ := q1
          rfl
        have hlk : upper l.name ∈ known := by rw [← hname]; exact hk
        exact twice_readBack (known_head _ hlk) hlt.symm hname (twice hT g b f hl hlk (k l hl hlk))
      · exact h.props p hp hk
    · obtain ⟨t', _, h3, -⟩ := event_timed hT h hs (t := t) (ss := ss) h1 h2
      rw [h3]; rfl

/-- The components that are read again, in the order in which they were before. -/
theorem events_again (hT : Program ical s.tables) {cs cs' : List Cont.Component} {cal : List EventDesc}
    (hs : ∀ c ∈ cs, Sound s c) (hs' : ∀ c ∈ cs', Sound s c) (h : List.Forall₂ Same (cs.map (relines s.toEnv w)) cs')
    (he : List.Forall₂ (EventKept s w) (cs.filter fun d => decide (upper d.type = "VEVENT".toList)) cal) :
    List.Forall₂ (WasRead s) (cs'.filter fun d => decide (upper d.type = "VEVENT".toList)) cal := by
  induction cs generalizing cs' cal with
  | nil => cases h; cases he; exact .nil
  | cons c cs ih =>
    rw [List.map_cons] at h
    cases h with
    | @cons _ c' _ cs' a b =>
      have ht : c'.type = c.type := (Tree41.same_type a).symm.trans (relines_type _ _ _)
      by_cases hv : upper c.type = "VEVENT".toList
      · rw [List.filter_cons_of_pos (by simpa using hv)] at he
        cases he with
        | @cons _ d _ ds h1 h2 =>
          rw [List.filter_cons_of_pos (by rw [ht]; simpa using hv)]
          refine .cons ⟨ht.trans h1.type, ?_⟩ (ih (fun c hc => hs c (by simp [hc])) (fun c hc => hs' c (by simp [hc])) b h2)
          obtain ⟨t, ps, ss⟩ := c
          rw [relines] at a
          cases a with
          | @mk _ _ ps' _ _ ss' hp _ _ => exact event_timed hT h1 (hs _ (by simp)) (hs' (.mk t ps' ss') (by simp)).1 hp
      · rw [List.filter_cons_of_neg (by simpa using hv)] at he
        rw [List.filter_cons_of_neg (by rw [ht]; simpa using hv)]
        exact ih (fun c hc => hs c (by simp [hc])) (fun c hc => hs' c (by simp [hc])) b he

theorem others_again {cs cs' : List Cont.Component} (hk : ∀ d ∈ cs, upper d.type ≠ "VEVENT".toList → ∀ p ∈ d.props, p.key ≠ "RECURRENCE-ID".toList)
    (h : List.Forall₂ Same (cs.map (relines s.toEnv w)) cs') :
    ∀ d ∈ cs', upper d.type ≠ "VEVENT".toList → ∀ p ∈ d.props, p.key ≠ "RECURRENCE-ID".toList := by
  intro d hd ht
  obtain ⟨c, hc, hsame⟩ := forall₂_right h hd
  obtain ⟨b, hb, rfl⟩ := List.mem_map.mp hc
  have hbt : d.type = b.type := (Tree41.same_type hsame).symm.trans (relines_type _ _ _)
  have := hk b hb (by rw [← hbt]; exact ht)
  obtain ⟨t, ps, ss⟩ := b
  rw [relines] at hsame
  cases hsame with
  | mk hp _ _ => exact keys_perm hp this

/-- The same parts, in the same order. -/
theorem parts_perm {α β : Type} {P Q : α → List β → Prop} (h : ∀ a p q, P a p → Q a q → p.Perm q) {l l' : List α} (hl : l.Perm l')
    {ps qs : List (List β)} (hp : List.Forall₂ P l ps) (hq : List.Forall₂ Q l' qs) : ps.flatten.Perm qs.flatten := by
  obtain ⟨rs, h1, h2⟩ := List.perm_comp_forall₂ hl hq
  have : ∀ {l : List α} {ps rs : List (List β)}, List.Forall₂ P l ps → List.Forall₂ Q l rs → ps.flatten.Perm rs.flatten := by
    intro l ps rs hp hr
    induction hp generalizing rs with
    | nil => cases hr; exact .refl _
    | cons a _ ih =>
      cases hr with
      | cons b hr => exact (h _ _ _ a b).append (ih hr)
  exact (this hp h1).trans (List.Perm.flatten h2)

theorem fits_perm {env : TzEnv} {range : Period} {cal cal' : List EventDesc} (h : cal'.Perm cal) {d : EventDesc}
    (hf : EventFits env range cal d) : EventFits env range cal' d :=
  ⟨hf.start, hf.ends, hf.dtend, hf.days, hf.alone, hf.dates, fun hr => (hf.others hr).imp
    (fun h' v hv => h' v (h.subset hv)) fun h' v hv => h' v (h.subset hv)⟩

theorem instance_perm {env : TzEnv} {range : Period} {cal cal' : List EventDesc} (h : cal'.Perm cal) {d : EventDesc} {t u : DateTime} :
    HasInstance env cal' range d t u ↔ HasInstance env cal range d t u := by
  unfold HasInstance
  simp only [h.mem_iff]

end

end L144

open L144 L137

/-- C144 (partial), written and read again: a calendar with events as in C137 is written as a text that can be read, and the calendar
that is read from it has the same instances, in the same number, each with the same start and the same end, for every period (and every
order in which components and properties are written).

Needed: components that compare equal have the same type (see C41); the other properties and components are each read from what is
written for them, which is left open here (`Kept`; see `C144_lines_partial`).  Missing: what is missing in C137; several TZIDs in a line
(`C144_fails_zones`); values of parameters that begin with a space (`C144_fails_space`); times that are said to be dates
(`C144_fails_date`).  (The folding of lines is in C22.) -/
theorem C144_instances_partial (s : Settings) (hT : Program ValueType.ical s.tables)
    (hfin : ∀ c, isRecur c.type = false → s.finishes c = true) (w : Writer) (order : Cont.Order)
    (heq : ∀ a b, order.eq a b = true → a.type = b.type) (b1 b2 body : List (List Char)) (ps : List Cont.CProp)
    (ss : List Cont.Component) (h1 : Spec.Blank b1) (h2 : Spec.Blank b2) (hb : s.blankRaise = false ∨ b1 = [] ∧ b2 = [])
    (h : Spec.Body (container s) true "VCALENDAR".toList body ps ss) (hv : ∃ p ∈ ps, p.key = "VERSION".toList)
    (hps : ∀ p ∈ ps, ReadBack (container s) (reline s.toEnv w p) ∧ CalendarRead.valid s.toEnv (reline s.toEnv w p) = true)
    (cal : List EventDesc)
    (hev : List.Forall₂ (EventKept s w) (ss.filter fun d => decide (PropText.upper d.type = "VEVENT".toList)) cal)
    (hother : ∀ d ∈ ss, PropText.upper d.type ≠ "VEVENT".toList → Kept s w d ∧ ∀ p ∈ d.props, p.key ≠ "RECURRENCE-ID".toList)
    (hzone : ∀ d ∈ ss, PropText.upper d.type = "VTIMEZONE".toList → d.type = "VTIMEZONE".toList) (env : TzEnv)
    (range : Period) (hf : ∀ d ∈ cal, EventFits env range cal d) (o : SetOrder) (top : Bool) :
    ∃ c lines c', read s (b1 ++ "BEGIN:VCALENDAR".toList :: (body ++ "END:VCALENDAR".toList :: b2)) = .ok (some c) ∧
      written s.toEnv w order c = some lines ∧ read s lines = .ok (some c') ∧
      ∃ n, ∀ fuel ≥ n, ∃ l l', getVEvents env o fuel s.toEnv c range top = some (.instances l) ∧
        getVEvents env o fuel s.toEnv c' range top = some (.instances l') ∧
        (l'.map fun i => (i.start, i.stop)).Perm (l.map fun i => (i.start, i.stop)) := by
  have hform := body_formed h
  have hsound := (body_sound h).2
  have hgood : ∀ c ∈ ss, Tree41.Good (container s) order (relines s.toEnv w c) ∧ Spec.Writable (container s) (relines s.toEnv w c) := by
    intro c hc
    by_cases hu : PropText.upper c.type = "VEVENT".toList
    · obtain ⟨d, -, hd⟩ := forall₂_left hev (List.mem_filter.mpr ⟨hc, by simpa using hu⟩)
      exact event_good hT hfin heq (hform c hc).2 (hsound c hc) hd
    · exact kept_good hfin heq (hform c hc).2 (hother c hc hu).1
  have hg : ∀ c ∈ ss.map (relines s.toEnv w), Tree41.Good (container s) order c ∧ Spec.Writable (container s) c := by
    intro c hc
    obtain ⟨b, hb, rfl⟩ := List.mem_map.mp hc
    exact hgood b hb
  have hp' : ∀ p ∈ ps.map (reline s.toEnv w), ReadBack (container s) p ∧ CalendarRead.valid s.toEnv p = true := by
    intro p hp
    obtain ⟨q, hq, rfl⟩ := List.mem_map.mp hp
    exact hps q hq
  obtain ⟨body', ss', l, g1, g2, g3, g4⟩ := Tree41.write (env := container s) (o := order) (top := true) heq
    (t := "VCALENDAR".toList) (ps := ps.map (reline s.toEnv w)) (cs := ss.map (relines s.toEnv w)) (fun p hp => (hp' p hp).1)
    (fun _ p hp => (hp' p hp).2) (fun c hc => (hg c hc).1)
    (fun c hc => ⟨fun h => absurd h (by decide +kernel), fun h => absurd h (by decide +kernel), fun h => absurd h (by decide +kernel),
      fun h => absurd h (by decide +kernel), fun h => absurd h (by decide +kernel)⟩)
    fun c hc => (hg c hc).2
  obtain ⟨cs, hcs, rfl⟩ := L142.perm_map g3
  obtain ⟨cal', hcal, hev'⟩ : ∃ cal', cal'.Perm cal ∧
      List.Forall₂ (EventKept s w) (cs.filter fun d => decide (PropText.upper d.type = "VEVENT".toList)) cal' := by
    obtain ⟨cal', e1, e2⟩ := List.perm_comp_forall₂ (hcs.filter _) hev
    exact ⟨cal', e2, e1⟩
  have hsound' := (body_sound g2).2
  have hread' := events_again hT (fun c hc => hsound c (hcs.subset hc)) hsound' g4 hev'
  have hother' := others_again (fun d hd hu => (hother d (hcs.subset hd) hu).2) g4
  have hread := events_read hT (fun c hc => hsound c (List.mem_filter.mp hc).1) (cs := ss.filter fun d =>
    decide (PropText.upper d.type = "VEVENT".toList)) (ds := cal) (hev.imp fun _ _ h => h.inside)
  have hzone' : ∀ d ∈ ss', PropText.upper d.type = "VTIMEZONE".toList → d.type = "VTIMEZONE".toList := by
    intro d hd hu
    obtain ⟨c, hc, hsame⟩ := forall₂_right g4 hd
    obtain ⟨b, hb, rfl⟩ := List.mem_map.mp hc
    have hbt : d.type = b.type := (Tree41.same_type hsame).symm.trans (relines_type _ _ _)
    rw [hbt] at hu ⊢
    exact hzone b (hcs.subset hb) hu
  refine ⟨.mk "VCALENDAR".toList ps ss, _, .mk "VCALENDAR".toList _ ss', (C40_calendar (container s) _ _).mpr
    ⟨C40_complete (container s) rfl b1 b2 body ps ss h1 h2 hb h hv, hzone⟩, ?_, (C40_calendar (container s) _ _).mpr
    ⟨C40_complete (container s) rfl [] [] body' _ ss' (by simp [Spec.Blank]) (by simp [Spec.Blank]) (.inr ⟨rfl, rfl⟩) g2 ?_, hzone'⟩, ?_⟩
  · unfold written
    rw [relines, relinesAll_map]
    exact g1
  · obtain ⟨p, hp, hk⟩ := hv
    exact ⟨reline s.toEnv w p, (C42_properties _ _).symm.subset (List.mem_map_of_mem hp), hk⟩
  obtain ⟨n, hn⟩ := expands_all (c := .mk "VCALENDAR".toList ps ss) (cal := cal) ⟨hsound, hread, fun d hd hu => (hother d hd hu).2⟩ o hf
    hread fun x hx => hx
  obtain ⟨n', hn'⟩ := expands_all (c := .mk "VCALENDAR".toList (Cont.writtenProps (order.keyOrder "VCALENDAR".toList)
    (ps.map (reline s.toEnv w))) ss') (cal := cal') ⟨hsound', hread', hother'⟩ o (fun d hd => fits_perm hcal (hf d (hcal.subset hd)))
    hread' fun x hx => hx
  refine ⟨max n n', fun fuel hfu => ?_⟩
  obtain ⟨l, l1, parts, l2, l3⟩ := hn fuel (by omega)
  obtain ⟨l', m1, parts', m2, m3⟩ := hn' fuel (by omega)
  refine ⟨l, l', ?_, ?_, ?_⟩
  · unfold getVEvents
    rw [show (Cont.Component.mk "VCALENDAR".toList ps ss).subs = ss from rfl, l1]
    simp only [Event.pySort_eq, ite_self]
  · unfold getVEvents
    rw [Cont.Component.subs, m1]
    simp only [Event.pySort_eq, ite_self]
  · show (l'.map times).Perm (l.map times)
    rw [l3, m3]
    refine parts_perm ?_ hcal m2 l2
    rintro d p q ⟨p1, p2⟩ ⟨q1, q2⟩
    rw [List.perm_ext_iff_of_nodup p1 q1]
    rintro ⟨a, u⟩
    rw [p2, q2, instance_perm hcal]

/-! ## A case -/

namespace L144
open L132 PropText

/-- Nothing is written in an order of its own. -/
def asRead : Cont.Order := ⟨fun _ => [], fun _ => [], fun _ => false, fun _ => false, fun _ _ => false, fun _ => [], fun _ _ => true⟩

/-- Values that are left open are written as they were. -/
def asWas : Writer := fun _ s => s.getD []

instance (env : Cont.Env) (p : Cont.CProp) : Decidable (ReadBack env p) := by unfold ReadBack; infer_instance

theorem fits_there {l : ContentLine} (h : ∀ p ∈ l.params, p = ⟨"TZID".toList, .plain "NewYork".toList, []⟩) : LineFits l := by
  refine ⟨fun p hp v hv => ?_, fun p hp _ => by rw [h p hp]⟩
  rw [h p hp] at hv
  simp only [ShownParam.values, List.mem_singleton] at hv
  subst hv
  decide +kernel

theorem weekly_kept : EventKept plain asWas (comp weekly) weeklyDesc := by
  obtain ⟨h, ls⟩ := weekly_in
  refine ⟨h, ⟨weekly, by simp [comp, Cont.Component.props], ?_, by simp only [weekly]; decide +kernel, weekly_describes, ?_⟩, by decide +kernel,
    by simp [comp, Cont.Component.subs]⟩
  · intro l hl
    simp only [weekly, List.mem_cons, List.not_mem_nil, or_false] at hl
    rcases hl with rfl | rfl | rfl | rfl | rfl <;> exact allowed_name (by decide +kernel) rfl (by simp [line, there])
  · intro l hl _
    simp only [weekly, List.mem_cons, List.not_mem_nil, or_false] at hl
    rcases hl with rfl | rfl | rfl | rfl | rfl <;> exact fits_there (by simp [line, there])

theorem moved_kept : EventKept plain asWas (comp moved) movedDesc := by
  obtain ⟨h, ls⟩ := moved_in
  refine ⟨h, ⟨moved, by simp [comp, Cont.Component.props], ?_, by simp only [moved]; decide +kernel, moved_describes, ?_⟩, by decide +kernel,
    by simp [comp, Cont.Component.subs]⟩
  · intro l hl
    simp only [moved, List.mem_cons, List.not_mem_nil, or_false] at hl
    rcases hl with rfl | rfl | rfl | rfl <;> exact allowed_name (by decide +kernel) rfl (by simp [line, there])
  · intro l hl _
    simp only [moved, List.mem_cons, List.not_mem_nil, or_false] at hl
    rcases hl with rfl | rfl | rfl | rfl <;> exact fits_there (by simp [line, there])

/-- What is written for the calendar that is read from these lines. -/
def rewritten (lines : List (List Char)) : List (List Char) :=
  match read plain lines with
  | .ok (some c) => (written plain.toEnv asWas asRead c).getD []
  | _ => []

end L144

/-- The conditions of C144 are met: the calendar of C137. -/
example (o : SetOrder) : ∃ c lines c', read plain ([] ++ "BEGIN:VCALENDAR".toList :: (inside ++ "END:VCALENDAR".toList :: [])) = .ok (some c) ∧
    written plain.toEnv asWas asRead c = some lines ∧ read plain lines = .ok (some c') ∧
    ∃ n, ∀ fuel ≥ n, ∃ l l', getVEvents L136.newYork o fuel plain.toEnv c L136.inSpring true = some (.instances l) ∧
      getVEvents L136.newYork o fuel plain.toEnv c' L136.inSpring true = some (.instances l') ∧
      (l'.map fun i => (i.start, i.stop)).Perm (l.map fun i => (i.start, i.stop)) :=
  C144_instances_partial plain .base (fun _ _ => rfl) asWas asRead (fun _ _ h => by cases h) [] [] inside _ _ (by simp [Spec.Blank])
    (by simp [Spec.Blank]) (.inl rfl) inside_body ⟨_, List.mem_singleton.mpr rfl, by decide +kernel⟩ (by decide +kernel)
    [weeklyDesc, movedDesc] (.cons weekly_kept (.cons moved_kept .nil)) (fun d hd hu => by
      simp only [List.mem_cons, List.not_mem_nil, or_false] at hd
      rcases hd with rfl | rfl <;> exact absurd (by decide +kernel) hu)
    (by decide +kernel) L136.newYork L136.inSpring (by
      intro d hd
      simp only [List.mem_cons, List.not_mem_nil, or_false] at hd
      rcases hd with rfl | rfl
      · exact weekly_fits
      · exact moved_fits) o true

/-- C144 fails: of several TZIDs in a line (which the standard does not allow) the first counts, and they are sorted when they are
written: the event is in another time zone afterwards. -/
theorem C144_fails_zones :
    instancesOf (doc ["BEGIN:VEVENT", "UID:1", "DTSTART;TZID=B,A:20200302T150000", "END:VEVENT"]) .empty L136.inSpring =
      some (some [({ L136.utcTime 3 2 15 with utc := false, tzid := some (.name "B") },
        { L136.utcTime 3 2 15 with utc := false, tzid := some (.name "B") })]) ∧
    instancesOf (rewritten (doc ["BEGIN:VEVENT", "UID:1", "DTSTART;TZID=B,A:20200302T150000", "END:VEVENT"])) .empty L136.inSpring =
      some (some [({ L136.utcTime 3 2 15 with utc := false, tzid := some (.name "A") },
        { L136.utcTime 3 2 15 with utc := false, tzid := some (.name "A") })]) :=
  ⟨by decide +kernel, by decide +kernel⟩

/-- C144 fails: a TZID that begins with a space is written without quotes, and read without the space: the event is in another time
zone afterwards. -/
theorem C144_fails_space :
    instancesOf (doc ["BEGIN:VEVENT", "UID:1", "DTSTART;TZID=\" A\":20200302T150000", "END:VEVENT"]) .empty L136.inSpring =
      some (some [({ L136.utcTime 3 2 15 with utc := false, tzid := some (.name " A") },
        { L136.utcTime 3 2 15 with utc := false, tzid := some (.name " A") })]) ∧
    instancesOf (rewritten (doc ["BEGIN:VEVENT", "UID:1", "DTSTART;TZID=\" A\":20200302T150000", "END:VEVENT"])) .empty L136.inSpring =
      some (some [({ L136.utcTime 3 2 15 with utc := false, tzid := some (.name "A") },
        { L136.utcTime 3 2 15 with utc := false, tzid := some (.name "A") })]) :=
  ⟨by decide +kernel, by decide +kernel⟩

/-- C144 fails: a time that is said to be a date (which the standard does not allow) is read without its time zone, and written without
saying so: the event has the time zone afterwards. -/
theorem C144_fails_date :
    instancesOf (doc ["BEGIN:VEVENT", "UID:1", "DTSTART;VALUE=DATE;TZID=A:20200302T150000", "END:VEVENT"]) .empty L136.inSpring =
      some (some [({ L136.utcTime 3 2 15 with utc := false }, { L136.utcTime 3 2 15 with utc := false })]) ∧
    instancesOf (rewritten (doc ["BEGIN:VEVENT", "UID:1", "DTSTART;VALUE=DATE;TZID=A:20200302T150000", "END:VEVENT"])) .empty
        L136.inSpring =
      some (some [({ L136.utcTime 3 2 15 with utc := false, tzid := some (.name "A") },
        { L136.utcTime 3 2 15 with utc := false, tzid := some (.name "A") })]) :=
  ⟨by decide +kernel, by decide +kernel⟩

end PyCal
