import Verif.Model.AttrRead
import Verif.Spec.AttributesText
import Verif.Props.C93_C94_Attributes
import Verif.Props.C114_Numbers
import Verif.Props.C148_Alarms

/-!
# C149: from the text of a calendar to the attributes of its events and to-dos
-/

namespace PyCal
open DateTime Spec Spec.EventText Spec.CalendarText EventRead CalendarRead AttrRead

/-- The lines of a component, apart from those of components in it, say this. -/
def AttributesIn (c : Cont.Component) (d : Spec.AttributesText.Desc) : Prop :=
  ∃ ls : List ContentLine, c.props.map (·.text) = ls.map ContentLine.text ∧ (∀ l ∈ ls, l.Allowed false) ∧
    (∀ l ∈ ls, ∀ p ∈ l.params, ∀ v ∈ p.values, v.Readable) ∧ Spec.AttributesText.Describes ls d

/-- The lines of a calendar, apart from those of its components, give it this name and this description. -/
def NamesIn (ps : List Cont.CProp) (name description : Option (List Char)) : Prop :=
  ∃ ls : List ContentLine, ps.map (·.text) = ls.map ContentLine.text ∧ (∀ l ∈ ls, l.Allowed false) ∧
    (∀ l ∈ ls, ∀ p ∈ l.params, ∀ v ∈ p.values, v.Readable) ∧ Spec.AttributesText.Names ls name description

/-- The attributes of an event or a to-do are as said. -/
structure Attr.Comp.SaysAll (v : Attr.Comp) (k : Attr.Kind) (d : Spec.AttributesText.Desc) : Prop where
  uid : v.uid = d.uid.getD []
  seq : v.seq = d.sequence.getD 0 ∧ v.originalSeq = v.seq
  summary : v.summary = d.summary
  status : v.status = (d.status.bind fun s => (Attr.statusTexts k).lookup s).getD 0
  priority : k = .todo → v.priority = d.priority
  percent : k = .todo → v.percent = d.percent
  completed : k = .todo → (if v.hasCompleted then some v.completed else none) = d.completed

namespace L149
open L132 L137 ValueType PropText Spec.AlarmText Spec.AttributesText

/-- The keys with their names and the types of their values. -/
def attrKeys : List (Attr.Key × String × VType × String) :=
  [(.uid, "UID", .text, "TEXT"), (.sequence, "SEQUENCE", .integer, "INTEGER"), (.summary, "SUMMARY", .text, "TEXT"),
   (.status, "STATUS", .text, "TEXT"), (.completed, "COMPLETED", .dateTime, "DATE-TIME"), (.priority, "PRIORITY", .integer, "INTEGER"),
   (.percent, "PERCENT-COMPLETE", .integer, "INTEGER"), (.calname, "X-WR-CALNAME", .text, "TEXT"),
   (.caldesc, "X-WR-CALDESC", .text, "TEXT"), (.rid, "RECURRENCE-ID", .dateTime, "DATE-TIME"), (.description, "DESCRIPTION", .text, "TEXT"),
   (.location, "LOCATION", .text, "TEXT"), (.dtstamp, "DTSTAMP", .dateTime, "DATE-TIME"), (.lastModified, "LAST-MODIFIED", .dateTime, "DATE-TIME")]

/-- The names that have a key of their own. -/
def allNames : List (List Char) :=
  ["UID", "SEQUENCE", "SUMMARY", "DESCRIPTION", "LOCATION", "STATUS", "COMPLETED", "PRIORITY", "PERCENT-COMPLETE", "X-WR-CALNAME",
    "X-WR-CALDESC", "DTSTAMP", "LAST-MODIFIED", "RECURRENCE-ID"].map String.toList

theorem keyOf_iff {K : Attr.Key} {key nm : String} {ty : VType} (h : (K, key, ty, nm) ∈ attrKeys) (n : List Char) :
    keyOf n = K ↔ n = key.toList := by
  by_cases hn : n ∈ allNames
  · exact (by decide +kernel : ∀ a ∈ attrKeys, ∀ n ∈ allNames, keyOf n = a.1 ↔ n = a.2.1.toList) _ h n hn
  · have hall := (by decide +kernel : ∀ a ∈ attrKeys, a.2.1.toList ∈ allNames ∧ a.1 ∈ allNames.map keyOf) _ h
    have hkey : keyOf n = .other n := by
      simp only [allNames, List.map_cons, List.map_nil, List.mem_cons, List.not_mem_nil, or_false, not_or] at hn
      obtain ⟨h1, h2, h3, h4, h5, h6, h7, h8, h9, h10, h11, h12, h13, h14⟩ := hn
      unfold keyOf
      rw [if_neg h1, if_neg h2, if_neg h3, if_neg h4, if_neg h5, if_neg h6, if_neg h7, if_neg h8, if_neg h9, if_neg h10, if_neg h11,
        if_neg h12, if_neg h13, if_neg h14]
    constructor
    · intro hk
      rw [hkey] at hk
      obtain ⟨m, m1, m2⟩ := List.mem_map.mp hall.2
      rw [← hk] at m2
      exact absurd ((by decide +kernel : ∀ m ∈ allNames, (match keyOf m with | .other _ => false | _ => true) = true) m m1) (by rw [m2]; simp)
    · rintro rfl
      exact absurd hall.1 hn

/-- The properties that are kept. -/
def kept (qs : List RProp) : Attr.Props := qs.map fun q => (keyOf (upper q.name), valueIn q.value)

theorem first_kept {K : Attr.Key} {key nm : String} {ty : VType} (h : (K, key, ty, nm) ∈ attrKeys) (qs : List RProp) :
    Attr.first K (kept qs) = (qs.find? fun q => decide (upper q.name = key.toList)).map fun q => valueIn q.value := by
  unfold Attr.first kept
  rw [List.find?_map, Option.map_map]
  have : ((fun p : Attr.Key × Attr.Val => decide (p.1 = K)) ∘ fun q : RProp => (keyOf (upper q.name), valueIn q.value)) =
      fun q => decide (upper q.name = key.toList) := by
    funext q
    exact decide_eq_decide.mpr (keyOf_iff h _)
  rw [this]
  rfl

/-- The type of the value. -/
theorem attr_type {e : Env} (hT : Program ical e.tables) {l : ContentLine} {K : Attr.Key} {key nm : String} {ty : VType}
    (hk : (K, key, ty, nm) ∈ attrKeys) {v : Option (List Char)} (hv : HasParam l "VALUE".toList v) (h : v = none ∨ v = some nm.toList) :
    determine e.tables key ((paramValue (l.params.map ShownParam.meaning) "VALUE").map String.ofList) = ty ∧ key ∉ e.tables.multi := by
  have hall : ∀ a ∈ attrKeys, (ical.defaultOf a.2.1).isSome ∧ determine ical a.2.1 none = a.2.2.1 ∧
      determine ical a.2.1 (some a.2.2.2) = a.2.2.1 ∧ a.2.1 ∉ ical.multi := by decide +kernel
  obtain ⟨k1, k2, k3, k4⟩ := hall _ hk
  rw [paramValue_of hv, determine_keeps hT k1, (program_keeps hT).2.2.1]
  rcases h with rfl | rfl
  · exact ⟨k2, k4⟩
  · rw [Option.map_some, String.ofList_toList]; exact ⟨k3, k4⟩

theorem attr_text {e : Env} (hT : Program ical e.tables) {l : ContentLine} (ha : l.Allowed false)
    (hr : ∀ p ∈ l.params, ∀ v ∈ p.values, v.Readable) {K : Attr.Key} {key : String} (hk : (K, key, .text, "TEXT") ∈ attrKeys)
    (hn : upper l.name = key.toList) {s : List Char} (h : TextLine l s) : ∃ p, readLine e l.text = some p ∧ p.value = .text s := by
  obtain ⟨⟨v, hv, hvv⟩, hd⟩ := h
  obtain ⟨h1, h2⟩ := attr_type hT hk hv hvv
  have hkey : String.ofList (upper l.name) = key := by rw [hn, String.ofList_toList]
  refine ⟨⟨l.name, l.params.map ShownParam.meaning, .text s⟩, ?_, rfl⟩
  rw [line_value ha hr]
  unfold createValue
  dsimp only
  rw [hkey, h1, if_neg h2, if_neg (by simp), if_neg (by simp), if_neg (by simp), if_pos (.inl rfl), C20_decode_rfc _ _ hd]
  rfl

theorem attr_number {e : Env} (hT : Program ical e.tables) {l : ContentLine} (ha : l.Allowed false)
    (hr : ∀ p ∈ l.params, ∀ v ∈ p.values, v.Readable) {K : Attr.Key} {key : String} (hk : (K, key, .integer, "INTEGER") ∈ attrKeys)
    (hn : upper l.name = key.toList) {n : Int} (h : NumberLine l n) : ∃ p, readLine e l.text = some p ∧ p.value = .int n := by
  obtain ⟨⟨v, hv, hvv⟩, hd⟩ := h
  obtain ⟨h1, h2⟩ := attr_type hT hk hv hvv
  have hkey : String.ofList (upper l.name) = key := by rw [hn, String.ofList_toList]
  refine ⟨⟨l.name, l.params.map ShownParam.meaning, .int n⟩, ?_, rfl⟩
  rw [line_value ha hr]
  unfold createValue
  dsimp only
  rw [hkey, h1, if_neg h2, if_neg (by simp), if_neg (by simp), if_neg (by simp), if_neg (by simp), if_neg (by simp), if_pos rfl,
    (C114_integer hd).1]
  rfl

theorem attr_date {e : Env} (hT : Program ical e.tables) {l : ContentLine} (ha : l.Allowed false)
    (hr : ∀ p ∈ l.params, ∀ v ∈ p.values, v.Readable) (hn : upper l.name = "COMPLETED".toList) {t : DateTime} (h : DateLine l t) :
    ∃ p, readLine e l.text = some p ∧ p.value = .date t := by
  have hkey : String.ofList (upper l.name) = "COMPLETED" := by rw [hn, String.ofList_toList]
  obtain ⟨d, z, t', ⟨⟨v, hv, hd⟩, hz, hdz⟩, ht, hdo, hzu, rfl⟩ := h
  refine ⟨⟨l.name, l.params.map ShownParam.meaning, .date (inZone z t')⟩, ?_, rfl⟩
  rw [line_value ha hr]
  unfold createValue
  dsimp only
  rw [hkey, paramValue_of hv, paramValue_of hz, determine_keeps hT (by decide +kernel), (program_keeps hT).2.2.1, if_neg (by decide +kernel)]
  rcases hd with ⟨rfl, rfl⟩ | ⟨rfl, rfl | rfl⟩
  · rw [show determine ical "COMPLETED" ((some "DATE".toList).map String.ofList) = .date by decide +kernel, if_pos (.inl rfl), text_parse ht e.sr,
      if_neg (by simp)]
    have := hdz rfl
    subst this
    rfl
  · rw [show determine ical "COMPLETED" ((none : Option (List Char)).map String.ofList) = .dateTime by decide +kernel, if_pos (.inr rfl),
      text_parse ht e.sr, if_pos (.inr rfl)]
    simp only [Option.map_some, setZone_in hzu]
  · rw [show determine ical "COMPLETED" ((some "DATE-TIME".toList).map String.ofList) = .dateTime by decide +kernel, if_pos (.inr rfl),
      text_parse ht e.sr, if_pos (.inr rfl)]
    simp only [Option.map_some, setZone_in hzu]

section
variable {e : Env} (hT : Program ical e.tables) {ls : List ContentLine} (ha : ∀ l ∈ ls, l.Allowed false)
  (hr : ∀ l ∈ ls, ∀ p ∈ l.params, ∀ v ∈ p.values, v.Readable) {qs : List RProp} (hq : (ls.map ContentLine.text).mapM (readLine e) = some qs)

include hT ha hr hq

theorem string_of {K : Attr.Key} {key : String} (hk : (K, key, .text, "TEXT") ∈ attrKeys) {a : Option (List Char)}
    (hl : HasLine ls key.toList TextLine a) : Attr.loadString K (kept qs) = a := by
  have := L137.has_line (key := key) ha hr hq hl (P := fun s p => p.value = .text s) fun l hm hn x hx => attr_text hT (ha l hm) (hr l hm) hk hn hx
  unfold Attr.loadString
  rw [first_kept hk]
  cases a with
  | none => rw [(this.1 rfl).2]; rfl
  | some s =>
    obtain ⟨p, p1, -, p2⟩ := this.2 s rfl
    rw [p2, Option.map_some, p1]
    rfl

theorem int_of {K : Attr.Key} {key : String} (hk : (K, key, .integer, "INTEGER") ∈ attrKeys) {a : Option Int}
    (hl : HasLine ls key.toList NumberLine a) : Attr.loadInt K (kept qs) = a := by
  have := L137.has_line (key := key) ha hr hq hl (P := fun s p => p.value = .int s) fun l hm hn x hx => attr_number hT (ha l hm) (hr l hm) hk hn hx
  unfold Attr.loadInt
  rw [first_kept hk]
  cases a with
  | none => rw [(this.1 rfl).2]; rfl
  | some s =>
    obtain ⟨p, p1, -, p2⟩ := this.2 s rfl
    rw [p2, Option.map_some, p1]
    rfl

theorem date_of {a : Option DateTime} (hl : HasLine ls "COMPLETED".toList DateLine a) : Attr.loadDateTime .completed (kept qs) = a := by
  have := L137.has_line (key := "COMPLETED") ha hr hq hl (P := fun s p => p.value = .date s) fun l hm hn x hx => attr_date hT (ha l hm) (hr l hm) hn hx
  unfold Attr.loadDateTime
  rw [first_kept (key := "COMPLETED") (ty := .dateTime) (nm := "DATE-TIME") (by decide +kernel)]
  cases a with
  | none => rw [(this.1 rfl).2]; rfl
  | some s =>
    obtain ⟨p, p1, -, p2⟩ := this.2 s rfl
    rw [p2, Option.map_some, p1]
    rfl

theorem says_all {d : Spec.AttributesText.Desc} (h : Spec.AttributesText.Describes ls d) (k : Attr.Kind) : (Attr.Comp.fresh k (kept qs)).SaysAll k d := by
  have h1 := string_of hT ha hr hq (K := .uid) (key := "UID") (by decide +kernel) h.uid
  have h2 := int_of hT ha hr hq (K := .sequence) (key := "SEQUENCE") (by decide +kernel) h.sequence
  have h3 := string_of hT ha hr hq (K := .summary) (key := "SUMMARY") (by decide +kernel) h.summary
  have h4 := string_of hT ha hr hq (K := .status) (key := "STATUS") (by decide +kernel) h.status
  have h5 := date_of hT ha hr hq h.completed
  have h6 := int_of hT ha hr hq (K := .priority) (key := "PRIORITY") (by decide +kernel) h.priority
  have h7 := int_of hT ha hr hq (K := .percent) (key := "PERCENT-COMPLETE") (by decide +kernel) h.percent
  have h8 : (d.status.bind (Attr.statusOf k)).getD 0 = (d.status.bind fun s => (Attr.statusTexts k).lookup s).getD 0 := by
    cases d.status with
    | none => rfl
    | some s => rw [Option.bind_some, Option.bind_some, Attr.statusOf_eq]
  rw [Attr.fresh_form, h1, h2, h3, h4, h5, h6, h7, h8]
  cases k with
  | event => exact ⟨rfl, ⟨rfl, rfl⟩, rfl, rfl, nofun, nofun, nofun⟩
  | todo =>
    refine ⟨rfl, ⟨rfl, rfl⟩, rfl, rfl, fun _ => rfl, fun _ => rfl, fun _ => ?_⟩
    cases d.completed <;> rfl

end

/-- The component of this kind. -/
def typeOf : Attr.Kind → List Char
  | .event => "VEVENT".toList
  | .todo => "VTODO".toList

theorem read_kept {s : Settings} {ps : List Cont.CProp} (hs : ∀ p ∈ ps, ∃ q, readLine s.toEnv p.text = some q ∧ q.name = p.name) :
    ∃ qs, (ps.map (·.text)).mapM (readLine s.toEnv) = some qs ∧ propsOf s.toEnv (ps.map Cont.CProp.text) = some (kept qs) := by
  obtain ⟨qs, hq⟩ := mapM_some (f := fun p : Cont.CProp => readLine s.toEnv p.text) (l := ps) fun p hp => (hs p hp).imp fun _ h => h.1
  have hq' : (ps.map (·.text)).mapM (readLine s.toEnv) = some qs := by rw [List.mapM_map]; exact hq
  exact ⟨qs, hq', by unfold propsOf; rw [hq']; rfl⟩

end L149
open L149

/-- C149 (partial), from the text of a calendar to the attributes of its events and to-dos: UID, SEQUENCE, SUMMARY and STATUS, and of a
to-do PRIORITY, PERCENT-COMPLETE and COMPLETED, are those of the lines, with escapes undone; and so are the name and the description of the
calendar.

Missing: names of states that are not in capital letters (`C149_fails_case`). -/
theorem C149_attributes_partial (s : Settings) (hT : Program ValueType.ical s.tables) (b1 b2 body : List (List Char))
    (ps : List Cont.CProp) (ss : List Cont.Component) (h1 : Spec.Blank b1) (h2 : Spec.Blank b2)
    (hb : s.blankRaise = false ∨ b1 = [] ∧ b2 = []) (h : Spec.Body (container s) true "VCALENDAR".toList body ps ss)
    (hv : ∃ p ∈ ps, p.key = "VERSION".toList)
    (hzone : ∀ d ∈ ss, PropText.upper d.type = "VTIMEZONE".toList → d.type = "VTIMEZONE".toList) :
    ∃ cal, read s (b1 ++ "BEGIN:VCALENDAR".toList :: (body ++ "END:VCALENDAR".toList :: b2)) = .ok (some cal) ∧ cal.subs = ss ∧
      (∀ c ∈ ss, ∀ k d, c.type = L149.typeOf k → AttributesIn c d → ∃ v, compIn s.toEnv c = some v ∧ v.SaysAll k d) ∧
      ∀ name description, NamesIn ps name description → ∃ v, calIn s.toEnv cal = some v ∧ v.name = name.getD [] ∧
        v.description = description.getD [] := by
  refine ⟨.mk "VCALENDAR".toList ps ss, (C40_calendar (container s) _ _).mpr
    ⟨C40_complete (container s) rfl b1 b2 body ps ss h1 h2 hb h hv, hzone⟩, rfl, ?_, ?_⟩
  · rintro c hc k d hk ⟨ls, l1, l2, l3, l4⟩
    obtain ⟨qs, q1, q2⟩ := read_kept ((L137.body_sound h).2 c hc).1
    rw [l1] at q1
    refine ⟨Attr.Comp.fresh k (kept qs), ?_, says_all hT l2 l3 q1 l4 k⟩
    unfold compIn
    rw [show kindOf c.type = some k by rw [hk]; cases k <;> decide +kernel, q2]
    rfl
  · rintro name description ⟨ls, l1, l2, l3, l4⟩
    obtain ⟨qs, q1, q2⟩ := read_kept (L137.body_sound h).1
    rw [l1] at q1
    refine ⟨Attr.Cal.finalise { props := kept qs }, ?_, ?_, ?_⟩
    · unfold calIn
      rw [show (Cont.Component.mk "VCALENDAR".toList ps ss).props = ps from rfl, q2]
      rfl
    · exact congrArg (Option.getD · []) (string_of hT l2 l3 q1 (K := .calname) (key := "X-WR-CALNAME") (by decide +kernel) l4.name)
    · exact congrArg (Option.getD · []) (string_of hT l2 l3 q1 (K := .caldesc) (key := "X-WR-CALDESC") (by decide +kernel) l4.description)

/-! ## Written and read again -/

namespace L149
open L148 L132 L137 ValueType PropText

theorem find_same {e : Env} {ps ps' : List Cont.CProp} {key : List Char} {qs qs' : List RProp}
    (hf : ∀ p ∈ ps, ∃ q, readLine e p.text = some q ∧ q.name = p.name) (hf' : ∀ p ∈ ps', ∃ q, readLine e p.text = some q ∧ q.name = p.name)
    (hq : ps.mapM (fun p => readLine e p.text) = some qs) (hq' : ps'.mapM (fun p => readLine e p.text) = some qs')
    (h : List.Forall₂ (SameProp e) (ps.filter fun p => decide (p.key = key)) (ps'.filter fun p => decide (p.key = key))) :
    (qs'.find? fun q => decide (upper q.name = key)).map (fun q => valueIn q.value) =
      (qs.find? fun q => decide (upper q.name = key)).map fun q => valueIn q.value := by
  have hfil : ∀ {ps : List Cont.CProp} {qs : List RProp}, (∀ p ∈ ps, ∃ q, readLine e p.text = some q ∧ q.name = p.name) →
      ps.mapM (fun p => readLine e p.text) = some qs → (ps.filter fun p => decide (p.key = key)).mapM (fun p => readLine e p.text) =
        some (qs.filter fun q => decide (upper q.name = key)) := by
    intro ps qs hf hq
    refine mapM_filter (fun p hp b hb => ?_) hq
    obtain ⟨q, h1, h2⟩ := hf p hp
    rw [h1] at hb
    cases hb
    rw [h2]
    rfl
  have hp := mapM_pairs (f := fun p : Cont.CProp => readLine e p.text) (R := fun q q' : RProp => valueIn q'.value = valueIn q.value) (by
    refine h.imp ?_
    rintro p p' ⟨q, q', k1, k2, -, -, -, k3, -⟩
    refine ⟨q, q', k1, k2, ?_⟩
    rcases k3 with k3 | ⟨D, D', k3, k4, -⟩
    · rw [k3]
    · rw [k3, k4]
      rfl) (hfil hf hq) (hfil hf' hq')
  rw [← List.head?_filter, ← List.head?_filter]
  generalize (qs.filter fun q => decide (upper q.name = key)) = l at hp
  generalize (qs'.filter fun q => decide (upper q.name = key)) = l' at hp
  cases hp with
  | nil => rfl
  | cons a _ => exact congrArg some a

theorem first_same {e : Env} {c c' : Cont.Component} (h : SameComp e c c') : ∃ ps ps',
    propsOf e (c.props.map Cont.CProp.text) = some ps ∧ propsOf e (c'.props.map Cont.CProp.text) = some ps' ∧
    ∀ K key ty nm, (K, key, ty, nm) ∈ attrKeys → Attr.first K ps' = Attr.first K ps := by
  cases h with
  | @mk t ps ps' cs l cs' hp hl hcs =>
    obtain ⟨r1, r2⟩ := all_read hp
    obtain ⟨qs, hq⟩ := mapM_some (f := fun p : Cont.CProp => readLine e p.text) (l := ps) fun p hp => (r1 p hp).imp fun _ h => h.1
    obtain ⟨qs', hq'⟩ := mapM_some (f := fun p : Cont.CProp => readLine e p.text) (l := ps') fun p hp => (r2 p hp).imp fun _ h => h.1
    have hof : ∀ {ps : List Cont.CProp} {qs}, ps.mapM (fun p => readLine e p.text) = some qs →
        propsOf e (ps.map Cont.CProp.text) = some (kept qs) := by
      intro ps qs h
      unfold propsOf
      rw [List.mapM_map, show (readLine e ∘ Cont.CProp.text) = fun p : Cont.CProp => readLine e p.text from rfl, h]
      rfl
    refine ⟨kept qs, kept qs', hof hq, hof hq', fun K key ty nm hk => ?_⟩
    rw [first_kept hk, first_kept hk]
    exact find_same r1 r2 hq hq' (hp key.toList)

/-- What is kept beside the properties. -/
theorem comp_attr {e : Env} {c c' : Cont.Component} (h : SameComp e c c') {k : Attr.Kind} (hk : c.type = typeOf k) :
    ∃ v v', compIn e c = some v ∧ compIn e c' = some v' ∧ { v' with props := v.props } = v := by
  obtain ⟨ps, ps', h1, h2, h3⟩ := first_same h
  have hkind : kindOf c.type = some k := by rw [hk]; cases k <;> decide +kernel
  refine ⟨Attr.Comp.fresh k ps, Attr.Comp.fresh k ps', ?_, ?_, ?_⟩
  · unfold compIn
    rw [hkind, h1]
    rfl
  · unfold compIn
    rw [comp_type h, hkind, h2]
    rfl
  · have hs : ∀ K key ty nm, (K, key, ty, nm) ∈ attrKeys → Attr.loadString K ps' = Attr.loadString K ps ∧ Attr.loadInt K ps' = Attr.loadInt K ps ∧
        Attr.loadDateTime K ps' = Attr.loadDateTime K ps := by
      intro K key ty nm hk
      unfold Attr.loadString Attr.loadInt Attr.loadDateTime
      rw [h3 K key ty nm hk]
      exact ⟨rfl, rfl, rfl⟩
    have hrid : Attr.ridText ps' = Attr.ridText ps := by
      unfold Attr.ridText
      rw [(hs .rid "RECURRENCE-ID" .dateTime "DATE-TIME" (by decide +kernel)).2.2]
    rw [Attr.fresh_form, Attr.fresh_form, (hs .uid "UID" .text "TEXT" (by decide +kernel)).1, (hs .sequence "SEQUENCE" .integer "INTEGER" (by decide +kernel)).2.1,
      (hs .summary "SUMMARY" .text "TEXT" (by decide +kernel)).1, (hs .status "STATUS" .text "TEXT" (by decide +kernel)).1,
      (hs .priority "PRIORITY" .integer "INTEGER" (by decide +kernel)).2.1, (hs .percent "PERCENT-COMPLETE" .integer "INTEGER" (by decide +kernel)).2.1,
      (hs .completed "COMPLETED" .dateTime "DATE-TIME" (by decide +kernel)).2.2, hrid]
    cases k <;> rfl

theorem cal_attr {e : Env} {c c' : Cont.Component} (h : SameComp e c c') :
    ∃ v v', calIn e c = some v ∧ calIn e c' = some v' ∧ v'.name = v.name ∧ v'.description = v.description := by
  obtain ⟨ps, ps', h1, h2, h3⟩ := first_same h
  refine ⟨_, _, by unfold calIn; rw [h1]; rfl, by unfold calIn; rw [h2]; rfl, ?_, ?_⟩
  · unfold Attr.Cal.finalise Attr.loadString
    dsimp only
    rw [h3 .calname "X-WR-CALNAME" .text "TEXT" (by decide +kernel)]
  · unfold Attr.Cal.finalise Attr.loadString
    dsimp only
    rw [h3 .caldesc "X-WR-CALDESC" .text "TEXT" (by decide +kernel)]

end L149
open L148 L144 L137 Rewrite

/-- C149 (partial), the attributes of a calendar that is written and read again: as in `C148_same_partial`, and the events and to-dos have the
same attributes (also the keys under which they are kept), and the calendar has the same name and description.

Missing: as in `C148_same_partial`. -/
theorem C149_again_partial (s : Settings) (hT : Program ValueType.ical s.tables)
    (hfin : ∀ c, isRecur c.type = false → s.finishes c = true) (w : Writer) (hw : Closed s.toEnv w) (order : Cont.Order)
    (heq : ∀ a b, order.eq a b = true → a.type = b.type) (b1 b2 body : List (List Char)) (ps : List Cont.CProp)
    (ss : List Cont.Component) (h1 : Spec.Blank b1) (h2 : Spec.Blank b2) (hb : s.blankRaise = false ∨ b1 = [] ∧ b2 = [])
    (h : Spec.Body (container s) true "VCALENDAR".toList body ps ss) (hv : ∃ p ∈ ps, p.key = "VERSION".toList)
    (hps : ∀ p ∈ ps, GoodProp s.toEnv p) (hss : ∀ d ∈ ss, GoodComp s.toEnv d ∨ ∃ v, GoodEvent s.toEnv d v)
    (hzone : ∀ d ∈ ss, PropText.upper d.type = "VTIMEZONE".toList → d.type = "VTIMEZONE".toList) :
    ∃ c lines c', read s (b1 ++ "BEGIN:VCALENDAR".toList :: (body ++ "END:VCALENDAR".toList :: b2)) = .ok (some c) ∧
      written s.toEnv w order c = some lines ∧ read s lines = .ok (some c') ∧
      (∃ v v', calIn s.toEnv c = some v ∧ calIn s.toEnv c' = some v' ∧ v'.name = v.name ∧ v'.description = v.description) ∧
      ∃ l, l.Perm c.subs ∧ List.Forall₂ (fun b b' => b'.type = b.type ∧ ∀ k, b.type = L149.typeOf k → ∃ v v',
        compIn s.toEnv b = some v ∧ compIn s.toEnv b' = some v' ∧ { v' with props := v.props } = v) l c'.subs := by
  obtain ⟨c, lines, c', k1, k2, k3, k4⟩ := C148_same_partial s hT hfin w hw order heq b1 b2 body ps ss h1 h2 hb h hv hps hss hzone
  refine ⟨c, lines, c', k1, k2, k3, cal_attr k4, ?_⟩
  cases k4 with
  | @mk _ _ ps' _ l cs' hp hl hcs =>
    exact ⟨l, hl, hcs.imp fun a b g => ⟨comp_type g, fun k hk => comp_attr g hk⟩⟩

/-! ## A case -/

namespace L149
open L132 L137 L144 ValueType PropText Spec.AlarmText

/-- A thing that is being done. -/
def chore : List ContentLine :=
  [line "UID" "3", line "summary" "a\\, b", line "STATUS" "IN-PROCESS", line "PRIORITY" "1", line "PERCENT-COMPLETE" "50", line "SEQUENCE" "2",
    line "X-A" "b"]

def choreDesc : Spec.AttributesText.Desc :=
  ⟨some "3".toList, some 2, some "a, b".toList, some "IN-PROCESS".toList, none, some 1, some 50⟩

def choreIn : Cont.Component := .mk "VTODO".toList (chore.map fun l => ⟨l.name, l.text⟩) []

/-- The lines of the calendar. -/
def named : List ContentLine := [line "VERSION" "2.0", line "X-WR-CALNAME" "Home"]

def withChore : List (List Char) :=
  (line "VERSION" "2.0").text :: (line "X-WR-CALNAME" "Home").text :: ("BEGIN:".toList ++ "VTODO".toList) :: (chore.map ContentLine.text ++
    ("END:".toList ++ "VTODO".toList) :: [])

theorem chore_body : Spec.Body (container L137.plain) true "VCALENDAR".toList withChore (named.map fun l => ⟨l.name, l.text⟩) [choreIn] :=
  .prop (by decide +kernel) (by decide +kernel) (by decide +kernel) (by decide +kernel) (by decide +kernel)
    (.prop (by decide +kernel) (by decide +kernel) (by decide +kernel) (by decide +kernel) (by decide +kernel)
      (.comp "VTODO".toList (by decide +kernel) (by decide +kernel) (by decide +kernel) (by decide +kernel) (lines_body (by decide +kernel)) .nil))

theorem one_line {n v : String} {key : List Char} {ls : List ContentLine} {α : Type} {R : ContentLine → α → Prop} {a : α} (h : line n v ∈ ls)
    (hn : upper n.toList = key) (hu : (ls.map fun m => upper m.name).count key = 1) (hR : R (line n v) a) : HasLine ls key R (some a) := by
  refine .some (line n v) a h hn ?_ hR
  intro m hm hk
  by_contra hne
  obtain ⟨l1, l2, rfl⟩ := List.append_of_mem h
  rw [List.map_append, List.map_cons, List.count_append, show upper (line n v).name = key from hn, List.count_cons_self] at hu
  have : m ∈ l1 ∨ m ∈ l2 := by
    rcases List.mem_append.mp hm with h | h
    · exact .inl h
    · rcases List.mem_cons.mp h with h | h
      · exact absurd h hne
      · exact .inr h
  rcases this with h | h
  · have := List.count_pos_iff.mpr (List.mem_map_of_mem (f := fun m : ContentLine => upper m.name) h)
    rw [hk] at this
    omega
  · have := List.count_pos_iff.mpr (List.mem_map_of_mem (f := fun m : ContentLine => upper m.name) h)
    rw [hk] at this
    omega

theorem comma_text : Spec.Denotes "a\\, b".toList "a, b".toList := by
  rw [show "a\\, b".toList = ['a', '\\', ',', ' ', 'b'] by decide +kernel, show "a, b".toList = ['a', ',', ' ', 'b'] by decide +kernel]
  exact .plain _ (by decide) (.literal _ (by decide) (.plain _ (by decide) (.plain _ (by decide) .nil)))

theorem chore_describes : Spec.AttributesText.Describes chore choreDesc where
  uid := one_line (n := "UID") (v := "3") (by simp [chore]) (by decide +kernel) (by decide +kernel) ⟨no_type _ _ _, plain_text (by decide +kernel)⟩
  sequence := one_line (n := "SEQUENCE") (v := "2") (by simp [chore]) (by decide +kernel) (by decide +kernel)
    ⟨no_type _ _ _, .plain (n := 2) (digits _ 2 (by decide +kernel))⟩
  summary := one_line (n := "summary") (v := "a\\, b") (by simp [chore]) (by decide +kernel) (by decide +kernel) ⟨no_type _ _ _, comma_text⟩
  status := one_line (n := "STATUS") (v := "IN-PROCESS") (by simp [chore]) (by decide +kernel) (by decide +kernel)
    ⟨no_type _ _ _, plain_text (by decide +kernel)⟩
  completed := .none (by simp only [chore]; decide +kernel)
  priority := one_line (n := "PRIORITY") (v := "1") (by simp [chore]) (by decide +kernel) (by decide +kernel)
    ⟨no_type _ _ _, .plain (n := 1) (digits _ 1 (by decide +kernel))⟩
  percent := one_line (n := "PERCENT-COMPLETE") (v := "50") (by simp [chore]) (by decide +kernel) (by decide +kernel)
    ⟨no_type _ _ _, .plain (n := 50) (digits _ 50 (by decide +kernel))⟩

theorem chore_allowed : ∀ l ∈ chore ++ named, l.Allowed false := by
  intro l hl
  simp only [chore, named, List.cons_append, List.nil_append, List.mem_cons, List.not_mem_nil, or_false] at hl
  rcases hl with rfl | rfl | rfl | rfl | rfl | rfl | rfl | rfl | rfl <;> exact allowed_name (by decide +kernel) rfl (by simp [line])

theorem chore_good : GoodComp L137.plain.toEnv choreIn := by
  refine .mk (fun p hp => ?_) (by decide +kernel) (by simp)
  obtain ⟨l, hl, rfl⟩ := List.mem_map.mp hp
  refine ⟨l, rfl, rfl, ?_⟩
  simp only [chore, List.mem_cons, List.not_mem_nil, or_false] at hl
  rcases hl with rfl | rfl | rfl | rfl | rfl | rfl | rfl
  · exact good_line (by decide +kernel) (text_typed (by decide +kernel) (by decide +kernel))
  · exact good_line (by decide +kernel) (.text (by decide +kernel) ⟨no_type _ _ _, comma_text⟩)
  · exact good_line (by decide +kernel) (text_typed (by decide +kernel) (by decide +kernel))
  · exact good_line (by decide +kernel) (.number (n := 1) (by decide +kernel) (no_type _ _ _) (.plain (digits _ 1 (by decide +kernel))))
  · exact good_line (by decide +kernel) (.number (n := 50) (by decide +kernel) (no_type _ _ _) (.plain (digits _ 50 (by decide +kernel))))
  · exact good_line (by decide +kernel) (.number (n := 2) (by decide +kernel) (no_type _ _ _) (.plain (digits _ 2 (by decide +kernel))))
  · exact good_line (by decide +kernel) (.extra (by decide +kernel) (by decide +kernel) (noParam _ _ _))

end L149

/-- The conditions of C149 are met: the to-do is being done, and half of it is. -/
example : ∃ cal v, read L137.plain ([] ++ "BEGIN:VCALENDAR".toList :: (withChore ++ "END:VCALENDAR".toList :: [])) = .ok (some cal) ∧
    compIn L137.plain.toEnv choreIn = some v ∧ choreIn ∈ cal.subs ∧ v.status = 2 ∧ v.percent = some 50 ∧ v.summary = some "a, b".toList ∧
    ∃ n, calIn L137.plain.toEnv cal = some n ∧ n.name = "Home".toList := by
  obtain ⟨cal, h1, h2, h3, h4⟩ := C149_attributes_partial L137.plain .base [] [] withChore _ _ (by simp [Spec.Blank]) (by simp [Spec.Blank])
    (.inl rfl) chore_body ⟨⟨"VERSION".toList, (L132.line "VERSION" "2.0").text⟩, by simp [named, L132.line], by decide +kernel⟩ (by decide +kernel)
  obtain ⟨v, v1, v2⟩ := h3 choreIn (by simp) .todo choreDesc rfl ⟨chore, by simp [choreIn, Cont.Component.props],
    fun l hl => chore_allowed l (List.mem_append_left _ hl), by simp only [chore]; decide +kernel, chore_describes⟩
  obtain ⟨n, n1, n2, -⟩ := h4 (some "Home".toList) none ⟨named, by simp,
    fun l hl => chore_allowed l (List.mem_append_right _ hl), by simp only [named]; decide +kernel,
    one_line (n := "X-WR-CALNAME") (v := "Home") (by simp [named]) (by decide +kernel) (by decide +kernel) ⟨no_type _ _ _, plain_text (by decide +kernel)⟩,
    .none (by simp only [named]; decide +kernel)⟩
  exact ⟨cal, v, h1, v1, by rw [h2]; simp, v2.status.trans (by decide +kernel), v2.percent rfl, v2.summary, n, n1, n2⟩

/-- And it is so when the calendar is written and read again. -/
example : ∃ c lines c', read L137.plain ([] ++ "BEGIN:VCALENDAR".toList :: (withChore ++ "END:VCALENDAR".toList :: [])) = .ok (some c) ∧
    written L137.plain.toEnv asWas asRead c = some lines ∧ read L137.plain lines = .ok (some c') ∧
    ∃ b ∈ c'.subs, ∃ v, compIn L137.plain.toEnv b = some v ∧ v.status = 2 ∧ v.summary = some "a, b".toList := by
  obtain ⟨c, lines, c', k1, k2, k3, -, l, k4, k5⟩ := C149_again_partial L137.plain .base (fun _ _ => rfl) asWas (fun _ _ _ => rfl) asRead
    (fun _ _ h => by cases h) [] [] withChore _ _ (by simp [Spec.Blank]) (by simp [Spec.Blank]) (.inl rfl) chore_body
    ⟨⟨"VERSION".toList, (L132.line "VERSION" "2.0").text⟩, by simp [named, L132.line], by decide +kernel⟩ (by
      intro p hp
      obtain ⟨l, hl, rfl⟩ := List.mem_map.mp hp
      refine ⟨l, rfl, rfl, ?_⟩
      simp only [named, List.mem_cons, List.not_mem_nil, or_false] at hl
      rcases hl with rfl | rfl
      · exact good_line (by decide +kernel) (text_typed (by decide +kernel) (by decide +kernel))
      · exact good_line (by decide +kernel) (text_typed (by decide +kernel) (by decide +kernel)))
    (by
      intro d hd
      rw [List.mem_singleton] at hd
      subst hd
      exact .inl chore_good)
    (by decide +kernel)
  have hread : read L137.plain ([] ++ "BEGIN:VCALENDAR".toList :: (withChore ++ "END:VCALENDAR".toList :: [])) =
      .ok (some (.mk "VCALENDAR".toList (named.map fun l => ⟨l.name, l.text⟩) [choreIn])) :=
    (C40_calendar (container L137.plain) _ _).mpr ⟨C40_complete (container L137.plain) rfl [] [] withChore _ _ (by simp [Spec.Blank])
      (by simp [Spec.Blank]) (.inl rfl) chore_body ⟨⟨"VERSION".toList, (L132.line "VERSION" "2.0").text⟩, by simp [named, L132.line], by decide +kernel⟩,
      by decide +kernel⟩
  refine ⟨c, lines, c', k1, k2, k3, ?_⟩
  rw [hread] at k1
  cases k1
  obtain ⟨b, hb, -, hv⟩ := forall₂_left k5 (k4.symm.subset (show choreIn ∈ _ by simp [Cont.Component.subs]))
  obtain ⟨v, v', e1, e2, e3⟩ := hv .todo rfl
  have h : (compIn L137.plain.toEnv choreIn).map (fun v => (v.status, v.summary)) = some (2, some "a, b".toList) := by decide +kernel
  rw [e1, ← e3, Option.map_some] at h
  have h := Option.some.inj h
  exact ⟨b, hb, v', e2, congrArg Prod.fst h, congrArg Prod.snd h⟩

/-- The status of the component that comes first. -/
def L149.statusIn (lines : List (List Char)) : Option Int :=
  match read L137.plain lines with
  | .ok (some c) => c.subs.head?.bind fun b => (compIn L137.plain.toEnv b).map (·.status)
  | _ => none

/-- C149 fails: the name of a state in small letters, which is the same by the standard, is not known. -/
theorem C149_fails_case : L149.statusIn (doc ["BEGIN:VEVENT", "UID:1", "DTSTART:20200301T150000Z", "STATUS:CONFIRMED", "END:VEVENT"]) = some 1 ∧
    L149.statusIn (doc ["BEGIN:VEVENT", "UID:1", "DTSTART:20200301T150000Z", "STATUS:confirmed", "END:VEVENT"]) = some 0 :=
  ⟨by decide +kernel, by decide +kernel⟩

end PyCal
