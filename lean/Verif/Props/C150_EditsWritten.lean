import Verif.Model.EditLines
import Verif.Props.C149_AttributesText

/-!
# C150: what is edited is written
-/

namespace PyCal
open DateTime Spec Spec.EventText Spec.CalendarText EventRead CalendarRead AttrRead Rewrite

/-- A date-time that can be written without a time zone. -/
def Plainly (t : DateTime) : Prop := t.Valid ∧ 0 ≤ t.year ∧ t.year ≤ 9999 ∧ t.dateOnly = false ∧ t.tzid = none

/-- The edits whose properties are written with their values. -/
def Lasts (env : TzEnv) (k : Attr.Kind) : Attr.Call → Prop
  | .editStatus s => k = .todo → s ≠ 0
  | .editCompleted t => Plainly (PeriodObj.utcOf env t)
  | .stamp t => Plainly t
  | .modified t => Plainly t
  | _ => True

/-- The attributes, but for the number of the revision that was read, are the same. -/
structure Attr.Comp.Like (v v' : Attr.Comp) : Prop where
  uid : v'.uid = v.uid
  seq : v'.seq = v.seq
  mapKey : v'.mapKey = v.mapKey
  summary : v'.summary = v.summary
  status : v'.status = v.status
  completed : v'.hasCompleted = v.hasCompleted ∧ (v.hasCompleted = true → v'.completed = v.completed)
  priority : v'.priority = v.priority
  percent : v'.percent = v.percent
  details : Attr.loadString .description v'.props = Attr.loadString .description v.props ∧
    Attr.loadString .location v'.props = Attr.loadString .location v.props
  times : Attr.loadDateTime .dtstamp v'.props = Attr.loadDateTime .dtstamp v.props ∧
    Attr.loadDateTime .lastModified v'.props = Attr.loadDateTime .lastModified v.props

namespace L150
open L132 L137 L142 L144 L148 L149 ValueType PropText EditLines

theorem value_name : Spec.Name "VALUE".toList := ⟨by decide +kernel, by decide +kernel⟩

theorem read_name {e : Env} {l : ContentLine} (ha : l.Allowed false) (hr : ∀ p ∈ l.params, ∀ v ∈ p.values, v.Readable) {q : RProp}
    (h : readLine e l.text = some q) : q.name = l.name := by
  rw [line_value ha hr] at h
  obtain ⟨v, -, rfl⟩ := Option.map_eq_some_iff.mp h
  rfl

/-- A line with at most the type of its value. -/
def mline (n : String) (o : Option String) (v : List Char) : ContentLine :=
  ⟨none, n.toList, match o with | some nm => [⟨"VALUE".toList, .plain nm.toList, []⟩] | none => [], v⟩

theorem typed_names : ∀ a ∈ attrKeys, (a.2.1.toList ≠ [] ∧ ∀ c ∈ a.2.1.toList, c.isAlphanum = true ∨ c = '-') ∧ upper a.2.1.toList = a.2.1.toList ∧
    (ical.defaultOf a.2.1 = some a.2.2.1) := by decide +kernel

theorem type_names : ∀ a ∈ attrKeys, a.2.2.2 = "TEXT" ∨ a.2.2.2 = "INTEGER" ∨ a.2.2.2 = "DATE-TIME" := by decide +kernel

/-- The VALUE parameter is left out, or has the name of the type. -/
theorem written_type {T : Tables} (hT : Program ical T) {K : Attr.Key} {key nm : String} {ty : VType} (h : (K, key, ty, nm) ∈ attrKeys) :
    writtenValue T key ty = none ∨ writtenValue T key ty = some nm := by
  rw [written_keeps ical_coherent hT (by rw [(typed_names _ h).2.2]; rfl)]
  by_cases ha : key ∈ T.always
  · rw [if_pos ha]
    exact (by decide +kernel : ∀ a ∈ attrKeys, writtenValue { ical with always := [a.2.1] } a.2.1 a.2.2.1 = none ∨
      writtenValue { ical with always := [a.2.1] } a.2.1 a.2.2.1 = some a.2.2.2) _ h
  · rw [if_neg ha]
    exact (by decide +kernel : ∀ a ∈ attrKeys, writtenValue { ical with always := [] } a.2.1 a.2.2.1 = none ∨
      writtenValue { ical with always := [] } a.2.1 a.2.2.1 = some a.2.2.2) _ h

section
variable {K : Attr.Key} {key nm : String} {ty : VType} (h : (K, key, ty, nm) ∈ attrKeys) {o : Option String} (ho : o = none ∨ o = some nm)
  (v : List Char)
include h ho

theorem mline_good : (mline key o v).Allowed false ∧ (∀ p ∈ (mline key o v).params, ∀ v ∈ p.values, v.Readable) ∧ LineFits (mline key o v) ∧
    HasParam (mline key o v) "TZID".toList none ∧ SaysType (mline key o v) nm := by
  have hn := (typed_names _ h).1
  rcases ho with rfl | rfl
  · exact ⟨⟨hn, by simp [mline], by simp [mline]⟩, by simp [mline], ⟨by simp [mline], by simp [mline]⟩, .none (by simp [mline]),
      none, .none (by simp [mline]), .inl rfl⟩
  · have hm := type_names _ h
    dsimp only at hm
    refine ⟨⟨hn, by simp [mline], ?_⟩, ?_, ⟨?_, ?_⟩, .none ?_, some nm.toList, ?_, .inr rfl⟩
    · intro p hp
      rw [mline, List.mem_singleton] at hp
      subst hp
      refine ⟨value_name, fun v hv => ?_⟩
      simp only [ShownParam.values, List.mem_singleton] at hv
      subst hv
      rcases hm with rfl | rfl | rfl <;> (unfold Shown.Allowed; decide +kernel)
    · intro p hp v hv
      rw [mline, List.mem_singleton] at hp
      subst hp
      simp only [ShownParam.values, List.mem_singleton] at hv
      subst hv
      rcases hm with rfl | rfl | rfl <;> decide +kernel
    · intro p hp v hv
      rw [mline, List.mem_singleton] at hp
      subst hp
      simp only [ShownParam.values, List.mem_singleton] at hv
      subst hv
      rcases hm with rfl | rfl | rfl <;> decide +kernel
    · intro p hp _
      rw [mline, List.mem_singleton] at hp
      rw [hp]
    · intro p hp
      rw [mline, List.mem_singleton] at hp
      rw [hp]
      exact (by decide +kernel : upper "VALUE".toList ≠ "TZID".toList)
    · have hd : rfc6868Decode (Shown.plain nm.toList).inner = nm.toList := by rcases hm with rfl | rfl | rfl <;> decide +kernel
      rw [← hd]
      exact .some ⟨"VALUE".toList, .plain nm.toList, []⟩ (by rw [mline]; exact List.mem_singleton_self _)
        (by decide +kernel : upper "VALUE".toList = "VALUE".toList)
        fun q hq _ => List.mem_singleton.mp hq

theorem mline_text : generate ⟨none, key.toList, valueParam o, v⟩ = (mline key o v).text := by
  rcases ho with rfl | rfl
  · rfl
  · have hm := type_names _ h
    dsimp only at hm
    have hg : ∀ nm ∈ ["TEXT", "INTEGER", "DATE-TIME"], (([⟨"VALUE".toList, [nm.toList]⟩] : List Param).insertionSort fun a b => a.key ≤ b.key).flatMap
        (fun p => ';' :: genParam p) = (([⟨"VALUE".toList, .plain nm.toList, []⟩] : List ShownParam).flatMap fun p => ';' :: p.text) := by decide +kernel
    have := hg nm (by rcases hm with rfl | rfl | rfl <;> decide)
    unfold generate ContentLine.text mline
    dsimp only [valueParam]
    rw [this]

end

/-- What a property that was made is read as. -/
def MadeAs (e : Env) (p : Cont.CProp) (n : String) (v : Value) : Prop :=
  GoodProp e p ∧ p.name = n.toList ∧ ∃ q, readLine e p.text = some q ∧ q.name = p.name ∧ q.value = v

theorem made_eq {e : Env} (hT : Program ical e.tables) {K : Attr.Key} {key nm : String} {ty : VType} (h : (K, key, ty, nm) ∈ attrKeys) {v : Value}
    (hty : EditLines.madeType e key v = ty) (hz : madeZone v = []) :
    ∃ o, (o = none ∨ o = some nm) ∧ made e key v = ⟨(mline key o (valueText e (fun _ _ => []) ty none none v)).name,
      (mline key o (valueText e (fun _ _ => []) ty none none v)).text⟩ := by
  refine ⟨_, written_type hT h, ?_⟩
  unfold made
  rw [hty, hz, List.append_nil, mline_text h (written_type hT h)]
  rfl

theorem made_text {e : Env} (hT : Program ical e.tables) {K : Attr.Key} {key : String} (h : (K, key, .text, "TEXT") ∈ attrKeys) (s : List Char) :
    MadeAs e (made e key (.text s)) key (.text s) := by
  have hd := (typed_names _ h).2.2
  obtain ⟨o, ho, he⟩ := made_eq hT h (v := .text s) (by unfold EditLines.madeType; rw [(program_keeps hT).2.2.2 _ _ hd]; rfl) rfl
  obtain ⟨h1, h2, h3, -, h5⟩ := mline_good h ho (valueText e (fun _ _ => []) .text none none (.text s))
  have hn : upper (mline key o (valueText e (fun _ _ => []) .text none none (.text s))).name = key.toList := (typed_names _ h).2.1
  have ht : TextLine (mline key o (valueText e (fun _ _ => []) .text none none (.text s))) s := ⟨h5, denotes_escape s⟩
  rw [he]
  refine ⟨⟨_, rfl, rfl, h1, h2, h3, .text ?_ ht⟩, rfl, ?_⟩
  · rw [hn]
    exact (by decide +kernel : ∀ a ∈ attrKeys, a.2.2.1 = .text → a.2.1.toList ∈ textNames) _ h rfl
  · obtain ⟨q, q1, q2⟩ := attr_text hT h1 h2 h hn ht
    exact ⟨q, q1, read_name h1 h2 q1, q2⟩

theorem made_int {e : Env} (hT : Program ical e.tables) {K : Attr.Key} {key : String} (h : (K, key, .integer, "INTEGER") ∈ attrKeys) (n : Int) :
    MadeAs e (made e key (.int n)) key (.int n) := by
  obtain ⟨o, ho, he⟩ := made_eq hT h (v := .int n) rfl rfl
  obtain ⟨h1, h2, h3, -, h5⟩ := mline_good h ho (valueText e (fun _ _ => []) .integer none none (.int n))
  have hn : upper (mline key o (valueText e (fun _ _ => []) .integer none none (.int n))).name = key.toList := (typed_names _ h).2.1
  have ht : Recur.Number (Num.writeInteger n) n := number_decInt n
  rw [he]
  refine ⟨⟨_, rfl, rfl, h1, h2, h3, .number (n := n) ?_ h5 ht⟩, rfl, ?_⟩
  · rw [hn]
    exact (by decide +kernel : ∀ a ∈ attrKeys, a.2.2.1 = .integer → a.2.1.toList ∈ numberNames) _ h rfl
  · obtain ⟨q, q1, q2⟩ := attr_number hT h1 h2 h hn ⟨h5, ht⟩
    exact ⟨q, q1, read_name h1 h2 q1, q2⟩

theorem made_date {e : Env} (hT : Program ical e.tables) {K : Attr.Key} {key : String} (h : (K, key, .dateTime, "DATE-TIME") ∈ attrKeys)
    (hk : key ≠ "RECURRENCE-ID") {t : DateTime} (ht : Plainly t) : MadeAs e (made e key (.date t)) key (.date t) := by
  obtain ⟨t1, t2, t3, t4, t5⟩ := ht
  obtain ⟨o, ho, he⟩ := made_eq hT h (v := .date t) (by unfold EditLines.madeType; dsimp only; rw [t4]; rfl) (by unfold madeZone; dsimp only; rw [t5])
  obtain ⟨h1, h2, h3, h4, v, h5, h6⟩ := mline_good h ho (valueText e (fun _ _ => []) .dateTime none none (.date t))
  have hn : upper (mline key o (valueText e (fun _ _ => []) .dateTime none none (.date t))).name = key.toList := (typed_names _ h).2.1
  have hd : DateLine (mline key o (valueText e (fun _ _ => []) .dateTime none none (.date t))) t := by
    refine ⟨false, none, t, ⟨⟨v, h5, .inr ⟨rfl, h6⟩⟩, h4, by simp⟩, ?_, t4, by simp, rfl⟩
    exact L141.until_iff.mpr ⟨rfl, t1, ⟨t2, t3⟩, fun hd => (by rw [t4] at hd; cases hd), t5⟩
  have hs : key ∈ singleKeys := (by decide +kernel : ∀ a ∈ attrKeys, a.2.2.1 = .dateTime → a.2.1 ≠ "RECURRENCE-ID" → a.2.1 ∈ singleKeys) _ h rfl hk
  rw [he]
  refine ⟨⟨_, rfl, rfl, h1, h2, h3, .date ?_ hd⟩, rfl, ?_⟩
  · rw [hn]
    exact (by decide +kernel : ∀ a ∈ attrKeys, a.2.2.1 = .dateTime → a.2.1 ≠ "RECURRENCE-ID" → a.2.1.toList ∈ dateNames) _ h rfl hk
  · obtain ⟨d, z, t', hp, ht, hd, hz, he⟩ := hd
    have hc := create_date (e := e) hT hn hs (params_said hp) (paramValue_of hp.2.1) hp.2.2 ht hz
    rw [← he] at hc
    exact ⟨_, line_created h1 h2 hc, rfl, rfl⟩

/-- The lines are read as these properties. -/
def Reads (e : Env) (ps : List Cont.CProp) (l : Attr.Props) : Prop :=
  List.Forall₂ (fun p kv => GoodProp e p ∧ ∃ q, readLine e p.text = some q ∧ q.name = p.name ∧ kv = (keyOf (upper q.name), valueIn q.value)) ps l

theorem reads_remove {e : Env} {ps : List Cont.CProp} {l : Attr.Props} (hr : Reads e ps l) {K : Attr.Key} {key nm : String} {ty : VType}
    (h : (K, key, ty, nm) ∈ attrKeys) : Reads e (EditLines.remove key ps) (Attr.remove K l) := by
  unfold Reads EditLines.remove Attr.remove at *
  induction hr with
  | nil => exact .nil
  | @cons p kv ps l h1 _ ih =>
    have hiff : p.key ≠ key.toList ↔ kv.1 ≠ K := by
      obtain ⟨-, q, -, q2, rfl⟩ := h1
      rw [Cont.CProp.key, ← q2]
      exact not_congr (keyOf_iff h _).symm
    by_cases hp : p.key ≠ key.toList
    · rw [List.filter_cons_of_pos (by exact decide_eq_true hp), List.filter_cons_of_pos (by exact decide_eq_true (hiff.mp hp))]
      exact .cons h1 ih
    · rw [List.filter_cons_of_neg (by simpa using hp), List.filter_cons_of_neg (by simpa using (not_congr hiff).mp hp)]
      exact ih

theorem reads_add {e : Env} {ps : List Cont.CProp} {l : Attr.Props} (hr : Reads e ps l) {K : Attr.Key} {key nm : String} {ty : VType}
    (h : (K, key, ty, nm) ∈ attrKeys) {p : Cont.CProp} {v : Value} (hp : MadeAs e p key v) : Reads e (ps ++ [p]) (Attr.add K (valueIn v) l) := by
  obtain ⟨p1, p2, q, q1, q2, q3⟩ := hp
  refine List.rel_append hr (.cons ⟨p1, q, q1, q2, ?_⟩ .nil)
  rw [q2, p2, (typed_names _ h).2.1, (keyOf_iff h key.toList).mpr rfl, q3]

theorem reads_edit {e : Env} (hT : Program ical e.tables) {ps : List Cont.CProp} {l : Attr.Props} (hr : Reads e ps l) {K : Attr.Key} {key : String}
    (h : (K, key, .text, "TEXT") ∈ attrKeys) (v : Option (List Char)) : Reads e (EditLines.edit e key v ps) (Attr.editProperty K v l) := by
  match v with
  | some (c :: s) => exact reads_add (reads_remove hr h) h (made_text hT h (c :: s))
  | some [] => exact reads_remove hr h
  | none => exact reads_remove hr h

theorem reads_call {e : Env} (hT : Program ical e.tables) (env : TzEnv) (k : Attr.Kind) {ps : List Cont.CProp} {c : Attr.Comp}
    (hr : Reads e ps c.props) {x : Attr.Call} (hx : Attr.Keeps k x) (hl : Lasts env k x) :
    Reads e (EditLines.call e env k c ps x) (c.call env k x).2.props := by
  have kuid : (Attr.Key.uid, "UID", VType.text, "TEXT") ∈ attrKeys := by decide +kernel
  have kseq : (Attr.Key.sequence, "SEQUENCE", VType.integer, "INTEGER") ∈ attrKeys := by decide +kernel
  have ksum : (Attr.Key.summary, "SUMMARY", VType.text, "TEXT") ∈ attrKeys := by decide +kernel
  have kdes : (Attr.Key.description, "DESCRIPTION", VType.text, "TEXT") ∈ attrKeys := by decide +kernel
  have kloc : (Attr.Key.location, "LOCATION", VType.text, "TEXT") ∈ attrKeys := by decide +kernel
  have ksta : (Attr.Key.status, "STATUS", VType.text, "TEXT") ∈ attrKeys := by decide +kernel
  have kcom : (Attr.Key.completed, "COMPLETED", VType.dateTime, "DATE-TIME") ∈ attrKeys := by decide +kernel
  have kstm : (Attr.Key.dtstamp, "DTSTAMP", VType.dateTime, "DATE-TIME") ∈ attrKeys := by decide +kernel
  have kmod : (Attr.Key.lastModified, "LAST-MODIFIED", VType.dateTime, "DATE-TIME") ∈ attrKeys := by decide +kernel
  cases x with
  | setUID u =>
    simp only [EditLines.call, Attr.Comp.call, Attr.Comp.setUID]
    by_cases hu : u = []
    · rw [if_pos hu, if_pos hu]; exact hr
    · rw [if_neg hu, if_neg hu]; exact reads_add (reads_remove hr kuid) kuid (made_text hT kuid u)
  | setSeq n => exact reads_add (reads_remove hr kseq) kseq (made_int hT kseq n)
  | editSummary s => exact reads_edit hT hr ksum s
  | editDetails d l => exact reads_edit hT (reads_edit hT hr kdes d) kloc l
  | editStatus s =>
    have hset : ∀ v, Reads e (EditLines.set e "STATUS" (.text v) ps) (Attr.add .status (.text v) (Attr.remove .status c.props)) :=
      fun v => reads_add (reads_remove hr ksta) ksta (made_text hT ksta v)
    cases k with
    | event =>
      simp only [EditLines.call, Attr.Comp.call, Attr.Comp.editStatusEvent]
      by_cases h0 : c.status = s
      · rw [if_pos h0, if_pos h0]; exact hr
      rw [if_neg h0, if_neg h0]
      by_cases h2 : s = 2
      · simp only [if_pos h2]; exact hset _
      by_cases h1 : s = 1
      · simp only [if_neg h2, if_pos h1]; exact hset _
      by_cases h3 : s = 3
      · simp only [if_neg h2, if_neg h1, if_pos h3]; exact hset _
      · simp only [if_neg h2, if_neg h1, if_neg h3]; exact reads_remove hr ksta
    | todo =>
      obtain ⟨x1, x2, x3⟩ : 0 ≤ s ∧ s ≤ 4 ∧ s ≠ 3 := hx
      have x4 : s ≠ 0 := hl rfl
      simp only [EditLines.call, Attr.Comp.call, Attr.Comp.editStatusToDo]
      by_cases h0 : c.status = s
      · rw [if_pos h0, if_pos h0]; exact hr
      rw [if_neg h0, if_neg h0, if_neg x3, if_neg x3]
      have hrem := reads_remove (reads_remove hr ksta) kcom
      by_cases h1 : s = 1
      · simp only [if_pos h1]; exact reads_add hrem ksta (made_text hT ksta _)
      by_cases h2 : s = 2
      · simp only [if_neg h1, if_pos h2]; exact reads_add hrem ksta (made_text hT ksta _)
      by_cases h4 : s = 4
      · simp only [if_neg h1, if_neg h2, if_pos h4]; exact reads_add hrem ksta (made_text hT ksta _)
      · omega
  | editCompleted t =>
    cases k with
    | event => exact hr
    | todo => exact reads_add (reads_remove hr kcom) kcom (made_date hT kcom (by decide) hl)
  | stamp t => exact reads_add (reads_remove hr kstm) kstm (made_date hT kstm (by decide) hl)
  | modified t => exact reads_add (reads_remove hr kmod) kmod (made_date hT kmod (by decide) hl)

theorem reads_calls {e : Env} (hT : Program ical e.tables) (env : TzEnv) (k : Attr.Kind) (xs : List Attr.Call)
    (hx : ∀ x ∈ xs, Attr.Keeps k x ∧ Lasts env k x) {ps : List Cont.CProp} {c : Attr.Comp} (hr : Reads e ps c.props) :
    Reads e (EditLines.calls e env k c ps xs) (c.calls env k xs).props := by
  induction xs generalizing ps c with
  | nil => exact hr
  | cons x xs ih =>
    exact ih (fun y hy => hx y (List.mem_cons_of_mem _ hy)) (reads_call hT env k hr (hx x List.mem_cons_self).1 (hx x List.mem_cons_self).2)

theorem reads_props {e : Env} {ps : List Cont.CProp} {l : Attr.Props} (h : Reads e ps l) : propsOf e (ps.map Cont.CProp.text) = some l := by
  unfold propsOf
  have : ∃ qs, ps.mapM (fun p => readLine e p.text) = some qs ∧ qs.map (fun q => (keyOf (upper q.name), valueIn q.value)) = l := by
    unfold Reads at h
    induction h with
    | nil => exact ⟨[], rfl, rfl⟩
    | @cons p kv ps l h1 _ ih =>
      obtain ⟨qs, a, b⟩ := ih
      obtain ⟨-, q, c, -, rfl⟩ := h1
      exact ⟨q :: qs, by rw [List.mapM_cons, c, a]; rfl, by rw [List.map_cons, b]⟩
  obtain ⟨qs, a, rfl⟩ := this
  rw [List.mapM_map, show (readLine e ∘ Cont.CProp.text) = fun p : Cont.CProp => readLine e p.text from rfl, a]
  rfl

theorem reads_of {s : Settings} (hT : Program ical s.tables) {w : Writer} (hw : Closed s.toEnv w) {ps : List Cont.CProp} (h : ∀ p ∈ ps, GoodProp s.toEnv p) : ∃ l, Reads s.toEnv ps l := by
  induction ps with
  | nil => exact ⟨[], .nil⟩
  | cons p ps ih =>
    obtain ⟨l, hl⟩ := ih fun q hq => h q (List.mem_cons_of_mem _ hq)
    have hp := h p List.mem_cons_self
    obtain ⟨q, q', k1, k2, k3, -⟩ := prop_same hT hw hp
    exact ⟨_ :: l, .cons ⟨hp, q, k1, k3, rfl⟩ hl⟩

theorem reads_good {e : Env} {ps : List Cont.CProp} {l : Attr.Props} (h : Reads e ps l) : ∀ p ∈ ps, GoodProp e p := by
  unfold Reads at h
  induction h with
  | nil => simp
  | cons h _ ih =>
    intro q hq
    rcases List.mem_cons.mp hq with rfl | hq
    · exact h.1
    · exact ih q hq

/-- No edit makes a RECURRENCE-ID. -/
theorem reads_rid {e : Env} {ps : List Cont.CProp} {l : Attr.Props} (h : Reads e ps l) :
    (∀ p ∈ ps, p.key ≠ "RECURRENCE-ID".toList) ↔ ∀ kv ∈ l, kv.1 ≠ Attr.Key.rid := by
  unfold Reads at h
  induction h with
  | nil => simp
  | @cons p kv ps l h1 _ ih =>
    have hiff : p.key ≠ "RECURRENCE-ID".toList ↔ kv.1 ≠ Attr.Key.rid := by
      obtain ⟨-, q, -, q2, rfl⟩ := h1
      rw [Cont.CProp.key, ← q2]
      exact not_congr (keyOf_iff (nm := "DATE-TIME") (ty := .dateTime) (by decide +kernel) _).symm
    simp only [List.forall_mem_cons, hiff, ih]

theorem rid_call (env : TzEnv) (k : Attr.Kind) {c : Attr.Comp} (h : ∀ kv ∈ c.props, kv.1 ≠ Attr.Key.rid) (x : Attr.Call) :
    ∀ kv ∈ (c.call env k x).2.props, kv.1 ≠ Attr.Key.rid := by
  have hrem : ∀ {l : Attr.Props} (K), (∀ kv ∈ l, kv.1 ≠ Attr.Key.rid) → ∀ kv ∈ Attr.remove K l, kv.1 ≠ Attr.Key.rid :=
    fun K hl kv hkv => hl kv (List.mem_filter.mp hkv).1
  have hadd : ∀ {l : Attr.Props} {K} (v), K ≠ Attr.Key.rid → (∀ kv ∈ l, kv.1 ≠ Attr.Key.rid) → ∀ kv ∈ Attr.add K v l, kv.1 ≠ Attr.Key.rid := by
    intro l K v hK hl kv hkv
    rcases List.mem_append.mp hkv with h | h
    · exact hl kv h
    · rw [List.mem_singleton.mp h]; exact hK
  have hed : ∀ {l : Attr.Props} {K} (v), K ≠ Attr.Key.rid → (∀ kv ∈ l, kv.1 ≠ Attr.Key.rid) → ∀ kv ∈ Attr.editProperty K v l, kv.1 ≠ Attr.Key.rid := by
    intro l K v hK hl
    match v with
    | some (a :: s) => exact hadd _ hK (hrem K hl)
    | some [] => exact hrem K hl
    | none => exact hrem K hl
  cases x with
  | setUID u =>
    simp only [Attr.Comp.call, Attr.Comp.setUID]
    by_cases hu : u = []
    · rw [if_pos hu]; exact h
    · rw [if_neg hu]; exact hadd _ (by decide) (hrem _ h)
  | setSeq n => exact hadd _ (by decide) (hrem _ h)
  | editSummary s => exact hed _ (by decide) h
  | editDetails d l => exact hed _ (by decide) (hed _ (by decide) h)
  | editStatus s =>
    cases k with
    | event =>
      simp only [Attr.Comp.call, Attr.Comp.editStatusEvent]
      by_cases h0 : c.status = s
      · rw [if_pos h0]; exact h
      rw [if_neg h0]
      dsimp only
      split_ifs
      · exact hadd _ (by decide) (hrem _ h)
      · exact hadd _ (by decide) (hrem _ h)
      · exact hadd _ (by decide) (hrem _ h)
      · exact hrem _ h
    | todo =>
      simp only [Attr.Comp.call, Attr.Comp.editStatusToDo]
      by_cases h0 : c.status = s
      · rw [if_pos h0]; exact h
      rw [if_neg h0]
      by_cases h3 : s = 3
      · rw [if_pos h3]; exact hrem _ (hrem _ h)
      · rw [if_neg h3]; exact hadd _ (by decide) (hrem _ (hrem _ h))
  | editCompleted t =>
    cases k with
    | event => exact h
    | todo => exact hadd _ (by decide) (hrem _ h)
  | stamp t => exact hadd _ (by decide) (hrem _ h)
  | modified t => exact hadd _ (by decide) (hrem _ h)

theorem rid_calls (env : TzEnv) (k : Attr.Kind) (xs : List Attr.Call) {c : Attr.Comp} (h : ∀ kv ∈ c.props, kv.1 ≠ Attr.Key.rid) :
    ∀ kv ∈ (c.calls env k xs).props, kv.1 ≠ Attr.Key.rid := by
  induction xs generalizing c with
  | nil => exact h
  | cons x xs ih => exact ih (rid_call env k h x)

theorem fresh_props (k : Attr.Kind) (l : Attr.Props) : (Attr.Comp.fresh k l).props = l := by
  rw [Attr.fresh_form]
  cases k <;> rfl

theorem forall₂_split {α β : Type} {R : α → β → Prop} {l1 l2 : List α} {r : List β} (h : List.Forall₂ R (l1 ++ l2) r) :
    ∃ r1 r2, List.Forall₂ R l1 r1 ∧ List.Forall₂ R l2 r2 ∧ r = r1 ++ r2 := by
  induction l1 generalizing r with
  | nil => exact ⟨[], r, .nil, h, rfl⟩
  | cons a l1 ih =>
    cases h with
    | @cons _ b _ r h1 h2 =>
      obtain ⟨r1, r2, f1, f2, rfl⟩ := ih h2
      exact ⟨b :: r1, r2, .cons h1 f1, f2, rfl⟩

theorem comp_first {e : Env} {c c' : Cont.Component} (h : SameComp e c c') {v v' : Attr.Comp} (h1 : compIn e c = some v) (h2 : compIn e c' = some v') :
    ∀ K key ty nm, (K, key, ty, nm) ∈ attrKeys → Attr.first K v'.props = Attr.first K v.props := by
  obtain ⟨ps, ps', p1, p2, p3⟩ := first_same h
  unfold compIn at h1 h2
  rw [p1] at h1
  rw [p2] at h2
  obtain ⟨k, -, hk⟩ := Option.bind_eq_some_iff.mp h1
  obtain ⟨k', -, hk'⟩ := Option.bind_eq_some_iff.mp h2
  cases hk
  cases hk'
  rw [fresh_props, fresh_props]
  exact p3

/-- A calendar of components that can be read is written, and what is read is the same. -/
theorem again_sound {s : Settings} (hT : Program ical s.tables) (hfin : ∀ c, isRecur c.type = false → s.finishes c = true) {w : Writer}
    (hw : Closed s.toEnv w) {order : Cont.Order} (heq : ∀ a b, order.eq a b = true → a.type = b.type) {ps : List Cont.CProp}
    {ss : List Cont.Component} (hvalid : ∀ p ∈ ps, CalendarRead.valid s.toEnv p = true) (hv : ∃ p ∈ ps, p.key = "VERSION".toList)
    (hps : ∀ p ∈ ps, GoodProp s.toEnv p) (hss : ∀ d ∈ ss, Formed d ∧ (GoodComp s.toEnv d ∨ Sound s d ∧ ∃ v, GoodEvent s.toEnv d v))
    (hzone : ∀ d ∈ ss, PropText.upper d.type = "VTIMEZONE".toList → d.type = "VTIMEZONE".toList) :
    ∃ lines c', written s.toEnv w order (.mk "VCALENDAR".toList ps ss) = some lines ∧ read s lines = .ok (some c') ∧
      SameComp s.toEnv (.mk "VCALENDAR".toList ps ss) c' := by
  have hg : ∀ c ∈ ss.map (relines s.toEnv w), Tree41.Good (container s) order c ∧ Spec.Writable (container s) c := by
    intro c hc
    obtain ⟨b, hb, rfl⟩ := List.mem_map.mp hc
    obtain ⟨hf, hc | ⟨h0, v, hc⟩⟩ := hss b hb
    · exact kept_good hfin heq hf (good_kept hT hw hc)
    · exact event_good hT hfin heq hf h0 (good_event hT hw hc)
  have hp' : ∀ p ∈ ps.map (reline s.toEnv w), ReadBack (container s) p ∧ CalendarRead.valid s.toEnv p = true := by
    intro p hp
    obtain ⟨q, hq, rfl⟩ := List.mem_map.mp hp
    exact ⟨prop_readBack hT hw (hps q hq), version_valid hT (hps q hq) (hvalid q hq)⟩
  obtain ⟨body', ss', l, g1, g2, g3, g4⟩ := Tree41.write (env := container s) (o := order) (top := true) heq
    (t := "VCALENDAR".toList) (ps := ps.map (reline s.toEnv w)) (cs := ss.map (relines s.toEnv w)) (fun p hp => (hp' p hp).1)
    (fun _ p hp => (hp' p hp).2) (fun c hc => (hg c hc).1)
    (fun c hc => ⟨fun h => absurd h (by decide +kernel), fun h => absurd h (by decide +kernel), fun h => absurd h (by decide +kernel),
      fun h => absurd h (by decide +kernel), fun h => absurd h (by decide +kernel)⟩)
    fun c hc => (hg c hc).2
  have hzone' : ∀ d ∈ ss', PropText.upper d.type = "VTIMEZONE".toList → d.type = "VTIMEZONE".toList := by
    intro d hd hu
    obtain ⟨c, hc, hsame⟩ := forall₂_right g4 hd
    obtain ⟨b, hb, rfl⟩ := List.mem_map.mp (g3.subset hc)
    have hbt : d.type = b.type := (Tree41.same_type hsame).symm.trans (relines_type _ _ _)
    rw [hbt] at hu ⊢
    exact hzone b hb hu
  refine ⟨_, .mk "VCALENDAR".toList _ ss', ?_, (C40_calendar (container s) _ _).mpr
    ⟨C40_complete (container s) rfl [] [] body' _ ss' (by simp [Spec.Blank]) (by simp [Spec.Blank]) (.inr ⟨rfl, rfl⟩) g2 ?_, hzone'⟩, ?_⟩
  · unfold written
    rw [relines, relinesAll_map]
    exact g1
  · obtain ⟨p, hp, hk⟩ := hv
    exact ⟨reline s.toEnv w p, (C42_properties _ _).symm.subset (List.mem_map_of_mem hp), hk⟩
  · obtain ⟨m, hm, rfl⟩ := L142.perm_map g3
    refine .mk (props_same (fun p hp => prop_same hT hw (hps p hp)) (C42_same_name _ _)) hm ?_
    rw [List.forall₂_map_left_iff] at g4
    have hmem : ∀ c ∈ m, c ∈ ss := fun c hc => hm.subset hc
    clear hm g3 g2 g1 hzone'
    induction g4 with
    | nil => exact .nil
    | @cons a b m cs'' k1 _ ih2 =>
      refine .cons ?_ (ih2 fun c hc => hmem c (by simp [hc]))
      obtain ⟨-, hc | ⟨h0, v, hc⟩⟩ := hss a (hmem a (by simp))
      · exact comp_same hT hw hc k1
      · exact event_same hT hw hc h0 k1

/-- Components that were read are written, and what is read is the same. -/
theorem again {s : Settings} (hT : Program ical s.tables) (hfin : ∀ c, isRecur c.type = false → s.finishes c = true) {w : Writer}
    (hw : Closed s.toEnv w) {order : Cont.Order} (heq : ∀ a b, order.eq a b = true → a.type = b.type) {ps : List Cont.CProp}
    {ss ss0 : List Cont.Component} {body : List (List Char)} {ps0 : List Cont.CProp}
    (h : Spec.Body (container s) true "VCALENDAR".toList body ps0 ss0) (hvalid : ∀ p ∈ ps, CalendarRead.valid s.toEnv p = true) (hv : ∃ p ∈ ps, p.key = "VERSION".toList)
    (hps : ∀ p ∈ ps, GoodProp s.toEnv p) (hss : ∀ d ∈ ss, Formed d ∧ (GoodComp s.toEnv d ∨ d ∈ ss0 ∧ ∃ v, GoodEvent s.toEnv d v))
    (hzone : ∀ d ∈ ss, PropText.upper d.type = "VTIMEZONE".toList → d.type = "VTIMEZONE".toList) :
    ∃ lines c', written s.toEnv w order (.mk "VCALENDAR".toList ps ss) = some lines ∧ read s lines = .ok (some c') ∧
      SameComp s.toEnv (.mk "VCALENDAR".toList ps ss) c' :=
  again_sound hT hfin hw heq hvalid hv hps (fun d hd => ⟨(hss d hd).1, (hss d hd).2.imp_right fun h' => ⟨(body_sound h).2 d h'.1, h'.2⟩⟩) hzone

end L150
open L148 L144 L137 L149 L150

/-- C150 (partial), what is edited is written: a calendar is read, an event or a to-do in it is edited (its UID, SEQUENCE, SUMMARY,
DESCRIPTION, LOCATION and STATUS, the time when a to-do was completed, DTSTAMP and LAST-MODIFIED, in any order and as often as one likes),
and the calendar is written and read again.  Then the component that was edited has the attributes that it had after the edits, and the
other components are as they were (`SameComp`, C148).

Missing: as in `C148_same_partial`; edits of an event or a to-do with a RECURRENCE-ID; an empty summary (`C93_fails_summary`), the status
"completed" of a to-do (`C93_fails_complete`), and its status 0, which makes a property without a value; times that are dates only. -/
theorem C150_edits_partial (s : Settings) (hT : Program ValueType.ical s.tables)
    (hfin : ∀ c, isRecur c.type = false → s.finishes c = true) (w : Writer) (hw : Closed s.toEnv w) (order : Cont.Order)
    (heq : ∀ a b, order.eq a b = true → a.type = b.type) (b1 b2 body : List (List Char)) (ps : List Cont.CProp)
    (before after : List Cont.Component) (t : List Char) (qs : List Cont.CProp) (cs : List Cont.Component) (h1 : Spec.Blank b1)
    (h2 : Spec.Blank b2) (hb : s.blankRaise = false ∨ b1 = [] ∧ b2 = [])
    (h : Spec.Body (container s) true "VCALENDAR".toList body ps (before ++ .mk t qs cs :: after)) (hv : ∃ p ∈ ps, p.key = "VERSION".toList)
    (hps : ∀ p ∈ ps, GoodProp s.toEnv p) (hss : ∀ d ∈ before ++ after, GoodComp s.toEnv d ∨ ∃ v, GoodEvent s.toEnv d v)
    (hgood : GoodComp s.toEnv (.mk t qs cs))
    (hzone : ∀ d ∈ before ++ .mk t qs cs :: after, PropText.upper d.type = "VTIMEZONE".toList → d.type = "VTIMEZONE".toList)
    (k : Attr.Kind) (ht : t = L149.typeOf k) (env : TzEnv) (xs : List Attr.Call) (hx : ∀ x ∈ xs, Attr.Keeps k x ∧ Lasts env k x) :
    ∃ v lines c', read s (b1 ++ "BEGIN:VCALENDAR".toList :: (body ++ "END:VCALENDAR".toList :: b2)) =
        .ok (some (.mk "VCALENDAR".toList ps (before ++ .mk t qs cs :: after))) ∧ compIn s.toEnv (.mk t qs cs) = some v ∧
      written s.toEnv w order (.mk "VCALENDAR".toList ps (before ++ .mk t (EditLines.calls s.toEnv env k v qs xs) cs :: after)) = some lines ∧
      read s lines = .ok (some c') ∧
      ∃ l1 l2 r1 d r2, (l1 ++ .mk t (EditLines.calls s.toEnv env k v qs xs) cs :: l2).Perm
          (before ++ .mk t (EditLines.calls s.toEnv env k v qs xs) cs :: after) ∧ c'.subs = r1 ++ d :: r2 ∧
        List.Forall₂ (SameComp s.toEnv) l1 r1 ∧ List.Forall₂ (SameComp s.toEnv) l2 r2 ∧
        ∃ v', compIn s.toEnv d = some v' ∧ (v.calls env k xs).Like v' := by
  have hread : read s (b1 ++ "BEGIN:VCALENDAR".toList :: (body ++ "END:VCALENDAR".toList :: b2)) =
      .ok (some (.mk "VCALENDAR".toList ps (before ++ .mk t qs cs :: after))) := (C40_calendar (container s) _ _).mpr
    ⟨C40_complete (container s) rfl b1 b2 body ps _ h1 h2 hb h hv, hzone⟩
  have hvalid := (L145.read_valid hread).1
  have hform := body_formed h
  have hmid : Cont.Component.mk t qs cs ∈ before ++ .mk t qs cs :: after := by simp
  obtain ⟨gp, gk, gs⟩ : (∀ p ∈ qs, GoodProp s.toEnv p) ∧ (isRecur t = true → ∀ p ∈ qs, p.key ≠ "RECURRENCE-ID".toList) ∧
      ∀ c ∈ cs, GoodComp s.toEnv c := by
    cases hgood with
    | mk a b c => exact ⟨a, b, c⟩
  obtain ⟨l, hl⟩ := reads_of hT hw gp
  have hkind : kindOf t = some k := by rw [ht]; cases k <;> decide +kernel
  have hcomp : ∀ (qs : List Cont.CProp) l, Reads s.toEnv qs l → compIn s.toEnv (.mk t qs cs) = some (Attr.Comp.fresh k l) := by
    intro qs l hl
    unfold compIn
    rw [show (Cont.Component.mk t qs cs).type = t from rfl, hkind, show (Cont.Component.mk t qs cs).props = qs from rfl, reads_props hl]
    rfl
  have hr := reads_calls hT env k xs hx (c := Attr.Comp.fresh k l) (ps := qs) (by rw [fresh_props]; exact hl)
  have hagree := Attr.C93_edits_partial env k l xs fun x hx' => (hx x hx').1
  have hrid : isRecur t = true → ∀ p ∈ EditLines.calls s.toEnv env k (Attr.Comp.fresh k l) qs xs, p.key ≠ "RECURRENCE-ID".toList := by
    intro hrec
    rw [reads_rid hr]
    exact rid_calls env k xs (by rw [fresh_props, ← reads_rid hl]; exact gk hrec)
  refine ⟨Attr.Comp.fresh k l, ?_⟩
  generalize hqs : EditLines.calls s.toEnv env k (Attr.Comp.fresh k l) qs xs = qs' at *
  have hgood' : GoodComp s.toEnv (.mk t qs' cs) := .mk (reads_good hr) hrid gs
  have hf' : Formed (.mk t qs' cs) := by
    cases (hform _ hmid).2 with
    | mk a b c d => exact .mk a b c d
  have hall : ∀ d ∈ before ++ .mk t qs' cs :: after, d = .mk t qs' cs ∨ d ∈ before ++ .mk t qs cs :: after ∧ d ∈ before ++ after := by
    intro d hd
    simp only [List.mem_append, List.mem_cons] at hd ⊢
    tauto
  obtain ⟨lines, c', k1, k2, k3⟩ := again hT hfin hw heq (ps := ps) (ss := before ++ .mk t qs' cs :: after) h hvalid hv hps
    (by
      intro d hd
      rcases hall d hd with rfl | ⟨hd, hd'⟩
      · exact ⟨hf', .inl hgood'⟩
      · exact ⟨(hform d hd).2, (hss d hd').imp_right fun h => ⟨hd, h⟩⟩)
    (by
      intro d hd
      rcases hall d hd with rfl | ⟨hd, -⟩
      · exact hzone (.mk t qs cs) hmid
      · exact hzone d hd)
  refine ⟨lines, c', hread, hcomp qs l hl, k1, k2, ?_⟩
  cases k3 with
  | @mk _ _ ps' _ m cs' hp hm hcs =>
    obtain ⟨l1, l2, rfl⟩ := List.append_of_mem (hm.symm.subset (show Cont.Component.mk t qs' cs ∈ before ++ .mk t qs' cs :: after by simp))
    obtain ⟨r1, r', f1, f2, hr12⟩ := forall₂_split hcs
    cases f2 with
    | @cons _ d _ r2 hd f3 =>
      refine ⟨l1, l2, r1, d, r2, hm, hr12, f1, f3, ?_⟩
      obtain ⟨v0, v', e1, e2, e3⟩ := comp_attr hd (k := k) ht
      have hfirst := comp_first hd e1 e2
      rw [hcomp _ _ hr] at e1
      cases e1
      refine ⟨v', e2, ?_⟩
      obtain ⟨a1, a2, a3, a4, a5, a6, a7, a8, a9⟩ := hagree
      have hfp := fresh_props k ((Attr.Comp.fresh k l).calls env k xs).props
      have ev : ∀ {α : Type} (f : Attr.Comp → α), (∀ c : Attr.Comp, ∀ p, f { c with props := p } = f c) →
          f v' = f (Attr.Comp.fresh k ((Attr.Comp.fresh k l).calls env k xs).props) := by
        intro α f hf
        have := congrArg f e3
        rw [hf] at this
        exact this
      have hload : ∀ K key ty nm, (K, key, ty, nm) ∈ attrKeys → Attr.first K v'.props = Attr.first K ((Attr.Comp.fresh k l).calls env k xs).props :=
        fun K key ty nm hk => (hfirst K key ty nm hk).trans (by rw [hfp])
      refine ⟨(ev (·.uid) fun _ _ => rfl).trans a1.symm, (ev (·.seq) fun _ _ => rfl).trans a2.symm, (ev (·.mapKey) fun _ _ => rfl).trans a3.symm,
        (ev (·.summary) fun _ _ => rfl).trans a4.symm, (ev (·.status) fun _ _ => rfl).trans a5.symm,
        ⟨(ev (·.hasCompleted) fun _ _ => rfl).trans a6.symm, fun hc => (ev (·.completed) fun _ _ => rfl).trans (a7 hc).symm⟩,
        (ev (·.priority) fun _ _ => rfl).trans a8.symm, (ev (·.percent) fun _ _ => rfl).trans a9.symm, ⟨?_, ?_⟩, ?_, ?_⟩
      · unfold Attr.loadString
        rw [hload .description "DESCRIPTION" .text "TEXT" (by decide +kernel)]
      · unfold Attr.loadString
        rw [hload .location "LOCATION" .text "TEXT" (by decide +kernel)]
      · unfold Attr.loadDateTime
        rw [hload .dtstamp "DTSTAMP" .dateTime "DATE-TIME" (by decide +kernel)]
      · unfold Attr.loadDateTime
        rw [hload .lastModified "LAST-MODIFIED" .dateTime "DATE-TIME" (by decide +kernel)]

/-! ## A case -/

/-- What is done to the thing that is being done. -/
def L150.edits : List Attr.Call :=
  [.editStatus 4, .setSeq 3, .editSummary (some "c; d".toList), .editDetails (some "x".toList) none, .modified ⟨2020, 3, 1, 9, 0, 0, false, true, none⟩,
    .editCompleted ⟨2020, 3, 1, 8, 0, 0, false, true, none⟩]

/-- The conditions of C150 are met: after the edits, and when the calendar is read again, the to-do is cancelled and has its new summary. -/
example : ∃ v lines c', compIn L137.plain.toEnv choreIn = some v ∧ v.status = 2 ∧ v.summary = some "a, b".toList ∧
    written L137.plain.toEnv asWas asRead (.mk "VCALENDAR".toList (named.map fun l => ⟨l.name, l.text⟩)
      [.mk "VTODO".toList (EditLines.calls L137.plain.toEnv .empty .todo v choreIn.props L150.edits) []]) = some lines ∧
    read L137.plain lines = .ok (some c') ∧
    ∃ d ∈ c'.subs, ∃ v', compIn L137.plain.toEnv d = some v' ∧ v'.status = 4 ∧ v'.seq = 3 ∧ v'.summary = some "c; d".toList ∧
      v'.hasCompleted = true ∧ v'.percent = some 50 ∧ Attr.loadString .description v'.props = some "x".toList := by
  obtain ⟨v, lines, c', -, k2, k3, k4, l1, l2, r1, d, r2, k5, k6, -, -, v', k7, k8⟩ := C150_edits_partial L137.plain .base (fun _ _ => rfl) asWas
    (fun _ _ _ => rfl) asRead (fun _ _ h => by cases h) [] [] withChore _ [] [] "VTODO".toList choreIn.props [] (by simp [Spec.Blank])
    (by simp [Spec.Blank]) (.inl rfl) chore_body
    ⟨⟨"VERSION".toList, (L132.line "VERSION" "2.0").text⟩, by simp [named, L132.line], by decide +kernel⟩ (by
      intro p hp
      obtain ⟨l, hl, rfl⟩ := List.mem_map.mp hp
      refine ⟨l, rfl, rfl, ?_⟩
      simp only [named, List.mem_cons, List.not_mem_nil, or_false] at hl
      rcases hl with rfl | rfl
      · exact good_line (by decide +kernel) (text_typed (by decide +kernel) (by decide +kernel))
      · exact good_line (by decide +kernel) (text_typed (by decide +kernel) (by decide +kernel)))
    (by simp) chore_good
    (by decide +kernel) .todo rfl .empty L150.edits (by
      intro x hx
      simp only [L150.edits, List.mem_cons, List.not_mem_nil, or_false] at hx
      rcases hx with rfl | rfl | rfl | rfl | rfl | rfl
      · exact ⟨(by decide : (0 : Int) ≤ 4 ∧ (4 : Int) ≤ 4 ∧ (4 : Int) ≠ 3), fun _ => by decide⟩
      · exact ⟨trivial, trivial⟩
      · exact ⟨(by decide +kernel : some "c; d".toList ≠ some []), trivial⟩
      · exact ⟨trivial, trivial⟩
      · exact ⟨trivial, (by decide +kernel : DateTime.Valid _), by decide, by decide, rfl, rfl⟩
      · exact ⟨trivial, (by decide +kernel : DateTime.Valid _), by decide +kernel, by decide +kernel, by decide +kernel, by decide +kernel⟩)
  have h1 : (compIn L137.plain.toEnv choreIn).map (fun v => (v.status, v.summary)) = some (2, some "a, b".toList) := by decide +kernel
  have h2 : (compIn L137.plain.toEnv choreIn).map (fun v => ((v.calls .empty .todo L150.edits).status, (v.calls .empty .todo L150.edits).seq,
      (v.calls .empty .todo L150.edits).summary)) = some (4, 3, some "c; d".toList) := by decide +kernel
  have h3 : (compIn L137.plain.toEnv choreIn).map (fun v => ((v.calls .empty .todo L150.edits).hasCompleted, (v.calls .empty .todo L150.edits).percent,
      Attr.loadString .description (v.calls .empty .todo L150.edits).props)) = some (true, some 50, some "x".toList) := by decide +kernel
  rw [show choreIn = .mk "VTODO".toList choreIn.props [] from rfl, k2, Option.map_some, Option.some.injEq] at h1 h2 h3
  simp only [Prod.mk.injEq] at h1 h2 h3
  obtain ⟨g1, g2⟩ := h1
  obtain ⟨g3, g4, g5⟩ := h2
  obtain ⟨g6, g7, g8⟩ := h3
  exact ⟨v, lines, c', k2, g1, g2, k3, k4, d, by rw [k6]; simp, v', k7, k8.status.trans g3, k8.seq.trans g4, k8.summary.trans g5,
    k8.completed.1.trans g6, k8.percent.trans g7, k8.details.1.trans g8⟩

end PyCal
