import Verif.Model.AlarmRead
import Verif.Spec.AlarmText
import Verif.Props.C98_AlarmEdit
import Verif.Props.C114_Numbers
import Verif.Props.C137_Calendar

/-!
# C146: from the lines of an alarm to what it says
-/

namespace PyCal
open DateTime Spec Spec.EventText Spec.CalendarText EventRead AlarmRead

namespace L146
open L132 L137 ValueType PropText Spec.AlarmText

theorem key_iff (n : List Char) :
    (keyOf n = .action ↔ n = "ACTION".toList) ∧ (keyOf n = .trigger ↔ n = "TRIGGER".toList) ∧
    (keyOf n = .repeat ↔ n = "REPEAT".toList) ∧ (keyOf n = .duration ↔ n = "DURATION".toList) ∧
    (keyOf n = .description ↔ n = "DESCRIPTION".toList) ∧ (keyOf n = .summary ↔ n = "SUMMARY".toList) ∧
    (keyOf n = .attendee ↔ n = "ATTENDEE".toList) := by
  by_cases hn : n ∈ ["ACTION".toList, "TRIGGER".toList, "REPEAT".toList, "DURATION".toList, "X-MULBERRY-ALARM-STATUS".toList,
      "X-MULBERRY-LAST-TRIGGER".toList, "X-MULBERRY-SPEAK-TEXT".toList, "DESCRIPTION".toList, "SUMMARY".toList, "ATTENDEE".toList, "URL".toList]
  · revert n
    decide +kernel
  · simp only [List.mem_cons, List.not_mem_nil, or_false, not_or] at hn
    obtain ⟨h1, h2, h3, h4, h5, h6, h7, h8, h9, h10, h11⟩ := hn
    have hkey : keyOf n = .other n := by
      unfold keyOf
      rw [if_neg h1, if_neg h2, if_neg h3, if_neg h4, if_neg h5, if_neg h6, if_neg h7, if_neg h8, if_neg h9, if_neg h10, if_neg h11]
    rw [hkey]
    exact ⟨⟨nofun, fun h => absurd h h1⟩, ⟨nofun, fun h => absurd h h2⟩, ⟨nofun, fun h => absurd h h3⟩, ⟨nofun, fun h => absurd h h4⟩,
      ⟨nofun, fun h => absurd h h8⟩, ⟨nofun, fun h => absurd h h9⟩, ⟨nofun, fun h => absurd h h10⟩⟩

/-- What is read from the line. -/
theorem prop_line {e : Env} {l : ContentLine} (ha : l.Allowed false) (hr : ∀ p ∈ l.params, ∀ v ∈ p.values, v.Readable) :
    propOf e l.text = (createValue e l.name (l.params.map ShownParam.meaning) (some l.value)).map fun v =>
      ⟨keyOf (upper l.name), valueIn (determine e.tables (String.ofList (upper l.name))
        ((paramValue (l.params.map ShownParam.meaning) "VALUE").map String.ofList)) v,
        paramValue (l.params.map ShownParam.meaning) "RELATED"⟩ := by
  unfold propOf
  rw [C131_read_partial false e.cfg l ha hr]

theorem prop_key {e : Env} {l : ContentLine} (ha : l.Allowed false) (hr : ∀ p ∈ l.params, ∀ v ∈ p.values, v.Readable) {p : Alm.P}
    (h : propOf e l.text = some p) : p.key = keyOf (upper l.name) := by
  rw [prop_line ha hr, Option.map_eq_some_iff] at h
  obtain ⟨v, -, rfl⟩ := h
  rfl

/-- The properties of the lines. -/
def Of (e : Env) (ls : List ContentLine) (ps : Alm.Props) : Prop :=
  List.Forall₂ (fun l p => propOf e l.text = some p ∧ p.key = keyOf (upper l.name)) ls ps

theorem of_mapM {e : Env} {ls : List ContentLine} (ha : ∀ l ∈ ls, l.Allowed false)
    (hr : ∀ l ∈ ls, ∀ p ∈ l.params, ∀ v ∈ p.values, v.Readable) {ps : Alm.Props}
    (h : (ls.map ContentLine.text).mapM (propOf e) = some ps) : Of e ls ps := by
  induction ls generalizing ps with
  | nil => cases h; exact .nil
  | cons l ls ih =>
    rw [List.map_cons, List.mapM_cons] at h
    cases h1 : propOf e l.text with
    | none => rw [h1] at h; cases h
    | some p =>
      rw [h1] at h
      cases h2 : (ls.map ContentLine.text).mapM (propOf e) with
      | none => rw [h2] at h; cases h
      | some qs =>
        rw [h2] at h
        cases h
        exact .cons ⟨h1, prop_key (ha l (by simp)) (hr l (by simp)) h1⟩ (ih (fun m hm => ha m (by simp [hm])) (fun m hm => hr m (by simp [hm])) h2)

/-- The first property of a name, if there is one line with it at most. -/
theorem first_of {e : Env} {ls : List ContentLine} {ps : Alm.Props} (h : Of e ls ps) {K : Alm.Key} {key : List Char}
    (hk : ∀ n, keyOf n = K ↔ n = key) {α : Type} {R : ContentLine → α → Prop} {a : Option α} (hl : HasLine ls key R a) :
    (a = none ∧ Alm.first K ps = none) ∨ ∃ l x p, a = some x ∧ l ∈ ls ∧ upper l.name = key ∧ R l x ∧ propOf e l.text = some p ∧
      Alm.first K ps = some p := by
  have hgo : ∀ {ls : List ContentLine} {ps : Alm.Props}, Of e ls ps → (∀ l ∈ ls, upper l.name ≠ key) → Alm.first K ps = none := by
    intro ls ps h hn
    induction h with
    | nil => rfl
    | cons hp _ ih =>
      unfold Alm.first at ih ⊢
      rw [List.find?_cons_of_neg]
      · exact ih fun m hm => hn m (by simp [hm])
      · rw [hp.2, decide_eq_true_eq, hk]
        exact hn _ (by simp)
  cases hl with
  | none hn => exact .inl ⟨rfl, hgo h hn⟩
  | some l x h1 h2 h3 h4 =>
    refine .inr ?_
    have : ∃ p, propOf e l.text = some p ∧ Alm.first K ps = some p := by
      clear hgo
      induction h with
      | nil => cases h1
      | @cons m p ls ps hp _ ih =>
        by_cases hm : upper m.name = key
        · have := h3 m (by simp) hm
          subst this
          refine ⟨p, hp.1, ?_⟩
          unfold Alm.first
          rw [List.find?_cons_of_pos]
          rw [hp.2, decide_eq_true_eq, hk]; exact hm
        · have hl : l ∈ ls := by
            rcases List.mem_cons.mp h1 with rfl | h
            · exact absurd h2 hm
            · exact h
          obtain ⟨q, q1, q2⟩ := ih hl (fun m hm => h3 m (by simp [hm]))
          refine ⟨q, q1, ?_⟩
          unfold Alm.first at q2 ⊢
          rw [List.find?_cons_of_neg, q2]
          rw [hp.2, decide_eq_true_eq, hk]; exact hm
    obtain ⟨p, p1, p2⟩ := this
    exact ⟨l, x, p, rfl, h1, h2, h4, p1, p2⟩

/-- The properties with values of one type. -/
def kinds : List (String × String × VType) :=
  [("ACTION", "TEXT", .text), ("DESCRIPTION", "TEXT", .text), ("SUMMARY", "TEXT", .text), ("TRIGGER", "DURATION", .duration),
   ("DURATION", "DURATION", .duration), ("REPEAT", "INTEGER", .integer), ("ATTENDEE", "CAL-ADDRESS", .calAddress),
   ("TRIGGER", "DATE-TIME", .dateTime)]

theorem kind_type {e : Env} (hT : Program ical e.tables) {l : ContentLine} {key nm : String} {ty : VType} (hk : (key, nm, ty) ∈ kinds)
    {v : Option (List Char)} (hv : HasParam l "VALUE".toList v) (h : v = none ∧ ty ≠ .dateTime ∨ v = some nm.toList) :
    determine e.tables key ((paramValue (l.params.map ShownParam.meaning) "VALUE").map String.ofList) = ty := by
  have hall : ∀ a ∈ kinds, (ical.defaultOf a.1).isSome ∧ (a.2.2 ≠ .dateTime → determine ical a.1 none = a.2.2) ∧
      determine ical a.1 (some a.2.1) = a.2.2 := by decide +kernel
  obtain ⟨k1, k2, k3⟩ := hall _ hk
  rw [paramValue_of hv, determine_keeps hT k1]
  rcases h with ⟨rfl, h⟩ | rfl
  · exact k2 h
  · rw [Option.map_some, String.ofList_toList]; exact k3

/-- What is read from a line of one of these. -/
theorem kind_line {e : Env} (hT : Program ical e.tables) {l : ContentLine} (ha : l.Allowed false)
    (hr : ∀ p ∈ l.params, ∀ v ∈ p.values, v.Readable) {key nm : String} {ty : VType} (hk : (key, nm, ty) ∈ kinds)
    (hn : upper l.name = key.toList) {v : Option (List Char)} (hv : HasParam l "VALUE".toList v)
    (h : v = none ∧ ty ≠ .dateTime ∨ v = some nm.toList) {p : Alm.P} (hp : propOf e l.text = some p) :
    p.related = paramValue (l.params.map ShownParam.meaning) "RELATED" ∧
    (ty = .text → (decodeText e.escColon e.escOther l.value).map Alm.Val.text = some p.val) ∧
    (ty = .duration → (Duration.parseText e.strict l.value).map Alm.Val.duration = some p.val) ∧
    (ty = .integer → (Num.parseInteger l.value).map Alm.Val.int = some p.val) ∧
    (ty = .calAddress → p.val = .address l.value) ∧
    (ty = .dateTime → (DateTime.parseText e.sr l.value false).map (fun d => Alm.Val.dateTime (setZone
      ((paramValue (l.params.map ShownParam.meaning) "TZID").map fun z => TzId.name (String.ofList z)) d)) = some p.val) := by
  have hdet := kind_type hT hk hv h
  have hkey : String.ofList (upper l.name) = key := by rw [hn, String.ofList_toList]
  have hm : ∀ a ∈ kinds, a.1 ∉ ical.multi := by decide +kernel
  rw [prop_line ha hr, Option.map_eq_some_iff] at hp
  obtain ⟨x, h1, rfl⟩ := hp
  unfold createValue at h1
  dsimp only at h1 ⊢
  rw [hkey, hdet] at h1 ⊢
  rw [(program_keeps hT).2.2.1, if_neg (hm _ hk)] at h1
  refine ⟨rfl, ?_, ?_, ?_, ?_, ?_⟩
  · rintro rfl
    rw [if_neg (by simp), if_neg (by simp), if_neg (by simp), if_pos (.inl rfl), Option.map_eq_some_iff] at h1
    obtain ⟨s, h1, rfl⟩ := h1
    rw [h1]; rfl
  · rintro rfl
    rw [if_neg (by simp), if_neg (by simp), if_pos rfl, Option.map_eq_some_iff] at h1
    obtain ⟨s, h1, rfl⟩ := h1
    rw [h1]; rfl
  · rintro rfl
    rw [if_neg (by simp), if_neg (by simp), if_neg (by simp), if_neg (by simp), if_neg (by simp), if_pos rfl, Option.map_eq_some_iff] at h1
    obtain ⟨s, h1, rfl⟩ := h1
    rw [h1]; rfl
  · rintro rfl
    rw [if_neg (by simp), if_neg (by simp), if_neg (by simp), if_neg (by simp), if_pos (by simp)] at h1
    cases h1
    rfl
  · rintro rfl
    rw [if_pos (by simp), if_pos (by simp), Option.map_eq_some_iff] at h1
    obtain ⟨s, h1, rfl⟩ := h1
    rw [h1]; rfl

/-- The trigger of the alarm is this. -/
def SaysTrigger : DateTime ⊕ (Duration × Bool) → Trigger → Prop
  | .inl t, .at t' => t = t'
  | .inr (D, b), .by k b' => D.totalSeconds = k ∧ b = b'
  | _, _ => False

theorem attendees_of {e : Env} (hT : Program ical e.tables) {ls : List ContentLine} {ps : Alm.Props} (h : Of e ls ps)
    (ha : ∀ l ∈ ls, l.Allowed false) (hr : ∀ l ∈ ls, ∀ p ∈ l.params, ∀ v ∈ p.values, v.Readable) {as : List (List Char)}
    (hat : List.Forall₂ AddressLine (ls.filter fun l => decide (upper l.name = "ATTENDEE".toList)) as) : Alm.attendees ps = as := by
  induction h generalizing as with
  | nil => cases hat; rfl
  | @cons l p ls ps hp _ ih =>
    have ih := @ih (fun m hm => ha m (by simp [hm])) (fun m hm => hr m (by simp [hm]))
    unfold Alm.attendees at ih ⊢
    by_cases hk : upper l.name = "ATTENDEE".toList
    · rw [List.filter_cons_of_pos (p := fun l : ContentLine => decide (upper l.name = "ATTENDEE".toList)) (a := l) (decide_eq_true hk)] at hat
      cases hat with
      | cons h1 h2 =>
        obtain ⟨⟨v, hv, hvv⟩, rfl⟩ := h1
        have := (kind_line hT (ha l (by simp)) (hr l (by simp)) (key := "ATTENDEE") (nm := "CAL-ADDRESS") (ty := .calAddress) (by decide +kernel)
          hk hv (hvv.imp (fun h => ⟨h, by simp⟩) id) hp.1).2.2.2.2.1 rfl
        rw [List.filterMap_cons_some (b := l.value) (by
          rw [if_pos (by rw [hp.2]; exact (key_iff _).2.2.2.2.2.2.mpr hk), this]), ih h2]
    · rw [List.filter_cons_of_neg (p := fun l : ContentLine => decide (upper l.name = "ATTENDEE".toList)) (a := l) (fun h => hk (of_decide_eq_true h))] at hat
      rw [List.filterMap_cons_none (by
        rw [if_neg (by rw [hp.2]; exact fun h => hk ((key_iff _).2.2.2.2.2.2.mp h))]), ih hat]

theorem string_of {e : Env} (hT : Program ical e.tables) {ls : List ContentLine} {ps : Alm.Props} (h : Of e ls ps)
    (ha : ∀ l ∈ ls, l.Allowed false) (hr : ∀ l ∈ ls, ∀ p ∈ l.params, ∀ v ∈ p.values, v.Readable) {K : Alm.Key} {key : String}
    (hk : ∀ n, keyOf n = K ↔ n = key.toList) (hkk : (key, "TEXT", VType.text) ∈ kinds) {a : Option (List Char)}
    (hl : HasLine ls key.toList TextLine a) : Alm.loadString K ps = a := by
  unfold Alm.loadString
  rcases first_of h hk hl with ⟨rfl, h1⟩ | ⟨l, x, p, rfl, h1, h2, ⟨⟨v, hv, hvv⟩, h3⟩, h4, h5⟩
  · rw [h1]; rfl
  · have := (kind_line hT (ha l h1) (hr l h1) hkk h2 hv (hvv.imp (fun h => ⟨h, by simp⟩) id) h4).2.1 rfl
    rw [C20_decode_rfc _ _ h3] at this
    cases this' : p.val <;> rw [this'] at this <;> cases this
    rw [h5, Option.map_some, this']

theorem int_of {e : Env} (hT : Program ical e.tables) {ls : List ContentLine} {ps : Alm.Props} (h : Of e ls ps)
    (ha : ∀ l ∈ ls, l.Allowed false) (hr : ∀ l ∈ ls, ∀ p ∈ l.params, ∀ v ∈ p.values, v.Readable) {a : Option Int}
    (hl : HasLine ls "REPEAT".toList NumberLine a) : Alm.loadInt .repeat ps = a := by
  unfold Alm.loadInt
  rcases first_of h (fun n => (key_iff n).2.2.1) hl with ⟨rfl, h1⟩ | ⟨l, x, p, rfl, h1, h2, ⟨⟨v, hv, hvv⟩, h3⟩, h4, h5⟩
  · rw [h1]; rfl
  · have := (kind_line hT (ha l h1) (hr l h1) (key := "REPEAT") (nm := "INTEGER") (ty := .integer) (by decide +kernel) h2 hv
      (hvv.imp (fun h => ⟨h, by simp⟩) id) h4).2.2.2.1 rfl
    rw [(C114_integer h3).1] at this
    cases this' : p.val <;> rw [this'] at this <;> cases this
    rw [h5, Option.map_some, this']

theorem length_of {e : Env} (hT : Program ical e.tables) {ls : List ContentLine} {ps : Alm.Props} (h : Of e ls ps)
    (ha : ∀ l ∈ ls, l.Allowed false) (hr : ∀ l ∈ ls, ∀ p ∈ l.params, ∀ v ∈ p.values, v.Readable) {a : Option Int}
    (hl : HasLine ls "DURATION".toList LengthLine a) : (Alm.loadDuration .duration ps).map Duration.totalSeconds = a := by
  unfold Alm.loadDuration
  rcases first_of h (fun n => (key_iff n).2.2.2.1) hl with ⟨rfl, h1⟩ | ⟨l, x, p, rfl, h1, h2, ⟨⟨v, hv, hvv⟩, h3⟩, h4, h5⟩
  · rw [h1]; rfl
  · have := (kind_line hT (ha l h1) (hr l h1) (key := "DURATION") (nm := "DURATION") (ty := .duration) (by decide +kernel) h2 hv
      (hvv.imp (fun h => ⟨h, by simp⟩) id) h4).2.2.1 rfl
    obtain ⟨D, d1, d2⟩ := Duration.C15_parse_grammar _ _ h3 e.strict
    rw [d1] at this
    cases this' : p.val <;> rw [this'] at this <;> cases this
    rw [h5, Option.map_some, this']
    exact congrArg some d2

theorem trigger_of {e : Env} (hT : Program ical e.tables) {ls : List ContentLine} {ps : Alm.Props} (h : Of e ls ps)
    (ha : ∀ l ∈ ls, l.Allowed false) (hr : ∀ l ∈ ls, ∀ p ∈ l.params, ∀ v ∈ p.values, v.Readable) {a : Trigger}
    (hl : HasLine ls "TRIGGER".toList TriggerLine (some a)) : SaysTrigger (Alm.VAlarm.fresh ps).told.trigger a := by
  rcases first_of h (fun n => (key_iff n).2.1) hl with ⟨h1, -⟩ | ⟨l, x, p, hx, h1, h2, h3, h4, h5⟩
  · cases h1
  cases hx
  have hf := Alm.first_iff.1 h5
  have hpk : p.key = .trigger := by obtain ⟨_, _, _, h, _⟩ := hf; exact h
  have hrel : ∀ {v}, HasParam l "RELATED".toList v → paramValue (l.params.map ShownParam.meaning) "RELATED" = v := fun h => paramValue_of h
  obtain ⟨k1, k2, k3, k4, k5, k6, k7, k8, k9⟩ := Alm.C98_loaded ps
  have hlen : ∀ {k}, LengthLine l k → ∃ D : Duration, D.totalSeconds = k ∧ p.val = .duration D ∧
      p.related = paramValue (l.params.map ShownParam.meaning) "RELATED" := by
    rintro k ⟨⟨v, hv, hvv⟩, hk⟩
    have := kind_line hT (ha l h1) (hr l h1) (key := "TRIGGER") (nm := "DURATION") (ty := .duration) (by decide +kernel) h2 hv
      (hvv.imp (fun h => ⟨h, by simp⟩) id) h4
    have h6 := this.2.2.1 rfl
    obtain ⟨D, d1, d2⟩ := Duration.C15_parse_grammar _ _ hk e.strict
    rw [d1] at h6
    exact ⟨D, d2, (Option.some.inj h6).symm, this.1⟩
  obtain ⟨pk, pv, pr⟩ := p
  dsimp only at hpk
  subst hpk
  cases h3 with
  | @«at» t hv hz ht hd hu =>
    have := kind_line hT (ha l h1) (hr l h1) (key := "TRIGGER") (nm := "DATE-TIME") (ty := .dateTime) (by decide +kernel) h2 hv
      (.inr rfl) h4
    have h6 := this.2.2.2.2.2 rfl
    rw [paramValue_of hz, text_parse ht e.sr, Option.map_some] at h6
    have h7 : pv = .dateTime t := by
      exact (Option.some.inj h6).symm
    subst h7
    rw [k3 t pr hf]
    exact rfl
  | start hk hv hvv =>
    obtain ⟨D, d1, d2, d3⟩ := hlen hk
    dsimp only at d2 d3
    subst d2
    rw [hrel hv] at d3
    subst d3
    rcases hvv with rfl | rfl
    · rw [k4 D hf]; exact ⟨d1, rfl⟩
    · rw [k5 D hf]; exact ⟨d1, rfl⟩
  | stop hk hv =>
    obtain ⟨D, d1, d2, d3⟩ := hlen hk
    dsimp only at d2 d3
    subst d2
    rw [hrel hv] at d3
    subst d3
    rw [k6 D hf]; exact ⟨d1, rfl⟩

end L146
open L146 Spec.AlarmText

/-- C146 (partial), from the lines of an alarm to what it says: the action; when it goes off, at a time or so long from the start or the end;
how often again and after which time; what is shown, or sent and to whom.

Missing: names of actions and values of RELATED that are not in capital letters (`C98_fails_case`, `C98_fails_related`); ATTACH, of which
nothing is kept (`C146_fails_attach`). -/
theorem C146_alarm_partial (e : Env) (hT : Program ValueType.ical e.tables) (ls : List ContentLine) (ha : ∀ l ∈ ls, l.Allowed false)
    (hr : ∀ l ∈ ls, ∀ p ∈ l.params, ∀ v ∈ p.values, v.Readable) (d : AlarmDesc) (h : Spec.AlarmText.Describes ls d) (v : Alm.VAlarm)
    (hv : load e (ls.map ContentLine.text) = some v) :
    v.told.action = (Alm.actionTexts.lookup d.action).getD .unknown ∧ SaysTrigger v.told.trigger d.trigger ∧
    (d.count = none → v.told.repeats = none) ∧
    (∀ n k, d.count = some n → 0 < n → d.interval = some k → ∃ D : Duration, v.told.repeats = some (n, D) ∧ D.totalSeconds = k) ∧
    (d.action = "DISPLAY".toList → v.told.data = .display d.description) ∧
    (d.action = "EMAIL".toList → v.told.data = .email d.description d.summary (some d.attendees)) := by
  unfold load at hv
  rw [Option.map_eq_some_iff] at hv
  obtain ⟨ps, hps, rfl⟩ := hv
  have hof := of_mapM ha hr hps
  have hact := string_of hT hof ha hr (K := .action) (key := "ACTION") (fun n => (key_iff n).1) (by decide +kernel) h.action
  have hdes := string_of hT hof ha hr (K := .description) (key := "DESCRIPTION") (fun n => (key_iff n).2.2.2.2.1) (by decide +kernel) h.description
  have hsum := string_of hT hof ha hr (K := .summary) (key := "SUMMARY") (fun n => (key_iff n).2.2.2.2.2.1) (by decide +kernel) h.summary
  have hint := int_of hT hof ha hr h.count
  have hlen := length_of hT hof ha hr h.interval
  have hat := attendees_of hT hof ha hr h.attendees
  refine ⟨?_, trigger_of hT hof ha hr h.trigger, ?_, ?_, ?_, ?_⟩
  · rw [Alm.fresh_told, hact, Option.map_some, Option.getD_some, Alm.actionOf_eq]
  · intro hn
    rw [Alm.fresh_told, hint, hn]
    simp
  · intro n k hn hpos hk
    rw [hk, Option.map_eq_some_iff] at hlen
    obtain ⟨D, d1, d2⟩ := hlen
    refine ⟨D, ?_, d2⟩
    rw [Alm.fresh_told, hint, hn, d1]
    simp [hpos]
  · intro hd
    rw [Alm.fresh_told, hact, hd, Option.map_some, Option.getD_some, Alm.actionOf_eq]
    rw [show (Alm.actionTexts.lookup "DISPLAY".toList).getD .unknown = .display by decide +kernel]
    show Alm.Data.display (Alm.loadString .description ps) = _
    rw [hdes]
  · intro hd
    rw [Alm.fresh_told, hact, hd, Option.map_some, Option.getD_some, Alm.actionOf_eq]
    rw [show (Alm.actionTexts.lookup "EMAIL".toList).getD .unknown = .email by decide +kernel]
    show Alm.Data.email (Alm.loadString .description ps) (Alm.loadString .summary ps) (some (Alm.attendees ps)) = _
    rw [hdes, hsum, hat]

/-! ## A case -/

namespace L146
open L132 L137 ValueType PropText

/-- A quarter of an hour before the end, and twice again every five minutes. -/
def reminder : List ContentLine :=
  [line "ACTION" "DISPLAY", ⟨none, "TRIGGER".toList, [⟨"RELATED".toList, .plain "END".toList, []⟩], "-PT15M".toList⟩,
    line "DESCRIPTION" "a\\nb", line "REPEAT" "2", line "DURATION" "PT5M"]

def reminderDesc : AlarmDesc :=
  ⟨"DISPLAY".toList, .by (-900) false, some 2, some 300, some "a\nb".toList, none, []⟩

theorem has_line {n v : String} {ls : List ContentLine} {α : Type} {R : ContentLine → α → Prop} {a : α} (h : line n v ∈ ls)
    (hu : ∀ m ∈ ls, upper m.name = n.toList → m = line n v) (hn : upper n.toList = n.toList) (hR : R (line n v) a) :
    HasLine ls n.toList R (some a) := .some (line n v) a h hn hu hR

theorem reminder_describes : Spec.AlarmText.Describes reminder reminderDesc := by
  have hlines : ∀ m ∈ reminder, m = line "ACTION" "DISPLAY" ∨
      m = ⟨none, "TRIGGER".toList, [⟨"RELATED".toList, .plain "END".toList, []⟩], "-PT15M".toList⟩ ∨
      m = line "DESCRIPTION" "a\\nb" ∨ m = line "REPEAT" "2" ∨ m = line "DURATION" "PT5M" := by
    intro m hm
    simpa [reminder] using hm
  have hno : ∀ n v : String, ∀ {ty : String}, ∃ x, HasParam (line n v) "VALUE".toList x ∧ (x = none ∨ x = some ty.toList) :=
    fun n v ty => ⟨none, noParam _ _ _, .inl rfl⟩
  refine ⟨has_line (n := "ACTION") (v := "DISPLAY") (by simp [reminder]) ?_ (by decide +kernel) ⟨hno _ _, ?_⟩, ?_,
    has_line (n := "REPEAT") (v := "2") (by simp [reminder]) ?_ (by decide +kernel) ⟨hno _ _, ?_⟩,
    has_line (n := "DURATION") (v := "PT5M") (by simp [reminder]) ?_ (by decide +kernel) ⟨hno _ _, ?_⟩,
    has_line (n := "DESCRIPTION") (v := "a\\nb") (by simp [reminder]) ?_ (by decide +kernel) ⟨hno _ _, ?_⟩,
    .none (by simp only [reminder]; decide +kernel), ?_⟩
  · intro m hm hk
    rcases hlines m hm with rfl | rfl | rfl | rfl | rfl
    · rfl
    all_goals exact absurd hk (by decide +kernel)
  · rw [show (line "ACTION" "DISPLAY").value = ['D', 'I', 'S', 'P', 'L', 'A', 'Y'] by decide +kernel,
      show reminderDesc.action = ['D', 'I', 'S', 'P', 'L', 'A', 'Y'] by decide +kernel]
    exact .plain _ (by decide) (.plain _ (by decide) (.plain _ (by decide) (.plain _ (by decide) (.plain _ (by decide)
      (.plain _ (by decide) (.plain _ (by decide) .nil))))))
  · refine .some ⟨none, "TRIGGER".toList, [⟨"RELATED".toList, .plain "END".toList, []⟩], "-PT15M".toList⟩ _ (by simp [reminder])
      (by decide +kernel) ?_ ?_
    · intro m hm hk
      rcases hlines m hm with rfl | rfl | rfl | rfl | rfl
      · exact absurd hk (by decide +kernel)
      · rfl
      all_goals exact absurd hk (by decide +kernel)
    · refine .stop ⟨⟨none, .none (by decide +kernel), .inl rfl⟩, ?_⟩ ?_
      · dsimp only
        rw [show "-PT15M".toList = '-' :: 'P' :: 'T' :: (['1', '5'] ++ ['M']) by decide +kernel]
        exact .minus (k := 900) (.time (.minute (.bare (digits ['1', '5'] 15 (by decide +kernel)))))
      · exact HasParam.some (l := ⟨none, "TRIGGER".toList, [⟨"RELATED".toList, .plain "END".toList, []⟩], "-PT15M".toList⟩)
          (key := "RELATED".toList) ⟨"RELATED".toList, .plain "END".toList, []⟩ (by simp) (by decide +kernel) (by simp)
  · intro m hm hk
    rcases hlines m hm with rfl | rfl | rfl | rfl | rfl
    · exact absurd hk (by decide +kernel)
    · exact absurd hk (by decide +kernel)
    · exact absurd hk (by decide +kernel)
    · rfl
    all_goals exact absurd hk (by decide +kernel)
  · exact .plain (n := 2) (digits _ 2 (by decide +kernel))
  · intro m hm hk
    rcases hlines m hm with rfl | rfl | rfl | rfl | rfl
    · exact absurd hk (by decide +kernel)
    · exact absurd hk (by decide +kernel)
    · exact absurd hk (by decide +kernel)
    · exact absurd hk (by decide +kernel)
    · rfl
  · rw [show (line "DURATION" "PT5M").value = 'P' :: 'T' :: (['5'] ++ ['M']) by decide +kernel]
    exact .plain (k := 300) (.time (.minute (.bare (digits ['5'] 5 (by decide +kernel)))))
  · intro m hm hk
    rcases hlines m hm with rfl | rfl | rfl | rfl | rfl
    · exact absurd hk (by decide +kernel)
    · exact absurd hk (by decide +kernel)
    · rfl
    all_goals exact absurd hk (by decide +kernel)
  · rw [show (line "DESCRIPTION" "a\\nb").value = ['a', '\\', 'n', 'b'] by decide +kernel, show "a\nb".toList = ['a', '\n', 'b'] by decide +kernel]
    exact .plain _ (by decide) (.break_ _ (.inl rfl) (.plain _ (by decide) .nil))
  · rw [show (reminder.filter fun l => decide (upper l.name = "ATTENDEE".toList)) = [] by decide +kernel]
    exact .nil

end L146

/-- The conditions of C146 are met. -/
example : ∃ v, load L137.plain.toEnv (L146.reminder.map ContentLine.text) = some v ∧ v.told.action = .display ∧
    v.told.data = .display (some "a\nb".toList) := by
  obtain ⟨v, hv⟩ := Option.isSome_iff_exists.mp (show (load L137.plain.toEnv (L146.reminder.map ContentLine.text)).isSome by decide +kernel)
  have := C146_alarm_partial L137.plain.toEnv .base L146.reminder (by
    intro l hl
    simp only [L146.reminder, List.mem_cons, List.not_mem_nil, or_false] at hl
    rcases hl with rfl | rfl | rfl | rfl | rfl
    · exact L137.allowed_name (by decide +kernel) rfl (by simp [L132.line])
    · refine ⟨⟨by decide +kernel, by decide +kernel⟩, by simp, ?_⟩
      intro p hp
      rw [List.mem_singleton] at hp
      subst hp
      refine ⟨⟨by decide +kernel, by decide +kernel⟩, fun v hv => ?_⟩
      simp only [ShownParam.values, List.mem_singleton] at hv
      subst hv
      show ∀ c ∈ "END".toList, _
      decide +kernel
    · exact L137.allowed_name (by decide +kernel) rfl (by simp [L132.line])
    · exact L137.allowed_name (by decide +kernel) rfl (by simp [L132.line])
    · exact L137.allowed_name (by decide +kernel) rfl (by simp [L132.line])) (by simp only [L146.reminder]; decide +kernel) L146.reminderDesc L146.reminder_describes v hv
  exact ⟨v, hv, this.1.trans (by decide +kernel), this.2.2.2.2.1 rfl⟩

/-- C146 fails: of an alarm with a sound nothing of the sound is kept. -/
theorem C146_fails_attach : ∃ v w, load L137.plain.toEnv (["ACTION:AUDIO", "TRIGGER:-PT15M", "ATTACH:http://a/"].map String.toList) = some v ∧
    load L137.plain.toEnv (["ACTION:AUDIO", "TRIGGER:-PT15M", "ATTACH:http://b/"].map String.toList) = some w ∧ v.told = w.told := by
  obtain ⟨v, hv⟩ := Option.isSome_iff_exists.mp (show (load L137.plain.toEnv
    (["ACTION:AUDIO", "TRIGGER:-PT15M", "ATTACH:http://a/"].map String.toList)).isSome by decide +kernel)
  obtain ⟨w, hw⟩ := Option.isSome_iff_exists.mp (show (load L137.plain.toEnv
    (["ACTION:AUDIO", "TRIGGER:-PT15M", "ATTACH:http://b/"].map String.toList)).isSome by decide +kernel)
  refine ⟨v, w, hv, hw, ?_⟩
  have h : (load L137.plain.toEnv (["ACTION:AUDIO", "TRIGGER:-PT15M", "ATTACH:http://a/"].map String.toList)).map Alm.VAlarm.told =
    (load L137.plain.toEnv (["ACTION:AUDIO", "TRIGGER:-PT15M", "ATTACH:http://b/"].map String.toList)).map Alm.VAlarm.told := by decide +kernel
  rw [hv, hw] at h
  exact Option.some.inj h

end PyCal
