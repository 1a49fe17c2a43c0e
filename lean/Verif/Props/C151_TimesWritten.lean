import Verif.Props.C62_C63_Editing
import Verif.Props.C150_EditsWritten

/-!
# C151: times that are edited are written
-/

namespace PyCal
open DateTime Spec Spec.EventText Spec.CalendarText EventRead CalendarRead AttrRead Rewrite

/-- The name of a time zone that is written as it is. -/
def ZoneName (z : List Char) : Prop :=
  z ≠ [] ∧ z.head? ≠ some ' ' ∧ ∀ c ∈ z, isControl c = false ∧ c ∉ ['"', ';', ':', ',', '^']

/-- A date, or a date-time in UTC, without a time zone or in one that has a name. -/
structure TimeOk (t : DateTime) : Prop where
  valid : t.Valid
  year : 0 ≤ t.year ∧ t.year ≤ 9999
  date : t.dateOnly = true → t.utc = false ∧ t.tzid = none
  zone : t.tzid = none ∨ t.utc = false ∧ ∃ z : String, t.tzid = some (.name z) ∧ ZoneName z.toList

/-- The properties of a component that say nothing about its times are those that it had. -/
def OthersSame (e : Env) (qs : List Cont.CProp) (d : Cont.Component) : Prop :=
  ∀ key, key ∉ ["DTSTART", "DTEND", "DUE", "DURATION"].map String.toList →
    List.Forall₂ (L148.SameProp e) (qs.filter fun p => decide (p.key = key)) (d.props.filter fun p => decide (p.key = key))

namespace L151
open L132 L137 L142 L144 L148 L149 L150 ValueType PropText EditLines

/-- A line with the zone and the type of its value. -/
def tline (n : String) (z : Option (List Char)) (o : Option String) (v : List Char) : ContentLine :=
  ⟨none, n.toList, (match z with | some z => [⟨"TZID".toList, .plain z, []⟩] | none => []) ++
    (match o with | some nm => [⟨"VALUE".toList, .plain nm.toList, []⟩] | none => []), v⟩

/-- The parameter with the zone. -/
def zoneParam (z : Option (List Char)) : List Param := match z with | some z => [⟨"TZID".toList, [z]⟩] | none => []

/-- The names of the properties and of the types. -/
def timeNames : List String := ["DTSTART", "DTEND", "DUE", "DURATION"]
def typeNames : List String := ["DATE", "DATE-TIME", "DURATION"]

theorem zone_decode {z : List Char} (h : ∀ c ∈ z, c ≠ '^') : rfc6868Decode z = z := by
  induction z with
  | nil => rfl
  | cons c z ih =>
    have hc := h c (by simp)
    have := ih fun c hc => h c (by simp [hc])
    rw [rfc6868Decode]
    · rw [this]
    all_goals (intros; simp_all)

theorem zone_written {z : List Char} (h : ZoneName z) : genValue z = z ∧ rfc6868Decode z = z ∧ ValueOk z := by
  obtain ⟨-, h2, h3⟩ := h
  have hno : ∀ c ∈ z, c ≠ '"' ∧ c ≠ ';' ∧ c ≠ ':' ∧ c ≠ ',' ∧ c ≠ '^' ∧ c ≠ '\n' ∧ c ≠ '\r' := by
    intro c hc
    obtain ⟨a, b⟩ := h3 c hc
    simp only [List.mem_cons, List.not_mem_nil, or_false, not_or] at b
    refine ⟨b.1, b.2.1, b.2.2.1, b.2.2.2.1, b.2.2.2.2, ?_, ?_⟩ <;> (rintro rfl; exact absurd a (by decide))
  have henc : encodeParam z = z := by
    unfold encodeParam
    rw [if_neg]
    simp only [List.any_eq_true, not_exists, not_and]
    intro c hc
    obtain ⟨a, -, -, -, b, d, f⟩ := hno c hc
    simp [a, b, d, f]
  have hnot : ¬ (':' ∈ z ∨ ';' ∈ z ∨ ',' ∈ z) := by
    rintro (h | h | h)
    · exact (hno _ h).2.2.1 rfl
    · exact (hno _ h).2.1 rfl
    · exact (hno _ h).2.2.2.1 rfl
  refine ⟨?_, zone_decode fun c hc => (hno c hc).2.2.2.2.1, ?_⟩
  · unfold genValue
    simp only [henc]
    rw [if_neg hnot]
  · unfold ValueOk
    rw [if_neg hnot]
    exact h2

section
variable {n : String} (hn : n ∈ timeNames) {z : Option (List Char)} (hz : ∀ x, z = some x → ZoneName x) {o : Option String}
  (ho : ∀ x, o = some x → x ∈ typeNames) (v : List Char)

theorem tline_mem {p : ShownParam} (h : p ∈ (tline n z o v).params) :
    (∃ x, z = some x ∧ p = ⟨"TZID".toList, .plain x, []⟩) ∨ ∃ x, o = some x ∧ p = ⟨"VALUE".toList, .plain x.toList, []⟩ := by
  unfold tline at h
  dsimp only at h
  rcases List.mem_append.mp h with h | h
  · cases z with
    | none => cases h
    | some x => exact .inl ⟨x, rfl, List.mem_singleton.mp h⟩
  · cases o with
    | none => cases h
    | some x => exact .inr ⟨x, rfl, List.mem_singleton.mp h⟩

theorem type_zone : ∀ x ∈ typeNames, ZoneName x.toList := by
  unfold ZoneName
  decide +kernel

include hz ho in
theorem tline_param {p : ShownParam} (h : p ∈ (tline n z o v).params) :
    Spec.Name p.name ∧ ∃ x, ZoneName x ∧ p.first = .plain x ∧ p.more = [] := by
  rcases tline_mem v h with ⟨x, hx, rfl⟩ | ⟨x, hx, rfl⟩
  · exact ⟨⟨by show "TZID".toList ≠ []; decide +kernel, by show ∀ c ∈ "TZID".toList, _; decide +kernel⟩, x, hz x hx, rfl, rfl⟩
  · exact ⟨value_name, _, type_zone x (ho x hx), rfl, rfl⟩

include hn hz ho in
theorem tline_good : (tline n z o v).Allowed false ∧ (∀ p ∈ (tline n z o v).params, ∀ v ∈ p.values, v.Readable) ∧ LineFits (tline n z o v) := by
  have hval : ∀ p ∈ (tline n z o v).params, ∀ v ∈ p.values, ∃ x, ZoneName x ∧ v = .plain x := by
    intro p hp w hw
    obtain ⟨-, x, h1, h2, h3⟩ := tline_param hz ho v hp
    rw [ShownParam.values, h2, h3, List.mem_singleton] at hw
    exact ⟨x, h1, hw⟩
  refine ⟨⟨?_, by simp [tline], fun p hp => ⟨(tline_param hz ho v hp).1, fun w hw => ?_⟩⟩, fun p hp w hw => ?_, fun p hp w hw => ?_, fun p hp _ => ?_⟩
  · exact (by unfold Spec.Name; decide +kernel : ∀ n ∈ timeNames, Spec.Name n.toList) n hn
  · obtain ⟨x, hx, rfl⟩ := hval p hp w hw
    intro c hc
    obtain ⟨a, b⟩ := hx.2.2 c hc
    refine ⟨a, fun hb => b ?_⟩
    simp only [List.mem_cons, List.not_mem_nil, or_false] at hb ⊢
    tauto
  · obtain ⟨x, hx, rfl⟩ := hval p hp w hw
    exact hx.2.1
  · obtain ⟨x, hx, rfl⟩ := hval p hp w hw
    show ValueOk (rfc6868Decode x)
    rw [(zone_written hx).2.1]
    exact (zone_written hx).2.2
  · obtain ⟨-, x, h1, h2, h3⟩ := tline_param hz ho v hp
    exact h3

include ho in
theorem tline_value : HasParam (tline n z o v) "VALUE".toList (o.map String.toList) := by
  cases o with
  | none =>
    refine .none fun p hp => ?_
    rcases tline_mem v hp with ⟨x, hx, rfl⟩ | ⟨x, hx, rfl⟩
    · exact (by decide +kernel : upper "TZID".toList ≠ "VALUE".toList)
    · cases hx
  | some x =>
    have := HasParam.some (l := tline n z (some x) v) (key := "VALUE".toList) ⟨"VALUE".toList, .plain x.toList, []⟩
      (List.mem_append_right _ (List.mem_singleton_self _)) (by decide +kernel : upper "VALUE".toList = "VALUE".toList) (by
        intro q hq hu
        rcases tline_mem v hq with ⟨y, hy, rfl⟩ | ⟨y, hy, rfl⟩
        · exact absurd hu (by decide +kernel : upper "TZID".toList ≠ "VALUE".toList)
        · cases hy; rfl)
    rw [show rfc6868Decode (Shown.plain x.toList).inner = x.toList from (zone_written (type_zone x (ho x rfl))).2.1] at this
    exact this

include hz in
theorem tline_zone : HasParam (tline n z o v) "TZID".toList z := by
  cases z with
  | none =>
    refine .none fun p hp => ?_
    rcases tline_mem v hp with ⟨x, hx, rfl⟩ | ⟨x, hx, rfl⟩
    · cases hx
    · exact (by decide +kernel : upper "VALUE".toList ≠ "TZID".toList)
  | some x =>
    have := HasParam.some (l := tline n (some x) o v) (key := "TZID".toList) ⟨"TZID".toList, .plain x, []⟩
      (List.mem_append_left _ (List.mem_singleton_self _)) (by decide +kernel : upper "TZID".toList = "TZID".toList) (by
        intro q hq hu
        rcases tline_mem v hq with ⟨y, hy, rfl⟩ | ⟨y, hy, rfl⟩
        · cases hy; rfl
        · exact absurd hu (by decide +kernel : upper "VALUE".toList ≠ "TZID".toList))
    rw [show rfc6868Decode (Shown.plain x).inner = x from (zone_written (hz x rfl)).2.1] at this
    exact this

include hz ho in
theorem tline_text : generate ⟨none, n.toList, valueParam o ++ zoneParam z, v⟩ =
    (tline n z o v).text := by
  have hone : ∀ {m x : List Char}, ZoneName x → genParam ⟨m, [x]⟩ = (⟨m, .plain x, []⟩ : ShownParam).text := by
    intro m x hx
    unfold genParam ShownParam.text
    rw [if_neg (by simp)]
    show m ++ '=' :: joinSep ',' [genValue x] = m ++ '=' :: (x ++ [])
    rw [(zone_written hx).1, List.append_nil]
    rfl
  have hlt : ¬ (upper "VALUE".toList ≤ upper "TZID".toList) := by decide +kernel
  have hsort : ((valueParam o ++ zoneParam z).insertionSort fun a b => a.key ≤ b.key) =
      zoneParam z ++ valueParam o := by
    cases z with
    | none => cases o <;> rfl
    | some x =>
      cases o with
      | none => rfl
      | some y =>
        show List.orderedInsert (fun a b : Param => a.key ≤ b.key) ⟨"VALUE".toList, [y.toList]⟩ [⟨"TZID".toList, [x]⟩] = _
        rw [List.orderedInsert_cons]
        exact if_neg hlt
  unfold generate ContentLine.text tline
  dsimp only
  rw [hsort, List.flatMap_append, List.flatMap_append]
  have ha : ((zoneParam z).flatMap fun p => ';' :: genParam p) =
      ((match z with | some z => [⟨"TZID".toList, .plain z, []⟩] | none => [] : List ShownParam).flatMap fun p => ';' :: p.text) := by
    cases z with
    | none => rfl
    | some x =>
      show (';' :: genParam ⟨"TZID".toList, [x]⟩) ++ [] = (';' :: ShownParam.text ⟨"TZID".toList, .plain x, []⟩) ++ []
      rw [hone (hz x rfl)]
  have hb : ((valueParam o).flatMap fun p => ';' :: genParam p) =
      ((match o with | some nm => [⟨"VALUE".toList, .plain nm.toList, []⟩] | none => [] : List ShownParam).flatMap fun p => ';' :: p.text) := by
    cases o with
    | none => rfl
    | some x =>
      show (';' :: genParam ⟨"VALUE".toList, [x.toList]⟩) ++ [] = (';' :: ShownParam.text ⟨"VALUE".toList, .plain x.toList, []⟩) ++ []
      rw [hone (type_zone x (ho x rfl))]
  rw [ha, hb]

end

theorem said_names {d : Bool} {o : Option String} (h : Said d o) : ∀ x, o = some x → x ∈ typeNames := by
  rintro x rfl
  rcases h with ⟨-, h⟩ | ⟨-, h | h⟩ <;> cases h <;> decide

theorem made_time {e : Env} (hT : Program ical e.tables) {key : String} (hk : key ∈ ["DTSTART", "DTEND", "DUE"]) {t : DateTime} (ht : TimeOk t) :
    MadeAs e (made e key (.date t)) key (.date t) := by
  obtain ⟨t1, t2, t3, t4⟩ := ht
  have hkn : key ∈ timeNames := by revert key; decide
  have hdk : key ∈ dateKeys := by revert key; decide +kernel
  have hsk : key ∈ singleKeys := by revert key; decide +kernel
  have hup : upper key.toList = key.toList := by revert key; decide +kernel
  have hdn : key.toList ∈ dateNames := by revert key; decide +kernel
  have hsaid := written_said hT hdk t.dateOnly
  obtain ⟨z, t', hz, hzu, hinz, htext, hdo, hmz⟩ : ∃ (z : Option (List Char)) (t' : DateTime), (∀ x, z = some x → ZoneName x) ∧
      (z ≠ none → t'.utc = false ∧ t'.dateOnly = false) ∧ t = inZone z t' ∧ DateTimeText t.getText t' ∧ t'.dateOnly = t.dateOnly ∧
      madeZone (.date t) = zoneParam z := by
    rcases t4 with h | ⟨hu, z, h, hz⟩
    · refine ⟨none, t, nofun, fun h => absurd rfl h, rfl, L141.until_iff.mpr ⟨rfl, t1, t2, fun hd => (t3 hd).1, h⟩, rfl, ?_⟩
      unfold madeZone
      dsimp only
      rw [h]
      rfl
    · have hd : t.dateOnly = false := by
        cases hd : t.dateOnly with
        | false => rfl
        | true => rw [(t3 hd).2] at h; cases h
      refine ⟨some z.toList, { t with tzid := none }, ?_, fun _ => ⟨hu, hd⟩, ?_, ?_, rfl, ?_⟩
      · rintro x hx; cases hx; exact hz
      · unfold inZone
        dsimp only
        rw [String.ofList_toList, ← h]
      · have : DateTimeText ({ t with tzid := none } : DateTime).getText { t with tzid := none } :=
          L141.until_iff.mpr ⟨rfl, t1, t2, fun hd' => (by rw [hd] at hd'; cases hd'), rfl⟩
        have ht := getText_in (some z.toList) this
        unfold inZone at ht
        dsimp only at ht
        rw [String.ofList_toList, ← h] at ht
        rw [show t.getText = _ from ht]
        exact this
      · unfold madeZone
        dsimp only
        rw [h]
        have hl : t.isLocal = true := by
          unfold DateTime.isLocal
          rw [hu, h]
          have hne : z ≠ "" := by rintro rfl; exact hz.1 (by decide +kernel)
          simp [tzTruthy, hne]
        simp only [hl, hd, Bool.not_false, Bool.and_true, if_true]
        rfl
  have hty : EditLines.madeType e key (.date t) = if t.dateOnly then .date else .dateTime := rfl
  have he : made e key (.date t) = ⟨(tline key z (writtenValue e.tables key (if t.dateOnly then .date else .dateTime)) t.getText).name,
      (tline key z (writtenValue e.tables key (if t.dateOnly then .date else .dateTime)) t.getText).text⟩ := by
    unfold made
    rw [hty, hmz, show valueText e (fun _ _ => []) (if t.dateOnly then .date else .dateTime) none none (.date t) = t.getText from rfl,
      tline_text hz (said_names hsaid)]
    rfl
  generalize writtenValue e.tables key (if t.dateOnly then .date else .dateTime) = o at *
  obtain ⟨h1, h2, h3⟩ := tline_good hkn hz (said_names hsaid) t.getText
  have hv := tline_value (n := key) (z := z) (said_names hsaid) t.getText
  have hzp := tline_zone (n := key) hz (o := o) t.getText
  have hp : DateParams (tline key z o t.getText) t.dateOnly z := by
    refine ⟨⟨_, hv, ?_⟩, hzp, ?_⟩
    · rcases hsaid with ⟨a, rfl⟩ | ⟨a, rfl | rfl⟩
      · exact .inl ⟨a, rfl⟩
      · exact .inr ⟨a, .inl rfl⟩
      · exact .inr ⟨a, .inr rfl⟩
    · intro hd
      by_contra hne
      rw [← hdo, (hzu hne).2] at hd
      cases hd
  have hline : DateLine (tline key z o t.getText) t := ⟨_, z, t', hp, htext, hdo, fun h => (hzu h).1, hinz⟩
  rw [he]
  refine ⟨⟨_, rfl, rfl, h1, h2, h3, .date (by exact hup.symm ▸ hdn) hline⟩, rfl, ?_⟩
  have hc := create_date (e := e) (name := (tline key z o t.getText).name) hT hup hsk (params_said hp) (paramValue_of hp.2.1) hp.2.2 htext fun h => (hzu h).1
  rw [← hinz] at hc
  exact ⟨_, line_created h1 h2 hc, rfl, rfl⟩

theorem made_duration {e : Env} (hT : Program ical e.tables) {d : Duration} (hd : Duration.Unmixed d) :
    GoodProp e (made e "DURATION" (.dur d)) ∧ ∃ q D, readLine e (made e "DURATION" (.dur d)).text = some q ∧
      q.name = "DURATION".toList ∧ q.value = .dur D ∧ D.totalSeconds = d.totalSeconds := by
  have hw : writtenValue e.tables "DURATION" .duration = none ∨ writtenValue e.tables "DURATION" .duration = some "DURATION" := by
    rw [written_keeps ical_coherent hT (by decide +kernel)]
    by_cases ha : "DURATION" ∈ e.tables.always
    · rw [if_pos ha]; exact .inr (by decide +kernel)
    · rw [if_neg ha]; exact .inl (by decide +kernel)
  have ho : ∀ x, writtenValue e.tables "DURATION" .duration = some x → x ∈ typeNames := by
    intro x hx
    rcases hw with h | h <;> rw [h] at hx <;> cases hx
    decide
  have he : made e "DURATION" (.dur d) = ⟨(tline "DURATION" none (writtenValue e.tables "DURATION" .duration) d.generate).name,
      (tline "DURATION" none (writtenValue e.tables "DURATION" .duration) d.generate).text⟩ := by
    unfold made
    rw [show EditLines.madeType e "DURATION" (.dur d) = .duration from rfl, show madeZone (.dur d) = [] from rfl,
      show valueText e (fun _ _ => []) .duration none none (.dur d) = d.generate from rfl, ← tline_text (z := none) nofun ho]
    rfl
  generalize writtenValue e.tables "DURATION" .duration = o at *
  obtain ⟨h1, h2, h3⟩ := tline_good (n := "DURATION") (z := none) (by decide) nofun ho d.generate
  have hl : LengthLine (tline "DURATION" none o d.generate) d.totalSeconds := by
    refine ⟨⟨_, tline_value (z := none) ho _, ?_⟩, Duration.C15_generate_grammar d hd⟩
    rcases hw with rfl | rfl
    · exact .inl rfl
    · exact .inr rfl
  rw [he]
  refine ⟨⟨_, rfl, rfl, h1, h2, h3, .length (.inl (by decide +kernel : upper "DURATION".toList = "DURATION".toList)) hl⟩, ?_⟩
  obtain ⟨v0, text, ps, v, a, -, -, -, b, ⟨D, rfl, hD⟩, -⟩ := length_again (w := fun _ _ => []) hT h1 h2 h3 (key := "DURATION") (by decide)
    (by decide +kernel : upper "DURATION".toList = "DURATION".toList) hl
  rcases b with b | ⟨D1, D2, b1, b2, b3⟩
  · exact ⟨_, D, a, rfl, b.symm, hD⟩
  · cases b2
    exact ⟨_, D1, a, rfl, b1, b3.symm.trans hD⟩

/-! ## What is read again -/

theorem values_again {e : Env} {t : List Char} {ps : List Cont.CProp} {cs : List Cont.Component} {d : Cont.Component}
    (h : SameComp e (.mk t ps cs) d) : ∃ qs, (d.props.mapM fun p => readLine e p.text) = some qs ∧ d.type = t ∧ ∀ key : String,
      ((ps.filter fun p => decide (p.key = key.toList)) = [] → values qs key = []) ∧
      ∀ p q, (ps.filter fun p => decide (p.key = key.toList)) = [p] → readLine e p.text = some q → ∃ v, values qs key = [v] ∧ SameValue q.value v := by
  cases h with
  | @mk _ _ ps' _ l cs' hp hl hcs =>
    obtain ⟨r1, r2⟩ := all_read hp
    obtain ⟨qs, hq⟩ := mapM_some (f := fun p : Cont.CProp => readLine e p.text) (l := ps') fun p hp => (r2 p hp).imp fun _ h => h.1
    have hfil : ∀ key : List Char, (ps'.filter fun p => decide (p.key = key)).mapM (fun p => readLine e p.text) =
        some (qs.filter fun q => decide (upper q.name = key)) := by
      intro key
      refine mapM_filter (fun p hp b hb => ?_) hq
      obtain ⟨q, h1, h2⟩ := r2 p hp
      rw [h1] at hb
      cases hb
      rw [h2]
      rfl
    refine ⟨qs, hq, rfl, fun key => ⟨fun h0 => ?_, fun p q h1 hr => ?_⟩⟩
    · have := hp key.toList
      rw [h0] at this
      have hk := hfil key.toList
      rw [List.forall₂_nil_left_iff.mp this] at hk
      unfold values
      rw [← Option.some.inj hk]
      rfl
    · have := hp key.toList
      rw [h1] at this
      obtain ⟨p', r, ⟨q0, q', k1, k2, -, -, -, k3, -⟩, k4, k5⟩ := List.forall₂_cons_left_iff.mp this
      rw [List.forall₂_nil_left_iff.mp k4] at k5
      rw [hr] at k1
      cases k1
      have hk := hfil key.toList
      rw [k5, List.mapM_cons, k2] at hk
      unfold values
      rw [← Option.some.inj hk]
      exact ⟨q'.value, rfl, k3⟩

theorem date_again' {v v' : Value} {t : DateTime} (h : SameValue v v') (hv : v = .date t) : v' = .date t := by
  rcases h with h | ⟨D, D', h, -⟩
  · rw [h, hv]
  · rw [hv] at h; cases h

theorem bare_key {ps : List Cont.CProp} {p : Cont.CProp} (h : p ∈ bare ps) : p ∈ ps ∧ ∀ n ∈ timeNames, p.key ≠ n.toList := by
  unfold bare EditLines.remove at h
  simp only [List.mem_filter, decide_eq_true_eq] at h
  obtain ⟨⟨⟨⟨h0, h1⟩, h2⟩, h3⟩, h4⟩ := h
  refine ⟨h0, fun n hn => ?_⟩
  simp only [timeNames, List.mem_cons, List.not_mem_nil, or_false] at hn
  rcases hn with rfl | rfl | rfl | rfl <;> assumption

theorem bare_filter (ps : List Cont.CProp) {n : String} (hn : n ∈ timeNames) : ((bare ps).filter fun p => decide (p.key = n.toList)) = [] :=
  List.filter_eq_nil_iff.mpr fun p hp => by simpa using (bare_key hp).2 n hn

theorem made_filter (e : Env) (m n : String) (v : Value) (hm : m ∈ timeNames) :
    ([made e m v].filter fun p => decide (p.key = n.toList)) = if m = n then [made e m v] else [] := by
  have hk : (made e m v).key = m.toList := (by decide +kernel : ∀ m ∈ timeNames, upper m.toList = m.toList) m hm
  by_cases h : m = n
  · rw [if_pos h, List.filter_cons_of_pos (by rw [hk, h]; simp)]
    rfl
  · rw [if_neg h, List.filter_cons_of_neg (by rw [hk]; simpa using fun he => h (String.toList_inj.mp he))]
    rfl

theorem others_same {e : Env} {t : List Char} {qs l : List Cont.CProp} {cs : List Cont.Component} {d : Cont.Component}
    (h : SameComp e (.mk t (bare qs ++ l) cs) d) (hl : ∀ p ∈ l, p.key ∈ timeNames.map String.toList) : OthersSame e qs d := by
  intro key hkey
  have hq : ((bare qs ++ l).filter fun p => decide (p.key = key)) = qs.filter fun p => decide (p.key = key) := by
    rw [List.filter_append, show (l.filter fun p => decide (p.key = key)) = [] from List.filter_eq_nil_iff.mpr fun p hp hk => hkey (by
      rw [decide_eq_true_eq] at hk
      exact hk ▸ hl p hp), List.append_nil]
    have hrem : ∀ (n : String) (ps : List Cont.CProp), key ≠ n.toList →
        ((EditLines.remove n ps).filter fun p => decide (p.key = key)) = ps.filter fun p => decide (p.key = key) := by
      intro n ps hn
      unfold EditLines.remove
      rw [List.filter_filter]
      refine List.filter_congr fun p _ => ?_
      by_cases hk : p.key = key
      · rw [hk, decide_eq_true hn, Bool.and_true]
      · rw [decide_eq_false hk, Bool.false_and]
    have hne : ∀ n ∈ timeNames, key ≠ n.toList := fun n hn h => hkey (h ▸ List.mem_map_of_mem hn)
    unfold bare
    rw [hrem _ _ (hne _ (by decide)), hrem _ _ (hne _ (by decide)), hrem _ _ (hne _ (by decide)), hrem _ _ (hne _ (by decide))]
  cases h with
  | @mk _ _ ps' _ m cs' hp hm hcs =>
    rw [← hq]
    exact hp key

theorem made_name {e : Env} {m : String} (hm : m ∈ timeNames) (v : Value) : (made e m v).key ∈ timeNames.map String.toList :=
  (by decide +kernel : ∀ m ∈ timeNames, upper m.toList ∈ timeNames.map String.toList) m hm

/-- The calendar with the component with other properties is written and read again. -/
theorem replaced {s : Settings} (hT : Program ValueType.ical s.tables)
    (hfin : ∀ c, isRecur c.type = false → s.finishes c = true) {w : Writer} (hw : Closed s.toEnv w) {order : Cont.Order}
    (heq : ∀ a b, order.eq a b = true → a.type = b.type) {b1 b2 body : List (List Char)} {ps : List Cont.CProp}
    {before after : List Cont.Component} {t : List Char} {qs qs' : List Cont.CProp} {cs : List Cont.Component} (h1 : Spec.Blank b1)
    (h2 : Spec.Blank b2) (hb : s.blankRaise = false ∨ b1 = [] ∧ b2 = [])
    (h : Spec.Body (container s) true "VCALENDAR".toList body ps (before ++ .mk t qs cs :: after)) (hv : ∃ p ∈ ps, p.key = "VERSION".toList)
    (hps : ∀ p ∈ ps, GoodProp s.toEnv p) (hss : ∀ d ∈ before ++ after, GoodComp s.toEnv d ∨ ∃ v, GoodEvent s.toEnv d v)
    (hgood : GoodComp s.toEnv (.mk t qs cs))
    (hzone : ∀ d ∈ before ++ .mk t qs cs :: after, PropText.upper d.type = "VTIMEZONE".toList → d.type = "VTIMEZONE".toList)
    (hqs : ∀ p ∈ qs', p ∈ qs ∨ GoodProp s.toEnv p ∧ p.key ≠ "RECURRENCE-ID".toList) :
    read s (b1 ++ "BEGIN:VCALENDAR".toList :: (body ++ "END:VCALENDAR".toList :: b2)) =
        .ok (some (.mk "VCALENDAR".toList ps (before ++ .mk t qs cs :: after))) ∧
      ∃ lines c', written s.toEnv w order (.mk "VCALENDAR".toList ps (before ++ .mk t qs' cs :: after)) = some lines ∧
      read s lines = .ok (some c') ∧ SameComp s.toEnv (.mk "VCALENDAR".toList ps (before ++ .mk t qs' cs :: after)) c' ∧
      ∃ d ∈ c'.subs, SameComp s.toEnv (.mk t qs' cs) d := by
  have hread : read s (b1 ++ "BEGIN:VCALENDAR".toList :: (body ++ "END:VCALENDAR".toList :: b2)) =
      .ok (some (.mk "VCALENDAR".toList ps (before ++ .mk t qs cs :: after))) := (C40_calendar (container s) _ _).mpr
    ⟨C40_complete (container s) rfl b1 b2 body ps _ h1 h2 hb h hv, hzone⟩
  have hvalid := (L145.read_valid hread).1
  have hform := body_formed h
  have hmid : Cont.Component.mk t qs cs ∈ before ++ .mk t qs cs :: after := by simp
  have hgood' : GoodComp s.toEnv (.mk t qs' cs) := by
    cases hgood with
    | mk a b c =>
      refine .mk (fun p hp => ?_) (fun hr p hp => ?_) c
      · exact (hqs p hp).elim (a p) And.left
      · exact (hqs p hp).elim (b hr p) And.right
  have hf' : Formed (.mk t qs' cs) := by
    cases (hform _ hmid).2 with
    | mk a b c d => exact .mk a b c d
  have hall : ∀ d ∈ before ++ .mk t qs' cs :: after, d = .mk t qs' cs ∨ d ∈ before ++ .mk t qs cs :: after ∧ d ∈ before ++ after := by
    intro d hd
    simp only [List.mem_append, List.mem_cons] at hd ⊢
    tauto
  obtain ⟨lines, c', k1, k2, k3⟩ := again hT hfin hw heq (ps := ps) (ss := before ++ .mk t qs' cs :: after) h hvalid hv hps
    (by
      intro d hd
      rcases hall d hd with rfl | ⟨hd, hd'⟩
      · exact ⟨hf', .inl hgood'⟩
      · exact ⟨(hform d hd).2, (hss d hd').imp_right fun h => ⟨hd, h⟩⟩)
    (by
      intro d hd
      rcases hall d hd with rfl | ⟨hd, -⟩
      · exact hzone (.mk t qs cs) hmid
      · exact hzone d hd)
  refine ⟨hread, lines, c', k1, k2, k3, ?_⟩
  cases k3 with
  | @mk _ _ ps' _ m cs' hp hm hcs =>
    exact forall₂_left hcs (hm.symm.subset (show Cont.Component.mk t qs' cs ∈ before ++ .mk t qs' cs :: after by simp))

/-! ## The times -/

theorem load_none {rs : List RProp} {key : String} (h : values rs key = []) : loadDate rs key = none ∧ loadDuration rs key = none := by
  unfold loadDate loadDuration
  rw [h]
  exact ⟨rfl, rfl⟩

theorem load_date {rs : List RProp} {key : String} {t : DateTime} (h : values rs key = [.date t]) : loadDate rs key = some t := by
  unfold loadDate
  rw [h]
  rfl

theorem load_dur {rs : List RProp} {key : String} {d : Duration} (h : values rs key = [.dur d]) : loadDuration rs key = some d := by
  unfold loadDuration
  rw [h]
  rfl

theorem add_same {d d' : Duration} (h : d.totalSeconds = d'.totalSeconds) (t : DateTime) : t.add d = t.add d' := by
  unfold DateTime.add
  rw [h]

theorem made_rid {e : Env} {m : String} (hm : m ∈ timeNames) (v : Value) : (made e m v).key ≠ "RECURRENCE-ID".toList :=
  (by decide +kernel : ∀ m ∈ timeNames, upper m.toList ≠ "RECURRENCE-ID".toList) m hm

end L151

open L132 L137 L142 L144 L148 L149 L150 L151

/-- C151 (partial), a start and an end: after `editTimingStartEnd` the event that is written and read again has this start and this end, no
duration or due time from before, and its other properties; with `C62_startEnd_partial` these are the times that it had.

Missing: as in `C150_edits_partial`; an all-day event of one day, `C151_oneDay_partial`. -/
theorem C151_startEnd_partial (s : Settings) (hT : Program ValueType.ical s.tables)
    (hfin : ∀ c, isRecur c.type = false → s.finishes c = true) (w : Writer) (hw : Closed s.toEnv w) (order : Cont.Order)
    (heq : ∀ a b, order.eq a b = true → a.type = b.type) (b1 b2 body : List (List Char)) (ps : List Cont.CProp)
    (before after : List Cont.Component) (qs : List Cont.CProp) (cs : List Cont.Component) (h1 : Spec.Blank b1)
    (h2 : Spec.Blank b2) (hb : s.blankRaise = false ∨ b1 = [] ∧ b2 = [])
    (h : Spec.Body (container s) true "VCALENDAR".toList body ps (before ++ .mk "VEVENT".toList qs cs :: after))
    (hv : ∃ p ∈ ps, p.key = "VERSION".toList) (hps : ∀ p ∈ ps, GoodProp s.toEnv p)
    (hss : ∀ d ∈ before ++ after, GoodComp s.toEnv d ∨ ∃ v, GoodEvent s.toEnv d v) (hgood : GoodComp s.toEnv (.mk "VEVENT".toList qs cs))
    (hzone : ∀ d ∈ before ++ .mk "VEVENT".toList qs cs :: after, PropText.upper d.type = "VTIMEZONE".toList → d.type = "VTIMEZONE".toList)
    (env : TzEnv) (start stop : DateTime) (hs : TimeOk start) (he' : TimeOk stop)
    (hd : start.dateOnly = true → stop.eq env (start.offsetDay 1) = false) :
    ∃ lines c', read s (b1 ++ "BEGIN:VCALENDAR".toList :: (body ++ "END:VCALENDAR".toList :: b2)) =
        .ok (some (.mk "VCALENDAR".toList ps (before ++ .mk "VEVENT".toList qs cs :: after))) ∧
      written s.toEnv w order (.mk "VCALENDAR".toList ps (before ++ .mk "VEVENT".toList (EditLines.editTimingStartEnd s.toEnv env start stop qs) cs :: after)) = some lines ∧
      read s lines = .ok (some c') ∧ SameComp s.toEnv (.mk "VCALENDAR".toList ps (before ++ .mk "VEVENT".toList (EditLines.editTimingStartEnd s.toEnv env start stop qs) cs :: after)) c' ∧
      ∃ d ∈ c'.subs, SameComp s.toEnv (.mk "VEVENT".toList (EditLines.editTimingStartEnd s.toEnv env start stop qs) cs) d ∧ OthersSame s.toEnv qs d ∧ ∃ T, EditLines.timingIn s.toEnv d = some T ∧
        T.hasStart = true ∧ T.start = start ∧ T.hasEnd = true ∧ T.stop = stop ∧ T.duration = none ∧ T.due = none := by
  have hcond : (!start.dateOnly || !stop.eq env (start.offsetDay 1)) = true := by
    cases hs' : start.dateOnly with
    | false => rfl
    | true => simp [hd hs']
  have he : EditLines.editTimingStartEnd s.toEnv env start stop qs =
      EditLines.bare qs ++ ([EditLines.made s.toEnv "DTSTART" (.date start)] ++ [EditLines.made s.toEnv "DTEND" (.date stop)]) := by
    unfold EditLines.editTimingStartEnd
    simp only [hcond, if_true, List.append_assoc]
  have m1 := made_time hT (key := "DTSTART") (by decide) hs
  have m2 := made_time hT (key := "DTEND") (by decide) he'
  rw [he]
  obtain ⟨k0, lines, c', k1, k2, k3, d, k4, k5⟩ := replaced hT hfin hw heq h1 h2 hb h hv hps hss hgood hzone
    (qs' := EditLines.bare qs ++ ([EditLines.made s.toEnv "DTSTART" (.date start)] ++ [EditLines.made s.toEnv "DTEND" (.date stop)])) (by
      intro p hp
      simp only [List.mem_append, List.mem_singleton] at hp
      rcases hp with hp | rfl | rfl
      · exact .inl (bare_key hp).1
      · exact .inr ⟨m1.1, made_rid (by decide) _⟩
      · exact .inr ⟨m2.1, made_rid (by decide) _⟩)
  obtain ⟨rs, r1, r2, r3⟩ := values_again k5
  obtain ⟨-, -, q1, q2, -, q3⟩ := m1
  obtain ⟨-, -, u1, u2, -, u3⟩ := m2
  refine ⟨lines, c', k0, k1, k2, k3, d, k4, k5, others_same k5 (by
    intro p hp
    simp only [List.mem_append, List.mem_singleton] at hp
    rcases hp with rfl | rfl
    all_goals exact made_name (by decide) _), ?_⟩
  unfold EditLines.timingIn
  rw [r1, r2, Option.map_some]
  obtain ⟨v1, v2, v3⟩ := (r3 "DTSTART").2 _ q1 (by
    rw [List.filter_append, List.filter_append, bare_filter _ (by decide), made_filter _ _ _ _ (by decide), made_filter _ _ _ _ (by decide)]; rfl) q2
  rw [date_again' v3 q3] at v2
  obtain ⟨w1, w2, w3⟩ := (r3 "DTEND").2 _ u1 (by
    rw [List.filter_append, List.filter_append, bare_filter _ (by decide), made_filter _ _ _ _ (by decide), made_filter _ _ _ _ (by decide)]; rfl) u2
  rw [date_again' w3 u3] at w2
  have hdur := (load_none ((r3 "DURATION").1 (by
    rw [List.filter_append, List.filter_append, bare_filter _ (by decide), made_filter _ _ _ _ (by decide), made_filter _ _ _ _ (by decide)]; rfl))).2
  have hdue := (load_none ((r3 "DUE").1 (by
    rw [List.filter_append, List.filter_append, bare_filter _ (by decide), made_filter _ _ _ _ (by decide), made_filter _ _ _ _ (by decide)]; rfl))).1
  refine ⟨_, rfl, ?_⟩
  rw [if_neg (by decide +kernel)]
  simp only [load_date v2, load_date w2, hdur, hdue, Timing.finalise, and_self]

/-- C151 (partial), a start and a duration: after `editTimingStartDuration` the event that is written and read again has this start, and
ends when the duration is over; with `C62_startDuration_partial` these are the times that it had.

Missing: as in `C150_edits_partial`; all-day events of one day (`C151_oneDay_partial`) or less; durations with weeks and days (`Duration.Unmixed`). -/
theorem C151_startDuration_partial (s : Settings) (hT : Program ValueType.ical s.tables)
    (hfin : ∀ c, isRecur c.type = false → s.finishes c = true) (w : Writer) (hw : Closed s.toEnv w) (order : Cont.Order)
    (heq : ∀ a b, order.eq a b = true → a.type = b.type) (b1 b2 body : List (List Char)) (ps : List Cont.CProp)
    (before after : List Cont.Component) (qs : List Cont.CProp) (cs : List Cont.Component) (h1 : Spec.Blank b1)
    (h2 : Spec.Blank b2) (hb : s.blankRaise = false ∨ b1 = [] ∧ b2 = [])
    (h : Spec.Body (container s) true "VCALENDAR".toList body ps (before ++ .mk "VEVENT".toList qs cs :: after))
    (hv : ∃ p ∈ ps, p.key = "VERSION".toList) (hps : ∀ p ∈ ps, GoodProp s.toEnv p)
    (hss : ∀ d ∈ before ++ after, GoodComp s.toEnv d ∨ ∃ v, GoodEvent s.toEnv d v) (hgood : GoodComp s.toEnv (.mk "VEVENT".toList qs cs))
    (hzone : ∀ d ∈ before ++ .mk "VEVENT".toList qs cs :: after, PropText.upper d.type = "VTIMEZONE".toList → d.type = "VTIMEZONE".toList)
    (start : DateTime) (d : Duration) (hs : TimeOk start) (hu : Duration.Unmixed d)
    (hd : start.dateOnly = true → d.weeks ≠ 0 ∨ 1 < d.days) :
    ∃ lines c', read s (b1 ++ "BEGIN:VCALENDAR".toList :: (body ++ "END:VCALENDAR".toList :: b2)) =
        .ok (some (.mk "VCALENDAR".toList ps (before ++ .mk "VEVENT".toList qs cs :: after))) ∧
      written s.toEnv w order (.mk "VCALENDAR".toList ps (before ++ .mk "VEVENT".toList (EditLines.editTimingStartDuration s.toEnv start d qs) cs :: after)) = some lines ∧
      read s lines = .ok (some c') ∧ SameComp s.toEnv (.mk "VCALENDAR".toList ps (before ++ .mk "VEVENT".toList (EditLines.editTimingStartDuration s.toEnv start d qs) cs :: after)) c' ∧
      ∃ x ∈ c'.subs, SameComp s.toEnv (.mk "VEVENT".toList (EditLines.editTimingStartDuration s.toEnv start d qs) cs) x ∧ OthersSame s.toEnv qs x ∧ ∃ T, EditLines.timingIn s.toEnv x = some T ∧
        T.hasStart = true ∧ T.start = start ∧ T.stop = start.add d ∧ T.useDuration = true ∧ T.dtend = none ∧ T.due = none := by
  have hcond : (!start.dateOnly || decide (d.weeks ≠ 0) || decide (d.days > 1)) = true := by
    cases hs' : start.dateOnly with
    | false => rfl
    | true => rcases hd hs' with h | h <;> simp [h]
  have he : EditLines.editTimingStartDuration s.toEnv start d qs =
      EditLines.bare qs ++ ([EditLines.made s.toEnv "DTSTART" (.date start)] ++ [EditLines.made s.toEnv "DURATION" (.dur d)]) := by
    unfold EditLines.editTimingStartDuration
    simp only [hcond, if_true, List.append_assoc]
  have m1 := made_time hT (key := "DTSTART") (by decide) hs
  obtain ⟨u0, u1, D, u2, -, u3, u4⟩ := made_duration hT hu
  rw [he]
  obtain ⟨k0, lines, c', k1, k2, k3, x, k4, k5⟩ := replaced hT hfin hw heq h1 h2 hb h hv hps hss hgood hzone
    (qs' := EditLines.bare qs ++ ([EditLines.made s.toEnv "DTSTART" (.date start)] ++ [EditLines.made s.toEnv "DURATION" (.dur d)])) (by
      intro p hp
      simp only [List.mem_append, List.mem_singleton] at hp
      rcases hp with hp | rfl | rfl
      · exact .inl (bare_key hp).1
      · exact .inr ⟨m1.1, made_rid (by decide) _⟩
      · exact .inr ⟨u0, made_rid (by decide) _⟩)
  obtain ⟨rs, r1, r2, r3⟩ := values_again k5
  obtain ⟨-, -, q1, q2, -, q3⟩ := m1
  refine ⟨lines, c', k0, k1, k2, k3, x, k4, k5, others_same k5 (by
    intro p hp
    simp only [List.mem_append, List.mem_singleton] at hp
    rcases hp with rfl | rfl
    all_goals exact made_name (by decide) _), ?_⟩
  unfold EditLines.timingIn
  rw [r1, r2, Option.map_some]
  obtain ⟨v1, v2, v3⟩ := (r3 "DTSTART").2 _ q1 (by
    rw [List.filter_append, List.filter_append, bare_filter _ (by decide), made_filter _ _ _ _ (by decide), made_filter _ _ _ _ (by decide)]; rfl) q2
  rw [date_again' v3 q3] at v2
  have hend := (load_none ((r3 "DTEND").1 (by
    rw [List.filter_append, List.filter_append, bare_filter _ (by decide), made_filter _ _ _ _ (by decide), made_filter _ _ _ _ (by decide)]; rfl))).1
  have hdue := (load_none ((r3 "DUE").1 (by
    rw [List.filter_append, List.filter_append, bare_filter _ (by decide), made_filter _ _ _ _ (by decide), made_filter _ _ _ _ (by decide)]; rfl))).1
  obtain ⟨w1, w2, w3⟩ := (r3 "DURATION").2 _ u1 (by
    rw [List.filter_append, List.filter_append, bare_filter _ (by decide), made_filter _ _ _ _ (by decide), made_filter _ _ _ _ (by decide)]; rfl) u2
  obtain ⟨D', rfl, hD'⟩ : ∃ D', w1 = .dur D' ∧ D'.totalSeconds = d.totalSeconds := by
    rcases w3 with w3 | ⟨A, B, a1, a2, a3⟩
    · exact ⟨D, by rw [← u3, w3], u4⟩
    · rw [u3] at a1
      cases a1
      exact ⟨B, a2, by rw [← u4]; exact a3⟩
  refine ⟨_, rfl, ?_⟩
  rw [if_neg (by decide +kernel)]
  simp only [load_date v2, load_dur w2, hend, hdue, Timing.finalise, add_same hD', and_self]

/-- C151 (partial), all-day events of one day: these are written without an end or a duration, and have their day when they are read
again; with `C62_oneDay_partial` it is the day that they had.

Missing: as in `C150_edits_partial`; durations of a part of a day. -/
theorem C151_oneDay_partial (s : Settings) (hT : Program ValueType.ical s.tables)
    (hfin : ∀ c, isRecur c.type = false → s.finishes c = true) (w : Writer) (hw : Closed s.toEnv w) (order : Cont.Order)
    (heq : ∀ a b, order.eq a b = true → a.type = b.type) (b1 b2 body : List (List Char)) (ps : List Cont.CProp)
    (before after : List Cont.Component) (qs : List Cont.CProp) (cs : List Cont.Component) (h1 : Spec.Blank b1)
    (h2 : Spec.Blank b2) (hb : s.blankRaise = false ∨ b1 = [] ∧ b2 = [])
    (h : Spec.Body (container s) true "VCALENDAR".toList body ps (before ++ .mk "VEVENT".toList qs cs :: after))
    (hv : ∃ p ∈ ps, p.key = "VERSION".toList) (hps : ∀ p ∈ ps, GoodProp s.toEnv p)
    (hss : ∀ d ∈ before ++ after, GoodComp s.toEnv d ∨ ∃ v, GoodEvent s.toEnv d v) (hgood : GoodComp s.toEnv (.mk "VEVENT".toList qs cs))
    (hzone : ∀ d ∈ before ++ .mk "VEVENT".toList qs cs :: after, PropText.upper d.type = "VTIMEZONE".toList → d.type = "VTIMEZONE".toList)
    (start : DateTime) (hs : TimeOk start) (hd : start.dateOnly = true) (qs' : List Cont.CProp)
    (hq : (∃ env stop, stop.eq env (start.offsetDay 1) = true ∧ qs' = EditLines.editTimingStartEnd s.toEnv env start stop qs) ∨
      ∃ d : Duration, d.weeks = 0 ∧ d.days ≤ 1 ∧ d.totalSeconds = 86400 ∧ qs' = EditLines.editTimingStartDuration s.toEnv start d qs) :
    ∃ lines c', read s (b1 ++ "BEGIN:VCALENDAR".toList :: (body ++ "END:VCALENDAR".toList :: b2)) =
        .ok (some (.mk "VCALENDAR".toList ps (before ++ .mk "VEVENT".toList qs cs :: after))) ∧
      written s.toEnv w order (.mk "VCALENDAR".toList ps (before ++ .mk "VEVENT".toList qs' cs :: after)) = some lines ∧
      read s lines = .ok (some c') ∧ SameComp s.toEnv (.mk "VCALENDAR".toList ps (before ++ .mk "VEVENT".toList qs' cs :: after)) c' ∧
      ∃ d ∈ c'.subs, SameComp s.toEnv (.mk "VEVENT".toList qs' cs) d ∧ OthersSame s.toEnv qs d ∧ ∃ T, EditLines.timingIn s.toEnv d = some T ∧
        T.hasStart = true ∧ T.start = start ∧ T.stop = start.offsetDay 1 ∧ T.dtend = none ∧ T.duration = none ∧ T.due = none := by
  have he : qs' = EditLines.bare qs ++ [EditLines.made s.toEnv "DTSTART" (.date start)] := by
    rcases hq with ⟨env, stop, h, rfl⟩ | ⟨d, h1, h2, -, rfl⟩
    · unfold EditLines.editTimingStartEnd
      simp [hd, h]
    · unfold EditLines.editTimingStartDuration
      have : ¬ d.days > 1 := by omega
      simp [hd, h1, this]
  have m1 := made_time hT (key := "DTSTART") (by decide) hs
  rw [he]
  obtain ⟨k0, lines, c', k1, k2, k3, d, k4, k5⟩ := replaced hT hfin hw heq h1 h2 hb h hv hps hss hgood hzone
    (qs' := EditLines.bare qs ++ [EditLines.made s.toEnv "DTSTART" (.date start)]) (by
      intro p hp
      simp only [List.mem_append, List.mem_singleton] at hp
      rcases hp with hp | rfl
      · exact .inl (bare_key hp).1
      · exact .inr ⟨m1.1, made_rid (by decide) _⟩)
  obtain ⟨rs, r1, r2, r3⟩ := values_again k5
  obtain ⟨-, -, q1, q2, -, q3⟩ := m1
  refine ⟨lines, c', k0, k1, k2, k3, d, k4, k5, others_same k5 (by
    intro p hp
    simp only [List.mem_append, List.mem_singleton] at hp
    subst hp
    all_goals exact made_name (by decide) _), ?_⟩
  unfold EditLines.timingIn
  rw [r1, r2, Option.map_some]
  obtain ⟨v1, v2, v3⟩ := (r3 "DTSTART").2 _ q1 (by
    rw [List.filter_append, bare_filter _ (by decide), made_filter _ _ _ _ (by decide)]; rfl) q2
  rw [date_again' v3 q3] at v2
  have hno : ∀ n ∈ ["DUE", "DTEND", "DURATION"], loadDate rs n = none ∧ loadDuration rs n = none := by
    intro n hn
    refine load_none ((r3 n).1 ?_)
    rw [List.filter_append, bare_filter _ ((by decide : ∀ n ∈ ["DUE", "DTEND", "DURATION"], n ∈ timeNames) n hn),
      made_filter _ _ _ _ (by decide), if_neg ((by decide : ∀ n ∈ ["DUE", "DTEND", "DURATION"], "DTSTART" ≠ n) n hn)]
    rfl
  refine ⟨_, rfl, ?_⟩
  rw [if_neg (by decide +kernel)]
  simp only [load_date v2, (hno "DUE" (by decide)).1, (hno "DTEND" (by decide)).1, (hno "DURATION" (by decide)).2, Timing.finalise, hd, if_true,
    and_self]

/-- C151 (partial), the time when a to-do is due: after `editTimingDue` the to-do that is written and read again is due then and has no
start; with `C62_due_partial` it is what it was.

Missing: as in `C150_edits_partial`. -/
theorem C151_due_partial (s : Settings) (hT : Program ValueType.ical s.tables)
    (hfin : ∀ c, isRecur c.type = false → s.finishes c = true) (w : Writer) (hw : Closed s.toEnv w) (order : Cont.Order)
    (heq : ∀ a b, order.eq a b = true → a.type = b.type) (b1 b2 body : List (List Char)) (ps : List Cont.CProp)
    (before after : List Cont.Component) (qs : List Cont.CProp) (cs : List Cont.Component) (h1 : Spec.Blank b1)
    (h2 : Spec.Blank b2) (hb : s.blankRaise = false ∨ b1 = [] ∧ b2 = [])
    (h : Spec.Body (container s) true "VCALENDAR".toList body ps (before ++ .mk "VTODO".toList qs cs :: after))
    (hv : ∃ p ∈ ps, p.key = "VERSION".toList) (hps : ∀ p ∈ ps, GoodProp s.toEnv p)
    (hss : ∀ d ∈ before ++ after, GoodComp s.toEnv d ∨ ∃ v, GoodEvent s.toEnv d v) (hgood : GoodComp s.toEnv (.mk "VTODO".toList qs cs))
    (hzone : ∀ d ∈ before ++ .mk "VTODO".toList qs cs :: after, PropText.upper d.type = "VTIMEZONE".toList → d.type = "VTIMEZONE".toList)
    (due : DateTime) (hdue : TimeOk due) :
    ∃ lines c', read s (b1 ++ "BEGIN:VCALENDAR".toList :: (body ++ "END:VCALENDAR".toList :: b2)) =
        .ok (some (.mk "VCALENDAR".toList ps (before ++ .mk "VTODO".toList qs cs :: after))) ∧
      written s.toEnv w order (.mk "VCALENDAR".toList ps (before ++ .mk "VTODO".toList (EditLines.editTimingDue s.toEnv due qs) cs :: after)) = some lines ∧
      read s lines = .ok (some c') ∧ SameComp s.toEnv (.mk "VCALENDAR".toList ps (before ++ .mk "VTODO".toList (EditLines.editTimingDue s.toEnv due qs) cs :: after)) c' ∧
      ∃ d ∈ c'.subs, SameComp s.toEnv (.mk "VTODO".toList (EditLines.editTimingDue s.toEnv due qs) cs) d ∧ OthersSame s.toEnv qs d ∧ ∃ T, EditLines.timingIn s.toEnv d = some T ∧
        T.hasStart = false ∧ T.hasEnd = true ∧ T.stop = due ∧ T.dtend = none ∧ T.duration = none := by
  have he : EditLines.editTimingDue s.toEnv due qs = EditLines.bare qs ++ [EditLines.made s.toEnv "DUE" (.date due)] := rfl
  have m1 := made_time hT (key := "DUE") (by decide) hdue
  rw [he]
  obtain ⟨k0, lines, c', k1, k2, k3, d, k4, k5⟩ := replaced hT hfin hw heq h1 h2 hb h hv hps hss hgood hzone
    (qs' := EditLines.bare qs ++ [EditLines.made s.toEnv "DUE" (.date due)]) (by
      intro p hp
      simp only [List.mem_append, List.mem_singleton] at hp
      rcases hp with hp | rfl
      · exact .inl (bare_key hp).1
      · exact .inr ⟨m1.1, made_rid (by decide) _⟩)
  obtain ⟨rs, r1, r2, r3⟩ := values_again k5
  obtain ⟨-, -, q1, q2, -, q3⟩ := m1
  refine ⟨lines, c', k0, k1, k2, k3, d, k4, k5, others_same k5 (by
    intro p hp
    simp only [List.mem_append, List.mem_singleton] at hp
    subst hp
    all_goals exact made_name (by decide) _), ?_⟩
  unfold EditLines.timingIn
  rw [r1, r2, Option.map_some]
  obtain ⟨v1, v2, v3⟩ := (r3 "DUE").2 _ q1 (by
    rw [List.filter_append, bare_filter _ (by decide), made_filter _ _ _ _ (by decide)]; rfl) q2
  rw [date_again' v3 q3] at v2
  have hno : ∀ n ∈ ["DTSTART", "DTEND", "DURATION"], loadDate rs n = none ∧ loadDuration rs n = none := by
    intro n hn
    refine load_none ((r3 n).1 ?_)
    rw [List.filter_append, bare_filter _ ((by decide : ∀ n ∈ ["DTSTART", "DTEND", "DURATION"], n ∈ timeNames) n hn),
      made_filter _ _ _ _ (by decide), if_neg ((by decide : ∀ n ∈ ["DTSTART", "DTEND", "DURATION"], "DUE" ≠ n) n hn)]
    rfl
  refine ⟨_, rfl, ?_⟩
  rw [if_pos rfl]
  simp only [load_date v2, (hno "DTSTART" (by decide)).1, (hno "DTEND" (by decide)).1, (hno "DURATION" (by decide)).2, Timing.finalise,
    Timing.finaliseToDo, and_self]


/-! ## Cases -/

namespace L151

/-- An event of five minutes. -/
def short : List Cont.CProp := [⟨"UID".toList, "UID:2".toList⟩, ⟨"DURATION".toList, "DURATION:PT5M".toList⟩]

theorem short_good : GoodComp L137.plain.toEnv (.mk "VEVENT".toList short []) := by
  refine .mk (fun p hp => ?_) (fun _ => by decide +kernel) (by simp)
  simp only [short, List.mem_cons, List.not_mem_nil, or_false] at hp
  rcases hp with rfl | rfl
  · exact ⟨line "UID" "2", by decide +kernel, by decide +kernel, good_line (by decide +kernel) (text_typed (by decide +kernel) (by decide +kernel))⟩
  · refine ⟨line "DURATION" "PT5M", by decide +kernel, by decide +kernel, good_line (by decide +kernel)
      (.length (k := 300) (.inl (by decide +kernel)) ⟨no_type _ _ _, ?_⟩)⟩
    rw [show (line "DURATION" "PT5M").value = 'P' :: 'T' :: (['5'] ++ ['M']) by decide +kernel]
    exact .plain (k := 300) (.time (.minute (.bare (digits ['5'] 5 (by decide +kernel)))))

/-- A calendar with the event. -/
def withShort : List (List Char) :=
  "VERSION:2.0".toList :: ("BEGIN:".toList ++ "VEVENT".toList) :: (["UID:2".toList, "DURATION:PT5M".toList] ++ ("END:".toList ++ "VEVENT".toList) :: [])

theorem short_body : Spec.Body (container L137.plain) true "VCALENDAR".toList withShort [⟨"VERSION".toList, "VERSION:2.0".toList⟩]
    [.mk "VEVENT".toList short []] :=
  have inner : Spec.Body (container L137.plain) false "VEVENT".toList ["UID:2".toList, "DURATION:PT5M".toList] short [] :=
    .prop (by decide +kernel) (by decide +kernel) (by decide +kernel) (by decide +kernel) (by simp)
      (.prop (by decide +kernel) (by decide +kernel) (by decide +kernel) (by decide +kernel) (by simp) .nil)
  .prop (by decide +kernel) (by decide +kernel) (by decide +kernel) (by decide +kernel) (by decide +kernel)
    (.comp "VEVENT".toList (by decide +kernel) (by decide +kernel) (by decide +kernel) (by decide +kernel) inner .nil)

/-- Nine and ten in New York. -/
def yorkNine : DateTime := ⟨2020, 3, 2, 9, 0, 0, false, false, some (.name "America/New_York")⟩
def yorkTen : DateTime := ⟨2020, 3, 2, 10, 0, 0, false, false, some (.name "America/New_York")⟩

theorem york : ZoneName "America/New_York".toList := by
  unfold ZoneName
  decide +kernel

theorem yorkNine_ok : TimeOk yorkNine := ⟨by decide +kernel, by decide +kernel, by decide +kernel, .inr ⟨rfl, _, rfl, york⟩⟩
theorem yorkTen_ok : TimeOk yorkTen := ⟨by decide +kernel, by decide +kernel, by decide +kernel, .inr ⟨rfl, _, rfl, york⟩⟩

theorem version_good : ∀ p ∈ [(⟨"VERSION".toList, "VERSION:2.0".toList⟩ : Cont.CProp)], GoodProp L137.plain.toEnv p := by
  intro p hp
  rw [List.mem_singleton] at hp
  subst hp
  exact ⟨L132.line "VERSION" "2.0", by decide +kernel, rfl, good_line (by decide +kernel) (text_typed (by decide +kernel) (by decide +kernel))⟩

end L151

/-- The conditions of C151 are met: an event that had only a duration is from nine to ten in New York, or lasts ninety minutes from nine. -/
example : (∃ lines c', written L137.plain.toEnv asWas asRead (.mk "VCALENDAR".toList [⟨"VERSION".toList, "VERSION:2.0".toList⟩]
      [.mk "VEVENT".toList (EditLines.editTimingStartEnd L137.plain.toEnv .empty yorkNine yorkTen short) []]) = some lines ∧
      read L137.plain lines = .ok (some c') ∧ ∃ d ∈ c'.subs, ∃ T, EditLines.timingIn L137.plain.toEnv d = some T ∧ T.start = yorkNine ∧ T.stop = yorkTen) ∧
    ∃ lines c', written L137.plain.toEnv asWas asRead (.mk "VCALENDAR".toList [⟨"VERSION".toList, "VERSION:2.0".toList⟩]
      [.mk "VEVENT".toList (EditLines.editTimingStartDuration L137.plain.toEnv yorkNine ⟨true, 0, 0, 1, 30, 0⟩ short) []]) = some lines ∧
      read L137.plain lines = .ok (some c') ∧ ∃ d ∈ c'.subs, ∃ T, EditLines.timingIn L137.plain.toEnv d = some T ∧ T.start = yorkNine ∧
        T.stop = { yorkNine with hours := 10, minutes := 30 } := by
  constructor
  · obtain ⟨lines, c', -, k1, k2, -, d, k3, -, -, T, k4, k5, k6, k7, k8, -⟩ := C151_startEnd_partial L137.plain .base (fun _ _ => rfl) asWas (fun _ _ _ => rfl)
      asRead (fun _ _ h => by cases h) [] [] withShort _ [] [] short [] (by simp [Spec.Blank]) (by simp [Spec.Blank]) (.inl rfl) short_body
      ⟨⟨"VERSION".toList, "VERSION:2.0".toList⟩, by simp, by decide +kernel⟩ version_good (by simp) short_good (by decide +kernel) .empty yorkNine yorkTen
      yorkNine_ok yorkTen_ok (by decide)
    exact ⟨lines, c', k1, k2, d, k3, T, k4, k6, k8⟩
  · obtain ⟨lines, c', -, k1, k2, -, d, k3, -, -, T, k4, k5, k6, k7, k8, -⟩ := C151_startDuration_partial L137.plain .base (fun _ _ => rfl) asWas
      (fun _ _ _ => rfl) asRead (fun _ _ h => by cases h) [] [] withShort _ [] [] short [] (by simp [Spec.Blank]) (by simp [Spec.Blank]) (.inl rfl)
      short_body ⟨⟨"VERSION".toList, "VERSION:2.0".toList⟩, by simp, by decide +kernel⟩ version_good (by simp) short_good (by decide +kernel) yorkNine
      ⟨true, 0, 0, 1, 30, 0⟩ yorkNine_ok (by unfold Duration.Unmixed; decide) (by decide)
    exact ⟨lines, c', k1, k2, d, k3, T, k4, k6, k7.trans (by decide +kernel)⟩

/-- The conditions are met by a to-do with an alarm that is then due at ten in New York. -/
example : ∃ lines c', written L137.plain.toEnv asWas asRead (.mk "VCALENDAR".toList [⟨"VERSION".toList, "VERSION:2.0".toList⟩]
      [.mk "VTODO".toList (EditLines.editTimingDue L137.plain.toEnv yorkTen reminded.props) reminded.subs]) = some lines ∧
      read L137.plain lines = .ok (some c') ∧ ∃ d ∈ c'.subs, ∃ T, EditLines.timingIn L137.plain.toEnv d = some T ∧ T.stop = yorkTen := by
  obtain ⟨lines, c', -, k1, k2, -, d, k3, -, -, T, k4, k5, k6, k7, -⟩ := C151_due_partial L137.plain .base (fun _ _ => rfl) asWas (fun _ _ _ => rfl)
    asRead (fun _ _ h => by cases h) [] [] withReminder _ [] [] reminded.props reminded.subs (by simp [Spec.Blank]) (by simp [Spec.Blank]) (.inl rfl)
    reminded_body ⟨⟨"VERSION".toList, "VERSION:2.0".toList⟩, by simp, by decide +kernel⟩ version_good (by simp) reminded_good (by decide +kernel) yorkTen yorkTen_ok
  exact ⟨lines, c', k1, k2, d, k3, T, k4, k7⟩

/-- The conditions are met by an event that is then on the first of March. -/
example : ∃ lines c', written L137.plain.toEnv asWas asRead (.mk "VCALENDAR".toList [⟨"VERSION".toList, "VERSION:2.0".toList⟩]
      [.mk "VEVENT".toList (EditLines.editTimingStartDuration L137.plain.toEnv ⟨2020, 3, 1, 0, 0, 0, true, false, none⟩ ⟨true, 0, 1, 0, 0, 0⟩ short) []]) =
        some lines ∧
      read L137.plain lines = .ok (some c') ∧ ∃ d ∈ c'.subs, ∃ T, EditLines.timingIn L137.plain.toEnv d = some T ∧
        T.stop = ⟨2020, 3, 2, 0, 0, 0, true, false, none⟩ := by
  obtain ⟨lines, c', -, k1, k2, -, d, k3, -, -, T, k4, k5, k6, k7, -⟩ := C151_oneDay_partial L137.plain .base (fun _ _ => rfl) asWas
    (fun _ _ _ => rfl) asRead (fun _ _ h => by cases h) [] [] withShort _ [] [] short [] (by simp [Spec.Blank]) (by simp [Spec.Blank]) (.inl rfl)
    short_body ⟨⟨"VERSION".toList, "VERSION:2.0".toList⟩, by simp, by decide +kernel⟩ version_good (by simp) short_good (by decide +kernel)
    ⟨2020, 3, 1, 0, 0, 0, true, false, none⟩ ⟨by decide +kernel, by decide +kernel, by decide +kernel, .inl rfl⟩ rfl _
    (.inr ⟨⟨true, 0, 1, 0, 0, 0⟩, rfl, by decide, by decide, rfl⟩)
  exact ⟨lines, c', k1, k2, d, k3, T, k4, k7.trans (by decide +kernel)⟩

end PyCal
