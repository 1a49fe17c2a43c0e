import Verif.Model.ZoneDescriptor
import Verif.Spec.ZoneName
import Verif.Props.C102_Asked
import Verif.Props.C141_WrittenText
import Verif.Props.C138_ZoneText

/-!
# C143: from the text of a calendar to the names of its time zones
-/

namespace PyCal
open Spec DateTime Spec.EventText Spec.CalendarText Spec.ZoneText EventRead
open L132 L137 L138 CalendarRead Desc102

/-- A component that is a time zone with this name, in which the lines of the components say this, and have these names. -/
structure ZoneNamed (c : Cont.Component) (z : List Char × List (Observance × Option (List Char))) : Prop where
  type : c.type = "VTIMEZONE".toList
  tzid : ∃ ls, HasLines c ls ∧ HasLine ls "TZID".toList CalendarText.TextLine (some z.1)
  observances : List.Forall₂ (fun o d => ∃ ls, HasLines o ls ∧ ZoneText.Describes ls d.1 ∧
    HasLine ls "TZNAME".toList CalendarText.TextLine d.2) c.subs z.2

/-- The first time zone of that name. -/
def FirstNamed (zs : List (List Char × List (Observance × Option (List Char)))) (tzid : List Char)
    (ds : List (Observance × Option (List Char))) : Prop :=
  ∃ pre post, zs = pre ++ (tzid, ds) :: post ∧ ∀ p ∈ pre, p.1 ≠ tzid

/-- The states in which the time zones of a calendar can be after questions about offsets and names. -/
inductive ZonesAsked (env : TzEnv) (o : SetOrder) (o' : SetOrder (DateTime × Int × Int)) (zs : List (List Char × Zone)) :
    List (List Char × Zone) → Prop
  | start : ZonesAsked env o o' zs zs
  | offset {zs1 zs2 fuel tzid x rel v} : ZonesAsked env o o' zs zs1 → x.Valid → x.dateOnly = false →
      offsetIn env o o' fuel tzid x rel zs1 = some (v, zs2) → ZonesAsked env o o' zs zs2
  | name {zs1 zs2 fuel tzid x s} : ZonesAsked env o o' zs zs1 → descriptorIn env o fuel tzid x zs1 = some (s, zs2) →
      ZonesAsked env o o' zs zs2

namespace L143
variable {env : TzEnv} {o : SetOrder} {o' : SetOrder (DateTime × Int × Int)}

/-- The first with that name. -/
def zone (tzid : List Char) (zs : List (List Char × Zone)) : Option Zone := (zs.find? fun z => decide (z.1 = tzid)).map (·.2)

theorem zone_cons (tzid id : List Char) (z : Zone) (zs : List (List Char × Zone)) :
    zone tzid ((id, z) :: zs) = if id = tzid then some z else zone tzid zs := by
  unfold zone
  by_cases h : id = tzid <;> simp [h]

theorem descriptor_zone {tzid : List Char} {x : DateTime} {zs : List (List Char × Zone)} :
    (zone tzid zs = none → ∀ fuel, descriptorIn env o fuel tzid x zs = some ([], zs)) ∧
    ∀ Z, zone tzid zs = some Z → ∀ s Z', ∃ zs', ∀ fuel, Z.descriptor env o fuel x = some (s, Z') →
      descriptorIn env o fuel tzid x zs = some (s, zs') := by
  induction zs with
  | nil => exact ⟨fun _ _ => rfl, fun Z h => by cases h⟩
  | cons a zs ih =>
    obtain ⟨id, z⟩ := a
    rw [zone_cons]
    by_cases h : id = tzid
    · rw [if_pos h]
      refine ⟨by simp, fun Z hZ s Z' => ?_⟩
      cases hZ
      exact ⟨(id, Z') :: zs, fun fuel hq => by rw [descriptorIn, if_pos h, hq]; rfl⟩
    · rw [if_neg h]
      refine ⟨fun hn fuel => by rw [descriptorIn, if_neg h, ih.1 hn]; rfl, fun Z hZ s Z' => ?_⟩
      obtain ⟨zs', h'⟩ := ih.2 Z hZ s Z'
      exact ⟨(id, z) :: zs', fun fuel hq => by rw [descriptorIn, if_neg h, h' fuel hq]; rfl⟩

theorem offset_zone {tzid : List Char} {x : DateTime} {rel : Bool} {fuel : Nat} {zs zs' : List (List Char × Zone)} {v : Int}
    (h : offsetIn env o o' fuel tzid x rel zs = some (v, zs')) {Z : Zone} (hZ : zone tzid zs = some Z) :
    ∃ Z', Z.offsetSeconds env o o' fuel x rel = some (v, Z') ∧ zone tzid zs' = some Z' := by
  induction zs generalizing zs' v with
  | nil => cases hZ
  | cons a zs ih =>
    obtain ⟨id, z⟩ := a
    rw [zone_cons] at hZ
    rw [offsetIn] at h
    by_cases hk : id = tzid
    · rw [if_pos hk] at h hZ
      cases hZ
      obtain ⟨w, w1, w2⟩ := Option.map_eq_some_iff.mp h
      cases w2
      exact ⟨w.2, w1, by rw [zone_cons, if_pos hk]⟩
    · rw [if_neg hk] at h hZ
      obtain ⟨w, w1, w2⟩ := Option.map_eq_some_iff.mp h
      cases w2
      obtain ⟨Z', h1, h2⟩ := ih w1 hZ
      exact ⟨Z', h1, by rw [zone_cons, if_neg hk, h2]⟩

theorem zone_rel {R : Zone → Zone → Prop} {tzid : List Char} {zs zs' : List (List Char × Zone)}
    (h : List.Forall₂ (fun a b => a.1 = b.1 ∧ R a.2 b.2) zs zs') :
    (zone tzid zs = none → zone tzid zs' = none) ∧
    ∀ Z, zone tzid zs = some Z → ∃ Z', zone tzid zs' = some Z' ∧ R Z Z' := by
  induction h with
  | nil => exact ⟨fun h => h, fun Z hZ => by cases hZ⟩
  | @cons a b zs zs' h1 _ ih =>
    obtain ⟨id, z⟩ := a
    obtain ⟨id', z'⟩ := b
    obtain ⟨rfl, hR⟩ : id = id' ∧ R z z' := h1
    rw [zone_cons, zone_cons]
    by_cases h : id = tzid
    · rw [if_pos h, if_pos h]
      refine ⟨by simp, fun Z hZ => ?_⟩
      cases hZ
      exact ⟨z', rfl, hR⟩
    · rw [if_neg h, if_neg h]
      exact ih

/-- The time zones of a calendar after questions. -/
theorem asked_zones {zs zs1 : List (List Char × Zone)} (h : ZonesAsked env o o' zs zs1) :
    List.Forall₂ (fun a b => a.1 = b.1 ∧ ZoneReach env o o' a.2 b.2) zs zs1 := by
  induction h with
  | start => exact List.forall₂_same.mpr fun _ _ => ⟨rfl, .start⟩
  | @offset zs1 zs2 fuel tzid x rel v _ hx hd hq ih =>
    clear * - ih hq hx hd
    induction ih generalizing zs2 v with
    | nil => rw [offsetIn] at hq; cases hq; exact .nil
    | @cons a b zs zs1 h1 h2 ih =>
      obtain ⟨id, z⟩ := b
      rw [offsetIn] at hq
      split at hq
      · rw [Option.map_eq_some_iff] at hq
        obtain ⟨w, w1, w2⟩ := hq
        cases w2
        exact .cons ⟨h1.1, .offset h1.2 hx hd w1⟩ h2
      · rw [Option.map_eq_some_iff] at hq
        obtain ⟨w, w1, w2⟩ := hq
        cases w2
        exact .cons h1 (ih w1)
  | @name zs1 zs2 fuel tzid x s _ hq ih =>
    clear * - ih hq
    induction ih generalizing zs2 s with
    | nil => rw [descriptorIn] at hq; cases hq; exact .nil
    | @cons a b zs zs1 h1 h2 ih =>
      obtain ⟨id, z⟩ := b
      rw [descriptorIn] at hq
      split at hq
      · rw [Option.map_eq_some_iff] at hq
        obtain ⟨w, w1, w2⟩ := hq
        cases w2
        unfold Zone.descriptor at w1
        obtain ⟨⟨f, z2⟩, u1, u2⟩ := Option.map_eq_some_iff.mp w1
        cases u2
        exact .cons ⟨h1.1, .find h1.2 u1⟩ h2
      · rw [Option.map_eq_some_iff] at hq
        obtain ⟨w, w1, w2⟩ := hq
        cases w2
        exact .cons h1 (ih w1)

/-! ## What is read -/

theorem name_line {e : Env} (hT : Program ValueType.ical e.tables) {l : ContentLine} (ha : l.Allowed false)
    (hr : ∀ p ∈ l.params, ∀ v ∈ p.values, v.Readable) (hn : PropText.upper l.name = "TZNAME".toList) {s : List Char}
    (h : CalendarText.TextLine l s) : readZoneLine e l.text = some ⟨"TZNAME", .text s⟩ := by
  have hmulti := (program_keeps hT).2.2.1
  obtain ⟨⟨v, hv, hvv⟩, hd⟩ := h
  have hkey : String.ofList (PropText.upper l.name) = "TZNAME" := by rw [hn]; rfl
  have hdet : ValueType.determine e.tables "TZNAME"
      ((paramValue (l.params.map ShownParam.meaning) "VALUE").map String.ofList) = .text := by
    rw [paramValue_of hv, determine_keeps hT (by decide +kernel)]
    rcases hvv with rfl | rfl <;> decide +kernel
  have hc : createValue e l.name (l.params.map ShownParam.meaning) (some l.value) = some (.text s) := by
    unfold createValue
    dsimp only
    rw [hkey, hdet, hmulti, if_neg (by decide +kernel), if_neg (by simp), if_neg (by simp), if_neg (by simp), if_pos (.inl rfl),
      C20_decode_rfc _ _ hd]
    rfl
  rw [zone_line ha hr, hc, Option.map_some, hkey]
  rfl

theorem no_line {e : Env} {ls : List ContentLine} {ps : List TzProp} (h : Lines e ls ps) (ha : ∀ l ∈ ls, l.Allowed false)
    (hr : ∀ l ∈ ls, ∀ p ∈ l.params, ∀ v ∈ p.values, v.Readable) {key : String}
    (hu : ∀ m ∈ ls, PropText.upper m.name ≠ key.toList) : firstValue ps key = none := by
  unfold firstValue
  induction h with
  | nil => rfl
  | @cons m q ls ps h1 _ ih =>
    have hq : q.name = String.ofList (PropText.upper m.name) := by
      rw [zone_line (ha m (by simp)) (hr m (by simp)), Option.map_eq_some_iff] at h1
      obtain ⟨v, _, rfl⟩ := h1
      rfl
    rw [List.find?_cons_of_neg]
    · exact ih (fun x hx => ha x (by simp [hx])) (fun x hx => hr x (by simp [hx])) fun x hx => hu x (by simp [hx])
    · intro he
      apply hu m (by simp)
      have := of_decide_eq_true he
      rw [hq] at this
      rw [← this, String.toList_ofList]

theorem observance_named {e : Env} (hT : Program ValueType.ical e.tables) {ls : List ContentLine} {d : Observance}
    {name : Option (List Char)} (h : ZoneText.Describes ls d) (hn : HasLine ls "TZNAME".toList CalendarText.TextLine name)
    (ha : ∀ l ∈ ls, l.Allowed false) (hr : ∀ l ∈ ls, ∀ p ∈ l.params, ∀ v ∈ p.values, v.Readable) {ps : List TzProp}
    (hps : Lines e ls ps) : TzElement.read ps = element d (name.getD []) := by
  obtain ⟨n, h1⟩ := observance_read hT h ha hr hps
  have h2 : n = (PyCal.loadText ps "TZNAME").getD [] := by
    have := congrArg TzElement.name h1
    exact this.symm
  have h3 : PyCal.loadText ps "TZNAME" = name := by
    unfold PyCal.loadText
    cases hn with
    | none h3 => rw [no_line hps ha hr h3]
    | some l s l1 l2 l3 l4 => rw [first_line hps ha hr l1 l2 l3 (name_line hT (ha l l1) (hr l l1) l2 l4)]
  rw [h1, h2, h3]

/-- The time zone that is read has the elements that are described. -/
def Reads (z : List Char × List (Observance × Option (List Char))) (Z : Zone) : Prop :=
  Z.maxYear = none ∧ (∀ e ∈ Z.elements, ∃ d ∈ z.2, e = element d.1 (d.2.getD [])) ∧
    ∀ d ∈ z.2, element d.1 (d.2.getD []) ∈ Z.elements

theorem zone_named {s : Settings} (hT : Program ValueType.ical s.tables) (env : TzEnv) {c : Cont.Component}
    (hs : Sound s c) (hn : ∀ o ∈ c.subs, Sound s o) {z : List Char × List (Observance × Option (List Char))} (h : ZoneNamed c z) :
    ∃ Z : Zone, zoneOf env s.toEnv c = some (z.1, Z) ∧ Reads z Z := by
  obtain ⟨ls, h1, h2⟩ := h.tzid
  obtain ⟨ps, hps, hl⟩ := lines_read hs h1
  have hobs : ∃ os, (c.subs.mapM fun (d : Cont.Component) => d.props.mapM fun p => readZoneLine s.toEnv p.text) = some os ∧
      List.Forall₂ (fun d ps => TzElement.read ps = element d.1 (d.2.getD [])) z.2 os := by
    have := h.observances
    generalize c.subs = cs at this hn
    generalize z.2 = ds at this
    induction this with
    | nil => exact ⟨[], rfl, .nil⟩
    | @cons o d cs ds a _ ih =>
      obtain ⟨ls, a1, a2, a3⟩ := a
      obtain ⟨os, b1, b2⟩ := ih fun o ho => hn o (by simp [ho])
      obtain ⟨qs, c1, c2⟩ := lines_read (hn o (by simp)) a1
      refine ⟨qs :: os, ?_, .cons (observance_named hT a2 a3 a1.2.1 a1.2.2 c2) b2⟩
      rw [List.mapM_cons, c1, b1]; rfl
  obtain ⟨os, ho1, ho2⟩ := hobs
  refine ⟨(Zone.read env ps os).2, ?_, rfl, ?_⟩
  · unfold zoneOf
    rw [hps, Option.bind_some, ho1, Option.map_some, Option.some.injEq]
    have : PyCal.loadText ps "TZID" = some z.1 := by
      cases h2 with
      | some l _ l1 l2 l3 l4 =>
        unfold PyCal.loadText
        rw [first_line hl h1.2.1 h1.2.2 l1 l2 l3 (id_line hT (h1.2.1 l l1) (h1.2.2 l l1) l2 l4)]
    unfold Zone.read
    rw [this]; rfl
  · refine ⟨fun e he => ?_, fun d hd => ?_⟩
    · obtain ⟨ps, hp, rfl⟩ := List.mem_map.mp ((T119.read_mem env _ os).subset he)
      exact L137.forall₂_left ho2.flip hp
    · obtain ⟨ps, hp, hr⟩ := L137.forall₂_left ho2 hd
      exact (T119.read_mem env _ os).symm.subset (by rw [← hr]; exact List.mem_map_of_mem hp)

theorem zones_named {s : Settings} (hT : Program ValueType.ical s.tables) {body : List (List Char)}
    {ps : List Cont.CProp} {ss : List Cont.Component} (h : Spec.Body (container s) true "VCALENDAR".toList body ps ss)
    {zones : List (List Char × List (Observance × Option (List Char)))}
    (hz : List.Forall₂ ZoneNamed (ss.filter fun d => decide (PropText.upper d.type = "VTIMEZONE".toList)) zones) (env : TzEnv) :
    (∃ zs, zonesOf env s.toEnv (.mk "VCALENDAR".toList ps ss) = some zs ∧
      List.Forall₂ (fun z Z => Z.1 = z.1 ∧ Reads z Z.2) zones zs) ∧
      ∀ d ∈ ss, PropText.upper d.type = "VTIMEZONE".toList → d.type = "VTIMEZONE".toList := by
  have hs := (L137.body_sound h).2
  have hn := body_nested h
  constructor
  · unfold zonesOf
    show ∃ zs, ((ss.filter fun d => decide (PropText.upper d.type = "VTIMEZONE".toList)).mapM _) = some zs ∧ _
    have hsub : ∀ c ∈ ss.filter (fun d => decide (PropText.upper d.type = "VTIMEZONE".toList)), c ∈ ss := fun c hc =>
      (List.mem_filter.mp hc).1
    generalize (ss.filter fun d => decide (PropText.upper d.type = "VTIMEZONE".toList)) = cs at hz hsub
    induction hz with
    | nil => exact ⟨[], rfl, .nil⟩
    | @cons c z cs zones a _ ih =>
      obtain ⟨zs, b1, b2⟩ := ih fun c hc => hsub c (by simp [hc])
      have hc := hsub c (by simp)
      obtain ⟨Z, c1, c2⟩ := zone_named hT env (hs c hc) (hn c hc) a
      refine ⟨(z.1, Z) :: zs, ?_, .cons ⟨rfl, c2⟩ b2⟩
      rw [List.mapM_cons, if_pos a.type, c1, b1]; rfl
  · intro d hd hu
    obtain ⟨z, _, hz⟩ := L137.forall₂_left hz (List.mem_filter.mpr ⟨hd, decide_eq_true hu⟩)
    exact hz.type

/-- The first of that name is read. -/
theorem first_zone {zones : List (List Char × List (Observance × Option (List Char)))} {zs : List (List Char × Zone)}
    (h : List.Forall₂ (fun z Z => Z.1 = z.1 ∧ Reads z Z.2) zones zs) (tzid : List Char) :
    ((∀ z ∈ zones, z.1 ≠ tzid) → zone tzid zs = none) ∧
    (∀ Z, zone tzid zs = some Z → ∃ ds, FirstNamed zones tzid ds) ∧
    ∀ ds, FirstNamed zones tzid ds → ∃ Z, zone tzid zs = some Z ∧ Reads (tzid, ds) Z := by
  induction h with
  | nil => exact ⟨fun _ => rfl, (fun Z hZ => by cases hZ), fun ds ⟨pre, post, hc, _⟩ => by simp at hc⟩
  | @cons z a zones zs h1 _ ih =>
    obtain ⟨id, Z0⟩ := a
    obtain ⟨rfl, h2⟩ : id = z.1 ∧ Reads z Z0 := h1
    rw [zone_cons]
    by_cases hk : z.1 = tzid
    · rw [if_pos hk]
      refine ⟨fun hc => absurd hk (hc z (by simp)), fun Z hZ => ⟨z.2, [], zones, by rw [← hk]; rfl, by simp⟩, ?_⟩
      rintro ds ⟨pre, post, hc, hpre⟩
      cases pre with
      | nil => cases hc; exact ⟨Z0, rfl, h2⟩
      | cons p pre =>
        obtain ⟨rfl, _⟩ := List.cons.inj hc
        exact absurd hk (hpre z (by simp))
    · rw [if_neg hk]
      refine ⟨fun hc => ih.1 fun z hz => hc z (by simp [hz]), fun Z hZ => ?_, ?_⟩
      · obtain ⟨ds, pre, post, hc, hpre⟩ := ih.2.1 Z hZ
        refine ⟨ds, z :: pre, post, by rw [hc]; rfl, fun p hp => ?_⟩
        rcases List.mem_cons.mp hp with rfl | hp
        · exact hk
        · exact hpre p hp
      · rintro ds ⟨pre, post, hc, hpre⟩
        cases pre with
        | nil => cases hc; exact absurd rfl hk
        | cons p pre =>
          cases hc
          exact ih.2.2 ds ⟨pre, post, rfl, fun p hp => hpre p (by simp [hp])⟩

theorem first_unique {zones : List (List Char × List (Observance × Option (List Char)))} {tzid : List Char}
    {ds ds' : List (Observance × Option (List Char))} (h : FirstNamed zones tzid ds) (h' : FirstNamed zones tzid ds') : ds' = ds := by
  have key : ∀ ds, FirstNamed zones tzid ds → zones.find? (fun z => decide (z.1 = tzid)) = some (tzid, ds) := by
    rintro ds ⟨pre, post, rfl, hpre⟩
    rw [List.find?_append, List.find?_eq_none.mpr (fun p hp => by simpa using hpre p hp), Option.none_or,
      List.find?_cons_of_pos (by simp)]
  have := (key ds h).symm.trans (key ds' h')
  cases this
  rfl

theorem offset_minutes {v : Int} (h : v % 60 = 0) (hb : v.natAbs < 86400) : OffsetText (Zone.offsetText v) v := by
  have h1 := (C102_text { start := TzElement.new.start, offsetFrom := 0, offsetTo := v, name := [] }).2 rfl h
  have h2 : Zone.elementText { start := TzElement.new.start, offsetFrom := 0, offsetTo := v, name := [] } = Zone.offsetText v := rfl
  rw [← h2, h1.1]
  exact (C141_offset v).mpr hb

/-- The text of the element that is found. -/
theorem shown_says {Z : Zone} {z : List Char × List (Observance × Option (List Char))} (hZ : Reads z Z)
    (hf : ∀ d ∈ z.2, ZoneFits d.1) (hb : ∀ d ∈ z.2, d.1.offsetTo.natAbs < 86400) {x : DateTime} (hx : x.Valid)
    (hy : x.year ≤ 2098) {s : List Char} (hu : DefaultUtc env)
    (h : (∃ e t, Best env Z.elements x e t ∧ s = Zone.elementText e) ∨ (∀ e ∈ Z.elements, NoneOf env e x) ∧ s = []) :
    (∃ d ∈ z.2, Current (z.2.map (·.1)) x d.1 ∧ Describing d.1 d.2 s) ∨ Unset (z.2.map (·.1)) x ∧ s = [] := by
  have hyear : ∀ {t}, Clock t → t.num ≤ x.num → t.year ≤ 2098 := fun ht hle => le_trans (Rule.L133.year_of_time ht.1 hx hle) hy
  have hbef : ∀ {t}, Clock t → (¬ Rfc.Before x t ↔ t.num ≤ x.num) := by
    intro t ht
    rw [Rule.L133.before_iff hx ht.1]
    exact not_lt
  have hclock : ∀ {e t}, e ∈ Z.elements → (descOf env e).S t → Clock t := by
    intro e t he hS
    obtain ⟨d, hd, rfl⟩ := hZ.2.1 e he
    exact ((parsed_ok (o := RecurrenceSet.inOrder) hu (element_parsed (hf d hd) _)).clock t hS).1
  rcases h with ⟨e, t, ⟨l, r, he, ⟨a1, a2, a3⟩, b1, b2⟩, rfl⟩ | ⟨h, rfl⟩
  · left
    have hm : e ∈ Z.elements := by rw [he]; simp
    have ht := hclock hm a1
    obtain ⟨d, hd, rfl⟩ := hZ.2.1 e hm
    refine ⟨d, hd, ⟨List.mem_map_of_mem hd, t, (element_dates (hf d hd) _ (hyear ht a2)).mp a1, (hbef ht).mpr a2, ?_⟩, ?_, ?_⟩
    · intro d' hd' t' ho' hb'
      obtain ⟨p, hp, rfl⟩ := List.mem_map.mp hd'
      have ht' := onset_clock (hf p hp) ho'
      rw [hbef ht'] at hb'
      have hS' := (element_dates (env := env) (hf p hp) (p.2.getD []) (hyear ht' hb')).mpr ho'
      have hle : t'.num ≤ t.num := by
        have hin := hZ.2.2 p hp
        rw [he] at hin
        rcases List.mem_append.mp hin with hin | hin
        · exact (b1 _ hin t' hS' hb').le
        · rcases List.mem_cons.mp hin with hin | hin
          · rw [hin] at hS'
            exact a3 t' hS' hb'
          · exact b2 _ hin t' hS' hb'
      rw [Rule.L133.before_iff ht.1 ht'.1]
      exact not_lt.mpr hle
    · intro n hn hne
      unfold Zone.elementText
      rw [if_neg]
      · show '(' :: (d.2.getD []) ++ [')'] = _
        rw [hn]; rfl
      · show ¬ (d.2.getD []).length = 0
        rw [hn]; simpa using hne
    · intro hn h0
      unfold Zone.elementText
      rw [if_pos]
      · exact offset_minutes h0 (hb d hd)
      · show (d.2.getD []).length = 0
        rw [hn]; rfl
  · right
    refine ⟨fun d hd t ho => ?_, rfl⟩
    obtain ⟨p, hp, rfl⟩ := List.mem_map.mp hd
    have ht := onset_clock (hf p hp) ho
    by_contra hb
    rw [hbef ht] at hb
    have hS := (element_dates (env := env) (hf p hp) (p.2.getD []) (hyear ht hb)).mpr ho
    have := h _ (hZ.2.2 p hp) t hS
    omega

theorem named_bound {c : Cont.Component} {z : List Char × List (Observance × Option (List Char))} (h : ZoneNamed c z) :
    ∀ d ∈ z.2, d.1.offsetTo.natAbs < 86400 := by
  intro d hd
  obtain ⟨q, _, ls, _, hl, _⟩ := L137.forall₂_right h.observances hd
  cases hl.offsetTo with
  | some l v _ _ _ hv =>
    have := L138.offset_bound hv.2
    omega

theorem reads_parsed {z : List Char × List (Observance × Option (List Char))} {Z : Zone} (h : Reads z Z)
    (hf : ∀ d ∈ z.2, ZoneFits d.1) : ∀ e ∈ Z.elements, ParsedElement e := by
  intro e he
  obtain ⟨d, hd, rfl⟩ := h.2.1 e he
  exact element_parsed (hf d hd) _

/-- The text that is given, if the element that is found is right. -/
theorem answers {zones : List (List Char × List (Observance × Option (List Char)))} {zs zs1 : List (List Char × Zone)}
    (hall : List.Forall₂ (fun z Z => Z.1 = z.1 ∧ Reads z Z.2) zones zs)
    (hreach : List.Forall₂ (fun a b => a.1 = b.1 ∧ ZoneReach env o o' a.2 b.2) zs zs1) (he : DefaultUtc env)
    (hf : ∀ z ∈ zones, ∀ d ∈ z.2, ZoneFits d.1) (hb : ∀ z ∈ zones, ∀ d ∈ z.2, d.1.offsetTo.natAbs < 86400) (tzid : List Char)
    {x : DateTime} (hx : x.Valid) (hy : x.year ≤ 2098)
    (hok : ∀ ds Z Z1, FirstNamed zones tzid ds → zone tzid zs = some Z → Reads (tzid, ds) Z → zone tzid zs1 = some Z1 →
      ZoneReach env o o' Z Z1 → ∀ n r Z2, Z1.descriptor env o n x = some (r, Z2) →
        (∃ e t, Best env Z.elements x e t ∧ r = Zone.elementText e) ∨ (∀ e ∈ Z.elements, NoneOf env e x) ∧ r = []) :
    ∃ n r zs2, (∀ fuel ≥ n, descriptorIn env o fuel tzid x zs1 = some (r, zs2)) ∧
      (∀ ds, FirstNamed zones tzid ds →
        (∃ d ∈ ds, Current (ds.map (·.1)) x d.1 ∧ Describing d.1 d.2 r) ∨ Unset (ds.map (·.1)) x ∧ r = []) ∧
      ((∀ z ∈ zones, z.1 ≠ tzid) → r = []) := by
  obtain ⟨f1, f2, f3⟩ := first_zone hall tzid
  obtain ⟨r1, r2⟩ := zone_rel (tzid := tzid) hreach
  cases hn : zone tzid zs with
  | none =>
    refine ⟨0, [], zs1, fun fuel _ => descriptor_zone.1 (r1 hn) fuel, fun ds hds => ?_, fun _ => rfl⟩
    obtain ⟨Z, hZ, _⟩ := f3 ds hds
    rw [hn] at hZ
    cases hZ
  | some Z =>
    obtain ⟨ds, hds⟩ := f2 Z hn
    obtain ⟨Z', hZ', hreads⟩ := f3 ds hds
    rw [hn] at hZ'
    cases hZ'
    obtain ⟨Z1, hZ1, hreach⟩ := r2 Z hn
    have hmem : (tzid, ds) ∈ zones := by
      obtain ⟨pre, post, hc, _⟩ := hds
      rw [hc]; simp
    have hfit := hf _ hmem
    have hp := reads_parsed hreads hfit
    obtain ⟨n, r, Z2, hq2⟩ := C102_ends_partial he hp hreach x
    obtain ⟨zs2, hzs2⟩ := descriptor_zone.2 Z1 hZ1 r Z2
    refine ⟨n, r, zs2, fun fuel hfu => hzs2 fuel (hq2 fuel hfu), fun ds' hds' => ?_, fun hc => absurd rfl (hc _ hmem)⟩
    cases first_unique hds hds'
    exact shown_says hreads hfit (hb _ hmem) hx hy he (hok ds Z Z1 hds hn hreads hZ1 hreach n r Z2 (hq2 n le_rfl))

theorem zones_bound {cs : List Cont.Component} {zones : List (List Char × List (Observance × Option (List Char)))}
    (hz : List.Forall₂ ZoneNamed cs zones) : ∀ z ∈ zones, ∀ d ∈ z.2, d.1.offsetTo.natAbs < 86400 := by
  intro z hz'
  obtain ⟨c, _, hc⟩ := L137.forall₂_right hz hz'
  exact named_bound hc

end L143
open L143

/-- C143 (partial), from the text of a calendar to the names of its time zones: `getTimezoneDescriptor` of a calendar whose text is
well-formed gives, for a local time and the name of one of its time zones, after whatever questions, the TZNAME in parentheses of the
observance with the last onset that is not after that time, or without TZNAME its TZOFFSETTO, as the lines describe them, and nothing
before the first onset; for other names it gives nothing.

Needed: as in `C138_offset_partial`; no onset, but the first of an observance, from 1 January up to the time, or `C143_asked_partial`.
Missing: such onsets (`C102_fails_thisYear`), several TZNAMEs, seconds of offsets (`C102_fails_seconds`), years to 2098 (`C05_fails`),
dates. -/
theorem C143_shown_partial (s : Settings) (hT : Program ValueType.ical s.tables)
    (b1 b2 body : List (List Char)) (ps : List Cont.CProp) (ss : List Cont.Component) (h1 : Spec.Blank b1) (h2 : Spec.Blank b2)
    (hb : s.blankRaise = false ∨ b1 = [] ∧ b2 = []) (h : Spec.Body (container s) true "VCALENDAR".toList body ps ss)
    (hv : ∃ p ∈ ps, p.key = "VERSION".toList) (zones : List (List Char × List (Observance × Option (List Char))))
    (hz : List.Forall₂ ZoneNamed (ss.filter fun d => decide (PropText.upper d.type = "VTIMEZONE".toList)) zones)
    (hf : ∀ z ∈ zones, ∀ d ∈ z.2, ZoneFits d.1) (env : TzEnv) (he : DefaultUtc env) :
    ∃ c zs, read s (b1 ++ "BEGIN:VCALENDAR".toList :: (body ++ "END:VCALENDAR".toList :: b2)) = .ok (some c) ∧
      zonesOf env s.toEnv c = some zs ∧
      ∀ o o' zs1, ZonesAsked env o o' zs zs1 → ∀ tzid x, x.Valid → x.dateOnly = false → x.year ≤ 2098 →
        (∀ ds, FirstNamed zones tzid ds → ∀ d ∈ ds, ∀ t, Onset d.1 t → ¬ Rfc.Before x t → t.year < x.year ∨ t = d.1.start) →
        ∃ n r zs2, (∀ fuel ≥ n, descriptorIn env o fuel tzid x zs1 = some (r, zs2)) ∧
          (∀ ds, FirstNamed zones tzid ds →
            (∃ d ∈ ds, Current (ds.map (·.1)) x d.1 ∧ Describing d.1 d.2 r) ∨ Unset (ds.map (·.1)) x ∧ r = []) ∧
          ((∀ z ∈ zones, z.1 ≠ tzid) → r = []) := by
  obtain ⟨⟨zs, hzs, hall⟩, hzone⟩ := zones_named hT h hz env
  refine ⟨.mk "VCALENDAR".toList ps ss, zs, (C40_calendar (container s) _ _).mpr
    ⟨C40_complete (container s) rfl b1 b2 body ps ss h1 h2 hb h hv, hzone⟩, hzs, ?_⟩
  intro o o' zs1 hr tzid x hx hd hy hq
  refine answers hall (asked_zones hr) he hf (zones_bound hz) tzid hx hy ?_
  intro ds Z Z1 hds hn hreads hZ1 hreach n r Z2 hq2
  have hfit := hf (tzid, ds) (by obtain ⟨pre, post, hc, _⟩ := hds; rw [hc]; simp)
  have hp := reads_parsed hreads hfit
  refine C102_element_partial he hp hreach hx hd ?_ hq2
  intro e hem t ht hle
  obtain ⟨d, hdm, rfl⟩ := hreads.2.1 e hem
  have hclk := ((parsed_ok (o := o) he (hp _ hem)).clock t ht).1
  have hon := (element_dates (hfit d hdm) _ (le_trans (Rule.L133.year_of_time hclk.1 hx hle) hy)).mp ht
  rcases hq ds hds d hdm t hon (by rw [Rule.L133.before_iff hx hclk.1]; exact not_lt.mpr hle) with hlt | hst
  · exact .inl (lt_newYear hclk hlt)
  · exact .inr hst

/-- C143 (partial), after the offset was asked for: `getTimezoneDescriptor` is right for every time, if before it the offset of the time
zone was asked for, for a time in the same year or a later one.

Needed: as in `C138_offset_partial`.  Missing: several TZNAMEs, seconds of offsets (`C102_fails_seconds`), years to 2098 (`C05_fails`),
dates. -/
theorem C143_asked_partial (s : Settings) (hT : Program ValueType.ical s.tables)
    (b1 b2 body : List (List Char)) (ps : List Cont.CProp) (ss : List Cont.Component) (h1 : Spec.Blank b1) (h2 : Spec.Blank b2)
    (hb : s.blankRaise = false ∨ b1 = [] ∧ b2 = []) (h : Spec.Body (container s) true "VCALENDAR".toList body ps ss)
    (hv : ∃ p ∈ ps, p.key = "VERSION".toList) (zones : List (List Char × List (Observance × Option (List Char))))
    (hz : List.Forall₂ ZoneNamed (ss.filter fun d => decide (PropText.upper d.type = "VTIMEZONE".toList)) zones)
    (hf : ∀ z ∈ zones, ∀ d ∈ z.2, ZoneFits d.1) (env : TzEnv) (he : DefaultUtc env) :
    ∃ c zs, read s (b1 ++ "BEGIN:VCALENDAR".toList :: (body ++ "END:VCALENDAR".toList :: b2)) = .ok (some c) ∧
      zonesOf env s.toEnv c = some zs ∧
      ∀ o o' zs1 zs2 zs3 tzid w rel m v, ZonesAsked env o o' zs zs1 → w.Valid → w.dateOnly = false →
        offsetIn env o o' m tzid w rel zs1 = some (v, zs2) → ZonesAsked env o o' zs2 zs3 →
        ∀ x, x.Valid → x.dateOnly = false → x.year ≤ 2098 → x.year ≤ w.year →
        ∃ n r zs4, (∀ fuel ≥ n, descriptorIn env o fuel tzid x zs3 = some (r, zs4)) ∧
          (∀ ds, FirstNamed zones tzid ds →
            (∃ d ∈ ds, Current (ds.map (·.1)) x d.1 ∧ Describing d.1 d.2 r) ∨ Unset (ds.map (·.1)) x ∧ r = []) ∧
          ((∀ z ∈ zones, z.1 ≠ tzid) → r = []) := by
  obtain ⟨⟨zs, hzs, hall⟩, hzone⟩ := zones_named hT h hz env
  refine ⟨.mk "VCALENDAR".toList ps ss, zs, (C40_calendar (container s) _ _).mpr
    ⟨C40_complete (container s) rfl b1 b2 body ps ss h1 h2 hb h hv, hzone⟩, hzs, ?_⟩
  intro o o' zs1 zs2 zs3 tzid w rel m v hr hw hwd hq hr' x hx hd hy hxw
  have hall3 : List.Forall₂ (fun a b => a.1 = b.1 ∧ ZoneReach env o o' a.2 b.2) zs zs3 := by
    have h12 := asked_zones (.offset hr hw hwd hq)
    have h23 := asked_zones hr'
    clear * - h12 h23
    induction h12 generalizing zs3 with
    | nil => cases h23; exact .nil
    | cons a _ ih =>
      cases h23 with
      | cons b c => exact .cons ⟨a.1.trans b.1, reach_trans a.2 b.2⟩ (ih _ c)
  refine answers hall hall3 he hf (zones_bound hz) tzid hx hy ?_
  intro ds Z Z3 hds hn hreads hZ3 _ n r Z4 hq4
  have hfit := hf (tzid, ds) (by obtain ⟨pre, post, hc, _⟩ := hds; rw [hc]; simp)
  obtain ⟨Z1, hZ1, r1⟩ := (zone_rel (tzid := tzid) (asked_zones hr)).2 Z hn
  obtain ⟨Z2, q2, hZ2⟩ := offset_zone hq hZ1
  obtain ⟨Z3', hZ3', r3⟩ := (zone_rel (tzid := tzid) (asked_zones hr')).2 Z2 hZ2
  rw [hZ3] at hZ3'
  cases hZ3'
  exact C102_asked_partial he (reads_parsed hreads hfit) hreads.1 r1 hw hwd q2 r3 hx hd hxw hq4

namespace L143

/-- The name of the observance. -/
def withName (ls : List ContentLine) (n : String) : List ContentLine := ls ++ [line "TZNAME" n]

/-- A line about nothing else at the end. -/
def more (d : Observance) : Observance := { d with facts := d.facts ++ [.other] }

theorem more_describes {ls : List ContentLine} {d : Observance} (h : ZoneText.Describes ls d) (n : String) :
    ZoneText.Describes (withName ls n) (more d) := by
  have hone : ∀ {key : String} {v : Int}, key ∈ ["TZOFFSETFROM", "TZOFFSETTO"] → HasLine ls key.toList OffsetLine (some v) →
      HasLine (withName ls n) key.toList OffsetLine (some v) := by
    intro key v hk hl
    cases hl with
    | some l _ a b c d =>
      refine .some l _ (by simp [withName, a]) b (fun m hm hmk => ?_) d
      rcases List.mem_append.mp hm with hm | hm
      · exact c m hm hmk
      · rw [List.mem_singleton.mp hm] at hmk
        exfalso
        have hmk : PropText.upper "TZNAME".toList = key.toList := hmk
        have hno : ∀ key ∈ ["TZOFFSETFROM", "TZOFFSETTO"], ¬ PropText.upper "TZNAME".toList = key.toList := by decide +kernel
        exact hno key hk hmk
  refine ⟨?_, ?_, hone (by simp) h.offsetFrom, hone (by simp) h.offsetTo⟩
  · exact List.rel_append h.lines (.cons (.other (show PropText.upper "TZNAME".toList ∉ EventText.names by decide +kernel)) .nil)
  · have : ∀ fs : List Fact, startOf (fs ++ [.other]) = startOf fs := by
      intro fs
      induction fs with
      | nil => rfl
      | cons f fs ih => cases f <;> first | rfl | exact ih
    exact (this d.facts).trans h.start

theorem name_has {ls : List ContentLine} (n : String) (hn : ∀ c ∈ n.toList, c.isAlpha = true)
    (h : ∀ l ∈ ls, PropText.upper l.name ≠ "TZNAME".toList) :
    HasLine (withName ls n) "TZNAME".toList CalendarText.TextLine (some n.toList) := by
  refine .some (line "TZNAME" n) _ (by simp [withName]) (by show PropText.upper "TZNAME".toList = _; decide +kernel)
    (fun m hm hmk => ?_) ⟨⟨none, noParam _ _ _, .inl rfl⟩, ?_⟩
  · rcases List.mem_append.mp hm with hm | hm
    · exact absurd hmk (h m hm)
    · exact List.mem_singleton.mp hm
  · show Denotes n.toList n.toList
    generalize n.toList = s at hn
    induction s with
    | nil => exact .nil
    | cons c s ih =>
      refine .plain _ ?_ (ih fun c hc => hn c (by simp [hc]))
      rintro rfl
      exact absurd (hn '\\' (by simp)) (by decide)

def edt : Observance × Option (List Char) := (more daylightDesc, some "EDT".toList)
def est : Observance × Option (List Char) := (more standardDesc, some "EST".toList)

def namedComp : Cont.Component :=
  .mk "VTIMEZONE".toList (easternLines.map fun l => ⟨l.name, l.text⟩)
    [L138.observance "DAYLIGHT" (withName daylight "EDT"), L138.observance "STANDARD" (withName standard "EST")]

theorem named_in : ZoneNamed namedComp ("ET".toList, [edt, est]) where
  type := rfl
  tzid := eastern_in.tzid.imp fun ls h => h
  observances :=
    .cons ⟨withName daylight "EDT", has_lines (by simp only [daylight, withName]; decide +kernel), more_describes daylight_describes _,
      name_has _ (by decide +kernel) (by simp only [daylight]; decide +kernel)⟩
      (.cons ⟨withName standard "EST", has_lines (by simp only [standard, withName]; decide +kernel), more_describes standard_describes _,
        name_has _ (by decide +kernel) (by simp only [standard]; decide +kernel)⟩ .nil)

theorem edt_fits : ZoneFits edt.1 where
  start := clock_daylight
  year := by decide
  leap := by decide
  minutes := by decide
  rdates := nofun
  rules := by
    intro ps hps
    rw [show ps = _ from List.mem_singleton.mp hps]
    exact sunday_fits clock_daylight (by decide)

theorem est_fits : ZoneFits est.1 where
  start := clock_standard
  year := by decide
  leap := by decide
  minutes := by decide
  rdates := nofun
  rules := by
    intro ps hps
    rw [show ps = _ from List.mem_singleton.mp hps]
    exact sunday_fits clock_standard (by decide)

/-- The text of the time zone between its delimiters. -/
def namedLines : List (List Char) := easternLines.map ContentLine.text ++
    (("BEGIN:".toList ++ "DAYLIGHT".toList) :: ((withName daylight "EDT").map ContentLine.text ++ ("END:".toList ++ "DAYLIGHT".toList) ::
      (("BEGIN:".toList ++ "STANDARD".toList) :: ((withName standard "EST").map ContentLine.text ++
        ("END:".toList ++ "STANDARD".toList) :: []))))

def namedText : List (List Char) :=
  "VERSION:2.0".toList :: ("BEGIN:".toList ++ "VTIMEZONE".toList) :: (namedLines ++ ("END:".toList ++ "VTIMEZONE".toList) :: [])

theorem inner_body : Spec.Body (container settings) false "VTIMEZONE".toList namedLines
    (easternLines.map fun l => ⟨l.name, l.text⟩)
    [L138.observance "DAYLIGHT" (withName daylight "EDT"), L138.observance "STANDARD" (withName standard "EST")] :=
  .prop (by decide +kernel) (by decide +kernel) (by decide +kernel) (by decide +kernel) (by decide +kernel)
    (.comp "DAYLIGHT".toList (by decide +kernel) (by decide +kernel) (by decide +kernel) (by decide +kernel)
      (lines_body (by decide +kernel))
      (.comp "STANDARD".toList (by decide +kernel) (by decide +kernel) (by decide +kernel) (by decide +kernel)
        (lines_body (by decide +kernel)) .nil))

theorem named_body : Spec.Body (container settings) true "VCALENDAR".toList namedText [⟨"VERSION".toList, "VERSION:2.0".toList⟩]
    [namedComp] :=
  .prop (by decide +kernel) (by decide +kernel) (by decide +kernel) (by decide +kernel) (by decide +kernel)
    (.comp "VTIMEZONE".toList (by decide +kernel) (by decide +kernel) (by decide +kernel) (by decide +kernel) inner_body .nil)

/-- In January and February the transitions before a time are those of earlier years. -/
theorem named_quiet {x : DateTime} (hx : x.Valid) (hm : x.month ≤ 2) {d : Observance} (hd : d ∈ [edt.1, est.1]) {t : DateTime}
    (h : Onset d t) (hb : ¬ Rfc.Before x t) : t.year < x.year := by
  have ht : t.Valid ∧ 2 < t.month := by
    simp only [List.mem_cons, List.not_mem_nil, or_false] at hd
    rcases hd with rfl | rfl
    · have k := sunday_onset (m := 3) (n := 2) clock_daylight rfl rfl ⟨rfl, rfl⟩ rfl rfl h
      exact ⟨k.1, by omega⟩
    · have k := sunday_onset (m := 11) (n := 1) clock_standard rfl rfl ⟨rfl, rfl⟩ rfl rfl h
      exact ⟨k.1, by omega⟩
  rw [Rule.L133.before_iff hx ht.1, not_lt] at hb
  have hy := Rule.L133.year_of_time ht.1 hx hb
  by_contra hc
  have hlt : dayNum x.year x.month x.day < dayNum t.year t.month t.day :=
    (dayNum_lt_iff ((validYMD_iff _ _ _).2 hx.1.1) ((validYMD_iff _ _ _).2 ht.1.1.1)).mpr (.inr ⟨(by simp only; omega), .inl (by simp only; omega)⟩)
  obtain ⟨_, a1, a2, a3, a4, a5, a6⟩ := hx.1
  obtain ⟨_, b1, b2, b3, b4, b5, b6⟩ := ht.1.1
  unfold timeNum at hb
  have e1 : dayNum t.civil.date.y t.civil.date.m t.civil.date.d = dayNum t.year t.month t.day := rfl
  have e2 : dayNum x.civil.date.y x.civil.date.m x.civil.date.d = dayNum x.year x.month x.day := rfl
  rw [e1, e2] at hb
  omega

end L143

/-- The conditions of C143 are met: Eastern Time, in January and February. -/
example (env : TzEnv) (he : DefaultUtc env) (o : SetOrder) (x : DateTime) (hx : x.Valid)
    (hd : x.dateOnly = false) (hy : x.year ≤ 2098) (hm : x.month ≤ 2) :
    ∃ c zs, CalendarRead.read settings ([] ++ "BEGIN:VCALENDAR".toList :: (namedText ++ "END:VCALENDAR".toList :: [])) = .ok (some c) ∧
      zonesOf env settings.toEnv c = some zs ∧
      ∃ n r zs2, (∀ fuel ≥ n, descriptorIn env o fuel "ET".toList x zs = some (r, zs2)) ∧
        ((∃ d ∈ [edt, est], Current ([edt, est].map (·.1)) x d.1 ∧ Describing d.1 d.2 r) ∨ Unset ([edt, est].map (·.1)) x ∧ r = []) := by
  obtain ⟨c, zs, h1, h2, h3⟩ := C143_shown_partial settings .base [] [] namedText _ _ (by simp [Spec.Blank])
    (by simp [Spec.Blank]) (.inl rfl) named_body ⟨_, List.mem_singleton.mpr rfl, by decide +kernel⟩
    [("ET".toList, [edt, est])] (by
      rw [show ([namedComp].filter fun d => decide (PropText.upper d.type = "VTIMEZONE".toList)) = [namedComp] by
        rw [List.filter_cons_of_pos (by decide +kernel)]; rfl]
      exact .cons named_in .nil) (by
      simp only [List.mem_cons, List.not_mem_nil, or_false, forall_eq, forall_eq_or_imp]
      exact ⟨edt_fits, est_fits⟩) env he
  obtain ⟨n, r, zs3, h4, h5, _⟩ := h3 o inOrder' zs .start "ET".toList x hx hd hy (by
    rintro ds ⟨pre, post, hc, _⟩ d hdm t ht hb
    have hm' : ("ET".toList, ds) ∈ [("ET".toList, [edt, est])] := by rw [hc]; simp
    rw [List.mem_singleton, Prod.mk.injEq] at hm'
    rw [hm'.2] at hdm
    refine .inl (named_quiet hx hm ?_ ht hb)
    simp only [List.mem_cons, List.not_mem_nil, or_false] at hdm ⊢
    rcases hdm with rfl | rfl
    · exact .inl rfl
    · exact .inr rfl)
  exact ⟨c, zs, h1, h2, n, r, zs3, h4, h5 _ ⟨[], [], rfl, by simp⟩⟩

/-- The conditions of C143 are met: Eastern Time, for every time after the offset was asked for. -/
example (env : TzEnv) (he : DefaultUtc env) (o : SetOrder) (o' : SetOrder (DateTime × Int × Int)) (x : DateTime) (hx : x.Valid)
    (hd : x.dateOnly = false) (hy : x.year ≤ 2098) :
    ∃ c zs, CalendarRead.read settings ([] ++ "BEGIN:VCALENDAR".toList :: (namedText ++ "END:VCALENDAR".toList :: [])) = .ok (some c) ∧
      zonesOf env settings.toEnv c = some zs ∧
      ∀ m v zs2, offsetIn env o o' m "ET".toList x false zs = some (v, zs2) →
      ∃ n r zs3, (∀ fuel ≥ n, descriptorIn env o fuel "ET".toList x zs2 = some (r, zs3)) ∧
        ((∃ d ∈ [edt, est], Current ([edt, est].map (·.1)) x d.1 ∧ Describing d.1 d.2 r) ∨ Unset ([edt, est].map (·.1)) x ∧ r = []) := by
  obtain ⟨c, zs, h1, h2, h3⟩ := C143_asked_partial settings .base [] [] namedText _ _ (by simp [Spec.Blank])
    (by simp [Spec.Blank]) (.inl rfl) named_body ⟨_, List.mem_singleton.mpr rfl, by decide +kernel⟩
    [("ET".toList, [edt, est])] (by
      rw [show ([namedComp].filter fun d => decide (PropText.upper d.type = "VTIMEZONE".toList)) = [namedComp] by
        rw [List.filter_cons_of_pos (by decide +kernel)]; rfl]
      exact .cons named_in .nil) (by
      simp only [List.mem_cons, List.not_mem_nil, or_false, forall_eq, forall_eq_or_imp]
      exact ⟨edt_fits, est_fits⟩) env he
  refine ⟨c, zs, h1, h2, fun m v zs2 hq => ?_⟩
  obtain ⟨n, r, zs3, h4, h5, _⟩ := h3 o o' zs zs2 zs2 "ET".toList x false m v .start hx hd hq .start x hx hd hy le_rfl
  exact ⟨n, r, zs3, h4, h5 _ ⟨[], [], rfl, by simp⟩⟩

/-- The text that is given for a time by a calendar with this text, if nothing is raised; after the offset was asked for. -/
def L143.nameOf (asked : Bool) (lines : List (List Char)) (tzid : List Char) (x : DateTime) : Option (List Char) :=
  match CalendarRead.read settings lines with
  | .ok (some c) => (zonesOf .empty settings.toEnv c).bind fun zs =>
    (if asked then (offsetIn .empty RecurrenceSet.inOrder inOrder' 40 tzid x false zs).map (·.2) else some zs).bind fun zs =>
      (descriptorIn .empty RecurrenceSet.inOrder 40 tzid x zs).map (·.1)
  | _ => none

/-- What is computed for it, in February and in July; in July only after the offset was asked for. -/
example : (fun t : List (List Char) => nameOf false t "ET".toList ⟨2010, 2, 1, 12, 0, 0, false, false, none⟩ = some "(EST)".toList ∧
    nameOf true t "ET".toList ⟨2010, 7, 1, 12, 0, 0, false, false, none⟩ = some "(EDT)".toList ∧
    nameOf false t "CET".toList ⟨2010, 7, 1, 12, 0, 0, false, false, none⟩ = some [])
    ("BEGIN:VCALENDAR".toList :: (namedText ++ ["END:VCALENDAR".toList])) := by
  decide +kernel

/-- C143 fails in the part of the year after a transition: in July 2010 Eastern Time is shown as "(EST)". -/
theorem C143_fails_thisYear :
    nameOf false ("BEGIN:VCALENDAR".toList :: (namedText ++ ["END:VCALENDAR".toList])) "ET".toList
      ⟨2010, 7, 1, 12, 0, 0, false, false, none⟩ = some "(EST)".toList := by
  decide +kernel

end PyCal
