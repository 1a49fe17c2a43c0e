import Verif.Props.C148_Alarms
import Verif.Props.C138_ZoneText

/-!
# C148: the time zones of a calendar that is read, written and read again
-/

namespace PyCal
open DateTime Spec Spec.EventText Spec.CalendarText EventRead CalendarRead Rewrite
open Spec.ZoneText (Observance)

namespace L148
open L132 L137 L138 L144 ValueType PropText

/-! ## Components -/

/-- The property as a time zone takes it. -/
def tz (q : RProp) : TzProp := ⟨String.ofList (upper q.name), q.value.tzVal⟩

theorem tz_lines {e : Env} {ps : List Cont.CProp} {qs : List RProp} (h : (ps.mapM fun p => readLine e p.text) = some qs) :
    (ps.mapM fun p => readZoneLine e p.text) = some (qs.map tz) := by
  induction ps generalizing qs with
  | nil => cases h; rfl
  | cons p ps ih =>
    rw [List.mapM_cons] at h ⊢
    cases h1 : readLine e p.text with
    | none => rw [h1] at h; cases h
    | some q =>
      cases h2 : ps.mapM (fun p => readLine e p.text) with
      | none => rw [h1, h2] at h; cases h
      | some rs =>
        rw [h1, h2] at h
        cases h
        rw [zone_of_line, h1, ih h2]
        rfl

theorem tzVal_same {v v' : Value} (h : SameValue v v') : v'.tzVal = v.tzVal := by
  rcases h with rfl | ⟨D, D', rfl, rfl, -⟩ <;> rfl

theorem name_iff (n : List Char) (key : String) : String.ofList n = key ↔ n = key.toList := by
  constructor
  · rintro rfl; rw [String.toList_ofList]
  · rintro rfl; rw [String.ofList_toList]

theorem first_tz (qs : List RProp) (key : String) : firstValue (qs.map tz) key = ((values qs key).map Value.tzVal).head? := by
  unfold firstValue EventRead.values
  induction qs with
  | nil => rfl
  | cons q qs ih =>
    by_cases hq : upper q.name = key.toList
    · rw [List.filter_cons_of_pos (by simpa using hq), List.map_cons, List.find?_cons_of_pos (p := fun p : TzProp => decide (p.name = key)) (a := tz q) (show decide ((tz q).name = key) = true from decide_eq_true ((name_iff _ _).mpr hq))]
      rfl
    · rw [List.filter_cons_of_neg (by simpa using hq), List.map_cons,
        List.find?_cons_of_neg (p := fun p : TzProp => decide (p.name = key)) (a := tz q) (show ¬ decide ((tz q).name = key) = true from fun h => hq ((name_iff _ _).mp (of_decide_eq_true h)))]
      exact ih

theorem rules_tz (qs : List RProp) : (qs.map tz).flatMap ruleOf = ((values qs "RRULE").map Value.tzVal).flatMap fun v =>
    match v with | .rule r => [r] | _ => [] := by
  unfold EventRead.values
  induction qs with
  | nil => rfl
  | cons q qs ih =>
    rw [List.map_cons, List.flatMap_cons, ih]
    by_cases hq : upper q.name = "RRULE".toList
    · rw [List.filter_cons_of_pos (by simpa using hq), List.map_cons, List.map_cons, List.flatMap_cons]
      congr 1
      unfold ruleOf tz
      dsimp only
      simp only [if_pos ((name_iff _ _).mpr hq)]
      cases q.value.tzVal <;> rfl
    · rw [List.filter_cons_of_neg (by simpa using hq)]
      have : ruleOf (tz q) = [] := by
        unfold ruleOf tz
        dsimp only
        simp only [if_neg (fun h => hq ((name_iff _ _).mp h))]
        cases q.value.tzVal <;> rfl
      rw [this]; rfl

theorem dates_tz (qs : List RProp) : (qs.map tz).flatMap PyCal.datesOf = ((values qs "RDATE").map Value.tzVal).flatMap fun v =>
    match v with | .dates l => l | _ => [] := by
  unfold EventRead.values
  induction qs with
  | nil => rfl
  | cons q qs ih =>
    rw [List.map_cons, List.flatMap_cons, ih]
    by_cases hq : upper q.name = "RDATE".toList
    · rw [List.filter_cons_of_pos (by simpa using hq), List.map_cons, List.map_cons, List.flatMap_cons]
      congr 1
      unfold PyCal.datesOf tz
      dsimp only
      simp only [if_pos ((name_iff _ _).mpr hq)]
      cases q.value.tzVal <;> rfl
    · rw [List.filter_cons_of_neg (by simpa using hq)]
      have : PyCal.datesOf (tz q) = [] := by
        unfold PyCal.datesOf tz
        dsimp only
        simp only [if_neg (fun h => hq ((name_iff _ _).mp h))]
        cases q.value.tzVal <;> rfl
      rw [this]; rfl

/-- What a time zone takes of the lines of a component. -/
def tzProps (e : Env) (c : Cont.Component) : List TzProp := (c.props.mapM fun p => readZoneLine e p.text).getD []

theorem props_zone {e : Env} {c c' : Cont.Component} (h : SameComp e c c') :
    (c.props.mapM fun p => readZoneLine e p.text) = some (tzProps e c) ∧ (c'.props.mapM fun p => readZoneLine e p.text) = some (tzProps e c') ∧
      TzElement.read (tzProps e c') = TzElement.read (tzProps e c) ∧ loadText (tzProps e c') "TZID" = loadText (tzProps e c) "TZID" := by
  cases h with
  | @mk t ps ps' cs l cs' hp hl hcs =>
    obtain ⟨r1, r2⟩ := all_read hp
    obtain ⟨qs, hq⟩ := mapM_some (f := fun p : Cont.CProp => readLine e p.text) (l := ps) fun p h => (r1 p h).imp fun _ h => h.1
    obtain ⟨qs', hq'⟩ := mapM_some (f := fun p : Cont.CProp => readLine e p.text) (l := ps') fun p h => (r2 p h).imp fun _ h => h.1
    have hval : ∀ key : String, (values qs' key).map Value.tzVal = (values qs key).map Value.tzVal := by
      intro key
      have := mapM_pairs (R := fun q q' : RProp => SameValue q.value q'.value)
        ((hp key.toList).imp fun p p' ⟨q, q', a, b, _, _, _, d, f, _⟩ => ⟨q, q', a, b, d⟩)
        (values_filter r1 hq key.toList) (values_filter r2 hq' key.toList)
      unfold EventRead.values
      generalize (qs.filter fun q => decide (upper q.name = key.toList)) = l at this
      generalize (qs'.filter fun q => decide (upper q.name = key.toList)) = l' at this
      induction this with
      | nil => rfl
      | cons a _ ih =>
        rw [List.map_cons, List.map_cons, List.map_cons, List.map_cons, ih, tzVal_same a]
    have z1 := tz_lines hq
    have z2 := tz_lines hq'
    have e1 : tzProps e (.mk t ps cs) = qs.map tz := by
      unfold tzProps; rw [show (Cont.Component.mk t ps cs).props = ps from rfl, z1]; rfl
    have e2 : tzProps e (.mk t ps' cs') = qs'.map tz := by
      unfold tzProps; rw [show (Cont.Component.mk t ps' cs').props = ps' from rfl, z2]; rfl
    have hfirst : ∀ key, firstValue (qs'.map tz) key = firstValue (qs.map tz) key := fun key => by rw [first_tz, first_tz, hval]
    rw [e1, e2]
    refine ⟨z1, z2, ?_, ?_⟩
    · unfold TzElement.read TzElement.finalise loadDateTime loadOffset loadText
      rw [rules_tz, rules_tz, dates_tz, dates_tz, hval, hval]
      simp only [hfirst]
    · unfold loadText
      rw [hfirst]

theorem mapM_all {α β : Type} {f : α → Option β} {g : α → β} {l : List α} (h : ∀ a ∈ l, f a = some (g a)) : l.mapM f = some (l.map g) := by
  induction l with
  | nil => rfl
  | cons a l ih => rw [List.mapM_cons, h a (by simp), ih fun a ha => h a (by simp [ha])]; rfl

/-- A time zone that is read again, whose observances have different starts. -/
theorem zone_same {e : Env} (env : TzEnv) {c c' : Cont.Component} (h : SameComp e c c')
    (hc : ∀ o ∈ c.subs, Clock (TzElement.read (tzProps e o)).start)
    (hd : (c.subs.map fun o => (TzElement.read (tzProps e o)).start).Pairwise (· ≠ ·)) : zoneOf env e c' = zoneOf env e c := by
  have hp := props_zone h
  cases h with
  | @mk t ps ps' cs l cs' _ hl hcs =>
    obtain ⟨p1, p2, -, p4⟩ := hp
    have k1 : (cs.mapM fun (d : Cont.Component) => d.props.mapM fun p => readZoneLine e p.text) = some (cs.map (tzProps e)) :=
      mapM_all fun a ha => by
        obtain ⟨b, _, hb⟩ := forall₂_left hcs (hl.symm.subset ha)
        exact (props_zone hb).1
    have k2 : (cs'.mapM fun (d : Cont.Component) => d.props.mapM fun p => readZoneLine e p.text) = some (cs'.map (tzProps e)) :=
      mapM_all fun a ha => by
        obtain ⟨b, _, hb⟩ := forall₂_right hcs ha
        exact (props_zone hb).2.1
    have hread : (cs'.map (tzProps e)).map TzElement.read = (l.map (tzProps e)).map TzElement.read := by
      clear k1 k2 hl p1 p2 p4 hc hd
      induction hcs with
      | nil => rfl
      | cons a _ ih => rw [List.map_cons, List.map_cons, List.map_cons, List.map_cons, ih, (props_zone a).2.2.1]
    have ho := C119_order env (tzProps e (.mk t ps cs)) (cs.map (tzProps e)) (l.map (tzProps e)) (hl.symm.map _)
      (by
        intro o ho
        obtain ⟨b, hb, rfl⟩ := List.mem_map.mp ho
        exact hc b hb)
      (by
        rw [List.pairwise_map] at hd ⊢
        exact hd)
    unfold zoneOf
    rw [p1, p2, Option.bind_some, Option.bind_some, show (Cont.Component.mk t ps' cs').subs = cs' from rfl,
      show (Cont.Component.mk t ps cs).subs = cs from rfl, k1, k2, Option.map_some, Option.map_some, ho]
    unfold Zone.read
    rw [p4, hread]

/-! ## Calendars -/

theorem mapM_perm {α β : Type} {f : α → Option β} {l l' : List α} (hp : l.Perm l') {bs : List β} (h : l.mapM f = some bs) :
    ∃ bs', l'.mapM f = some bs' ∧ bs'.Perm bs := by
  induction hp generalizing bs with
  | nil => exact ⟨bs, h, .refl _⟩
  | @cons a l l' _ ih =>
    rw [List.mapM_cons] at h
    cases h1 : f a with
    | none => rw [h1] at h; cases h
    | some b =>
      cases h2 : l.mapM f with
      | none => rw [h1, h2] at h; cases h
      | some cs =>
        rw [h1, h2] at h
        cases h
        obtain ⟨cs', h3, h4⟩ := ih h2
        exact ⟨b :: cs', by rw [List.mapM_cons, h1, h3]; rfl, h4.cons b⟩
  | swap a b l =>
    rw [List.mapM_cons, List.mapM_cons] at h
    rw [List.mapM_cons, List.mapM_cons]
    cases h1 : f b with
    | none => rw [h1] at h; cases h
    | some y =>
      cases h2 : f a with
      | none => rw [h1, h2] at h; cases h
      | some x =>
        cases h3 : l.mapM f with
        | none => rw [h1, h2, h3] at h; cases h
        | some cs =>
          rw [h1, h2, h3] at h
          cases h
          exact ⟨x :: y :: cs, rfl, .swap y x cs⟩
  | trans _ _ ih1 ih2 =>
    obtain ⟨cs, h1, h2⟩ := ih1 h
    obtain ⟨ds, h3, h4⟩ := ih2 h1
    exact ⟨ds, h3, h4.trans h2⟩

/-- The offset that a calendar gives and what it leaves, if no two time zones have one name. -/
theorem offset_find (env : TzEnv) (o : SetOrder) (o' : SetOrder (DateTime × Int × Int)) (fuel : Nat) (tzid : List Char) (x : DateTime)
    (rel : Bool) {zs : List (List Char × Zone)} (hn : (zs.map (·.1)).Nodup) : offsetIn env o o' fuel tzid x rel zs =
      match zs.find? fun a => decide (a.1 = tzid) with
      | none => some (0, zs)
      | some a => (a.2.offsetSeconds env o o' fuel x rel).map fun v => (v.1, zs.map fun p => if p.1 = tzid then (p.1, v.2) else p) := by
  induction zs with
  | nil => rfl
  | cons a zs ih =>
    obtain ⟨id, z⟩ := a
    rw [List.map_cons, List.nodup_cons] at hn
    rw [offsetIn]
    by_cases hid : id = tzid
    · rw [if_pos hid, List.find?_cons_of_pos (by simpa using hid)]
      dsimp only
      congr 1
      funext v
      rw [List.map_cons, if_pos hid]
      congr 2
      have : ∀ p ∈ zs, (if p.1 = tzid then (p.1, v.2) else p) = _root_.id p := fun p hp => by
        rw [if_neg]
        · rfl
        · intro hc
          exact hn.1 (List.mem_map.mpr ⟨p, hp, hc.trans hid.symm⟩)
      rw [List.map_congr_left this]
      exact (List.map_id _).symm
    · rw [if_neg hid, List.find?_cons_of_neg (by simpa using hid), ih hn.2]
      cases zs.find? fun a => decide (a.1 = tzid) with
      | none => rfl
      | some a =>
        dsimp only
        rw [Option.map_map]
        congr 1
        funext v
        simp only [Function.comp_apply, List.map_cons, if_neg hid]

/-- A question for the offset: the time zone, the time and whether it is in UTC; and in how many steps it is to be answered. -/
structure Asked where
  fuel : Nat
  tzid : List Char
  x : DateTime
  rel : Bool

/-- The answers to questions that are asked one after the other. -/
def answers (env : TzEnv) (o : SetOrder) (o' : SetOrder (DateTime × Int × Int)) : List Asked → List (List Char × Zone) → Option (List Int)
  | [], _ => some []
  | q :: qs, zs => (offsetIn env o o' q.fuel q.tzid q.x q.rel zs).bind fun v => (answers env o o' qs v.2).map (v.1 :: ·)

theorem answers_perm (env : TzEnv) (o : SetOrder) (o' : SetOrder (DateTime × Int × Int)) (qs : List Asked) {zs zs' : List (List Char × Zone)}
    (hp : zs'.Perm zs) (hn : (zs.map (·.1)).Nodup) : answers env o o' qs zs' = answers env o o' qs zs := by
  induction qs generalizing zs zs' with
  | nil => rfl
  | cons q qs ih =>
    have hn' : (zs'.map (·.1)).Nodup := ((hp.map _).nodup_iff).mpr hn
    rw [answers, answers, offset_find _ _ _ _ _ _ _ hn, offset_find _ _ _ _ _ _ _ hn']
    have hf : zs'.find? (fun a => decide (a.1 = q.tzid)) = zs.find? fun a => decide (a.1 = q.tzid) := by
      cases h1 : zs.find? fun a => decide (a.1 = q.tzid) with
      | none =>
        rw [List.find?_eq_none] at h1 ⊢
        exact fun a ha => h1 a (hp.subset ha)
      | some a =>
        cases h2 : zs'.find? fun a => decide (a.1 = q.tzid) with
        | none =>
          rw [List.find?_eq_none] at h2
          exact absurd (List.find?_some h1) (h2 a (hp.symm.subset (List.mem_of_find?_eq_some h1)))
        | some b =>
          have ha := List.mem_of_find?_eq_some h1
          have hb := hp.subset (List.mem_of_find?_eq_some h2)
          have e1 : a.1 = q.tzid := by simpa using List.find?_some h1
          have e2 : b.1 = q.tzid := by simpa using List.find?_some h2
          rw [List.inj_on_of_nodup_map hn hb ha (e2.trans e1.symm)]
    rw [hf]
    cases zs.find? fun a => decide (a.1 = q.tzid) with
    | none => dsimp only [Option.bind_some]; rw [ih hp hn]
    | some a =>
      dsimp only
      cases a.2.offsetSeconds env o o' q.fuel q.x q.rel with
      | none => rfl
      | some v =>
        dsimp only [Option.map_some, Option.bind_some]
        rw [ih (hp.map _)]
        rw [List.map_map]
        convert hn using 2
        funext p
        simp only [Function.comp_apply]
        split <;> rfl

end L148
open L148 L144 L137 L138

/-- C148 (partial), the time zones: as in `C148_same_partial`, and the time zones of the calendar that is read again are those of the
calendar before; questions for offsets, one after the other, have the same answers.

Needed: no two time zones of one name, and no two observances in a time zone with one DTSTART, which is a local time (in whatever order
they are written).  Missing: as in `C148_same_partial`. -/
theorem C148_zones_partial (s : Settings) (hT : Program ValueType.ical s.tables)
    (hfin : ∀ c, isRecur c.type = false → s.finishes c = true) (w : Writer) (hw : Closed s.toEnv w) (order : Cont.Order)
    (heq : ∀ a b, order.eq a b = true → a.type = b.type) (b1 b2 body : List (List Char)) (ps : List Cont.CProp)
    (ss : List Cont.Component) (h1 : Spec.Blank b1) (h2 : Spec.Blank b2) (hb : s.blankRaise = false ∨ b1 = [] ∧ b2 = [])
    (h : Spec.Body (container s) true "VCALENDAR".toList body ps ss) (hv : ∃ p ∈ ps, p.key = "VERSION".toList)
    (hps : ∀ p ∈ ps, GoodProp s.toEnv p) (hss : ∀ d ∈ ss, GoodComp s.toEnv d ∨ ∃ v, GoodEvent s.toEnv d v)
    (zones : List (List Char × List Observance))
    (hz : List.Forall₂ ZoneIn (ss.filter fun d => decide (PropText.upper d.type = "VTIMEZONE".toList)) zones)
    (hnames : zones.Pairwise fun a b => a.1 ≠ b.1)
    (hstarts : ∀ z ∈ zones, (∀ d ∈ z.2, Clock d.start) ∧ z.2.Pairwise fun a b => a.start ≠ b.start) :
    ∃ c lines c', read s (b1 ++ "BEGIN:VCALENDAR".toList :: (body ++ "END:VCALENDAR".toList :: b2)) = .ok (some c) ∧
      written s.toEnv w order c = some lines ∧ read s lines = .ok (some c') ∧
      ∀ env : TzEnv, ∃ zs zs', zonesOf env s.toEnv c = some zs ∧ zonesOf env s.toEnv c' = some zs' ∧ zs'.Perm zs ∧
        zs.map (·.1) = zones.map (·.1) ∧ ∀ o o' qs, answers env o o' qs zs' = answers env o o' qs zs := by
  have hzone := (zones_read hT h hz .empty).2
  obtain ⟨c, lines, c', k1, k2, k3, k4⟩ := C148_same_partial s hT hfin w hw order heq b1 b2 body ps ss h1 h2 hb h hv hps hss hzone
  have hread : read s (b1 ++ "BEGIN:VCALENDAR".toList :: (body ++ "END:VCALENDAR".toList :: b2)) =
      .ok (some (.mk "VCALENDAR".toList ps ss)) := (C40_calendar (container s) _ _).mpr
    ⟨C40_complete (container s) rfl b1 b2 body ps ss h1 h2 hb h hv, hzone⟩
  rw [hread] at k1
  cases k1
  refine ⟨_, lines, c', hread, k2, k3, fun env => ?_⟩
  obtain ⟨⟨zs, hzs, hall⟩, -⟩ := zones_read hT h hz env
  have hnested := body_nested h
  have hids : zs.map (·.1) = zones.map (·.1) := by
    clear hz hzs hnames hstarts
    induction hall with
    | nil => rfl
    | cons a _ ih => rw [List.map_cons, List.map_cons, ih, a.1]
  have hnodup : (zs.map (·.1)).Nodup := by
    rw [hids, List.Nodup, List.pairwise_map]
    exact hnames
  -- each time zone
  have hone : ∀ a ∈ ss.filter (fun d => decide (PropText.upper d.type = "VTIMEZONE".toList)), ∀ b, SameComp s.toEnv a b →
      zoneOf env s.toEnv b = zoneOf env s.toEnv a := by
    intro a ha b hab
    obtain ⟨z, hzm, hza⟩ := forall₂_left hz ha
    have hsub := hnested a (List.mem_filter.mp ha).1
    have hst : (a.subs.map fun o => (TzElement.read (tzProps s.toEnv o)).start) = z.2.map (·.start) := by
      have := hza.observances
      generalize a.subs = cs at this hsub
      generalize z.2 = ds at this
      induction this with
      | nil => rfl
      | @cons p d cs ds g _ ih =>
        obtain ⟨ls, g1, g2⟩ := g
        obtain ⟨qs, c1, c2⟩ := lines_read (hsub p (by simp)) g1
        obtain ⟨name, hname⟩ := observance_read hT g2 g1.2.1 g1.2.2 c2
        rw [List.map_cons, List.map_cons, ih fun o ho => hsub o (by simp [ho])]
        congr 1
        have : tzProps s.toEnv p = qs := by unfold tzProps; rw [c1]; rfl
        rw [this, hname]
        rfl
    obtain ⟨s1, s2⟩ := hstarts z hzm
    refine zone_same env hab (fun q hq => ?_) ?_
    · have : (TzElement.read (tzProps s.toEnv q)).start ∈ z.2.map (·.start) := by
        rw [← hst]
        exact List.mem_map_of_mem (f := fun o => (TzElement.read (tzProps s.toEnv o)).start) hq
      obtain ⟨d, hd, he⟩ := List.mem_map.mp this
      rw [← he]
      exact s1 d hd
    · rw [hst, List.pairwise_map]
      exact s2
  cases k4 with
  | @mk _ _ ps' _ l cs' hp hl hcs =>
    obtain ⟨zs', m1, m2⟩ := mapM_perm (hl.symm.filter _) hzs
    have hsame : zonesOf env s.toEnv (.mk "VCALENDAR".toList ps' cs') = some zs' := by
      rw [← m1]
      unfold zonesOf
      show (cs'.filter _).mapM _ = (l.filter _).mapM _
      have hmem : ∀ c ∈ l, c ∈ ss := fun c hc => hl.subset hc
      clear m1 m2 hl hp k2 k3 hread
      induction hcs with
      | nil => rfl
      | @cons a b l cs' g1 _ ih =>
        have ih := ih fun c hc => hmem c (by simp [hc])
        have ht := comp_type g1
        by_cases hu : PropText.upper a.type = "VTIMEZONE".toList
        · rw [List.filter_cons_of_pos (by rw [ht]; exact decide_eq_true hu), List.filter_cons_of_pos (by exact decide_eq_true hu), List.mapM_cons, List.mapM_cons,
            ih, ht, hone a (List.mem_filter.mpr ⟨hmem a (by simp), decide_eq_true hu⟩) b g1]
        · rw [List.filter_cons_of_neg (by rw [ht]; exact fun h => hu (of_decide_eq_true h)),
            List.filter_cons_of_neg (by exact fun h => hu (of_decide_eq_true h)), ih]
    exact ⟨zs, zs', hzs, hsame, m2, hids, fun o o' qs => answers_perm env o o' qs m2 hnodup⟩

/-! ## A case -/

namespace L148
open L132 L137 L138 L144 ValueType PropText

theorem rule_typed {e : Env} {l : ContentLine} {ps : List Recur.Part} (h : Says l (.rule false ps)) :
    TypedLine (fun t s => e.accepts t (some s) = true) (fun n => e.tables.defaultOf (String.ofList n) = none) l := by
  cases h with
  | rule _ a b c => exact .rule false a b c

theorem start_typed {e : Env} {l : ContentLine} {t : DateTime} (h : Says l (.start t)) :
    TypedLine (fun t s => e.accepts t (some s) = true) (fun n => e.tables.defaultOf (String.ofList n) = none) l := by
  cases h with
  | start a b c d f => exact .date (by rw [a]; decide +kernel) ⟨_, _, _, b, c, d, f, rfl⟩

theorem eastern_good : GoodComp settings.toEnv easternComp := by
  have hoff : ∀ {n v : String} {k : Int}, n = "TZOFFSETFROM" ∨ n = "TZOFFSETTO" → ZoneText.OffsetText v.toList k →
      GoodLine settings.toEnv (line n v) := by
    intro n v k hn hk
    refine good_line (by rcases hn with rfl | rfl <;> decide +kernel) (.offset (v := k) ?_ ⟨no_type _ _ _, hk⟩)
    rcases hn with rfl | rfl
    · exact .inl (by decide +kernel : upper "TZOFFSETFROM".toList = "TZOFFSETFROM".toList)
    · exact .inr (by decide +kernel : upper "TZOFFSETTO".toList = "TZOFFSETTO".toList)
  refine .mk (fun p hp => ?_) (by decide +kernel) (fun c hc => ?_)
  · obtain ⟨l, hl, rfl⟩ := List.mem_map.mp hp
    rw [easternLines, List.mem_singleton] at hl
    subst hl
    exact ⟨line "TZID" "ET", rfl, rfl, good_line (by decide +kernel) (text_typed (by decide +kernel) (by decide +kernel))⟩
  · simp only [List.mem_cons, List.not_mem_nil, or_false] at hc
    rcases hc with rfl | rfl
    · refine .mk (fun p hp => ?_) (by decide +kernel) (by simp)
      obtain ⟨l, hl, rfl⟩ := List.mem_map.mp hp
      refine ⟨l, rfl, rfl, ?_⟩
      have hd := daylight_describes.lines
      cases hd with
      | cons d1 hd => cases hd with
        | cons d2 _ =>
          simp only [daylight, List.mem_cons, List.not_mem_nil, or_false] at hl
          rcases hl with rfl | rfl | rfl | rfl
          · exact good_line (by decide +kernel) (start_typed d1)
          · exact good_line (by decide +kernel) (rule_typed d2)
          · exact hoff (.inl rfl) five
          · exact hoff (.inr rfl) four
    · refine .mk (fun p hp => ?_) (by decide +kernel) (by simp)
      obtain ⟨l, hl, rfl⟩ := List.mem_map.mp hp
      refine ⟨l, rfl, rfl, ?_⟩
      have hd := standard_describes.lines
      cases hd with
      | cons d1 hd => cases hd with
        | cons d2 _ =>
          simp only [standard, List.mem_cons, List.not_mem_nil, or_false] at hl
          rcases hl with rfl | rfl | rfl | rfl
          · exact good_line (by decide +kernel) (start_typed d1)
          · exact good_line (by decide +kernel) (rule_typed d2)
          · exact hoff (.inl rfl) four
          · exact hoff (.inr rfl) five

end L148

/-- The conditions of C148 are met by the calendar with Eastern Time of C138: read again, it gives what it gave for July and December of 2007. -/
example : ∃ c lines c', read settings ([] ++ "BEGIN:VCALENDAR".toList :: (etText ++ "END:VCALENDAR".toList :: [])) = .ok (some c) ∧
    written settings.toEnv asWas asRead c = some lines ∧ read settings lines = .ok (some c') ∧
    ∃ zs, zonesOf .empty settings.toEnv c' = some zs ∧
      answers .empty RecurrenceSet.inOrder inOrder' [⟨40, "ET".toList, ⟨2007, 7, 1, 12, 0, 0, false, false, none⟩, false⟩,
        ⟨40, "ET".toList, ⟨2007, 12, 1, 12, 0, 0, false, false, none⟩, false⟩] zs = some [-14400, -18000] := by
  obtain ⟨c, lines, c', k1, k2, k3, k4⟩ := C148_zones_partial settings .base (fun _ _ => rfl) asWas (fun _ _ _ => rfl) asRead
    (fun _ _ h => by cases h) [] [] etText _ _ (by simp [Spec.Blank]) (by simp [Spec.Blank]) (.inl rfl) zone_body
    ⟨⟨"VERSION".toList, "VERSION:2.0".toList⟩, by simp, by decide +kernel⟩ (by
      intro p hp
      rw [List.mem_singleton] at hp
      subst hp
      exact ⟨L132.line "VERSION" "2.0", by decide +kernel, rfl, good_line (by decide +kernel) (text_typed (by decide +kernel) (by decide +kernel))⟩)
    (by
      intro d hd
      rw [List.mem_singleton] at hd
      subst hd
      exact .inl eastern_good)
    [("ET".toList, [daylightDesc, standardDesc])] (by
      rw [show ([easternComp].filter fun d => decide (PropText.upper d.type = "VTIMEZONE".toList)) = [easternComp] by
        rw [List.filter_cons_of_pos (by decide +kernel)]; rfl]
      exact .cons eastern_in .nil)
    (List.pairwise_singleton _ _) (by
      intro z hz
      rw [List.mem_singleton] at hz
      subst hz
      refine ⟨fun d hd => ?_, ?_⟩
      · simp only [List.mem_cons, List.not_mem_nil, or_false] at hd
        rcases hd with rfl | rfl
        · exact clock_daylight
        · exact clock_standard
      · refine List.pairwise_cons.mpr ⟨fun d hd => ?_, List.pairwise_singleton _ _⟩
        rw [List.mem_singleton] at hd
        subst hd
        decide +kernel)
  refine ⟨c, lines, c', k1, k2, k3, ?_⟩
  obtain ⟨zs, zs', m1, m2, -, -, m5⟩ := k4 .empty
  refine ⟨zs', m2, ?_⟩
  rw [m5]
  have hread : read settings ([] ++ "BEGIN:VCALENDAR".toList :: (etText ++ "END:VCALENDAR".toList :: [])) =
      .ok (some (.mk "VCALENDAR".toList [⟨"VERSION".toList, "VERSION:2.0".toList⟩] [easternComp])) :=
    (C40_calendar (container settings) _ _).mpr ⟨C40_complete (container settings) rfl [] [] etText _ _ (by simp [Spec.Blank])
      (by simp [Spec.Blank]) (.inl rfl) zone_body ⟨⟨"VERSION".toList, "VERSION:2.0".toList⟩, by simp, by decide +kernel⟩,
      by decide +kernel⟩
  rw [hread] at k1
  cases k1
  have h : (zonesOf .empty settings.toEnv (.mk "VCALENDAR".toList [⟨"VERSION".toList, "VERSION:2.0".toList⟩] [easternComp])).bind
      (answers .empty RecurrenceSet.inOrder inOrder' [⟨40, "ET".toList, ⟨2007, 7, 1, 12, 0, 0, false, false, none⟩, false⟩,
        ⟨40, "ET".toList, ⟨2007, 12, 1, 12, 0, 0, false, false, none⟩, false⟩]) = some [-14400, -18000] := by
    decide +kernel
  rw [m1] at h
  exact h

end PyCal
