import Verif.Props.C144_Lines
import Verif.Props.C147_FreeBusyText

/-!
# C148: a calendar that is read, written and read again has the same values
-/

namespace PyCal
open DateTime Spec Spec.EventText Spec.CalendarText EventRead CalendarRead Rewrite FreeBusyRead

namespace L148
open L132 L137 L144 ValueType PropText

section
variable {s : Settings} {w : Writer}

/-- The values of two properties of one name, each read from its line: of one type and the same, but that durations may be put differently; and the
parameters but VALUE have the same values, if they have but one each. -/
def SameProp (e : Env) (p p' : Cont.CProp) : Prop :=
  ∃ q q', readLine e p.text = some q ∧ readLine e p'.text = some q' ∧ q.name = p.name ∧ q'.name = p'.name ∧ p'.name = p.name ∧
    SameValue q.value q'.value ∧
    Carried q.params q'.params ∧ typeOf e q'.name q'.params = typeOf e q.name q.params

/-- Two components of one type with the same values in the properties of each name, in order, and the same components, up to their
order. -/
inductive SameComp (e : Env) : Cont.Component → Cont.Component → Prop
  | mk {t ps ps' cs l cs'} : (∀ key, List.Forall₂ (SameProp e) (ps.filter fun p => decide (p.key = key)) (ps'.filter fun p => decide (p.key = key))) →
      l.Perm cs → List.Forall₂ (SameComp e) l cs' → SameComp e (.mk t ps cs) (.mk t ps' cs')

theorem prop_same (hT : Program ical s.tables) (hw : Closed s.toEnv w) {p : Cont.CProp} (h : GoodProp s.toEnv p) :
    SameProp s.toEnv p (reline s.toEnv w p) := by
  obtain ⟨l, h1, h2, hl⟩ := h
  obtain ⟨R, v0, text, ps, v, a, b, -, c, d, -, f⟩ := plain_again hT hw hl
  refine ⟨⟨l.name, _, v0⟩, ⟨l.name, ps, v⟩, by rw [h1]; exact a, ?_, h2.symm, h2.symm, rfl, d, f⟩
  unfold reline
  rw [h1, b]
  exact c

theorem twice_same {p : Cont.CProp} {l : ContentLine} (ht : p.text = l.text) (hn : p.name = l.name) (h : Twice s.toEnv w l) :
    SameProp s.toEnv p (reline s.toEnv w p) := by
  obtain ⟨v0, text, ps, v, a, b, -, c, d, -, f⟩ := h
  refine ⟨⟨l.name, _, v0⟩, ⟨l.name, ps, v⟩, by rw [ht]; exact a, ?_, hn.symm, hn.symm, rfl, d, f⟩
  unfold reline
  rw [ht, b]
  exact c

theorem props_same {ps ps' : List Cont.CProp}
    (h : ∀ p ∈ ps, SameProp s.toEnv p (reline s.toEnv w p))
    (hs : ∀ key, ps'.filter (fun p => decide (p.key = key)) = (ps.map (reline s.toEnv w)).filter fun p => decide (p.key = key))
    (key : List Char) : List.Forall₂ (SameProp s.toEnv) (ps.filter fun p => decide (p.key = key)) (ps'.filter fun p => decide (p.key = key)) := by
  rw [hs, filter_reline, List.forall₂_map_right_iff]
  exact List.forall₂_same.mpr fun p hp => h p (List.mem_filter.mp hp).1

/-- What is written and read again is the same. -/
theorem comp_same (hT : Program ical s.tables) (hw : Closed s.toEnv w) {c c' : Cont.Component} (h : GoodComp s.toEnv c)
    (hs : Same (relines s.toEnv w c) c') : SameComp s.toEnv c c' := by
  induction h generalizing c' with
  | @mk t ps cs hp hk hss ih =>
    rw [relines, relinesAll_map] at hs
    cases hs with
    | @mk _ _ ps' _ l cs' hps hperm hcs =>
      obtain ⟨m, hm, rfl⟩ := L142.perm_map hperm
      refine .mk (props_same (fun p h => prop_same hT hw (hp p h)) hps) hm ?_
      rw [List.forall₂_map_left_iff] at hcs
      have hmem : ∀ c ∈ m, c ∈ cs := fun c hc => hm.subset hc
      clear hperm hm
      induction hcs with
      | nil => exact .nil
      | @cons a b m cs'' h1 _ ih2 =>
        exact .cons (ih a (hmem a (by simp)) h1) (ih2 fun c hc => hmem c (by simp [hc]))

/-- The same for an event. -/
theorem event_same (hT : Program ical s.tables) (hw : Closed s.toEnv w) {c c' : Cont.Component} {d : EventDesc} (h : GoodEvent s.toEnv c d)
    (hsound : Sound s c) (hs : Same (relines s.toEnv w c) c') : SameComp s.toEnv c c' := by
  obtain ⟨t, ps, cs⟩ := c
  rw [relines, relinesAll_map] at hs
  cases hs with
  | @mk _ _ ps' _ l cs' hps hperm hcs =>
    obtain ⟨m, hm, rfl⟩ := L142.perm_map hperm
    refine .mk (props_same (fun p hp => ?_) hps) hm ?_
    · by_cases hk : p.key ∈ known
      · obtain ⟨ls, a, b, f, g, k⟩ := h.lines
        obtain ⟨l, hl, hlt⟩ := List.mem_map.mp (show p.text ∈ ls.map ContentLine.text by rw [← a]; exact List.mem_map_of_mem hp)
        obtain ⟨q, q1, q2⟩ := hsound.1 p hp
        have hname : p.name = l.name := by
          rw [← q2]
          rw [← hlt, line_value (b l hl) (f l hl), Option.map_eq_some_iff] at q1
          obtain ⟨_, _, rfl⟩ := q1
          rfl
        exact twice_same hlt.symm hname (twice hT g b f hl (by rw [← hname]; exact hk) (k l hl))
      · exact prop_same hT hw (h.props p hp hk)
    · rw [List.forall₂_map_left_iff] at hcs
      have hmem : ∀ c ∈ m, GoodComp s.toEnv c := fun c hc => h.subs c (hm.subset hc)
      clear hperm hm
      induction hcs with
      | nil => exact .nil
      | @cons a b m cs'' h1 _ ih2 =>
        exact .cons (comp_same hT hw (hmem a (by simp)) h1) (ih2 fun c hc => hmem c (by simp [hc]))

end

/-! ## Busy time -/

/-- No FREEBUSY property has several values for FBTYPE. -/
def OneType (e : Env) (c : Cont.Component) : Prop :=
  ∀ p ∈ c.props, p.key = "FREEBUSY".toList → ∀ q, readLine e p.text = some q →
    ∃ v, ∀ a ∈ q.params, a.key = "FBTYPE".toList → a.values = [v]

theorem comp_type {e : Env} {c c' : Cont.Component} (h : SameComp e c c') : c'.type = c.type := by cases h; rfl

theorem all_read {e : Env} {ps ps' : List Cont.CProp} (h : ∀ key, List.Forall₂ (SameProp e) (ps.filter fun p => decide (p.key = key))
    (ps'.filter fun p => decide (p.key = key))) :
    (∀ p ∈ ps, ∃ q, readLine e p.text = some q ∧ q.name = p.name) ∧ ∀ p ∈ ps', ∃ q, readLine e p.text = some q ∧ q.name = p.name := by
  refine ⟨fun p hp => ?_, fun p hp => ?_⟩
  · obtain ⟨_, _, q, q', h1, h2, h3, -⟩ := forall₂_left (h p.key) (List.mem_filter.mpr ⟨hp, by simp⟩)
    exact ⟨q, h1, h3⟩
  · obtain ⟨_, _, q, q', h1, h2, h3, h4, -⟩ := forall₂_right (h p.key) (List.mem_filter.mpr ⟨hp, by simp⟩)
    exact ⟨q', h2, h4⟩

theorem mapM_pairs {α β : Type} {f : α → Option β} {R : β → β → Prop} {l l' : List α} {bs bs' : List β}
    (h : List.Forall₂ (fun a a' => ∃ b b', f a = some b ∧ f a' = some b' ∧ R b b') l l') (hb : l.mapM f = some bs)
    (hb' : l'.mapM f = some bs') : List.Forall₂ R bs bs' := by
  induction h generalizing bs bs' with
  | nil => cases hb; cases hb'; exact .nil
  | @cons a a' l l' h1 _ ih =>
    obtain ⟨b, b', e1, e2, e3⟩ := h1
    rw [List.mapM_cons, e1] at hb
    rw [List.mapM_cons, e2] at hb'
    cases h4 : l.mapM f with
    | none => rw [h4] at hb; cases hb
    | some cs =>
      cases h5 : l'.mapM f with
      | none => rw [h5] at hb'; cases hb'
      | some cs' =>
        rw [h4] at hb; rw [h5] at hb'
        cases hb; cases hb'
        exact .cons e3 (ih h4 h5)

theorem mapM_from {α β : Type} {f : α → Option β} {l : List α} {bs : List β} (h : l.mapM f = some bs) {b : β} (hb : b ∈ bs) :
    ∃ a ∈ l, f a = some b := by
  induction l generalizing bs with
  | nil => cases h; cases hb
  | cons a l ih =>
    rw [List.mapM_cons] at h
    cases h1 : f a with
    | none => rw [h1] at h; cases h
    | some x =>
      cases h2 : l.mapM f with
      | none => rw [h1, h2] at h; cases h
      | some xs =>
        rw [h1, h2] at h
        cases h
        rcases List.mem_cons.mp hb with rfl | hb
        · exact ⟨a, by simp, h1⟩
        · obtain ⟨c, hc, hfc⟩ := ih h2 hb
          exact ⟨c, by simp [hc], hfc⟩

theorem busy_same {e : Env} {c c' : Cont.Component} (h : SameComp e c c') (ho : OneType e c) :
    ∃ v v', busyIn e c = some v ∧ busyIn e c' = some v' ∧ v'.start = v.start ∧ v'.stop = v.stop ∧ v'.freebusy = v.freebusy ∧
      v.cached = none ∧ v'.cached = none := by
  cases h with
  | @mk t ps ps' cs l cs' hp hl hcs =>
    obtain ⟨r1, r2⟩ := all_read hp
    obtain ⟨qs, hq⟩ := mapM_some (f := fun p : Cont.CProp => readLine e p.text) (l := ps) fun p h => (r1 p h).imp fun _ h => h.1
    obtain ⟨qs', hq'⟩ := mapM_some (f := fun p : Cont.CProp => readLine e p.text) (l := ps') fun p h => (r2 p h).imp fun _ h => h.1
    have hkey : ∀ key, List.Forall₂ (fun q q' => SameValue q.value q'.value ∧ Carried q.params q'.params)
        (qs.filter fun q => decide (upper q.name = key)) (qs'.filter fun q => decide (upper q.name = key)) := fun key =>
      mapM_pairs ((hp key).imp fun p p' ⟨q, q', a, b, _, _, _, d, f, _⟩ => ⟨q, q', a, b, d, f⟩) (values_filter r1 hq key) (values_filter r2 hq' key)
    have hval : ∀ key : String, List.Forall₂ SameValue (values qs key) (values qs' key) := by
      intro key
      have := hkey key.toList
      unfold EventRead.values
      generalize (qs.filter fun q => decide (upper q.name = key.toList)) = l at this
      generalize (qs'.filter fun q => decide (upper q.name = key.toList)) = l' at this
      induction this with
      | nil => exact .nil
      | cons a _ ih => exact .cons a.1 ih
    have hdate : ∀ key : String, loadDate qs' key = loadDate qs key := fun key => by
      rcases head_same (hval key) with ⟨e1, e2⟩ | ⟨v, v', e1, e2, rfl | ⟨D, D', rfl, rfl, -⟩⟩
      · rw [loadDate, loadDate, e1, e2]
      · rw [loadDate, loadDate, e1, e2]
      · rw [loadDate, loadDate, e1, e2]
    have hone : ∀ q ∈ qs.filter (fun q => decide (upper q.name = "FREEBUSY".toList)),
        ∃ v, ∀ a ∈ q.params, a.key = "FBTYPE".toList → a.values = [v] := by
      intro q hqm
      have hf := values_filter r1 hq "FREEBUSY".toList
      obtain ⟨p, hpm, hpq⟩ := mapM_from hf hqm
      rw [List.mem_filter, decide_eq_true_eq] at hpm
      exact ho p hpm.1 hpm.2 q hpq
    have hfb : (qs'.filter fun q => decide (upper q.name = "FREEBUSY".toList)).map fbProperty =
        (qs.filter fun q => decide (upper q.name = "FREEBUSY".toList)).map fbProperty := by
      have := hkey "FREEBUSY".toList
      generalize (qs.filter fun q => decide (upper q.name = "FREEBUSY".toList)) = l at this hone
      generalize (qs'.filter fun q => decide (upper q.name = "FREEBUSY".toList)) = l' at this
      induction this with
      | nil => rfl
      | @cons q q' _ _ a _ ih =>
        rw [List.map_cons, List.map_cons, ih fun q hq => hone q (by simp [hq])]
        congr 1
        obtain ⟨v, hv⟩ := hone q (by simp)
        unfold fbProperty
        rw [a.2 "FBTYPE" v (by decide +kernel) hv]
        rcases a.1 with h | ⟨D, D', h1, h2, -⟩
        · rw [h]
        · rw [h1, h2]
    refine ⟨busy qs, busy qs', by unfold busyIn; rw [show (Cont.Component.mk t ps cs).props = ps from rfl, hq]; rfl,
      by unfold busyIn; rw [show (Cont.Component.mk t ps' cs').props = ps' from rfl, hq']; rfl, ?_⟩
    unfold busy VFreeBusy.finalise
    rw [hdate, hdate, hfb]
    cases loadDate qs "DTEND" <;> exact ⟨rfl, rfl, rfl, rfl, rfl⟩

end L148
open L148 L144 L137

/-- C148 (partial), written and read again: a calendar whose lines have values of the types that RFC 5545 gives to the properties is
written as a text that can be read, and the calendar that is read from it has the same components, up to their order, and in them the
same properties with the same values of the same types (durations may be put differently) and the same parameters (for every order in which components and
properties are written).

Needed: components that compare equal have the same type (see C41); positions (GEO) and request states that are written can
be read (see C68, C92), and of their values nothing is said here.  Missing: as in `C144_lines_partial` (`C148_fails_extra`);
parameters with several values (`C148_fails_types`). -/
theorem C148_same_partial (s : Settings) (hT : Program ValueType.ical s.tables)
    (hfin : ∀ c, isRecur c.type = false → s.finishes c = true) (w : Writer) (hw : Closed s.toEnv w) (order : Cont.Order)
    (heq : ∀ a b, order.eq a b = true → a.type = b.type) (b1 b2 body : List (List Char)) (ps : List Cont.CProp)
    (ss : List Cont.Component) (h1 : Spec.Blank b1) (h2 : Spec.Blank b2) (hb : s.blankRaise = false ∨ b1 = [] ∧ b2 = [])
    (h : Spec.Body (container s) true "VCALENDAR".toList body ps ss) (hv : ∃ p ∈ ps, p.key = "VERSION".toList)
    (hps : ∀ p ∈ ps, GoodProp s.toEnv p) (hss : ∀ d ∈ ss, GoodComp s.toEnv d ∨ ∃ v, GoodEvent s.toEnv d v)
    (hzone : ∀ d ∈ ss, PropText.upper d.type = "VTIMEZONE".toList → d.type = "VTIMEZONE".toList) :
    ∃ c lines c', read s (b1 ++ "BEGIN:VCALENDAR".toList :: (body ++ "END:VCALENDAR".toList :: b2)) = .ok (some c) ∧
      written s.toEnv w order c = some lines ∧ read s lines = .ok (some c') ∧ SameComp s.toEnv c c' := by
  have hread : read s (b1 ++ "BEGIN:VCALENDAR".toList :: (body ++ "END:VCALENDAR".toList :: b2)) =
      .ok (some (.mk "VCALENDAR".toList ps ss)) := (C40_calendar (container s) _ _).mpr
    ⟨C40_complete (container s) rfl b1 b2 body ps ss h1 h2 hb h hv, hzone⟩
  have hvalid := (L145.read_valid hread).1
  have hform := body_formed h
  have hsound := (body_sound h).2
  have hg : ∀ c ∈ ss.map (relines s.toEnv w), Tree41.Good (container s) order c ∧ Spec.Writable (container s) c := by
    intro c hc
    obtain ⟨b, hb, rfl⟩ := List.mem_map.mp hc
    rcases hss b hb with hc | ⟨v, hc⟩
    · exact kept_good hfin heq (hform b hb).2 (good_kept hT hw hc)
    · exact event_good hT hfin heq (hform b hb).2 (hsound b hb) (good_event hT hw hc)
  have hp' : ∀ p ∈ ps.map (reline s.toEnv w), ReadBack (container s) p ∧ CalendarRead.valid s.toEnv p = true := by
    intro p hp
    obtain ⟨q, hq, rfl⟩ := List.mem_map.mp hp
    exact ⟨prop_readBack hT hw (hps q hq), version_valid hT (hps q hq) (hvalid q hq)⟩
  obtain ⟨body', ss', l, g1, g2, g3, g4⟩ := Tree41.write (env := container s) (o := order) (top := true) heq
    (t := "VCALENDAR".toList) (ps := ps.map (reline s.toEnv w)) (cs := ss.map (relines s.toEnv w)) (fun p hp => (hp' p hp).1)
    (fun _ p hp => (hp' p hp).2) (fun c hc => (hg c hc).1)
    (fun c hc => ⟨fun h => absurd h (by decide +kernel), fun h => absurd h (by decide +kernel), fun h => absurd h (by decide +kernel),
      fun h => absurd h (by decide +kernel), fun h => absurd h (by decide +kernel)⟩)
    fun c hc => (hg c hc).2
  have hzone' : ∀ d ∈ ss', PropText.upper d.type = "VTIMEZONE".toList → d.type = "VTIMEZONE".toList := by
    intro d hd hu
    obtain ⟨c, hc, hsame⟩ := forall₂_right g4 hd
    obtain ⟨b, hb, rfl⟩ := List.mem_map.mp (g3.subset hc)
    have hbt : d.type = b.type := (Tree41.same_type hsame).symm.trans (relines_type _ _ _)
    rw [hbt] at hu ⊢
    exact hzone b hb hu
  refine ⟨.mk "VCALENDAR".toList ps ss, _, .mk "VCALENDAR".toList _ ss', hread, ?_, (C40_calendar (container s) _ _).mpr
    ⟨C40_complete (container s) rfl [] [] body' _ ss' (by simp [Spec.Blank]) (by simp [Spec.Blank]) (.inr ⟨rfl, rfl⟩) g2 ?_, hzone'⟩, ?_⟩
  · unfold written
    rw [relines, relinesAll_map]
    exact g1
  · obtain ⟨p, hp, hk⟩ := hv
    exact ⟨reline s.toEnv w p, (C42_properties _ _).symm.subset (List.mem_map_of_mem hp), hk⟩
  · obtain ⟨m, hm, rfl⟩ := L142.perm_map g3
    refine .mk (props_same (fun p hp => prop_same hT hw (hps p hp)) (C42_same_name _ _)) hm ?_
    rw [List.forall₂_map_left_iff] at g4
    have hmem : ∀ c ∈ m, c ∈ ss := fun c hc => hm.subset hc
    clear hm g3 g2 g1 hzone'
    induction g4 with
    | nil => exact .nil
    | @cons a b m cs'' k1 _ ih2 =>
      refine .cons ?_ (ih2 fun c hc => hmem c (by simp [hc]))
      have ha := hmem a (by simp)
      rcases hss a ha with hc | ⟨v, hc⟩
      · exact comp_same hT hw hc k1
      · exact event_same hT hw hc (hsound a ha) k1

/-- C148 (partial), the busy time: as in `C148_same_partial`, and the free-busy components that are read again have the same busy
time, and are found for the same periods.

Missing: as in `C148_same_partial`; several values for FBTYPE (`C148_fails_types`). -/
theorem C148_busy_partial (s : Settings) (hT : Program ValueType.ical s.tables)
    (hfin : ∀ c, isRecur c.type = false → s.finishes c = true) (w : Writer) (hw : Closed s.toEnv w) (order : Cont.Order)
    (heq : ∀ a b, order.eq a b = true → a.type = b.type) (b1 b2 body : List (List Char)) (ps : List Cont.CProp)
    (ss : List Cont.Component) (h1 : Spec.Blank b1) (h2 : Spec.Blank b2) (hb : s.blankRaise = false ∨ b1 = [] ∧ b2 = [])
    (h : Spec.Body (container s) true "VCALENDAR".toList body ps ss) (hv : ∃ p ∈ ps, p.key = "VERSION".toList)
    (hps : ∀ p ∈ ps, GoodProp s.toEnv p) (hss : ∀ d ∈ ss, GoodComp s.toEnv d ∨ ∃ v, GoodEvent s.toEnv d v)
    (hzone : ∀ d ∈ ss, PropText.upper d.type = "VTIMEZONE".toList → d.type = "VTIMEZONE".toList)
    (hone : ∀ d ∈ ss, d.type = "VFREEBUSY".toList → OneType s.toEnv d) :
    ∃ c lines c', read s (b1 ++ "BEGIN:VCALENDAR".toList :: (body ++ "END:VCALENDAR".toList :: b2)) = .ok (some c) ∧
      written s.toEnv w order c = some lines ∧ read s lines = .ok (some c') ∧
      ∃ l, l.Perm c.subs ∧ List.Forall₂ (fun b b' => b'.type = b.type ∧ (b.type = "VFREEBUSY".toList → ∃ v v',
        busyIn s.toEnv b = some v ∧ busyIn s.toEnv b' = some v' ∧ ∀ env : TzEnv, v'.busyTime env = v.busyTime env ∧
          ∀ range, (v'.expandPeriodComp env range).1 = (v.expandPeriodComp env range).1 ∧
            (v'.expandPeriodFB env range).1 = (v.expandPeriodFB env range).1)) l c'.subs := by
  obtain ⟨c, lines, c', k1, k2, k3, k4⟩ := C148_same_partial s hT hfin w hw order heq b1 b2 body ps ss h1 h2 hb h hv hps hss hzone
  have hread : read s (b1 ++ "BEGIN:VCALENDAR".toList :: (body ++ "END:VCALENDAR".toList :: b2)) =
      .ok (some (.mk "VCALENDAR".toList ps ss)) := (C40_calendar (container s) _ _).mpr
    ⟨C40_complete (container s) rfl b1 b2 body ps ss h1 h2 hb h hv, hzone⟩
  rw [hread] at k1
  cases k1
  refine ⟨_, lines, c', hread, k2, k3, ?_⟩
  cases k4 with
  | @mk _ _ ps' _ l cs' hp hl hcs =>
    refine ⟨l, hl, ?_⟩
    have hmem : ∀ c ∈ l, c ∈ ss := fun c hc => hl.subset hc
    show List.Forall₂ _ l cs'
    clear k2 k3 hread hl hp
    induction hcs with
    | nil => exact .nil
    | @cons a b m cs'' g1 _ ih2 =>
      refine .cons ⟨comp_type g1, fun ht => ?_⟩ (ih2 fun c hc => hmem c (by simp [hc]))
      obtain ⟨v, v', e1, e2, e3, e4, e5, e6, e7⟩ := busy_same g1 (hone a (hmem a (by simp)) ht)
      refine ⟨v, v', e1, e2, fun env => ?_⟩
      have hbt : v'.busyTime env = v.busyTime env := by
        unfold VFreeBusy.busyTime
        rw [e3, e4, e5]
      have hc : (v'.withCache env).cachedTime = (v.withCache env).cachedTime := by
        unfold VFreeBusy.withCache VFreeBusy.cachedTime
        rw [e6, e7]
        exact hbt
      refine ⟨hbt, fun range => ⟨?_, ?_⟩⟩
      · unfold VFreeBusy.expandPeriodComp
        rw [hc]
        cases (v.withCache env).cachedTime <;> rfl
      · unfold VFreeBusy.expandPeriodFB
        rw [hc]
        cases (v.withCache env).cachedTime <;> rfl

/-! ## A case -/

namespace L148
open L132 L137 L144 L147 ValueType PropText Spec.FreeBusyText

theorem morning_good : GoodComp L137.plain.toEnv morningIn := by
  have hu : ∀ h, InUTC (new h) := fun h => ⟨rfl, rfl⟩
  refine .mk (fun p hp => ?_) (fun h => absurd h (by decide +kernel)) (by simp)
  obtain ⟨l, hl, rfl⟩ := List.mem_map.mp hp
  refine ⟨l, rfl, rfl, ?_⟩
  simp only [morning, List.mem_cons, List.not_mem_nil, or_false] at hl
  rcases hl with rfl | rfl | rfl
  · exact good_line (by decide +kernel) (text_typed (by decide +kernel) (by decide +kernel))
  · refine good_line (by decide +kernel) (.periods (ps := [(new 10, new 11)]) (by decide +kernel) (no_type _ _ _) (.one ?_) (by decide +kernel))
    rw [show (line "FREEBUSY" "20240101T100000Z/20240101T110000Z").value =
      ("2024".toList ++ "01".toList ++ "01".toList ++ 'T' :: ("10".toList ++ "00".toList ++ "00".toList ++ ['Z'])) ++ '/' ::
      ("2024".toList ++ "01".toList ++ "01".toList ++ 'T' :: ("11".toList ++ "00".toList ++ "00".toList ++ ['Z'])) by decide +kernel]
    exact .ends (new_text "10" 10 ⟨fixed 2 _ _ (by decide +kernel), by decide⟩)
      (new_text "11" 11 ⟨fixed 2 _ _ (by decide +kernel), by decide⟩) (hu _) (hu _)
  · refine ⟨⟨⟨by decide +kernel, by decide +kernel⟩, by simp, ?_⟩, by decide +kernel, ⟨by decide +kernel, by simp⟩,
      .periods (ps := [(new 8, new 9)]) (by decide +kernel) ⟨none, .none (by simp only [List.mem_singleton, forall_eq]; decide +kernel), .inl rfl⟩
        (.one ?_) (by decide +kernel)⟩
    · intro p hp
      rw [List.mem_singleton] at hp
      subst hp
      refine ⟨⟨by decide +kernel, by decide +kernel⟩, fun v hv => ?_⟩
      simp only [ShownParam.values, List.mem_singleton] at hv
      subst hv
      show ∀ c ∈ "busy-tentative".toList, _
      decide +kernel
    · dsimp only
      rw [show "20240101T080000Z/PT1H".toList =
        ("2024".toList ++ "01".toList ++ "01".toList ++ 'T' :: ("08".toList ++ "00".toList ++ "00".toList ++ ['Z'])) ++ '/' ::
        ('P' :: 'T' :: (['1'] ++ ['H'])) by decide +kernel]
      exact .lasts (k := 3600) (new_text "08" 8 ⟨fixed 2 _ _ (by decide +kernel), by decide⟩) (hu _)
        (.plain (.time (.hour (.bare (digits ['1'] 1 (by decide +kernel)))))) (by decide)
        ⟨by decide, ⟨rfl, rfl, rfl⟩, by decide +kernel⟩

/-- A calendar with the morning. -/
def withMorning : List (List Char) :=
  "VERSION:2.0".toList :: ("BEGIN:".toList ++ "VFREEBUSY".toList) :: (morning.map ContentLine.text ++ ("END:".toList ++ "VFREEBUSY".toList) :: [])

theorem morning_body : Spec.Body (container L137.plain) true "VCALENDAR".toList withMorning [⟨"VERSION".toList, "VERSION:2.0".toList⟩] [morningIn] :=
  .prop (by decide +kernel) (by decide +kernel) (by decide +kernel) (by decide +kernel) (by decide +kernel)
    (.comp "VFREEBUSY".toList (by decide +kernel) (by decide +kernel) (by decide +kernel) (by decide +kernel)
      (lines_body (by decide +kernel)) .nil)

end L148
open L147

/-- The conditions of C148 are met by the calendar with the components of C144, and by one with the free-busy component of C147, which is
found from eight on also when it is read again. -/
example : (∃ c lines c', read L137.plain ([] ++ "BEGIN:VCALENDAR".toList :: (more ++ "END:VCALENDAR".toList :: [])) = .ok (some c) ∧
      written L137.plain.toEnv asWas asRead c = some lines ∧ read L137.plain lines = .ok (some c') ∧ SameComp L137.plain.toEnv c c') ∧
    ∃ c lines c', read L137.plain ([] ++ "BEGIN:VCALENDAR".toList :: (withMorning ++ "END:VCALENDAR".toList :: [])) = .ok (some c) ∧
      written L137.plain.toEnv asWas asRead c = some lines ∧ read L137.plain lines = .ok (some c') ∧
      ∃ b ∈ c'.subs, ∃ v, busyIn L137.plain.toEnv b = some v ∧ (v.expandPeriodComp .empty (.ofEnd (new 8) (new 9))).1 = true := by
  constructor
  · refine C148_same_partial L137.plain .base (fun _ _ => rfl) asWas (fun _ _ _ => rfl) asRead (fun _ _ h => by cases h) [] [] more _ _
      (by simp [Spec.Blank]) (by simp [Spec.Blank]) (.inl rfl) more_body ⟨⟨"VERSION".toList, "VERSION:2.0".toList⟩, by simp, by decide +kernel⟩ ?_ ?_
      (by decide +kernel)
    · intro p hp
      simp only [List.mem_cons, List.not_mem_nil, or_false] at hp
      rcases hp with rfl | rfl
      · exact ⟨L132.line "VERSION" "2.0", by decide +kernel, rfl, good_line (by decide +kernel) (text_typed (by decide +kernel) (by decide +kernel))⟩
      · exact ⟨L132.line "PRODID" "-//a", by decide +kernel, rfl, good_line (by decide +kernel) (text_typed (by decide +kernel) (by decide +kernel))⟩
    · intro d hd
      simp only [List.mem_cons, List.not_mem_nil, or_false] at hd
      rcases hd with rfl | rfl | rfl
      · exact .inr ⟨_, weekly_good⟩
      · exact .inr ⟨_, moved_good⟩
      · exact .inl task_good
  · obtain ⟨c, lines, c', k1, k2, k3, l, k4, k5⟩ := C148_busy_partial L137.plain .base (fun _ _ => rfl) asWas (fun _ _ _ => rfl) asRead
      (fun _ _ h => by cases h) [] [] withMorning _ _ (by simp [Spec.Blank]) (by simp [Spec.Blank]) (.inl rfl) morning_body
      ⟨⟨"VERSION".toList, "VERSION:2.0".toList⟩, by simp, by decide +kernel⟩ (by
        intro p hp
        simp only [List.mem_cons, List.not_mem_nil, or_false] at hp
        subst hp
        exact ⟨L132.line "VERSION" "2.0", by decide +kernel, rfl, good_line (by decide +kernel) (text_typed (by decide +kernel) (by decide +kernel))⟩)
      (by
        intro d hd
        rw [List.mem_singleton] at hd
        subst hd
        exact .inl morning_good)
      (by decide +kernel) (by
        intro d hd _
        rw [List.mem_singleton] at hd
        subst hd
        intro p hp hk q hq
        have : ∀ p ∈ morningIn.props, p.key = "FREEBUSY".toList → ∃ v, ((readLine L137.plain.toEnv p.text).all fun q =>
            q.params.all fun a => decide (a.key = "FBTYPE".toList → a.values = [v])) = true := by
          intro p hp _
          exact ⟨"busy-tentative".toList, (by decide +kernel : ∀ p ∈ morningIn.props, ((readLine L137.plain.toEnv p.text).all fun q =>
            q.params.all fun a => decide (a.key = "FBTYPE".toList → a.values = ["busy-tentative".toList])) = true) p hp⟩
        obtain ⟨v, hv⟩ := this p hp hk
        rw [hq] at hv
        exact ⟨v, fun a ha => of_decide_eq_true (List.all_eq_true.mp hv a ha)⟩)
    have hread : read L137.plain ([] ++ "BEGIN:VCALENDAR".toList :: (withMorning ++ "END:VCALENDAR".toList :: [])) =
        .ok (some (.mk "VCALENDAR".toList [⟨"VERSION".toList, "VERSION:2.0".toList⟩] [morningIn])) :=
      (C40_calendar (container L137.plain) _ _).mpr ⟨C40_complete (container L137.plain) rfl [] [] withMorning _ _ (by simp [Spec.Blank])
        (by simp [Spec.Blank]) (.inl rfl) morning_body ⟨⟨"VERSION".toList, "VERSION:2.0".toList⟩, by simp, by decide +kernel⟩,
        by decide +kernel⟩
    refine ⟨c, lines, c', k1, k2, k3, ?_⟩
    rw [hread] at k1
    cases k1
    obtain ⟨b, hb, -, hv⟩ := forall₂_left k5 (k4.symm.subset (show morningIn ∈ _ by simp [Cont.Component.subs]))
    obtain ⟨v, v', e1, e2, e3⟩ := hv rfl
    refine ⟨b, hb, v', e2, ?_⟩
    rw [((e3 .empty).2 _).1]
    have h : ((busyIn L137.plain.toEnv morningIn).map fun v => (v.expandPeriodComp .empty (.ofEnd (new 8) (new 9))).1) = some true := by
      decide +kernel
    rw [e1] at h
    exact Option.some.inj h

/-- Whether something is busy in the component that comes first. -/
def L148.isBusy (lines : List (List Char)) : Option Bool :=
  match read L137.plain lines with
  | .ok (some c) => c.subs.head?.bind fun b => (busyIn L137.plain.toEnv b).map fun v => (v.busyTime .empty).isSome
  | _ => none

/-- C148 fails: of several values for FBTYPE (which the standard does not allow) the first counts, and they are sorted when they are
written: what was free is busy afterwards. -/
theorem C148_fails_types :
    isBusy (doc ["BEGIN:VFREEBUSY", "UID:1", "FREEBUSY;FBTYPE=FREE,BUSY:20240101T100000Z/PT1H", "END:VFREEBUSY"]) = some false ∧
    isBusy (rewritten (doc ["BEGIN:VFREEBUSY", "UID:1", "FREEBUSY;FBTYPE=FREE,BUSY:20240101T100000Z/PT1H", "END:VFREEBUSY"])) = some true :=
  ⟨by decide +kernel, by decide +kernel⟩

/-- The text of the last property of the component that comes first. -/
def L148.lastText (lines : List (List Char)) : Option (List Char) :=
  match read L137.plain lines with
  | .ok (some c) => c.subs.head?.bind fun b => b.props.getLast?.bind fun p => (readLine L137.plain.toEnv p.text).bind fun q =>
      match q.value with
      | .text s => some s
      | _ => none
  | _ => none

/-- C148 fails: that the value of a property that RFC 5545 does not name is a text is not written, and what is read again is not the
text. -/
theorem C148_fails_extra :
    lastText (doc ["BEGIN:VTODO", "UID:1", "X-A;VALUE=TEXT:a\\,b", "END:VTODO"]) = some "a,b".toList ∧
    lastText (rewritten (doc ["BEGIN:VTODO", "UID:1", "X-A;VALUE=TEXT:a\\,b", "END:VTODO"])) = some "a\\,b".toList :=
  ⟨by decide +kernel, by decide +kernel⟩

end PyCal
