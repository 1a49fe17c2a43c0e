import Verif.Props.C148_Same
import Verif.Props.C146_AlarmText

/-!
# C148: the alarms of a calendar that is read, written and read again
-/

namespace PyCal
open DateTime Spec Spec.EventText Spec.CalendarText EventRead CalendarRead Rewrite

namespace L148
open L132 L137 L144 ValueType PropText AlarmRead

/-- Two alarms tell the same: the same action with the same data, at the same time or so long from the start or the end, as often again, and
with the same status. -/
structure TellSame (t t' : Alm.Told) : Prop where
  action : t'.action = t.action
  data : t'.data = t.data
  trigger : t'.trigger = t.trigger ∨ ∃ D D' : Duration, ∃ start, t.trigger = .inr (D, start) ∧ t'.trigger = .inr (D', start) ∧
    D'.totalSeconds = D.totalSeconds
  repeats : t'.repeats = t.repeats ∨ ∃ n, ∃ D D' : Duration, t.repeats = some (n, D) ∧ t'.repeats = some (n, D') ∧
    D'.totalSeconds = D.totalSeconds
  status : t'.status = t.status

/-- No TRIGGER property has several values for RELATED. -/
def OneRelated (e : Env) (c : Cont.Component) : Prop :=
  ∀ p ∈ c.props, p.key = "TRIGGER".toList → ∀ q, readLine e p.text = some q →
    ∃ v, ∀ a ∈ q.params, a.key = "RELATED".toList → a.values = [v]

/-- Two properties of an alarm with the same value. -/
def SameP (p p' : Alm.P) : Prop :=
  (p'.val = p.val ∨ ∃ D D' : Duration, p.val = .duration D ∧ p'.val = .duration D' ∧ D'.totalSeconds = D.totalSeconds) ∧
    (p.key = .trigger → p'.related = p.related)

theorem propOf_read {e : Env} {t : List Char} {q : RProp} (h : readLine e t = some q) :
    propOf e t = some ⟨keyOf (upper q.name), valueIn (typeOf e q.name q.params) q.value, paramValue q.params "RELATED"⟩ := by
  unfold readLine at h
  unfold propOf
  cases hp : parseText false e.cfg t with
  | ok r =>
    obtain ⟨g, name, ps, data⟩ := r
    rw [hp] at h
    dsimp only at h ⊢
    rw [Option.map_eq_some_iff] at h
    obtain ⟨v, h1, rfl⟩ := h
    rw [h1]
    rfl
  | invalid => rw [hp] at h; cases h
  | hang => rw [hp] at h; cases h

theorem mapM_filter {α β : Type} {f : α → Option β} {P : α → Bool} {Q : β → Bool} {l : List α} {bs : List β}
    (h : ∀ a ∈ l, ∀ b, f a = some b → Q b = P a) (hl : l.mapM f = some bs) : (l.filter P).mapM f = some (bs.filter Q) := by
  induction l generalizing bs with
  | nil => cases hl; rfl
  | cons a l ih =>
    rw [List.mapM_cons] at hl
    cases h1 : f a with
    | none => rw [h1] at hl; cases hl
    | some b =>
      cases h2 : l.mapM f with
      | none => rw [h1, h2] at hl; cases hl
      | some cs =>
        rw [h1, h2] at hl
        cases hl
        have := ih (fun a ha => h a (by simp [ha])) h2
        have hq := h a (by simp) b h1
        cases hP : P a with
        | true =>
          rw [hP] at hq
          rw [List.filter_cons_of_pos hP, List.filter_cons_of_pos hq, List.mapM_cons, h1, this]
          rfl
        | false =>
          rw [hP] at hq
          rw [List.filter_cons_of_neg (by rw [hP]; simp), List.filter_cons_of_neg (by rw [hq]; simp), this]

/-- The first property of a name, in both alarms. -/
theorem first_same {K : Alm.Key} {ps ps' : Alm.Props}
    (h : List.Forall₂ SameP (ps.filter fun p => decide (p.key = K)) (ps'.filter fun p => decide (p.key = K))) :
    Alm.first K ps = none ∧ Alm.first K ps' = none ∨ ∃ p p', Alm.first K ps = some p ∧ Alm.first K ps' = some p' ∧ SameP p p' := by
  have hh : ∀ ps : Alm.Props, Alm.first K ps = (ps.filter fun p => decide (p.key = K)).head? := fun ps => by
    rw [List.head?_filter]; rfl
  rw [hh, hh]
  generalize (ps.filter fun p => decide (p.key = K)) = l at h
  generalize (ps'.filter fun p => decide (p.key = K)) = l' at h
  cases h with
  | nil => exact .inl ⟨rfl, rfl⟩
  | cons a _ => exact .inr ⟨_, _, rfl, rfl, a⟩

theorem string_same {K : Alm.Key} {ps ps' : Alm.Props}
    (h : List.Forall₂ SameP (ps.filter fun p => decide (p.key = K)) (ps'.filter fun p => decide (p.key = K))) :
    Alm.loadString K ps' = Alm.loadString K ps := by
  unfold Alm.loadString
  rcases first_same h with ⟨h1, h2⟩ | ⟨p, p', h1, h2, h3 | ⟨D, D', h3, h4, -⟩, -⟩
  · rw [h1, h2]
  · rw [h1, h2, Option.map_some, Option.map_some, h3]
  · rw [h1, h2, Option.map_some, Option.map_some, h3, h4]

theorem int_same {K : Alm.Key} {ps ps' : Alm.Props}
    (h : List.Forall₂ SameP (ps.filter fun p => decide (p.key = K)) (ps'.filter fun p => decide (p.key = K))) :
    Alm.loadInt K ps' = Alm.loadInt K ps := by
  unfold Alm.loadInt
  rcases first_same h with ⟨h1, h2⟩ | ⟨p, p', h1, h2, h3 | ⟨D, D', h3, h4, -⟩, -⟩
  · rw [h1, h2]
  · rw [h1, h2, Option.map_some, Option.map_some, h3]
  · rw [h1, h2, Option.map_some, Option.map_some, h3, h4]

theorem length_same {K : Alm.Key} {ps ps' : Alm.Props}
    (h : List.Forall₂ SameP (ps.filter fun p => decide (p.key = K)) (ps'.filter fun p => decide (p.key = K))) :
    Alm.loadDuration K ps' = Alm.loadDuration K ps ∨ ∃ D D' : Duration, Alm.loadDuration K ps = some D ∧ Alm.loadDuration K ps' = some D' ∧
      D'.totalSeconds = D.totalSeconds := by
  unfold Alm.loadDuration
  rcases first_same h with ⟨h1, h2⟩ | ⟨p, p', h1, h2, h3 | ⟨D, D', h3, h4, h5⟩, -⟩
  · rw [h1, h2]; exact .inl rfl
  · rw [h1, h2, Option.map_some, Option.map_some, h3]; exact .inl rfl
  · rw [h1, h2, Option.map_some, Option.map_some, h3, h4]; exact .inr ⟨D, D', rfl, rfl, h5⟩

theorem attendees_same {ps ps' : Alm.Props}
    (h : List.Forall₂ SameP (ps.filter fun p => decide (p.key = .attendee)) (ps'.filter fun p => decide (p.key = .attendee))) :
    Alm.attendees ps' = Alm.attendees ps := by
  have hh : ∀ ps : Alm.Props, Alm.attendees ps = (ps.filter fun p => decide (p.key = .attendee)).filterMap fun p =>
      match p.val with | .address s => some s | _ => none := by
    intro ps
    unfold Alm.attendees
    rw [List.filterMap_filter]
    congr 1
    funext p
    by_cases hp : p.key = .attendee
    · simp only [hp, if_true, decide_true]; cases p.val <;> rfl
    · simp [hp]
  rw [hh, hh]
  generalize (ps.filter fun p => decide (p.key = .attendee)) = l at h
  generalize (ps'.filter fun p => decide (p.key = .attendee)) = l' at h
  induction h with
  | nil => rfl
  | @cons p p' _ _ a _ ih =>
    rw [List.filterMap_cons, List.filterMap_cons, ih]
    rcases a.1 with h | ⟨D, D', h3, h4, -⟩
    · rw [h]
    · rw [h3, h4]

theorem trigger_same {ps ps' : Alm.Props}
    (h : List.Forall₂ SameP (ps.filter fun p => decide (p.key = .trigger)) (ps'.filter fun p => decide (p.key = .trigger))) :
    Alm.triggerIn ps' = Alm.triggerIn ps ∨ ∃ D D' : Duration, ∃ start, Alm.triggerIn ps = .inr (D, start) ∧
      Alm.triggerIn ps' = .inr (D', start) ∧ D'.totalSeconds = D.totalSeconds := by
  unfold Alm.triggerIn
  rcases first_same h with ⟨h1, h2⟩ | ⟨⟨k, v, r⟩, ⟨k', v', r'⟩, h1, h2, h3, h4⟩
  · rw [h1, h2]; exact .inl rfl
  · have hk : k = .trigger := by obtain ⟨_, _, _, h, _⟩ := Alm.first_iff.1 h1; exact h
    have hr : r' = r := h4 hk
    subst hr
    rw [h1, h2]
    rcases h3 with h3 | ⟨D, D', h3, h5, h6⟩
    · dsimp only at h3
      subst h3
      left
      cases v' <;> cases r' <;> rfl
    · dsimp only at h3 h5
      subst h3 h5
      right
      cases r' <;> exact ⟨D, D', _, rfl, rfl, h6⟩

/-- The keys that an alarm looks at, with their names. -/
def alarmKeys : List (Alm.Key × String) :=
  [(.action, "ACTION"), (.trigger, "TRIGGER"), (.repeat, "REPEAT"), (.duration, "DURATION"), (.alarmStatus, "X-MULBERRY-ALARM-STATUS"),
   (.speak, "X-MULBERRY-SPEAK-TEXT"), (.description, "DESCRIPTION"), (.summary, "SUMMARY"), (.attendee, "ATTENDEE"), (.url, "URL")]

theorem keyOf_iff {K : Alm.Key} {key : String} (h : (K, key) ∈ alarmKeys) (n : List Char) : keyOf n = K ↔ n = key.toList := by
  constructor
  · intro hk
    unfold keyOf at hk
    simp only [alarmKeys, List.mem_cons, Prod.mk.injEq, List.not_mem_nil, or_false] at h
    repeat' split at hk
    all_goals first
      | (subst hk; simp only [reduceCtorEq, false_and, false_or, or_false, true_and] at h; subst h; assumption)
      | (subst hk; simp at h)
  · rintro rfl
    have : ∀ a ∈ alarmKeys, keyOf a.2.toList = a.1 := by decide +kernel
    exact this _ h

theorem alarm_told {ps ps' : Alm.Props} (h : ∀ K key, (K, key) ∈ alarmKeys →
    List.Forall₂ SameP (ps.filter fun p => decide (p.key = K)) (ps'.filter fun p => decide (p.key = K))) :
    TellSame (Alm.VAlarm.fresh ps).told (Alm.VAlarm.fresh ps').told := by
  have hs : ∀ K key, (K, key) ∈ alarmKeys → Alm.loadString K ps' = Alm.loadString K ps := fun K key hk => string_same (h K key hk)
  have hact := hs .action "ACTION" (by decide +kernel)
  have hdata : ∀ a, Alm.loadAction a ps' = Alm.loadAction a ps := by
    intro a
    cases a
    · exact congrArg Alm.Data.audio (hs .speak "X-MULBERRY-SPEAK-TEXT" (by decide +kernel))
    · exact congrArg Alm.Data.display (hs .description "DESCRIPTION" (by decide +kernel))
    · show Alm.Data.email _ _ _ = Alm.Data.email _ _ _
      rw [hs .description "DESCRIPTION" (by decide +kernel), hs .summary "SUMMARY" (by decide +kernel),
        attendees_same (h .attendee "ATTENDEE" (by decide +kernel))]
    · rfl
    · rfl
    · exact congrArg Alm.Data.uri (hs .url "URL" (by decide +kernel))
    · rfl
  have hint := int_same (h .repeat "REPEAT" (by decide +kernel))
  have hlen := length_same (h .duration "DURATION" (by decide +kernel))
  have hst := hs .alarmStatus "X-MULBERRY-ALARM-STATUS" (by decide +kernel)
  rw [Alm.fresh_told, Alm.fresh_told]
  refine ⟨?_, ?_, trigger_same (h .trigger "TRIGGER" (by decide +kernel)), ?_, ?_⟩
  · dsimp only; rw [hact]
  · dsimp only; rw [hact]; simp only [hdata]
  · dsimp only
    rw [hint]
    by_cases hn : (Alm.loadInt .repeat ps).getD 0 > 0
    · rw [if_pos hn, if_pos hn]
      rcases hlen with h1 | ⟨D, D', h1, h2, h3⟩
      · rw [h1]; exact .inl rfl
      · rw [h1, h2]; exact .inr ⟨_, D, D', rfl, rfl, h3⟩
    · rw [if_neg hn, if_neg hn]; exact .inl rfl
  · dsimp only; rw [hst]

theorem valueIn_same {t : VType} {v v' : Value} (h : SameValue v v') :
    valueIn t v' = valueIn t v ∨ ∃ D D' : Duration, valueIn t v = .duration D ∧ valueIn t v' = .duration D' ∧ D'.totalSeconds = D.totalSeconds := by
  rcases h with rfl | ⟨D, D', rfl, rfl, h⟩
  · exact .inl rfl
  · exact .inr ⟨D, D', rfl, rfl, h⟩

/-- An alarm that is read again. -/
theorem alarm_same {e : Env} {c c' : Cont.Component} (h : SameComp e c c') (ho : OneRelated e c) :
    ∃ v v', alarmIn e c = some v ∧ alarmIn e c' = some v' ∧ TellSame v.told v'.told := by
  cases h with
  | @mk t ps ps' cs l cs' hp hl hcs =>
    obtain ⟨r1, r2⟩ := all_read hp
    have hread : ∀ {ps : List Cont.CProp}, (∀ p ∈ ps, ∃ q, readLine e p.text = some q ∧ q.name = p.name) →
        ∀ p ∈ ps, ∃ a, (fun p : Cont.CProp => propOf e p.text) p = some a := by
      intro ps h p hp
      obtain ⟨q, hq, -⟩ := h p hp
      exact ⟨_, propOf_read hq⟩
    obtain ⟨as, ha⟩ := mapM_some (hread r1)
    obtain ⟨as', ha'⟩ := mapM_some (hread r2)
    have hload : ∀ {t : List Char} {ps : List Cont.CProp} {cs : List Cont.Component} {as : List Alm.P},
        ps.mapM (fun p => propOf e p.text) = some as → alarmIn e (.mk t ps cs) = some (Alm.VAlarm.fresh as) := by
      intro t ps cs as h
      unfold alarmIn load
      rw [show (Cont.Component.mk t ps cs).props = ps from rfl, List.mapM_map]
      rw [show (propOf e ∘ Cont.CProp.text) = fun p : Cont.CProp => propOf e p.text from rfl, h]
      rfl
    refine ⟨_, _, hload ha, hload ha', alarm_told fun K key hK => ?_⟩
    have hfil : ∀ {ps : List Cont.CProp} {as : List Alm.P}, (∀ p ∈ ps, ∃ q, readLine e p.text = some q ∧ q.name = p.name) →
        ps.mapM (fun p => propOf e p.text) = some as → (ps.filter fun p => decide (p.key = key.toList)).mapM (fun p => propOf e p.text) =
          some (as.filter fun p => decide (p.key = K)) := by
      intro ps as hr h
      refine mapM_filter (fun p hp b hb => ?_) h
      obtain ⟨q, hq, hn⟩ := hr p hp
      rw [propOf_read hq] at hb
      cases hb
      exact decide_eq_decide.mpr (by rw [keyOf_iff hK, hn]; rfl)
    refine mapM_pairs (f := fun p : Cont.CProp => propOf e p.text) (R := SameP) ?_ (hfil r1 ha) (hfil r2 ha')
    have hp := hp key.toList
    have hmem : ∀ p ∈ ps.filter fun p => decide (p.key = key.toList), p ∈ ps ∧ p.key = key.toList := fun p h => by
      simpa using List.mem_filter.mp h
    generalize (ps.filter fun p => decide (p.key = key.toList)) = l1 at hp hmem
    generalize (ps'.filter fun p => decide (p.key = key.toList)) = l2 at hp
    induction hp with
    | nil => exact .nil
    | @cons p p' _ _ a _ ih =>
      refine .cons ?_ (ih fun p hp => hmem p (by simp [hp]))
      obtain ⟨q, q', h1, h2, h3, h4, h5, h6, h7, h8⟩ := a
      refine ⟨_, _, propOf_read h1, propOf_read h2, ?_, fun hk => ?_⟩
      · dsimp only
        rw [h8]
        exact valueIn_same h6
      · dsimp only at hk ⊢
        obtain ⟨hm, hmk⟩ := hmem p (by simp)
        have : p.key = "TRIGGER".toList := by
          have := (keyOf_iff (K := .trigger) (key := "TRIGGER") (by decide +kernel) _).mp hk
          rw [h3] at this
          exact this
        obtain ⟨v, hv⟩ := ho p hm this q h1
        exact h7 "RELATED" v (by decide +kernel) hv

end L148
open L148 L144 L137 AlarmRead

/-- C148 (partial), the alarms: as in `C148_same_partial`, and the alarms of the components that are read again tell the same as before.

Missing: as in `C148_same_partial`; several values for RELATED (`C148_fails_related`). -/
theorem C148_alarms_partial (s : Settings) (hT : Program ValueType.ical s.tables)
    (hfin : ∀ c, isRecur c.type = false → s.finishes c = true) (w : Writer) (hw : Closed s.toEnv w) (order : Cont.Order)
    (heq : ∀ a b, order.eq a b = true → a.type = b.type) (b1 b2 body : List (List Char)) (ps : List Cont.CProp)
    (ss : List Cont.Component) (h1 : Spec.Blank b1) (h2 : Spec.Blank b2) (hb : s.blankRaise = false ∨ b1 = [] ∧ b2 = [])
    (h : Spec.Body (container s) true "VCALENDAR".toList body ps ss) (hv : ∃ p ∈ ps, p.key = "VERSION".toList)
    (hps : ∀ p ∈ ps, GoodProp s.toEnv p) (hss : ∀ d ∈ ss, GoodComp s.toEnv d ∨ ∃ v, GoodEvent s.toEnv d v)
    (hzone : ∀ d ∈ ss, PropText.upper d.type = "VTIMEZONE".toList → d.type = "VTIMEZONE".toList)
    (hone : ∀ d ∈ ss, ∀ a ∈ d.subs, a.type = "VALARM".toList → OneRelated s.toEnv a) :
    ∃ c lines c', read s (b1 ++ "BEGIN:VCALENDAR".toList :: (body ++ "END:VCALENDAR".toList :: b2)) = .ok (some c) ∧
      written s.toEnv w order c = some lines ∧ read s lines = .ok (some c') ∧
      ∃ l, l.Perm c.subs ∧ List.Forall₂ (fun b b' => b'.type = b.type ∧ ∃ m, m.Perm b.subs ∧ List.Forall₂ (fun a a' => a'.type = a.type ∧
        (a.type = "VALARM".toList → ∃ v v', alarmIn s.toEnv a = some v ∧ alarmIn s.toEnv a' = some v' ∧ TellSame v.told v'.told))
        m b'.subs) l c'.subs := by
  obtain ⟨c, lines, c', k1, k2, k3, k4⟩ := C148_same_partial s hT hfin w hw order heq b1 b2 body ps ss h1 h2 hb h hv hps hss hzone
  have hread : read s (b1 ++ "BEGIN:VCALENDAR".toList :: (body ++ "END:VCALENDAR".toList :: b2)) =
      .ok (some (.mk "VCALENDAR".toList ps ss)) := (C40_calendar (container s) _ _).mpr
    ⟨C40_complete (container s) rfl b1 b2 body ps ss h1 h2 hb h hv, hzone⟩
  rw [hread] at k1
  cases k1
  refine ⟨_, lines, c', hread, k2, k3, ?_⟩
  cases k4 with
  | @mk _ _ ps' _ l cs' hp hl hcs =>
    refine ⟨l, hl, ?_⟩
    have hmem : ∀ c ∈ l, c ∈ ss := fun c hc => hl.subset hc
    show List.Forall₂ _ l cs'
    clear k2 k3 hread hl hp
    induction hcs with
    | nil => exact .nil
    | @cons a b m cs'' g1 _ ih2 =>
      refine .cons ⟨comp_type g1, ?_⟩ (ih2 fun c hc => hmem c (by simp [hc]))
      have ho := hone a (hmem a (by simp))
      cases g1 with
      | @mk _ _ _ _ n ds hq hn hds =>
        refine ⟨n, hn, ?_⟩
        have hsub : ∀ c ∈ n, OneRelated s.toEnv c ∨ c.type ≠ "VALARM".toList := fun c hc => by
          by_cases ht : c.type = "VALARM".toList
          · exact .inl (ho c (hn.subset hc) ht)
          · exact .inr ht
        show List.Forall₂ _ n ds
        clear hn hq
        induction hds with
        | nil => exact .nil
        | @cons x y _ _ g2 _ ih3 =>
          refine .cons ⟨comp_type g2, fun ht => ?_⟩ (ih3 fun c hc => hsub c (by simp [hc]))
          exact alarm_same g2 ((hsub x (by simp)).resolve_right fun h => h ht)

/-! ## A case -/

namespace L148
open L132 L137 L144 L146 ValueType PropText

/-- The alarm of C146. -/
def reminderIn : Cont.Component := .mk "VALARM".toList (reminder.map fun l => ⟨l.name, l.text⟩) []

/-- A thing to do, with the alarm. -/
def reminded : Cont.Component := .mk "VTODO".toList [⟨"UID".toList, "UID:2".toList⟩] [reminderIn]

theorem reminder_good : GoodComp L137.plain.toEnv reminderIn := by
  refine .mk (fun p hp => ?_) (fun h => absurd h (by decide +kernel)) (by simp)
  obtain ⟨l, hl, rfl⟩ := List.mem_map.mp hp
  refine ⟨l, rfl, rfl, ?_⟩
  simp only [reminder, List.mem_cons, List.not_mem_nil, or_false] at hl
  rcases hl with rfl | rfl | rfl | rfl | rfl
  · exact good_line (by decide +kernel) (text_typed (by decide +kernel) (by decide +kernel))
  · refine ⟨⟨⟨by decide +kernel, by decide +kernel⟩, by simp, ?_⟩, by decide +kernel, ⟨by decide +kernel, by simp⟩,
      .length (k := -900) (.inr (by decide +kernel)) ⟨⟨none, .none (by simp only [List.mem_singleton, forall_eq]; decide +kernel), .inl rfl⟩, ?_⟩⟩
    · intro p hp
      rw [List.mem_singleton] at hp
      subst hp
      refine ⟨⟨by decide +kernel, by decide +kernel⟩, fun v hv => ?_⟩
      simp only [ShownParam.values, List.mem_singleton] at hv
      subst hv
      show ∀ c ∈ "END".toList, _
      decide +kernel
    · dsimp only
      rw [show "-PT15M".toList = '-' :: 'P' :: 'T' :: (['1', '5'] ++ ['M']) by decide +kernel]
      exact .minus (k := 900) (.time (.minute (.bare (digits ['1', '5'] 15 (by decide +kernel)))))
  · refine good_line (by decide +kernel) (.text (s := "a\nb".toList) (by decide +kernel) ⟨no_type _ _ _, ?_⟩)
    rw [show (line "DESCRIPTION" "a\\nb").value = ['a', '\\', 'n', 'b'] by decide +kernel, show "a\nb".toList = ['a', '\n', 'b'] by decide +kernel]
    exact .plain _ (by decide) (.break_ _ (.inl rfl) (.plain _ (by decide) .nil))
  · exact good_line (by decide +kernel) (.number (n := 2) (by decide +kernel) (no_type _ _ _) (.plain (digits _ 2 (by decide +kernel))))
  · refine good_line (by decide +kernel) (.length (k := 300) (.inl (by decide +kernel)) ⟨no_type _ _ _, ?_⟩)
    rw [show (line "DURATION" "PT5M").value = 'P' :: 'T' :: (['5'] ++ ['M']) by decide +kernel]
    exact .plain (k := 300) (.time (.minute (.bare (digits ['5'] 5 (by decide +kernel)))))

theorem reminded_good : GoodComp L137.plain.toEnv reminded := by
  refine .mk (fun p hp => ?_) (by decide +kernel) (fun c hc => ?_)
  · rw [List.mem_singleton] at hp
    subst hp
    exact ⟨line "UID" "2", by decide +kernel, by decide +kernel, good_line (by decide +kernel) (text_typed (by decide +kernel) (by decide +kernel))⟩
  · rw [List.mem_singleton] at hc
    subst hc
    exact reminder_good

/-- A calendar with the alarm. -/
def withReminder : List (List Char) :=
  "VERSION:2.0".toList :: ("BEGIN:".toList ++ "VTODO".toList) :: (("UID:2".toList :: ("BEGIN:".toList ++ "VALARM".toList) ::
    (reminder.map ContentLine.text ++ ("END:".toList ++ "VALARM".toList) :: [])) ++ ("END:".toList ++ "VTODO".toList) :: [])

theorem reminded_body : Spec.Body (container L137.plain) true "VCALENDAR".toList withReminder [⟨"VERSION".toList, "VERSION:2.0".toList⟩] [reminded] :=
  have inner : Spec.Body (container L137.plain) false "VTODO".toList ("UID:2".toList :: ("BEGIN:".toList ++ "VALARM".toList) ::
      (reminder.map ContentLine.text ++ ("END:".toList ++ "VALARM".toList) :: [])) [⟨"UID".toList, "UID:2".toList⟩] [reminderIn] :=
    .prop (by decide +kernel) (by decide +kernel) (by decide +kernel) (by decide +kernel) (by simp)
      (.comp "VALARM".toList (by decide +kernel) (by decide +kernel) (by decide +kernel) (by decide +kernel)
        (lines_body (by decide +kernel)) .nil)
  .prop (by decide +kernel) (by decide +kernel) (by decide +kernel) (by decide +kernel) (by decide +kernel)
    (.comp "VTODO".toList (by decide +kernel) (by decide +kernel) (by decide +kernel) (by decide +kernel) inner .nil)

end L148

/-- The conditions of C148 are met by a calendar with the alarm of C146, which goes off a quarter of an hour before the end also when it is
read again. -/
example : ∃ c lines c', read L137.plain ([] ++ "BEGIN:VCALENDAR".toList :: (withReminder ++ "END:VCALENDAR".toList :: [])) = .ok (some c) ∧
    written L137.plain.toEnv asWas asRead c = some lines ∧ read L137.plain lines = .ok (some c') ∧
    ∃ b ∈ c'.subs, ∃ a ∈ b.subs, ∃ v D, alarmIn L137.plain.toEnv a = some v ∧ v.told.trigger = .inr (D, false) ∧ D.totalSeconds = -900 := by
  obtain ⟨c, lines, c', k1, k2, k3, l, k4, k5⟩ := C148_alarms_partial L137.plain .base (fun _ _ => rfl) asWas (fun _ _ _ => rfl) asRead
    (fun _ _ h => by cases h) [] [] withReminder _ _ (by simp [Spec.Blank]) (by simp [Spec.Blank]) (.inl rfl) reminded_body
    ⟨⟨"VERSION".toList, "VERSION:2.0".toList⟩, by simp, by decide +kernel⟩ (by
      intro p hp
      simp only [List.mem_cons, List.not_mem_nil, or_false] at hp
      subst hp
      exact ⟨L132.line "VERSION" "2.0", by decide +kernel, rfl, good_line (by decide +kernel) (text_typed (by decide +kernel) (by decide +kernel))⟩)
    (by
      intro d hd
      rw [List.mem_singleton] at hd
      subst hd
      exact .inl reminded_good)
    (by decide +kernel) (by
      intro d hd a ha _
      rw [List.mem_singleton] at hd
      subst hd
      have ha : a = reminderIn := List.mem_singleton.mp ha
      subst ha
      intro p hp hk q hq
      have := (by decide +kernel : ∀ p ∈ reminderIn.props, ((readLine L137.plain.toEnv p.text).all fun q =>
          q.params.all fun a => decide (a.key = "RELATED".toList → a.values = ["END".toList])) = true) p hp
      rw [hq] at this
      exact ⟨"END".toList, fun a ha => of_decide_eq_true (List.all_eq_true.mp this a ha)⟩)
  have hread : read L137.plain ([] ++ "BEGIN:VCALENDAR".toList :: (withReminder ++ "END:VCALENDAR".toList :: [])) =
      .ok (some (.mk "VCALENDAR".toList [⟨"VERSION".toList, "VERSION:2.0".toList⟩] [reminded])) :=
    (C40_calendar (container L137.plain) _ _).mpr ⟨C40_complete (container L137.plain) rfl [] [] withReminder _ _ (by simp [Spec.Blank])
      (by simp [Spec.Blank]) (.inl rfl) reminded_body ⟨⟨"VERSION".toList, "VERSION:2.0".toList⟩, by simp, by decide +kernel⟩,
      by decide +kernel⟩
  refine ⟨c, lines, c', k1, k2, k3, ?_⟩
  rw [hread] at k1
  cases k1
  obtain ⟨b, hb, -, m, m1, m2⟩ := forall₂_left k5 (k4.symm.subset (show reminded ∈ _ by simp [Cont.Component.subs]))
  obtain ⟨a, ha, -, hv⟩ := forall₂_left m2 (m1.symm.subset (show reminderIn ∈ _ by simp [Cont.Component.subs, reminded]))
  obtain ⟨v, v', e1, e2, e3⟩ := hv rfl
  have h : (alarmIn L137.plain.toEnv reminderIn).map (fun v => match v.told.trigger with
      | .inr (D, false) => D.totalSeconds | _ => 0) = some (-900) := by decide +kernel
  rw [e1, Option.map_some] at h
  have h := Option.some.inj h
  refine ⟨b, hb, a, ha, v', ?_⟩
  rcases e3.trigger with e | ⟨D, D', start, t1, t2, t3⟩
  · rw [← e] at h
    split at h
    · next D ht => exact ⟨D, e2, ht, h⟩
    · cases h
  · rw [t1] at h
    cases start with
    | true => cases h
    | false => exact ⟨D', e2, t2, t3.trans h⟩

/-- When the alarm of the component that comes first goes off: whether from the start. -/
def L148.fromStart (lines : List (List Char)) : Option Bool :=
  match read L137.plain lines with
  | .ok (some c) => c.subs.head?.bind fun b => b.subs.head?.bind fun a => (alarmIn L137.plain.toEnv a).bind fun v =>
      match v.told.trigger with
      | .inr (_, start) => some start
      | _ => none
  | _ => none

/-- C148 fails: of several values for RELATED (which the standard does not allow) the first counts, and they are sorted when they are
written: an alarm at the start is at the end afterwards. -/
theorem C148_fails_related :
    fromStart (doc ["BEGIN:VTODO", "UID:1", "BEGIN:VALARM", "ACTION:DISPLAY", "TRIGGER;RELATED=START,END:PT0S", "END:VALARM", "END:VTODO"]) = some true ∧
    fromStart (rewritten (doc ["BEGIN:VTODO", "UID:1", "BEGIN:VALARM", "ACTION:DISPLAY", "TRIGGER;RELATED=START,END:PT0S", "END:VALARM", "END:VTODO"])) =
      some false :=
  ⟨by decide +kernel, by decide +kernel⟩

end PyCal
