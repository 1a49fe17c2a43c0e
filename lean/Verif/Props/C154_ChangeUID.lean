import Verif.Model.ChangeUID
import Verif.Props.C151_TimesWritten

/-!
# C154: a UID that is changed in a calendar is written
-/

namespace PyCal
open DateTime Spec Spec.EventText Spec.CalendarText EventRead CalendarRead Rewrite

/-- The component has the new UID if it had the old one, and all else is as it was. -/
structure UIDChanged (e : Env) (old new : List Char) (d d' : Cont.Component) : Prop where
  type : d'.type = d.type
  uid : EditLines.uidIn e d' = if EditLines.uidIn e d = some old then some new else EditLines.uidIn e d
  others : ∀ key, key ≠ "UID".toList → List.Forall₂ (L148.SameProp e) (d.props.filter fun p => decide (p.key = key))
    (d'.props.filter fun p => decide (p.key = key))
  subs : ∃ l, l.Perm d.subs ∧ List.Forall₂ (L148.SameComp e) l d'.subs

namespace L154
open L132 L137 L142 L144 L148 L149 L150 L151 ValueType PropText EditLines

theorem uid_same {e : Env} {d d' : Cont.Component} (h : SameComp e d d') : uidIn e d' = uidIn e d := by
  cases h with
  | @mk t ps ps' cs l cs' hp hl hcs =>
    obtain ⟨r1, r2⟩ := all_read hp
    obtain ⟨qs, hq⟩ := mapM_some (f := fun p : Cont.CProp => readLine e p.text) (l := ps) fun p hp => (r1 p hp).imp fun _ h => h.1
    obtain ⟨qs', hq'⟩ := mapM_some (f := fun p : Cont.CProp => readLine e p.text) (l := ps') fun p hp => (r2 p hp).imp fun _ h => h.1
    have hfil : ∀ {ps : List Cont.CProp} {qs : List RProp}, (∀ p ∈ ps, ∃ q, readLine e p.text = some q ∧ q.name = p.name) →
        (ps.mapM fun p => readLine e p.text) = some qs → (ps.filter fun p => decide (p.key = "UID".toList)).mapM (fun p => readLine e p.text) =
          some (qs.filter fun q => decide (upper q.name = "UID".toList)) := by
      intro ps qs hr h
      refine mapM_filter (fun p hp b hb => ?_) h
      obtain ⟨q, h1, h2⟩ := hr p hp
      rw [h1] at hb
      cases hb
      exact decide_eq_decide.mpr (by rw [h2]; rfl)
    have hpair := mapM_pairs (f := fun p : Cont.CProp => readLine e p.text) (R := fun q q' : RProp => SameValue q.value q'.value)
      (List.Forall₂.imp (fun p p' h => by
        obtain ⟨q, q', h1, h2, -, -, -, h3, -⟩ := h
        exact ⟨q, q', h1, h2, h3⟩) (hp "UID".toList)) (hfil r1 hq) (hfil r2 hq')
    unfold uidIn
    rw [show (Cont.Component.mk t ps cs).props = ps from rfl, show (Cont.Component.mk t ps' cs').props = ps' from rfl, hq, hq', Option.map_some,
      Option.map_some]
    unfold values
    generalize (qs.filter fun q => decide (upper q.name = "UID".toList)) = a at hpair
    generalize (qs'.filter fun q => decide (upper q.name = "UID".toList)) = b at hpair
    cases hpair with
    | nil => rfl
    | @cons q q' _ _ h _ =>
      simp only [List.map_cons, List.head?_cons]
      rcases h with h | ⟨D, D', h1, h2, -⟩
      · rw [h]
      · rw [h1, h2]

theorem uid_made {e : Env} (hT : Program ical e.tables) (u : List Char) : MadeAs e (made e "UID" (.text u)) "UID" (.text u) :=
  made_text (K := .uid) hT (by decide +kernel) u

theorem uid_changed {e : Env} (hT : Program ical e.tables) {old new : List Char} {d d' : Cont.Component}
    (h : SameComp e (changeOne e old new d) d') : UIDChanged e old new d d' := by
  unfold changeOne at h
  by_cases hu : uidIn e d = some old
  · rw [if_pos hu] at h
    obtain ⟨t, ps, cs⟩ := d
    have h : SameComp e (.mk t (EditLines.remove "UID" ps ++ [made e "UID" (.text new)]) cs) d' := h
    obtain ⟨m1, m2, q, m3, m4, m5⟩ := uid_made hT new
    have hkey : (made e "UID" (.text new)).key = "UID".toList := by
      unfold Cont.CProp.key
      rw [m2]
      decide +kernel
    obtain ⟨qs, r1, r2, r3⟩ := values_again h
    obtain ⟨v, v1, v2⟩ := (r3 "UID").2 _ q (by
      rw [List.filter_append, List.filter_cons_of_pos (by simpa using hkey), List.filter_nil]
      unfold EditLines.remove
      rw [List.filter_filter, List.filter_eq_nil_iff.mpr (by simp)]
      rfl) m3
    refine ⟨r2, ?_, fun key hk => ?_, ?_⟩
    · rw [if_pos hu]
      unfold uidIn
      rw [r1, Option.map_some, v1, List.head?_cons]
      rcases v2 with h | ⟨D, D', h1, -⟩
      · rw [h, m5]
      · rw [m5] at h1; cases h1
    · cases h with
      | @mk _ _ ps' _ l cs' hp hl hcs =>
        have := hp key
        rw [List.filter_append, List.filter_cons_of_neg (by rw [hkey]; simpa using Ne.symm hk), List.filter_nil, List.append_nil] at this
        unfold EditLines.remove at this
        rw [List.filter_filter, List.filter_congr (q := fun p => decide (p.key = key)) (fun p _ => by
          by_cases hp : p.key = key
          · rw [hp, decide_eq_true hk, Bool.and_true]
          · rw [decide_eq_false hp, Bool.false_and])] at this
        exact this
    · cases h with
      | @mk _ _ ps' _ l cs' hp hl hcs => exact ⟨l, hl, hcs⟩
  · rw [if_neg hu] at h
    refine ⟨comp_type h, by rw [if_neg hu]; exact uid_same h, ?_, ?_⟩
    · cases h with
      | mk hp hl hcs => exact fun key _ => hp key
    · cases h with
      | @mk _ _ ps' _ l cs' hp hl hcs => exact ⟨l, hl, hcs⟩

theorem one_good {e : Env} (hT : Program ical e.tables) {old new : List Char} {d : Cont.Component} (h : GoodComp e d) :
    GoodComp e (changeOne e old new d) := by
  unfold changeOne
  by_cases hu : uidIn e d = some old
  · rw [if_pos hu]
    cases h with
    | @mk t ps cs a b c =>
      obtain ⟨m1, m2, -⟩ := uid_made hT new
      have hmem : ∀ p ∈ EditLines.remove "UID" ps ++ [made e "UID" (.text new)], p ∈ ps ∨ p = made e "UID" (.text new) := by
        intro p hp
        rcases List.mem_append.mp hp with hp | hp
        · exact .inl (List.mem_filter.mp hp).1
        · exact .inr (List.mem_singleton.mp hp)
      refine .mk (fun p hp => ?_) (fun hr p hp => ?_) c
      · rcases hmem p hp with hp | rfl
        · exact a p hp
        · exact m1
      · rcases hmem p hp with hp | rfl
        · exact b hr p hp
        · unfold Cont.CProp.key
          rw [m2]
          decide +kernel
  · rw [if_neg hu]
    exact h

theorem one_formed {e : Env} {old new : List Char} {d : Cont.Component} (h : Formed d) :
    Formed (changeOne e old new d) ∧ (changeOne e old new d).type = d.type := by
  unfold changeOne
  by_cases hu : uidIn e d = some old
  · rw [if_pos hu]
    cases h with
    | mk a b c d => exact ⟨.mk a b c d, rfl⟩
  · rw [if_neg hu]
    exact ⟨h, rfl⟩

end L154
open L132 L137 L142 L144 L148 L149 L150 L151 L154

/-- C154 (partial): a calendar is read, the UID of its components is changed with `changeUID`, and it is written and read again.  Then the
components with the old UID have the new one, the others the UID that they had, and all else is as it was; the components are as many as
before.

Missing: as in `C148_same_partial`; components with the old UID and a RECURRENCE-ID; a new UID that is empty. -/
theorem C154_changed_partial (s : Settings) (hT : Program ValueType.ical s.tables)
    (hfin : ∀ c, isRecur c.type = false → s.finishes c = true) (w : Writer) (hw : Closed s.toEnv w) (order : Cont.Order)
    (heq : ∀ a b, order.eq a b = true → a.type = b.type) (b1 b2 body : List (List Char)) (ps : List Cont.CProp) (ss : List Cont.Component)
    (h1 : Spec.Blank b1) (h2 : Spec.Blank b2) (hb : s.blankRaise = false ∨ b1 = [] ∧ b2 = [])
    (h : Spec.Body (container s) true "VCALENDAR".toList body ps ss) (hv : ∃ p ∈ ps, p.key = "VERSION".toList)
    (hps : ∀ p ∈ ps, GoodProp s.toEnv p) (old new : List Char) (_hnew : new ≠ [])
    (hss : ∀ d ∈ ss, GoodComp s.toEnv d ∨ EditLines.uidIn s.toEnv d ≠ some old ∧ ∃ v, GoodEvent s.toEnv d v)
    (hzone : ∀ d ∈ ss, PropText.upper d.type = "VTIMEZONE".toList → d.type = "VTIMEZONE".toList) :
    ∃ a lines c, read s (b1 ++ "BEGIN:VCALENDAR".toList :: (body ++ "END:VCALENDAR".toList :: b2)) = .ok (some a) ∧
      written s.toEnv w order (EditLines.changeUID s.toEnv old new a) = some lines ∧ read s lines = .ok (some c) ∧
      (∀ key, List.Forall₂ (SameProp s.toEnv) (a.props.filter fun p => decide (p.key = key)) (c.props.filter fun p => decide (p.key = key))) ∧
      ∃ l, l.Perm a.subs ∧ List.Forall₂ (UIDChanged s.toEnv old new) l c.subs := by
  have hread : read s (b1 ++ "BEGIN:VCALENDAR".toList :: (body ++ "END:VCALENDAR".toList :: b2)) = .ok (some (.mk "VCALENDAR".toList ps ss)) :=
    (C40_calendar (container s) _ _).mpr ⟨C40_complete (container s) rfl b1 b2 body ps ss h1 h2 hb h hv, hzone⟩
  obtain ⟨lines, c, k1, k2, k3⟩ := again_sound hT hfin hw heq (ps := ps) (ss := ss.map (EditLines.changeOne s.toEnv old new))
    (L145.read_valid hread).1 hv hps
    (by
      intro b hb
      obtain ⟨d, hd, rfl⟩ := List.mem_map.mp hb
      refine ⟨(one_formed (body_formed h d hd).2).1, ?_⟩
      rcases hss d hd with g | ⟨g1, g2⟩
      · exact .inl (one_good hT g)
      · unfold EditLines.changeOne
        rw [if_neg g1]
        exact .inr ⟨(body_sound h).2 d hd, g2⟩)
    (by
      intro b hb
      obtain ⟨d, hd, rfl⟩ := List.mem_map.mp hb
      rw [(one_formed (body_formed h d hd).2).2]
      exact hzone d hd)
  refine ⟨_, lines, c, hread, k1, k2, ?_⟩
  cases k3 with
  | @mk _ _ qs _ l cs hp hl hcs =>
    obtain ⟨m, hm, rfl⟩ := L142.perm_map hl
    rw [List.forall₂_map_left_iff] at hcs
    exact ⟨hp, m, hm, hcs.imp fun _ _ g => uid_changed hT g⟩

/-! ## A case -/

/-- The conditions of C154 are met by a calendar with an event whose UID is 2; it is then "a;b". -/
example : ∃ a lines c, read L137.plain ([] ++ "BEGIN:VCALENDAR".toList :: (withShort ++ "END:VCALENDAR".toList :: [])) = .ok (some a) ∧
    written L137.plain.toEnv asWas asRead (EditLines.changeUID L137.plain.toEnv "2".toList "a;b".toList a) = some lines ∧
    read L137.plain lines = .ok (some c) ∧ ∃ d, c.subs = [d] ∧ EditLines.uidIn L137.plain.toEnv d = some "a;b".toList := by
  have hread : read L137.plain ([] ++ "BEGIN:VCALENDAR".toList :: (withShort ++ "END:VCALENDAR".toList :: [])) =
      .ok (some (.mk "VCALENDAR".toList [⟨"VERSION".toList, "VERSION:2.0".toList⟩] [.mk "VEVENT".toList short []])) :=
    (C40_calendar (container L137.plain) _ _).mpr ⟨C40_complete (container L137.plain) rfl [] [] withShort _ _ (by simp [Spec.Blank])
      (by simp [Spec.Blank]) (.inl rfl) short_body ⟨⟨"VERSION".toList, "VERSION:2.0".toList⟩, by simp, by decide +kernel⟩,
      by decide +kernel⟩
  obtain ⟨a, lines, c, k1, k2, k3, -, l, k5, k6⟩ := C154_changed_partial L137.plain .base (fun _ _ => rfl) asWas (fun _ _ _ => rfl) asRead
      (fun _ _ h => by cases h) [] [] withShort _ _ (by simp [Spec.Blank]) (by simp [Spec.Blank]) (.inl rfl) short_body
      ⟨⟨"VERSION".toList, "VERSION:2.0".toList⟩, by simp, by decide +kernel⟩ version_good "2".toList "a;b".toList (by decide +kernel) (by
        intro d hd
        rw [List.mem_singleton] at hd
        subst hd
        exact .inl short_good) (by decide +kernel)
  refine ⟨a, lines, c, k1, k2, k3, ?_⟩
  rw [hread] at k1
  cases k1
  rw [show l = [.mk "VEVENT".toList short []] from List.perm_singleton.mp k5] at k6
  generalize c.subs = cs at k6
  cases k6 with
  | @cons _ d _ _ g1 g2 =>
    cases g2
    refine ⟨d, rfl, ?_⟩
    rw [g1.uid, if_pos (by decide +kernel)]

end PyCal
