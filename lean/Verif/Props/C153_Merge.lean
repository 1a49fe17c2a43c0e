import Verif.Model.Merge
import Verif.Props.C151_TimesWritten

/-!
# C153: components that are added to a calendar and removed from it
-/

namespace PyCal
open DateTime Spec Spec.EventText Spec.CalendarText EventRead CalendarRead Rewrite

namespace L153

theorem addAll_mk (t : List Char) (ps : List Cont.CProp) (cs ds : List Cont.Component) : Merge.addAll (.mk t ps cs) ds = .mk t ps (cs ++ ds) := by
  induction ds generalizing cs with
  | nil => rw [List.append_nil]; rfl
  | cons d ds ih => exact (ih (cs ++ [d])).trans (by rw [List.append_assoc]; rfl)

end L153
open L132 L137 L142 L144 L148 L149 L150 L151 L153

/-- C153 (partial), two calendars in one: two calendars are read, and the components of the one are added to the other, which is written and
read again.  It then has the components of both, each as often as before, and the properties that it had.

Missing: as in `C148_same_partial`. -/
theorem C153_added_partial (s : Settings) (hT : Program ValueType.ical s.tables)
    (hfin : ∀ c, isRecur c.type = false → s.finishes c = true) (w : Writer) (hw : Closed s.toEnv w) (order : Cont.Order)
    (heq : ∀ a b, order.eq a b = true → a.type = b.type) (b1 b2 body : List (List Char)) (ps : List Cont.CProp) (ss : List Cont.Component)
    (h1 : Spec.Blank b1) (h2 : Spec.Blank b2) (hb : s.blankRaise = false ∨ b1 = [] ∧ b2 = [])
    (h : Spec.Body (container s) true "VCALENDAR".toList body ps ss) (hv : ∃ p ∈ ps, p.key = "VERSION".toList)
    (hps : ∀ p ∈ ps, GoodProp s.toEnv p) (hss : ∀ d ∈ ss, GoodComp s.toEnv d ∨ ∃ v, GoodEvent s.toEnv d v)
    (hzone : ∀ d ∈ ss, PropText.upper d.type = "VTIMEZONE".toList → d.type = "VTIMEZONE".toList)
    (b1' b2' body' : List (List Char)) (ps' : List Cont.CProp) (ss' : List Cont.Component)
    (h1' : Spec.Blank b1') (h2' : Spec.Blank b2') (hb' : s.blankRaise = false ∨ b1' = [] ∧ b2' = [])
    (h' : Spec.Body (container s) true "VCALENDAR".toList body' ps' ss') (hv' : ∃ p ∈ ps', p.key = "VERSION".toList)
    (hss' : ∀ d ∈ ss', GoodComp s.toEnv d ∨ ∃ v, GoodEvent s.toEnv d v)
    (hzone' : ∀ d ∈ ss', PropText.upper d.type = "VTIMEZONE".toList → d.type = "VTIMEZONE".toList) :
    ∃ a b lines c, read s (b1 ++ "BEGIN:VCALENDAR".toList :: (body ++ "END:VCALENDAR".toList :: b2)) = .ok (some a) ∧
      read s (b1' ++ "BEGIN:VCALENDAR".toList :: (body' ++ "END:VCALENDAR".toList :: b2')) = .ok (some b) ∧
      written s.toEnv w order (Merge.addAll a b.subs) = some lines ∧ read s lines = .ok (some c) ∧
      (∀ key, List.Forall₂ (SameProp s.toEnv) (a.props.filter fun p => decide (p.key = key)) (c.props.filter fun p => decide (p.key = key))) ∧
      ∃ l, l.Perm (a.subs ++ b.subs) ∧ List.Forall₂ (SameComp s.toEnv) l c.subs := by
  have hread : read s (b1 ++ "BEGIN:VCALENDAR".toList :: (body ++ "END:VCALENDAR".toList :: b2)) = .ok (some (.mk "VCALENDAR".toList ps ss)) :=
    (C40_calendar (container s) _ _).mpr ⟨C40_complete (container s) rfl b1 b2 body ps ss h1 h2 hb h hv, hzone⟩
  have hread' : read s (b1' ++ "BEGIN:VCALENDAR".toList :: (body' ++ "END:VCALENDAR".toList :: b2')) = .ok (some (.mk "VCALENDAR".toList ps' ss')) :=
    (C40_calendar (container s) _ _).mpr ⟨C40_complete (container s) rfl b1' b2' body' ps' ss' h1' h2' hb' h' hv', hzone'⟩
  obtain ⟨lines, c, k1, k2, k3⟩ := again_sound hT hfin hw heq (ps := ps) (ss := ss ++ ss') (L145.read_valid hread).1 hv hps
    (by
      intro d hd
      rcases List.mem_append.mp hd with hd | hd
      · exact ⟨(body_formed h d hd).2, (hss d hd).imp_right fun g => ⟨(body_sound h).2 d hd, g⟩⟩
      · exact ⟨(body_formed h' d hd).2, (hss' d hd).imp_right fun g => ⟨(body_sound h').2 d hd, g⟩⟩)
    (fun d hd => (List.mem_append.mp hd).elim (hzone d) (hzone' d))
  refine ⟨_, _, lines, c, hread, hread', ?_, k2, ?_⟩
  · rw [addAll_mk]
    exact k1
  · cases k3 with
    | @mk _ _ qs _ l cs hp hl hcs => exact ⟨hp, l, hl, hcs⟩

/-- C153 (partial), components that are removed: after `removeAllComponent` the calendar that is written and read again has none of the
components of this type, and all others.

Missing: as in `C148_same_partial`; that `removeAllComponent` returns is C122. -/
theorem C153_removed_partial (s : Settings) (hT : Program ValueType.ical s.tables)
    (hfin : ∀ c, isRecur c.type = false → s.finishes c = true) (w : Writer) (hw : Closed s.toEnv w) (order : Cont.Order)
    (heq : ∀ a b, order.eq a b = true → a.type = b.type) (b1 b2 body : List (List Char)) (ps : List Cont.CProp) (ss : List Cont.Component)
    (h1 : Spec.Blank b1) (h2 : Spec.Blank b2) (hb : s.blankRaise = false ∨ b1 = [] ∧ b2 = [])
    (h : Spec.Body (container s) true "VCALENDAR".toList body ps ss) (hv : ∃ p ∈ ps, p.key = "VERSION".toList)
    (hps : ∀ p ∈ ps, GoodProp s.toEnv p) (name : List Char)
    (hss : ∀ d ∈ ss, (GoodComp s.toEnv d ∨ ∃ v, GoodEvent s.toEnv d v) ∨ name = [] ∨ PropText.upper d.type = PropText.upper name)
    (hzone : ∀ d ∈ ss, PropText.upper d.type = "VTIMEZONE".toList → d.type = "VTIMEZONE".toList) :
    ∃ a lines c, read s (b1 ++ "BEGIN:VCALENDAR".toList :: (body ++ "END:VCALENDAR".toList :: b2)) = .ok (some a) ∧
      written s.toEnv w order (Merge.removeAll name a) = some lines ∧ read s lines = .ok (some c) ∧
      (∀ key, List.Forall₂ (SameProp s.toEnv) (a.props.filter fun p => decide (p.key = key)) (c.props.filter fun p => decide (p.key = key))) ∧
      (name = [] → c.subs = []) ∧ (∀ d ∈ c.subs, PropText.upper d.type ≠ PropText.upper name) ∧
      (name ≠ [] → ∃ l, l.Perm (a.subs.filter fun d => decide (PropText.upper d.type ≠ PropText.upper name)) ∧
        List.Forall₂ (SameComp s.toEnv) l c.subs) := by
  have hread : read s (b1 ++ "BEGIN:VCALENDAR".toList :: (body ++ "END:VCALENDAR".toList :: b2)) = .ok (some (.mk "VCALENDAR".toList ps ss)) :=
    (C40_calendar (container s) _ _).mpr ⟨C40_complete (container s) rfl b1 b2 body ps ss h1 h2 hb h hv, hzone⟩
  have hmem : ∀ d ∈ (if name = [] then [] else ss.filter fun d => decide (PropText.upper d.type ≠ PropText.upper name)),
      d ∈ ss ∧ name ≠ [] ∧ PropText.upper d.type ≠ PropText.upper name := by
    intro d hd
    by_cases hn : name = []
    · rw [if_pos hn] at hd; cases hd
    · rw [if_neg hn] at hd
      obtain ⟨g1, g2⟩ := List.mem_filter.mp hd
      exact ⟨g1, hn, of_decide_eq_true g2⟩
  obtain ⟨lines, c, k1, k2, k3⟩ := again_sound hT hfin hw heq (ps := ps)
    (ss := if name = [] then [] else ss.filter fun d => decide (PropText.upper d.type ≠ PropText.upper name)) (L145.read_valid hread).1 hv hps
    (by
      intro d hd
      obtain ⟨g1, g2, g3⟩ := hmem d hd
      exact ⟨(body_formed h d g1).2, ((hss d g1).resolve_right (by simp [g2, g3])).imp_right fun g => ⟨(body_sound h).2 d g1, g⟩⟩)
    (fun d hd => hzone d (hmem d hd).1)
  refine ⟨_, lines, c, hread, k1, k2, ?_⟩
  cases k3 with
  | @mk _ _ qs _ l cs hp hl hcs =>
    refine ⟨hp, fun hn => ?_, fun d hd => ?_, fun hn => ⟨l, ?_, hcs⟩⟩
    · rw [if_pos hn] at hl
      rw [List.perm_nil.mp hl] at hcs
      cases hcs
      rfl
    · obtain ⟨b, hb, hbd⟩ := forall₂_right hcs hd
      rw [comp_type hbd]
      exact (hmem b (hl.subset hb)).2.2
    · rw [if_neg hn] at hl
      exact hl

/-! ## Cases -/

/-- The conditions of C153 are met: a to-do with an alarm is added to a calendar with an event, and removed from its own. -/
example : (∃ a b lines c, read L137.plain ([] ++ "BEGIN:VCALENDAR".toList :: (withShort ++ "END:VCALENDAR".toList :: [])) = .ok (some a) ∧
      read L137.plain ([] ++ "BEGIN:VCALENDAR".toList :: (withReminder ++ "END:VCALENDAR".toList :: [])) = .ok (some b) ∧
      written L137.plain.toEnv asWas asRead (Merge.addAll a b.subs) = some lines ∧ read L137.plain lines = .ok (some c) ∧
      c.subs.length = (a.subs ++ b.subs).length) ∧
    ∃ a lines c, read L137.plain ([] ++ "BEGIN:VCALENDAR".toList :: (withReminder ++ "END:VCALENDAR".toList :: [])) = .ok (some a) ∧
      written L137.plain.toEnv asWas asRead (Merge.removeAll "vtodo".toList a) = some lines ∧ read L137.plain lines = .ok (some c) ∧
      ∀ d ∈ c.subs, PropText.upper d.type ≠ "VTODO".toList := by
  constructor
  · obtain ⟨a, b, lines, c, k1, k2, k3, k4, -, l, k5, k6⟩ := C153_added_partial L137.plain .base (fun _ _ => rfl) asWas (fun _ _ _ => rfl) asRead
      (fun _ _ h => by cases h) [] [] withShort _ _ (by simp [Spec.Blank]) (by simp [Spec.Blank]) (.inl rfl) short_body
      ⟨⟨"VERSION".toList, "VERSION:2.0".toList⟩, by simp, by decide +kernel⟩ version_good (by
        intro d hd
        rw [List.mem_singleton] at hd
        subst hd
        exact .inl short_good) (by decide +kernel) [] [] withReminder _ _ (by simp [Spec.Blank]) (by simp [Spec.Blank]) (.inl rfl) reminded_body
      ⟨⟨"VERSION".toList, "VERSION:2.0".toList⟩, by simp, by decide +kernel⟩ (by
        intro d hd
        rw [List.mem_singleton] at hd
        subst hd
        exact .inl reminded_good) (by decide +kernel)
    exact ⟨a, b, lines, c, k1, k2, k3, k4, k6.length_eq.symm.trans k5.length_eq⟩
  · obtain ⟨a, lines, c, k1, k2, k3, -, -, k4, -⟩ := C153_removed_partial L137.plain .base (fun _ _ => rfl) asWas (fun _ _ _ => rfl) asRead
      (fun _ _ h => by cases h) [] [] withReminder _ _ (by simp [Spec.Blank]) (by simp [Spec.Blank]) (.inl rfl) reminded_body
      ⟨⟨"VERSION".toList, "VERSION:2.0".toList⟩, by simp, by decide +kernel⟩ version_good "vtodo".toList (by
        intro d hd
        rw [List.mem_singleton] at hd
        subst hd
        exact .inl (.inl reminded_good)) (by decide +kernel)
    exact ⟨a, lines, c, k1, k2, k3, fun d hd => by
      rw [show "VTODO".toList = PropText.upper "vtodo".toList by decide +kernel]
      exact k4 d hd⟩

end PyCal
