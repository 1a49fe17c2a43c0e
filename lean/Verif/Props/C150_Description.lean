import Verif.Props.C150_EditsWritten

/-!
# C150: the description of a calendar that is edited is written
-/

namespace PyCal
open DateTime Spec Spec.EventText Spec.CalendarText EventRead CalendarRead AttrRead Rewrite
open L132 L137 L142 L144 L148 L149 L150

/-- C150 (partial), the description of a calendar: after `editDescription` the calendar that is written and read again has this description,
the name that it had, and its other properties and its components.

Missing: as in `C148_same_partial`; the name of a calendar cannot be edited (`C93_fails_name`). -/
theorem C150_description_partial (s : Settings) (hT : Program ValueType.ical s.tables)
    (hfin : ∀ c, isRecur c.type = false → s.finishes c = true) (w : Writer) (hw : Closed s.toEnv w) (order : Cont.Order)
    (heq : ∀ a b, order.eq a b = true → a.type = b.type) (b1 b2 body : List (List Char)) (ps : List Cont.CProp)
    (ss : List Cont.Component) (h1 : Spec.Blank b1) (h2 : Spec.Blank b2) (hb : s.blankRaise = false ∨ b1 = [] ∧ b2 = [])
    (h : Spec.Body (container s) true "VCALENDAR".toList body ps ss) (hv : ∃ p ∈ ps, p.key = "VERSION".toList)
    (hps : ∀ p ∈ ps, GoodProp s.toEnv p) (hss : ∀ d ∈ ss, GoodComp s.toEnv d ∨ ∃ v, GoodEvent s.toEnv d v)
    (hzone : ∀ d ∈ ss, PropText.upper d.type = "VTIMEZONE".toList → d.type = "VTIMEZONE".toList) (text : List Char) :
    ∃ v lines c', read s (b1 ++ "BEGIN:VCALENDAR".toList :: (body ++ "END:VCALENDAR".toList :: b2)) = .ok (some (.mk "VCALENDAR".toList ps ss)) ∧
      calIn s.toEnv (.mk "VCALENDAR".toList ps ss) = some v ∧
      written s.toEnv w order (.mk "VCALENDAR".toList (EditLines.editDescription s.toEnv v text ps) ss) = some lines ∧
      read s lines = .ok (some c') ∧
      (∃ v', calIn s.toEnv c' = some v' ∧ v'.description = text ∧ (v.editDescription text).description = text ∧ v'.name = v.name) ∧
      (∀ key, key ≠ "X-WR-CALDESC".toList → List.Forall₂ (SameProp s.toEnv) (ps.filter fun p => decide (p.key = key))
        (c'.props.filter fun p => decide (p.key = key))) ∧
      ∃ l, l.Perm ss ∧ List.Forall₂ (SameComp s.toEnv) l c'.subs := by
  have hread : read s (b1 ++ "BEGIN:VCALENDAR".toList :: (body ++ "END:VCALENDAR".toList :: b2)) = .ok (some (.mk "VCALENDAR".toList ps ss)) :=
    (C40_calendar (container s) _ _).mpr ⟨C40_complete (container s) rfl b1 b2 body ps _ h1 h2 hb h hv, hzone⟩
  have hvalid := (L145.read_valid hread).1
  have hform := body_formed h
  have hk : (Attr.Key.caldesc, "X-WR-CALDESC", ValueType.VType.text, "TEXT") ∈ attrKeys := by decide +kernel
  obtain ⟨l, hl⟩ := reads_of hT hw hps
  have hcal : ∀ (qs : List Cont.CProp) l, Reads s.toEnv qs l →
      calIn s.toEnv (.mk "VCALENDAR".toList qs ss) = some (Attr.Cal.finalise { props := l }) := by
    intro qs l hl
    unfold calIn
    rw [show (Cont.Component.mk "VCALENDAR".toList qs ss).props = qs from rfl, reads_props hl]
    rfl
  generalize hv0 : Attr.Cal.finalise { props := l } = v at *
  have hprops : v.props = l := by rw [← hv0]; rfl
  have hr : Reads s.toEnv (EditLines.editDescription s.toEnv v text ps) (v.editDescription text).props := by
    unfold EditLines.editDescription Attr.Cal.editDescription
    by_cases hd : v.description = text
    · rw [if_pos hd, if_pos hd, hprops]; exact hl
    · rw [if_neg hd, if_neg hd]
      have := reads_edit hT hl hk (some text)
      cases text with
      | nil => rw [if_pos rfl, hprops]; exact this
      | cons c t => rw [if_neg (by simp), hprops]; exact this
  have hold : ∀ p ∈ EditLines.editDescription s.toEnv v text ps, p ∈ ps ∨ p.name = "X-WR-CALDESC".toList := by
    intro p hp
    unfold EditLines.editDescription at hp
    by_cases hd : v.description = text
    · rw [if_pos hd] at hp; exact .inl hp
    · rw [if_neg hd] at hp
      cases text with
      | nil => exact .inl (List.mem_of_mem_filter hp)
      | cons c t =>
        rcases List.mem_append.mp hp with hp | hp
        · exact .inl (List.mem_of_mem_filter hp)
        · rw [List.mem_singleton] at hp
          exact .inr (by rw [hp]; rfl)
  have hdk : PropText.upper "X-WR-CALDESC".toList = "X-WR-CALDESC".toList := by decide +kernel
  have hother : ∀ key, key ≠ "X-WR-CALDESC".toList →
      ((EditLines.editDescription s.toEnv v text ps).filter fun p => decide (p.key = key)) = ps.filter fun p => decide (p.key = key) := by
    intro key hkey
    have hrem : ((EditLines.remove "X-WR-CALDESC" ps).filter fun p => decide (p.key = key)) = ps.filter fun p => decide (p.key = key) := by
      unfold EditLines.remove
      rw [List.filter_filter]
      refine List.filter_congr fun p _ => ?_
      by_cases hk : p.key = key
      · rw [hk, decide_eq_true hkey, Bool.and_true]
      · rw [decide_eq_false hk, Bool.false_and]
    unfold EditLines.editDescription
    by_cases hd : v.description = text
    · rw [if_pos hd]
    · rw [if_neg hd]
      cases text with
      | nil => exact hrem
      | cons c t =>
        show ((EditLines.remove "X-WR-CALDESC" ps ++ [EditLines.made s.toEnv "X-WR-CALDESC" (.text (c :: t))]).filter _) = _
        rw [List.filter_append, hrem, List.filter_cons_of_neg]
        · exact List.append_nil _
        · rw [decide_eq_true_eq]
          exact fun h => hkey (by rw [← h]; exact hdk)
  obtain ⟨lines, c', k1, k2, k3⟩ := again hT hfin hw heq (ps := EditLines.editDescription s.toEnv v text ps) (ss := ss) h
    (by
      intro p hp
      rcases hold p hp with hp | hp
      · exact hvalid p hp
      · unfold CalendarRead.valid
        rw [hp, if_neg (by decide +kernel), if_neg (by decide +kernel)])
    (by
      obtain ⟨p, p1, p2⟩ := hv
      have : p ∈ (EditLines.editDescription s.toEnv v text ps).filter fun p => decide (p.key = "VERSION".toList) := by
        rw [hother _ (by decide +kernel)]
        exact List.mem_filter.mpr ⟨p1, by rw [p2]; simp⟩
      exact ⟨p, List.mem_of_mem_filter this, p2⟩)
    (reads_good hr) (fun d hd => ⟨(hform d hd).2, (hss d hd).imp_right fun h => ⟨hd, h⟩⟩) hzone
  obtain ⟨u, u', u1, u2, u3, u4⟩ := cal_attr k3
  rw [hcal _ _ hr] at u1
  cases u1
  obtain ⟨d1, d2, d3⟩ := Attr.C93_description_partial v text (by rw [← hv0]; rfl)
  refine ⟨v, lines, c', hread, by rw [hcal _ _ hl, hv0], k1, k2, ⟨u', u2, u4.trans d2, d1, u3.trans (d3.trans ?_)⟩, ?_, ?_⟩
  · rw [hprops, hv0]
  · cases k3 with
    | @mk _ _ ps' _ m cs' hp hm hcs =>
      intro key hkey
      rw [← hother key hkey]
      exact hp key
  · cases k3 with
    | @mk _ _ ps' _ m cs' hp hm hcs => exact ⟨m, hm, hcs⟩

/-- The conditions are met by the calendar of C149, which has no description before. -/
example : ∃ v lines c', calIn L137.plain.toEnv (.mk "VCALENDAR".toList (named.map fun l => ⟨l.name, l.text⟩) [choreIn]) = some v ∧ v.description = [] ∧
    written L137.plain.toEnv asWas asRead (.mk "VCALENDAR".toList
      (EditLines.editDescription L137.plain.toEnv v "a; b".toList (named.map fun l => ⟨l.name, l.text⟩)) [choreIn]) = some lines ∧
    read L137.plain lines = .ok (some c') ∧ ∃ v', calIn L137.plain.toEnv c' = some v' ∧ v'.description = "a; b".toList ∧ v'.name = "Home".toList := by
  obtain ⟨v, lines, c', -, k2, k3, k4, ⟨v', k5, k6, -, k7⟩, -⟩ := C150_description_partial L137.plain .base (fun _ _ => rfl) asWas
    (fun _ _ _ => rfl) asRead (fun _ _ h => by cases h) [] [] withChore _ _ (by simp [Spec.Blank])
    (by simp [Spec.Blank]) (.inl rfl) chore_body
    ⟨⟨"VERSION".toList, (L132.line "VERSION" "2.0").text⟩, by simp [named, L132.line], by decide +kernel⟩ (by
      intro p hp
      obtain ⟨l, hl, rfl⟩ := List.mem_map.mp hp
      refine ⟨l, rfl, rfl, ?_⟩
      simp only [named, List.mem_cons, List.not_mem_nil, or_false] at hl
      rcases hl with rfl | rfl
      · exact good_line (by decide +kernel) (text_typed (by decide +kernel) (by decide +kernel))
      · exact good_line (by decide +kernel) (text_typed (by decide +kernel) (by decide +kernel)))
    (by simpa using .inl chore_good) (by decide +kernel) "a; b".toList
  have h1 : (calIn L137.plain.toEnv (.mk "VCALENDAR".toList (named.map fun l => ⟨l.name, l.text⟩) [choreIn])).map (fun v => (v.name, v.description)) =
      some ("Home".toList, []) := by decide +kernel
  rw [k2, Option.map_some, Option.some.injEq, Prod.mk.injEq] at h1
  exact ⟨v, lines, c', k2, h1.2, k3, k4, v', k5, k6, k7.trans h1.1⟩

end PyCal
