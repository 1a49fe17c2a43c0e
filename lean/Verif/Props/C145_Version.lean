import Verif.Props.C137_Calendar

/-!
# C145: a calendar that is read is of version 2.0 and Gregorian
-/

namespace PyCal
open Spec Spec.EventText Spec.CalendarText EventRead CalendarRead

namespace L145
open L132 L137 ValueType PropText

/-- What is in the container is valid. -/
def AllValid (env : Cont.Env) (st : Cont.PSt) : Prop := ∀ p ∈ st.root.props, env.valid p = true

theorem addSub_props {f g : Cont.Frame} {c : Cont.Component} (h : Cont.addSub f c = .ok g) : g.props = f.props := by
  unfold Cont.addSub at h
  split at h
  · cases h; rfl
  · cases h

theorem step_valid {env : Cont.Env} {st st' : Cont.PSt} {line : List Char} (hv : AllValid env st)
    (h : Cont.step env st line = .ok st') : AllValid env st' := by
  have hblank : ∀ {st'}, Cont.blankLine env st = .ok st' → AllValid env st' := by
    intro st' h
    unfold Cont.blankLine at h
    split at h
    · cases h
    · cases h; exact hv
  have hprop : ∀ {st'}, Cont.propLine env st line = .ok st' → AllValid env st' := by
    intro st' h
    unfold Cont.propLine at h
    split at h
    · cases h
    · split at h
      · split at h
        · next p _ _ hp =>
          cases h
          intro q hq
          rcases List.mem_append.mp hq with hq | hq
          · exact hv q hq
          · rw [List.mem_singleton.mp hq]; exact hp
        · cases h
      · cases h; exact hv
  have hclose : ∀ {f rest st'}, Cont.closeFrame env st f rest = .ok st' → AllValid env st' := by
    intro f rest st' h
    unfold Cont.closeFrame at h
    split at h
    · cases h
    · next c _ =>
      cases rest with
      | nil =>
        dsimp only at h
        cases ha : Cont.addSub st.root c with
        | error e => rw [ha] at h; cases h
        | ok r =>
          rw [ha] at h
          cases h
          intro p hp
          have hp : p ∈ r.props := hp
          rw [addSub_props ha] at hp
          exact hv p hp
      | cons g rest =>
        dsimp only at h
        cases ha : Cont.addSub g c with
        | error e => rw [ha] at h; cases h
        | ok r => rw [ha] at h; cases h; exact hv
  unfold Cont.step at h
  split at h
  · split at h
    · cases h; exact hv
    · split at h
      · exact hblank h
      · cases h
  · split at h
    · cases h; exact hv
    · split at h
      · cases h; exact hv
      · split at h
        · split at h
          · exact hclose h
          · split at h
            · exact hblank h
            · exact hprop h
        · split at h
          · exact hblank h
          · exact hprop h

theorem run_valid {env : Cont.Env} {lines : List (List Char)} {st st' : Cont.PSt} (hv : AllValid env st)
    (h : Cont.run env st lines = .ok st') : AllValid env st' := by
  induction lines generalizing st with
  | nil => cases h; exact hv
  | cons l lines ih =>
    rw [Cont.run] at h
    cases hs : Cont.step env st l with
    | error e => rw [hs] at h; cases h
    | ok st1 => rw [hs] at h; exact ih (step_valid hv hs) h

theorem read_valid {s : Settings} {lines : List (List Char)} {c : Cont.Component} (h : read s lines = .ok (some c)) :
    (∀ p ∈ c.props, CalendarRead.valid s.toEnv p = true) ∧ ∃ p ∈ c.props, p.key = "VERSION".toList := by
  have h := ((C40_calendar _ _ _).mp h).1
  unfold Cont.parse at h
  split at h
  · cases h
  · next st hr =>
    have hv := run_valid (env := container s) (by intro p hp; cases hp) hr
    split at h
    · cases h
    · split at h
      · cases h
      · next h1 h2 =>
        cases hres : st.result with
        | false => rw [hres] at h; cases h
        | true =>
          rw [hres] at h h2
          cases h
          refine ⟨hv, ?_⟩
          simpa [Cont.Component.props] using h2

theorem text_any {e : Env} (hT : Program ical e.tables) {key : String} (hk : key ∈ ["VERSION", "CALSCALE"]) {l : ContentLine}
    (ha : l.Allowed false) (hr : ∀ p ∈ l.params, ∀ v ∈ p.values, v.Readable) (hn : l.name = key.toList) {t : List Char}
    (h : TextLine l t) : readLine e l.text = some ⟨l.name, l.params.map ShownParam.meaning, .text t⟩ := by
  rw [line_value ha hr]
  have hmulti := (program_keeps hT).2.2.1
  obtain ⟨⟨v, hv, hvv⟩, hd⟩ := h
  have hall : ∀ key ∈ ["VERSION", "CALSCALE"], String.ofList (upper key.toList) = key ∧ (ical.defaultOf key).isSome ∧ key ∉ ical.multi ∧
      determine ical key none = .text ∧ determine ical key (some "TEXT") = .text := by decide +kernel
  obtain ⟨k1, k2, k3, k4, k5⟩ := hall key hk
  have hdet : determine e.tables key ((paramValue (l.params.map ShownParam.meaning) "VALUE").map String.ofList) = .text := by
    rw [paramValue_of hv, determine_keeps hT k2]
    rcases hvv with rfl | rfl
    · exact k4
    · rw [Option.map_some, String.ofList_toList]; exact k5
  unfold createValue
  dsimp only
  rw [hn, k1, hdet, hmulti, if_neg k3, if_neg (by simp), if_neg (by simp), if_neg (by simp), if_pos (.inl rfl), C20_decode_rfc _ _ hd]
  rfl

end L145
open L145

/-- C145 (partial): a calendar that was parsed has a VERSION, and what its VERSION and its CALSCALE say is `2.0` and `GREGORIAN`: other
texts are rejected, wherever in the calendar the line is.

Missing: names that are not in capital letters, which the standard allows (`C145_fails_case`). -/
theorem C145_valid_partial (s : Settings) (hT : Program ValueType.ical s.tables) (lines : List (List Char)) (c : Cont.Component)
    (h : read s lines = .ok (some c)) :
    (∃ p ∈ c.props, p.key = "VERSION".toList) ∧
    ∀ (l : ContentLine) (t : List Char), (⟨l.name, l.text⟩ : Cont.CProp) ∈ c.props → l.Allowed false →
      (∀ p ∈ l.params, ∀ v ∈ p.values, v.Readable) → TextLine l t →
      (l.name = "VERSION".toList → t = "2.0".toList) ∧ (l.name = "CALSCALE".toList → t = "GREGORIAN".toList) := by
  obtain ⟨h1, h2⟩ := read_valid h
  refine ⟨h2, fun l t hl ha hr ht => ⟨fun hn => ?_, fun hn => ?_⟩⟩
  · have := h1 _ hl
    unfold CalendarRead.valid at this
    dsimp only at this
    rw [if_pos hn, text_any hT (key := "VERSION") (by simp) ha hr hn ht] at this
    simpa using this
  · have := h1 _ hl
    unfold CalendarRead.valid at this
    dsimp only at this
    rw [if_neg (by rw [hn]; decide +kernel), if_pos hn, text_any hT (key := "CALSCALE") (by simp) ha hr hn ht] at this
    exact of_decide_eq_true this

/-- The conditions of C145 are met, and other texts are rejected. -/
example : (read L137.plain (L137.doc ["CALSCALE:GREGORIAN"])) = .ok (some (.mk "VCALENDAR".toList
      [⟨"VERSION".toList, "VERSION:2.0".toList⟩, ⟨"CALSCALE".toList, "CALSCALE:GREGORIAN".toList⟩] [])) ∧
    read L137.plain (L137.doc ["CALSCALE:JULIAN"]) = .error .invalidData ∧
    read L137.plain (L137.doc ["VERSION:1.0"]) = .error .invalidData := by
  refine ⟨by decide +kernel, by decide +kernel, by decide +kernel⟩

/-- C145 fails: with names that are not in capital letters another scale and another version are accepted. -/
theorem C145_fails_case :
    (read L137.plain (["BEGIN:VCALENDAR", "Version:1.0", "Calscale:JULIAN", "END:VCALENDAR"].map String.toList)) =
      .ok (some (.mk "VCALENDAR".toList
        [⟨"Version".toList, "Version:1.0".toList⟩, ⟨"Calscale".toList, "Calscale:JULIAN".toList⟩] [])) := by
  decide +kernel

end PyCal
