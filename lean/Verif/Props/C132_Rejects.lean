import Verif.Props.C132_EventText
import Verif.Props.C137_Calendar

/-!
# C132: lines that are not read as the standard says, and lists of values
-/

namespace PyCal
open Spec DateTime Spec.EventText EventRead
open L132 ValueType

/-- C132 fails: a DTSTART with TZID and a time in UTC, which the standard forbids (3.2.19), is read as a local time in the zone. -/
theorem C132_fails_utc {e : Env} (hT : Program ValueType.ical e.tables) {l : ContentLine} (ha : l.Allowed false)
    (hr : ∀ p ∈ l.params, ∀ v ∈ p.values, v.Readable) (hn : PropText.upper l.name = "DTSTART".toList) {z : List Char}
    (hd : DateParams l false (some z)) {t : DateTime} (ht : DateTimeText l.value t) (hu : t.utc = true) :
    ∃ s, readEvent e [l.text] = some (s, none) ∧ s.utc = false ∧ s.tzid = some (.name (String.ofList z)) ∧ s.civil = t.civil ∧ s ≠ t := by
  obtain ⟨ty, h1, h2, h3⟩ := date_type hT hd (key := "DTSTART") (by simp)
  have hmulti := (program_keeps hT).2.2.1
  have hkey : String.ofList (PropText.upper l.name) = "DTSTART" := by rw [hn]; rfl
  have hline : readLine e l.text = some ⟨l.name, l.params.map ShownParam.meaning,
      .date { t with utc := false, tzid := some (.name (String.ofList z)) }⟩ := by
    rw [line_value ha hr]
    unfold createValue
    dsimp only
    rw [hkey, h1, h3, hmulti, if_neg (by decide +kernel), if_pos h2, text_parse ht e.sr]
    rfl
  refine ⟨{ t with utc := false, tzid := some (.name (String.ofList z)) }, ?_, rfl, rfl, rfl, fun he => ?_⟩
  · unfold readEvent
    rw [List.mapM_cons, hline]
    have hv : values [(⟨l.name, l.params.map ShownParam.meaning,
        .date { t with utc := false, tzid := some (.name (String.ofList z)) }⟩ : RProp)] "DTSTART" =
        [.date { t with utc := false, tzid := some (.name (String.ofList z)) }] := by
      rw [values_cons, if_pos hn]; rfl
    have ho : ∀ k ∈ ["RRULE", "RDATE", "EXRULE", "EXDATE"], values [(⟨l.name, l.params.map ShownParam.meaning,
        .date { t with utc := false, tzid := some (.name (String.ofList z)) }⟩ : RProp)] k = [] := by
      intro k hk
      rw [values_cons, if_neg]
      · rfl
      · rw [hn]; revert k; decide +kernel
    have hp : props [(⟨l.name, l.params.map ShownParam.meaning,
        .date { t with utc := false, tzid := some (.name (String.ofList z)) }⟩ : RProp)] = ⟨[], [], [], []⟩ := by
      unfold props
      rw [ho "RRULE" (by simp), ho "RDATE" (by simp), ho "EXRULE" (by simp), ho "EXDATE" (by simp)]
      rfl
    show some (start _, RecurLoad.reset (props _)) = _
    simp only [List.reverse_nil]
    rw [hp]
    unfold start
    rw [hv]
    rfl
  · have := congrArg DateTime.utc he
    rw [hu] at this
    cases this

/-- Such a line. -/
example : ∃ (l : ContentLine) (t : DateTime), l.Allowed false ∧ PropText.upper l.name = "DTSTART".toList ∧
    l.text = "DTSTART;TZID=NewYork:20200101T090000Z".toList ∧ DateParams l false (some "NewYork".toList) ∧
    DateTimeText l.value t ∧ t.utc = true := by
  exact ⟨L137.there "DTSTART" "20200101T090000Z", ⟨2020, 1, 1, 9, 0, 0, false, true, none⟩,
    L137.allowed_name (by decide +kernel) rfl (by simp [L137.there]), by decide +kernel, by decide +kernel, L137.there_params _ _,
    L137.time_text "01" "01" "09" 1 1 9 true "20200101T090000Z" (by decide +kernel) (by decide +kernel) (by decide +kernel), rfl⟩

/-- What one value of a list must be, by its type. -/
def ItemOk (e : Env) (t : VType) (s : List Char) : Prop :=
  if t = .date ∨ t = .dateTime then ∃ d, DateTime.parseText e.sr s false = some d
  else if t = .period then ∃ p, PeriodObj.parseText e.sr e.strict s = .ok p
  else if t = .text then ∃ d, decodeText e.escColon e.escOther s = some d
  else e.accepts t (some s) = true

/-- C132, lists: a line with a property of several values is read just if all its values, between commas, are; and a component with a
line that cannot be read is not read. -/
theorem C132_lists {e : Env} {l : ContentLine} (ha : l.Allowed false) (hr : ∀ p ∈ l.params, ∀ v ∈ p.values, v.Readable)
    (hm : String.ofList (PropText.upper l.name) ∈ e.tables.multi) {x : Option (List Char)} (hx : HasParam l "VALUE".toList x) :
    ((readLine e l.text).isSome ↔ ∀ s ∈ splitOn ',' l.value,
      ItemOk e (determine e.tables (String.ofList (PropText.upper l.name)) (x.map String.ofList)) s) ∧
    ∀ ls, l.text ∈ ls → readLine e l.text = none → readEvent e ls = none := by
  constructor
  · rw [line_value ha hr, Option.isSome_map]
    unfold createValue
    dsimp only
    rw [if_pos hm, paramValue_of hx, Option.isSome_map]
    generalize determine e.tables (String.ofList (PropText.upper l.name)) (x.map String.ofList) = t
    generalize splitOn ',' l.value = ss
    have one : ∀ s, (parseItem e t s).isSome ↔ ItemOk e t s := by
      intro s
      unfold parseItem ItemOk
      by_cases h1 : t = .date ∨ t = .dateTime
      · rw [if_pos h1, if_pos h1, Option.isSome_map, Option.isSome_iff_exists]
      rw [if_neg h1, if_neg h1]
      by_cases h2 : t = .period
      · rw [if_pos h2, if_pos h2]
        cases PeriodObj.parseText e.sr e.strict s with
        | ok p => simp
        | error x => simp
      rw [if_neg h2, if_neg h2]
      by_cases h4 : t = .text
      · rw [if_pos h4, if_pos h4, Option.isSome_map, Option.isSome_iff_exists]
      · rw [if_neg h4, if_neg h4]
        by_cases h3 : e.accepts t (some s) = true
        · simp [h3]
        · simp [h3]
    induction ss with
    | nil => simp
    | cons s ss ih =>
      rw [List.mapM_cons, List.forall_mem_cons]
      refine Iff.trans ?_ (and_congr (one s) ih)
      cases parseItem e t s with
      | none => simp
      | some i =>
        cases ss.mapM (parseItem e t) <;> simp
  · intro ls hl hn
    unfold readEvent
    rw [Option.map_eq_none_iff]
    induction ls with
    | nil => cases hl
    | cons a ls ih =>
      rw [List.mapM_cons]
      rcases List.mem_cons.mp hl with rfl | hl
      · rw [hn]; rfl
      · rw [ih hl]
        cases readLine e a <;> rfl

/-- A line of two dates of which one is not a date. -/
example : ∃ (l : ContentLine) (e : Env), l.Allowed false ∧ l.text = "RDATE:20200101T090000,x".toList ∧
    String.ofList (PropText.upper l.name) ∈ e.tables.multi ∧ HasParam l "VALUE".toList none ∧
    readLine e l.text = none := by
  have ha : (L132.line "RDATE" "20200101T090000,x").Allowed false := L137.allowed_name (by decide +kernel) rfl (by simp [L132.line])
  have hm : String.ofList (PropText.upper (L132.line "RDATE" "20200101T090000,x").name) ∈ L137.plain.toEnv.tables.multi := by
    decide +kernel
  have hx : HasParam (L132.line "RDATE" "20200101T090000,x") "VALUE".toList none := L132.noParam _ _ _
  refine ⟨L132.line "RDATE" "20200101T090000,x", L137.plain.toEnv, ha, by decide +kernel, hm, hx, ?_⟩
  have := (C132_lists ha (by simp [L132.line]) hm hx).1
  rw [← Option.not_isSome_iff_eq_none, this]
  intro h
  obtain ⟨d, hd⟩ := h ['x'] (by decide +kernel)
  revert hd
  rw [show DateTime.parseText L137.plain.toEnv.sr ['x'] false = none by decide +kernel]
  simp

end PyCal
