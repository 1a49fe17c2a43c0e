import Verif.Model.ZonalText
import Verif.Props.C41_Trees
import Verif.Props.C88_Cases
import Verif.Props.C138_ZoneText
import Verif.Props.C141_WrittenText

/-!
# C142: from time zone data to the offsets given by what is written

The components that the time zone compiler makes of a zone (C88), written as a calendar and read again: `getTimezoneOffsetSeconds`
gives the offsets of the transitions.
-/

namespace PyCal
open Spec DateTime Spec.EventText EventRead
open Spec.CalendarText (HasLine TextLine)
open Spec.ZoneText (OffsetText OffsetLine)
open Zonal (Written)
open Spec.Zic (clockSec)

/-- The components for which what is written is read as the standard says: at whole minutes from 1902 on, offsets of less than a day,
a rule with BYMONTH and without BYYEARDAY, UNTIL not before the start. -/
structure Zonal.Fits (o : Zonal.Observance) : Prop where
  start : Clock o.start ∧ (1902 ≤ o.start.year ∧ o.start.year ≤ 9999) ∧ o.start.seconds = 0
  offsets : o.offsetFrom.natAbs < 86400 ∧ o.offsetTo.natAbs < 86400 ∧ o.offsetFrom % 60 = 0
  rdates : ∀ t ∈ o.rdates, Clock t ∧ o.start.num ≤ t.num ∧ (0 ≤ t.year ∧ t.year ≤ 9999) ∧ t.seconds = 0
  rule : ∀ rr, o.rrule = some rr → rr.1.byYearDay = [] ∧ rr.1.byMonth ≠ [] ∧ (∀ m ∈ rr.1.byMonth, 1 ≤ m ∧ m ≤ 12) ∧
    (∀ v ∈ rr.1.byDay, (0 ≤ v.2 ∧ v.2 < 7) ∧ -53 ≤ v.1 ∧ v.1 ≤ 53) ∧
    (∀ n ∈ rr.1.byMonthDay, 1 ≤ n ∧ n ≤ 31 ∨ -31 ≤ n ∧ n ≤ -1) ∧
    ∀ w, rr.2 = some w → w.Valid ∧ w.dateOnly = false ∧ w.utc = true ∧ w.tzid = none ∧ (0 ≤ w.year ∧ w.year ≤ 9999) ∧
      o.start.num - o.offsetFrom ≤ w.num

namespace L142
open L132 L138 L141 Zonal

/-! ## Lines -/

/-- A line without parameters. -/
def wline (name : String) (v : List Char) : ContentLine := ⟨none, name.toList, [], v⟩

theorem zoneProp_eq (name : String) (v : List Char) : zoneProp name v = ⟨(wline name v).name, (wline name v).text⟩ := by
  simp [zoneProp, wline, ContentLine.text]

theorem wline_param (n : String) (v key : List Char) : HasParam (wline n v) key none := .none (by simp [wline])

theorem wline_params (n : String) (v : List Char) : DateParams (wline n v) false none :=
  ⟨⟨none, wline_param n v _, .inr ⟨rfl, .inl rfl⟩⟩, wline_param n v _, by simp⟩

/-- The names of the lines. -/
def writtenNames : List String := ["TZOFFSETFROM", "TZOFFSETTO", "TZNAME", "DTSTART", "RRULE", "RDATE", "TZID", "X-LIC-LOCATION"]

theorem wline_allowed {n : String} (h : n ∈ writtenNames) (v : List Char) :
    (wline n v).Allowed false ∧ ∀ p ∈ (wline n v).params, ∀ v ∈ p.values, v.Readable := by
  refine allowed_line (l := wline n v) ?_ rfl rfl
  have : ∀ n ∈ writtenNames, n.toList ≠ [] ∧ ∀ c ∈ n.toList, c.isAlphanum = true ∨ c = '-' := by decide +kernel
  exact this n h

theorem readBack {s : CalendarRead.Settings} {n : String} (h : n ∈ writtenNames) {v : List Char}
    (hr : (readLine s.toEnv (wline n v).text).isSome) : ReadBack (CalendarRead.container s) (zoneProp n v) := by
  have hhead : ∀ n ∈ writtenNames, (n.toList.head?).any (fun c => decide (c ≠ 'B') && decide (c ≠ 'E')) = true := by decide +kernel
  have htext : (zoneProp n v).text = (wline n v).text := by rw [zoneProp_eq]
  have hne : ∃ c r, (wline n v).text = c :: r ∧ c ≠ 'B' ∧ c ≠ 'E' := by
    have := hhead n h
    cases hn : n.toList with
    | nil => rw [hn] at this; simp at this
    | cons c r =>
      rw [hn] at this
      refine ⟨c, r ++ ':' :: v, by simp [wline, ContentLine.text, hn], ?_⟩
      simpa using this
  obtain ⟨c, r, hc, hB, hE⟩ := hne
  refine ⟨by rw [htext, hc]; simp, ?_, ?_, ?_⟩
  · rw [htext, hc]
    intro hp
    have : 'B' :: "EGIN:".toList <+: c :: r := hp
    exact hB (List.cons_prefix_cons.mp this).1.symm
  · rw [htext, hc]
    intro hp
    have : 'E' :: "ND:".toList <+: c :: r := hp
    exact hE (List.cons_prefix_cons.mp this).1.symm
  · show (readLine s.toEnv (zoneProp n v).text).map _ = _
    obtain ⟨ha, hre⟩ := wline_allowed h v
    rw [htext, line_value ha hre] at *
    rw [Option.isSome_map] at hr
    obtain ⟨x, hx⟩ := Option.isSome_iff_exists.mp hr
    rw [hx, zoneProp_eq]
    rfl

theorem denotes_escape (s : List Char) : Denotes (escapeText s) s := by
  induction s with
  | nil => rw [escapeText_nil]; exact .nil
  | cons c s ih =>
    rw [escapeText_cons]
    by_cases h1 : c = '\n'
    · subst h1; exact .break_ 'n' (Or.inl rfl) ih
    by_cases h2 : c = '\r'
    · subst h2; exact .return_ ih
    by_cases h3 : c = '\\' ∨ c = ';' ∨ c = ','
    · have : isEscapee c = true ∧ escapeLetter c = c := by
        rcases h3 with rfl | rfl | rfl <;> decide
      rw [if_pos this.1, this.2]
      exact .literal c h3 ih
    · push Not at h3
      rw [if_neg (by simp [isEscapee, h1, h2, h3])]
      exact .plain c h3.1 ih

theorem text_isSome {e : Env} (hT : Program ValueType.ical e.tables) {n : String} (hn : n ∈ ["TZID", "TZNAME"]) (s : List Char) :
    (readLine e (wline n (escapeText s)).text).isSome := by
  have hmulti := (program_keeps hT).2.2.1
  obtain ⟨ha, hr⟩ := wline_allowed (n := n) (by simp at hn; rcases hn with rfl | rfl <;> simp [writtenNames]) (escapeText s)
  have hall : ∀ n ∈ ["TZID", "TZNAME"], String.ofList (PropText.upper n.toList) = n ∧ (ValueType.ical.defaultOf n).isSome ∧
      n ∉ ValueType.ical.multi ∧ ValueType.determine ValueType.ical n none = .text := by decide +kernel
  obtain ⟨k1, k2, k3, k4⟩ := hall n hn
  rw [line_value ha hr]
  have hc : createValue e n.toList [] (some (escapeText s)) = some (.text s) := by
    unfold createValue
    dsimp only
    have hdet : ValueType.determine e.tables n (Option.map String.ofList (paramValue [] "VALUE")) = .text := by
      rw [show paramValue [] "VALUE" = none from rfl, determine_keeps hT k2]; exact k4
    rw [k1, hdet, hmulti, if_neg k3, if_neg (by simp), if_neg (by simp), if_neg (by simp), if_pos (.inl rfl),
      C20_decode_rfc _ _ (denotes_escape s)]
    rfl
  show ((createValue e n.toList [] (some (escapeText s))).map _).isSome
  rw [hc]; rfl

/-! ## The lines of a component and what they say -/

/-- The rule is written as this. -/
def ruleParts (rr : Parts × Option DateTime) : List Recur.Part := partsOf (recurrenceOf rr)

/-- The lines of a component, and what they say. -/
def pairs (o : Zonal.Observance) : List (ContentLine × Fact) :=
  [(wline "TZOFFSETFROM" (utcOffsetGenerate false o.offsetFrom), .other),
    (wline "TZOFFSETTO" (utcOffsetGenerate false o.offsetTo), .other),
    (wline "TZNAME" (escapeText o.name), .other), (wline "DTSTART" o.start.getText, .start o.start)] ++
  (match o.rrule with
    | some rr => [(wline "RRULE" (recurrenceOf rr).generate, .rule false (ruleParts rr))]
    | none => []) ++
  o.rdates.map fun t => (wline "RDATE" t.getText, .dates false [t])

theorem props_eq (o : Zonal.Observance) : o.props = (pairs o).map fun x => ⟨x.1.name, x.1.text⟩ := by
  unfold Observance.props pairs
  simp only [zoneProp_eq, List.map_append, List.map_map, List.map_cons, List.map_nil]
  congr 2
  cases o.rrule <;> rfl

theorem mem_pairs {o : Zonal.Observance} {x : ContentLine × Fact} : x ∈ pairs o ↔
    x = (wline "TZOFFSETFROM" (utcOffsetGenerate false o.offsetFrom), .other) ∨
    x = (wline "TZOFFSETTO" (utcOffsetGenerate false o.offsetTo), .other) ∨
    x = (wline "TZNAME" (escapeText o.name), .other) ∨ x = (wline "DTSTART" o.start.getText, .start o.start) ∨
    (∃ rr, o.rrule = some rr ∧ x = (wline "RRULE" (recurrenceOf rr).generate, .rule false (ruleParts rr))) ∨
    ∃ t ∈ o.rdates, x = (wline "RDATE" t.getText, .dates false [t]) := by
  unfold pairs
  cases o.rrule with
  | none => simp [eq_comm, or_assoc]
  | some rr => simp [eq_comm, or_assoc]

theorem clock_text {t : DateTime} (h : Clock t) (hy : 0 ≤ t.year ∧ t.year ≤ 9999) : DateTimeText t.getText t := by
  rw [until_iff]
  exact ⟨rfl, h.1, hy, fun hd => (by rw [h.2.1] at hd; cases hd), h.2.2.2⟩

theorem rule_writable {o : Zonal.Observance} (h : Fits o) {rr : Parts × Option DateTime} (hr : o.rrule = some rr) :
    PyCal.Writable (recurrenceOf rr) := by
  obtain ⟨h1, h2, h3, h4, h5, h6⟩ := h.rule rr hr
  refine ⟨rfl, ?_, le_rfl, nofun, nofun, nofun, h4, h5, ?_, nofun, h3, nofun, (by decide : (0 : Int) ≤ 1 ∧ (1 : Int) < 7)⟩
  · show if rr.2.isSome = true then _ else _
    cases hu : rr.2 with
    | none => exact hu
    | some w =>
      obtain ⟨a, b, c, d, e, _⟩ := h6 w hu
      exact ⟨w, hu, rfl, a, e, fun hd => (by rw [b] at hd; cases hd), d⟩
  · intro v hv
    have : v ∈ rr.1.byYearDay := hv
    rw [h1] at this
    cases this

theorem rule_parts {o : Zonal.Observance} (h : Fits o) {rr : Parts × Option DateTime} (hr : o.rrule = some rr) :
    Recur.rule (ruleParts rr) = recurrenceOf rr := partsOf_rule (rule_writable h hr)

theorem pair_says {o : Zonal.Observance} (h : Fits o) {x : ContentLine × Fact} (hx : x ∈ pairs o) : Says x.1 x.2 := by
  rcases mem_pairs.mp hx with rfl | rfl | rfl | rfl | ⟨rr, hr, rfl⟩ | ⟨t, ht, rfl⟩
  · exact .other (by simp only [wline]; decide +kernel)
  · exact .other (by simp only [wline]; decide +kernel)
  · exact .other (by simp only [wline]; decide +kernel)
  · refine .start (z := none) (by simp only [wline]; decide +kernel) (wline_params _ _) (clock_text h.start.1 ?_) h.start.1.2.1 (by simp)
    have := h.start.2.1
    omega
  · refine .rule false (by simp only [wline]; decide +kernel) ⟨none, wline_param _ _ _, .inl rfl⟩ ?_
    exact ruleText_mono (fun _ _ => until_dateTimeText) ⟨generate_text (rule_writable h hr), partsOf_noclash _⟩
  · obtain ⟨h1, h2, h3, h4⟩ := h.rdates t ht
    have := Says.dates (l := wline "RDATE" t.getText) (z := none) (ts := [t]) false (by simp only [wline]; decide +kernel) (wline_params _ _)
      (.one (clock_text h1 h3)) (by simp [h1.2.1])
    simpa [inZone] using this

theorem pair_name {o : Zonal.Observance} {x : ContentLine × Fact} (hx : x ∈ pairs o) :
    ∃ n ∈ writtenNames, ∃ v, x.1 = wline n v := by
  rcases mem_pairs.mp hx with rfl | rfl | rfl | rfl | ⟨rr, hr, rfl⟩ | ⟨t, ht, rfl⟩ <;>
    exact ⟨_, by simp [writtenNames], _, rfl⟩

theorem pair_read {s : CalendarRead.Settings} (hT : Program ValueType.ical s.tables) {o : Zonal.Observance}
    (h : Fits o) {x : ContentLine × Fact} (hx : x ∈ pairs o) : (readLine s.toEnv x.1.text).isSome := by
  have off : ∀ n ∈ ["TZOFFSETFROM", "TZOFFSETTO"], ∀ v : Int, v.natAbs < 86400 →
      (readLine s.toEnv (wline n (utcOffsetGenerate false v)).text).isSome := by
    intro n hn v hv
    obtain ⟨ha, hr⟩ := wline_allowed (n := n) (by simp at hn; rcases hn with rfl | rfl <;> simp [writtenNames])
      (utcOffsetGenerate false v)
    have hu : ∀ n ∈ ["TZOFFSETFROM", "TZOFFSETTO"], PropText.upper n.toList = n.toList := by decide +kernel
    rw [← line_isSome, offset_line hT ha hr hn (hu n hn) ⟨⟨none, wline_param _ _ _, .inl rfl⟩, (C141_offset v).mpr hv⟩]
    rfl
  have hsays := pair_says h hx
  obtain ⟨n, hn, v, hv⟩ := pair_name hx
  obtain ⟨ha, hr⟩ := wline_allowed hn v
  rw [← hv] at ha hr
  rcases mem_pairs.mp hx with rfl | rfl | rfl | rfl | ⟨rr, _, rfl⟩ | ⟨t, ht, rfl⟩
  · exact off _ (by simp) _ h.offsets.1
  · exact off _ (by simp) _ h.offsets.2.1
  · exact text_isSome hT (by simp) _
  · rw [line_says hT ha hr hsays (by simp)]; rfl
  · rw [line_says hT ha hr hsays (by simp)]; rfl
  · rw [line_says hT ha hr hsays (by simp)]; rfl

theorem props_read {s : CalendarRead.Settings} (hT : Program ValueType.ical s.tables) {o : Zonal.Observance}
    (h : Fits o) : ∀ p ∈ o.props, ReadBack (CalendarRead.container s) p := by
  intro p hp
  rw [props_eq] at hp
  obtain ⟨x, hx, rfl⟩ := List.mem_map.mp hp
  obtain ⟨n, hn, v, hv⟩ := pair_name hx
  have := pair_read hT h hx
  rw [hv] at this ⊢
  rw [← zoneProp_eq]
  exact readBack hn this

/-! ## Facts in another order -/

theorem mem_dates {fs : List Fact} {t : DateTime} : t ∈ EventText.datesOf false fs ↔ ∃ l, Fact.dates false l ∈ fs ∧ t ∈ l := by
  induction fs with
  | nil => simp [EventText.datesOf]
  | cons f fs ih =>
    cases f with
    | dates ex l =>
      cases ex with
      | false =>
        simp only [EventText.datesOf, if_true, List.mem_append, ih, List.mem_cons, Fact.dates.injEq, true_and]
        constructor
        · rintro (h | ⟨m, h1, h2⟩)
          · exact ⟨l, .inl rfl, h⟩
          · exact ⟨m, .inr h1, h2⟩
        · rintro ⟨m, rfl | h1, h2⟩
          · exact .inl h2
          · exact .inr ⟨m, h1, h2⟩
      | true => simp [EventText.datesOf, ih]
    | _ => simp [EventText.datesOf, ih]

theorem mem_rules {fs : List Fact} {ps : List Recur.Part} : ps ∈ rulesOf false fs ↔ Fact.rule false ps ∈ fs := by
  induction fs with
  | nil => simp [rulesOf]
  | cons f fs ih =>
    cases f with
    | rule ex l => cases ex <;> simp [rulesOf, ih]
    | _ => simp [rulesOf, ih]

theorem start_only {fs : List Fact} {s : DateTime} (h : Fact.start s ∈ fs) (hu : ∀ t, Fact.start t ∈ fs → t = s) :
    startOf fs = some s := by
  induction fs with
  | nil => cases h
  | cons f fs ih =>
    have hu' : ∀ t, Fact.start t ∈ fs → t = s := fun t ht => hu t (by simp [ht])
    cases f with
    | start t => rw [startOf, hu t (by simp)]
    | _ => exact ih (by simpa using h) hu'

/-- What is read of the component. -/
structure Desc (o : Zonal.Observance) (d : ZoneText.Observance) : Prop where
  start : d.start = o.start
  offsetFrom : d.offsetFrom = o.offsetFrom
  offsetTo : d.offsetTo = o.offsetTo
  dates : ∀ t, t ∈ EventText.datesOf false d.facts ↔ t ∈ o.rdates
  rules : ∀ ps, ps ∈ rulesOf false d.facts ↔ ∃ rr, o.rrule = some rr ∧ ps = ruleParts rr

theorem perm_map {α β : Type} {f : α → β} {l : List α} {m : List β} (h : m.Perm (l.map f)) :
    ∃ l' : List α, l'.Perm l ∧ m = l'.map f := by
  have h1 : List.Forall₂ (fun (p : β) (x : α) => p = f x) (l.map f) l := by
    rw [List.forall₂_map_left_iff]; exact List.forall₂_same.mpr fun _ _ => rfl
  obtain ⟨l', h2, h3⟩ := List.perm_comp_forall₂ h h1
  refine ⟨l', h3, ?_⟩
  clear h3 h1 h
  induction h2 with
  | nil => rfl
  | cons a _ ih => rw [a, ih]; rfl

theorem same_perm {ps ps' : List Cont.CProp} (h : ∀ key, ps'.filter (fun p => decide (p.key = key)) =
    ps.filter fun p => decide (p.key = key)) : ps'.Perm ps := by
  rw [List.perm_iff_count]
  intro p
  have h1 : ∀ l : List Cont.CProp, l.count p = (l.filter fun q => decide (q.key = p.key)).count p := fun l => by
    rw [List.count_filter (by simp)]
  rw [h1 ps', h1 ps, h p.key]

theorem component_read {o : Zonal.Observance} (h : Fits o) {t : List Char} {ps : List Cont.CProp} {ss : List Cont.Component}
    (hp : ps.Perm o.props) : ∃ d, (∃ ls, HasLines (.mk t ps ss) ls ∧ ZoneText.Describes ls d) ∧ Desc o d := by
  rw [props_eq] at hp
  obtain ⟨l, hl, rfl⟩ := perm_map hp
  have hmem : ∀ x, x ∈ l ↔ x ∈ pairs o := fun x => hl.mem_iff
  refine ⟨⟨l.map Prod.snd, o.start, o.offsetFrom, o.offsetTo⟩, ⟨l.map Prod.fst, ⟨?_, ?_, ?_⟩, ?_, ?_, ?_, ?_⟩, rfl, rfl, rfl, ?_, ?_⟩
  · simp [Cont.Component.props]
  · intro c hc
    obtain ⟨x, hx, rfl⟩ := List.mem_map.mp hc
    obtain ⟨n, hn, v, hv⟩ := pair_name ((hmem x).mp hx)
    rw [hv]; exact (wline_allowed hn v).1
  · intro c hc
    obtain ⟨x, hx, rfl⟩ := List.mem_map.mp hc
    obtain ⟨n, hn, v, hv⟩ := pair_name ((hmem x).mp hx)
    rw [hv]; exact (wline_allowed hn v).2
  · show List.Forall₂ Says (l.map Prod.fst) (l.map Prod.snd)
    rw [List.forall₂_map_left_iff, List.forall₂_map_right_iff]
    exact List.forall₂_same.mpr fun x hx => pair_says h ((hmem x).mp hx)
  · refine start_only (List.mem_map.mpr ⟨_, (hmem _).mpr (mem_pairs.mpr (.inr (.inr (.inr (.inl rfl))))), rfl⟩) fun t ht => ?_
    obtain ⟨x, hx, he⟩ := List.mem_map.mp ht
    rcases mem_pairs.mp ((hmem x).mp hx) with rfl | rfl | rfl | rfl | ⟨rr, _, rfl⟩ | ⟨t', ht, rfl⟩ <;> simp at he
    exact he.symm
  · refine .some _ _ (List.mem_map.mpr ⟨_, (hmem _).mpr (mem_pairs.mpr (.inl rfl)), rfl⟩) (by simp only [wline]; decide +kernel) ?_
      ⟨⟨none, wline_param _ _ _, .inl rfl⟩, (C141_offset _).mpr h.offsets.1⟩
    intro m hm hk
    obtain ⟨x, hx, rfl⟩ := List.mem_map.mp hm
    rcases mem_pairs.mp ((hmem x).mp hx) with rfl | rfl | rfl | rfl | ⟨rr, _, rfl⟩ | ⟨t', ht, rfl⟩
    · rfl
    all_goals exact absurd hk (by simp only [wline]; decide +kernel)
  · refine .some _ _ (List.mem_map.mpr ⟨_, (hmem _).mpr (mem_pairs.mpr (.inr (.inl rfl))), rfl⟩) (by simp only [wline]; decide +kernel) ?_
      ⟨⟨none, wline_param _ _ _, .inl rfl⟩, (C141_offset _).mpr h.offsets.2.1⟩
    intro m hm hk
    obtain ⟨x, hx, rfl⟩ := List.mem_map.mp hm
    rcases mem_pairs.mp ((hmem x).mp hx) with rfl | rfl | rfl | rfl | ⟨rr, _, rfl⟩ | ⟨t', ht, rfl⟩
    · exact absurd hk (by simp only [wline]; decide +kernel)
    · rfl
    all_goals exact absurd hk (by simp only [wline]; decide +kernel)
  · intro t
    rw [mem_dates]
    constructor
    · rintro ⟨m, hm, ht⟩
      obtain ⟨x, hx, he⟩ := List.mem_map.mp hm
      rcases mem_pairs.mp ((hmem x).mp hx) with rfl | rfl | rfl | rfl | ⟨rr, _, rfl⟩ | ⟨t', ht', rfl⟩ <;> simp at he
      subst he
      rw [List.mem_singleton.mp ht]; exact ht'
    · intro ht
      exact ⟨[t], List.mem_map.mpr ⟨_, (hmem _).mpr (mem_pairs.mpr (.inr (.inr (.inr (.inr (.inr ⟨t, ht, rfl⟩)))))), rfl⟩, by simp⟩
  · intro ps
    rw [mem_rules]
    constructor
    · intro hm
      obtain ⟨x, hx, he⟩ := List.mem_map.mp hm
      rcases mem_pairs.mp ((hmem x).mp hx) with rfl | rfl | rfl | rfl | ⟨rr, hr, rfl⟩ | ⟨t', ht', rfl⟩ <;> simp at he
      exact ⟨rr, hr, he.symm⟩
    · rintro ⟨rr, hr, rfl⟩
      exact List.mem_map.mpr ⟨_, (hmem _).mpr (mem_pairs.mpr (.inr (.inr (.inr (.inr (.inl ⟨rr, hr, rfl⟩)))))), rfl⟩

/-! ## Onsets -/

theorem desc_fits {o : Zonal.Observance} {d : ZoneText.Observance} (h : Fits o) (hd : Desc o d) : ZoneFits d := by
  refine ⟨by rw [hd.start]; exact h.start.1, by rw [hd.start]; exact h.start.2.1.1, ?_, ?_, ?_, ?_⟩
  · rw [hd.start]
    intro h1 h2
    have := h.start.1.1.1.1.2.2.2
    simp only [DateTime.civil, DateTime.date, h1, h2] at this
    unfold monthLen at this
    by_contra hc
    have hc' : ¬ Leap o.start.year := fun hl => hc ⟨hl.1, hl.2.resolve_left (by have := h.start.2.1.1; omega)⟩
    simp [hc'] at this
  · rw [hd.start, hd.offsetFrom]; exact ⟨h.start.2.2, h.offsets.2.2⟩
  · intro t ht
    obtain ⟨h1, h2, _, h4⟩ := h.rdates t ((hd.dates t).mp ht)
    refine ⟨h1, ?_, h4⟩
    rw [hd.start, Rule.L133.before_iff h1.1 h.start.1.1]
    exact not_lt.mpr h2
  · intro ps hps
    obtain ⟨rr, hr, rfl⟩ := (hd.rules ps).mp hps
    obtain ⟨h1, h2, h3, h4, h5, h6⟩ := h.rule rr hr
    rw [rule_parts h hr]
    refine ⟨rfl, ?_, ?_, rfl, nofun, ?_, ?_⟩
    · refine ⟨by rw [hd.start]; exact h.start.1.1, le_rfl, (by decide : (0 : Int) ≤ 1 ∧ (1 : Int) < 7), fun v hv => (h4 v hv).1,
        ?_, h3, nofun, nofun, nofun, ?_, nofun, fun _ => ⟨h1, rfl, fun hm => absurd hm h2⟩, nofun⟩
      · intro hz
        have := h5 0 hz
        omega
      · intro hdo
        rw [hd.start, h.start.1.2.1] at hdo
        cases hdo
    · exact ⟨h1, rfl, rfl, nofun, fun _ hm => absurd hm h2⟩
    · intro hu hn
      have hu : rr.2.isSome = true := hu
      have hn : rr.2 = none := hn
      rw [hn] at hu
      cases hu
    · intro w hw
      obtain ⟨a, b, c, _, _, e⟩ := h6 w hw
      exact ⟨a, b, c, by rw [hd.start, hd.offsetFrom]; exact e⟩

theorem rule_falls {o : Zonal.Observance} {d : ZoneText.Observance} (h : Fits o) (hd : Desc o d) {rr : Parts × Option DateTime}
    (hr : o.rrule = some rr) {t : DateTime} (hy : t.year ≤ 2100) :
    ZoneText.Falls (recurrenceOf rr) d t ↔ Zonal.Real t ∧ SameClock o.start t ∧ RuleMatch rr.1 o.start t ∧
      clockSec o.start ≤ clockSec t ∧ ∀ w, rr.2 = some w → clockSec t - o.offsetFrom ≤ clockSec w := by
  obtain ⟨h1, h2, h3, h4, h5, h6⟩ := h.rule rr hr
  have hs := h.start.1
  have hday : ∀ v ∈ rr.1.byDay, t.Valid → 1902 ≤ t.year →
      (WeekdayMatch t v ↔ Rfc.DayMatch (Freq.yearly = Freq.yearly ∧ rr.1.byMonth = []) t v) := fun v hv ht hy' =>
    Rule.L133.dayMatch_month ht (by omega) hy (h4 v hv).1 (fun hc => h2 hc.2)
  unfold ZoneText.Falls Rfc.Occurs
  rw [hd.start, hd.offsetFrom]
  constructor
  · rintro ⟨⟨⟨k, hk⟩, hm⟩, hb, hu, -⟩
    have hv := hm.valid
    rw [Rule.L133.before_iff hv hs.1, not_lt] at hb
    have hyt : 1902 ≤ t.year := le_trans h.start.2.1.1 (Rule.L133.year_of_time hs.1 hv hb)
    refine ⟨⟨hv, by rw [hm.kind.1, hs.2.1]⟩, ?_, ⟨hm.byMonth, hm.byYearDay, hm.byMonthDay, ?_, ?_⟩, hb, ?_⟩
    · have e1 := hm.kept.second trivial rfl
      have e2 := hm.kept.minute trivial rfl
      have e3 := hm.kept.hour trivial rfl
      obtain ⟨k1, k2, k3⟩ := hm.kind
      obtain ⟨y, m, d', hh, mi, se, do_, u, tz⟩ := t
      unfold SameClock
      simp only at e1 e2 e3 k1 k2 k3
      rw [DateTime.mk.injEq]
      exact ⟨rfl, rfl, rfl, e3.symm, e2.symm, e1.symm, k1.symm, k2.symm, k3.symm⟩
    · rcases hm.byDay with hn | ⟨v, hv', hvm⟩
      · exact .inl hn
      · exact .inr ⟨v, hv', (hday v hv' hv hyt).mpr hvm⟩
    · exact fun a b c => hm.kept.day (.inr rfl) b a c
    · intro w hw
      refine hu w ?_ hw
      show rr.2.isSome = true
      rw [hw]; rfl
  · rintro ⟨hv, hc, ⟨m1, m2, m3, m4, m5⟩, hb, hu⟩
    have hyt : o.start.year ≤ t.year := Rule.L133.year_of_time hs.1 hv.1 hb
    have hk : t.hours = o.start.hours ∧ t.minutes = o.start.minutes ∧ t.seconds = o.start.seconds ∧ t.dateOnly = o.start.dateOnly ∧
        t.utc = o.start.utc ∧ t.tzid = o.start.tzid := by
      unfold SameClock at hc
      rw [← hc]
      exact ⟨rfl, rfl, rfl, rfl, rfl, rfl⟩
    refine ⟨⟨⟨(t.year - o.start.year).toNat, ?_⟩, ?_⟩, ?_, ?_, nofun⟩
    · show t.year = o.start.year + ((t.year - o.start.year).toNat : Int) * ((1 : Int).toNat : Int)
      simp; omega
    · refine ⟨⟨hk.2.2.2.1, hk.2.2.2.2.1, hk.2.2.2.2.2⟩, hv.1, m1, m2, m3, ?_, .inl rfl, .inl rfl, .inl rfl, ?_⟩
      · rcases m4 with hn | ⟨v, hv', hvm⟩
        · exact .inl hn
        · exact .inr ⟨v, hv', (hday v hv' hv.1 (le_trans h.start.2.1.1 hyt)).mp hvm⟩
      · exact ⟨fun _ _ => hk.2.2.1, fun _ _ => hk.2.1, fun _ _ => hk.1, nofun, fun _ a b c => m5 b a c, fun _ hm => absurd hm h2⟩
    · rw [Rule.L133.before_iff hv.1 hs.1]
      exact not_lt.mpr hb
    · intro w _ hw
      exact hu w hw

theorem onset_iff {o : Zonal.Observance} {d : ZoneText.Observance} (h : Fits o) (hd : Desc o d) {t : DateTime} (hy : t.year ≤ 2100) :
    ZoneText.Onset d t ↔ Zonal.Onset o t := by
  unfold ZoneText.Onset Zonal.Onset
  rw [hd.start, hd.dates]
  refine or_congr_right (or_congr_right ?_)
  constructor
  · rintro ⟨ps, hps, hF⟩
    obtain ⟨rr, hr, rfl⟩ := (hd.rules ps).mp hps
    rw [rule_parts h hr] at hF
    exact ⟨rr.1, rr.2, hr, (rule_falls h hd hr hy).mp hF⟩
  · rintro ⟨p, u, hr, hx⟩
    refine ⟨_, (hd.rules _).mpr ⟨_, hr, rfl⟩, ?_⟩
    rw [rule_parts h hr]
    exact (rule_falls h hd hr hy).mpr hx

theorem onset_real {o : Zonal.Observance} (h : Fits o) {t : DateTime} (ht : Zonal.Onset o t) : Clock t := by
  rcases ht with rfl | ht | ⟨p, u, hr, hv, hc, _⟩
  · exact h.start.1
  · exact (h.rdates t ht).1
  · refine ⟨hv.1, hv.2, ?_, ?_⟩
    · rw [← hc]; exact h.start.1.2.2.1
    · rw [← hc]; exact h.start.1.2.2.2

/-! ## The calendar -/

/-- What is read of the components. -/
def Descs (os : List Zonal.Observance) (ds : List ZoneText.Observance) : Prop :=
  (∀ o ∈ os, ∃ d ∈ ds, Desc o d) ∧ ∀ d ∈ ds, ∃ o ∈ os, Desc o d

section
variable {s : CalendarRead.Settings} {order : Cont.Order}

/-- `finalise` of a time zone raises nothing. -/
def Finishes (s : CalendarRead.Settings) : Prop :=
  ∀ c, c.type = "VTIMEZONE".toList ∨ c.type = "DAYLIGHT".toList ∨ c.type = "STANDARD".toList → s.finishes c = true

theorem finalise_other (hf : Finishes s) {t : List Char} {ps : List Cont.CProp} {cs : List Cont.Component}
    (hz : t = "VTIMEZONE".toList ∨ t = "DAYLIGHT".toList ∨ t = "STANDARD".toList) : (CalendarRead.container s).finalise (.mk t ps cs) = some (.mk t ps cs) := by
  have ht : (Cont.Component.mk t ps cs).type = t := rfl
  have h1 : CalendarRead.isRecur (Cont.Component.mk t ps cs).type = false := by
    rw [ht]
    rcases hz with e | e | e <;> rw [e] <;> decide +kernel
  have h2 : s.finishes (.mk t ps cs) = true := hf _ (by rw [ht]; exact hz)
  unfold CalendarRead.container
  dsimp only
  rw [h1, if_neg Bool.false_ne_true, if_pos h2]

theorem component_type (o : Zonal.Observance) : o.component.type = "DAYLIGHT".toList ∨ o.component.type = "STANDARD".toList := by
  unfold Observance.component
  cases o.daylight
  · exact .inr rfl
  · exact .inl rfl

theorem component_good (hT : Program ValueType.ical s.tables) (hfin : Finishes s)
    (heq : ∀ a b, order.eq a b = true → a.type = b.type) {o : Zonal.Observance} (h : Fits o) :
    Tree41.Good (CalendarRead.container s) order o.component ∧ Spec.Writable (CalendarRead.container s) o.component := by
  have ht := component_type o
  cases hc : o.component with | mk t ps cs =>
  have hps : ps = o.props ∧ cs = [] := by
    unfold Observance.component at hc
    cases hc
    exact ⟨rfl, rfl⟩
  obtain ⟨rfl, rfl⟩ := hps
  rw [hc] at ht
  have hp := props_read hT h
  obtain ⟨body, ss, l, h1, h2, h3, h4⟩ := Tree41.write (env := CalendarRead.container s) (o := order) (top := false) heq (t := t)
    (cs := []) hp (by simp) nofun nofun nofun
  refine ⟨⟨body, _, ss, ss, h1, h2, finalise_other hfin (.inr ht), .mk (C42_same_name _ _) h3 h4⟩, .mk ?_ ?_ hp nofun nofun⟩
  · show t ≠ "VCALENDAR".toList
    rcases ht with e | e <;> rw [show t = _ from e] <;> decide +kernel
  · rcases ht with e | e <;> rw [show t = _ from e] <;> decide +kernel

/-- The lines of the zone itself. -/
def zonePairs (name : List Char) : List ContentLine := [wline "TZID" (escapeText name), wline "X-LIC-LOCATION" name]

theorem zone_good (hT : Program ValueType.ical s.tables) (hfin : Finishes s)
    (heq : ∀ a b, order.eq a b = true → a.type = b.type) {name : List Char} {os : List Zonal.Observance} (h : ∀ o ∈ os, Fits o)
    (hx : (readLine s.toEnv (wline "X-LIC-LOCATION" name).text).isSome) :
    Tree41.Good (CalendarRead.container s) order (zoneComponent name os) ∧
      Spec.Writable (CalendarRead.container s) (zoneComponent name os) := by
  have hp : ∀ p ∈ [zoneProp "TZID" (escapeText name), zoneProp "X-LIC-LOCATION" name], ReadBack (CalendarRead.container s) p := by
    intro p hp
    simp only [List.mem_cons, List.not_mem_nil, or_false] at hp
    rcases hp with rfl | rfl
    · exact readBack (by simp [writtenNames]) (text_isSome hT (by simp) _)
    · exact readBack (by simp [writtenNames]) hx
  have hg : ∀ c ∈ os.map Observance.component, Tree41.Good (CalendarRead.container s) order c ∧
      Spec.Writable (CalendarRead.container s) c := by
    intro c hc
    obtain ⟨o, ho', rfl⟩ := List.mem_map.mp hc
    exact component_good hT hfin heq (h o ho')
  have ht : ∀ c ∈ os.map Observance.component, Takes "VTIMEZONE".toList c.type := by
    intro c hc
    obtain ⟨o, ho', rfl⟩ := List.mem_map.mp hc
    rcases component_type o with e | e <;> rw [e] <;> decide +kernel
  obtain ⟨body, ss, l, h1, h2, h3, h4⟩ := Tree41.write (env := CalendarRead.container s) (o := order) (top := false) heq
    (t := "VTIMEZONE".toList) hp (by simp) (fun c hc => (hg c hc).1) ht fun c hc => (hg c hc).2
  exact ⟨⟨body, _, ss, ss, h1, h2, finalise_other hfin (.inl rfl), .mk (C42_same_name _ _) h3 h4⟩,
    .mk (show "VTIMEZONE".toList ≠ "VCALENDAR".toList by decide +kernel) (by decide +kernel) hp ht fun c hc => (hg c hc).2⟩

theorem zone_in {name : List Char} {os : List Zonal.Observance} (h : ∀ o ∈ os, Fits o) {c : Cont.Component}
    (hs : Same (zoneComponent name os) c) : ∃ ds, ZoneIn c (name, ds) ∧ Descs os ds := by
  unfold zoneComponent at hs
  cases hs with
  | @mk _ _ ps' _ l cs' hp hl hss =>
    have hobs : ∀ {os' : List Zonal.Observance} {cs' : List Cont.Component}, (∀ o ∈ os', Fits o) →
        List.Forall₂ Same (os'.map Observance.component) cs' →
        ∃ ds, List.Forall₂ (fun o d => ∃ ls, HasLines o ls ∧ ZoneText.Describes ls d) cs' ds ∧ List.Forall₂ Desc os' ds := by
      intro os'
      induction os' with
      | nil => intro cs' _ h; cases h; exact ⟨[], .nil, .nil⟩
      | cons o os' ih =>
        intro cs' hf h
        cases h with
        | @cons _ c' _ cs' a b =>
          obtain ⟨ds, b1, b2⟩ := ih (fun o ho => hf o (by simp [ho])) b
          unfold Observance.component at a
          cases a with
          | @mk _ _ qs _ _ _ hq _ _ =>
            obtain ⟨d, a1, a2⟩ := component_read (hf o (by simp)) (t := if o.daylight then "DAYLIGHT".toList else "STANDARD".toList)
              (ss := _) (same_perm hq)
            exact ⟨d :: ds, .cons a1 b1, .cons a2 b2⟩
    obtain ⟨os', ho, rfl⟩ := perm_map hl
    obtain ⟨ds, d1, d2⟩ := hobs (fun o h' => h o (ho.subset h')) hss
    refine ⟨ds, ⟨rfl, ?_, d1⟩, ?_, ?_⟩
    · have hpp := same_perm hp
      rw [show [zoneProp "TZID" (escapeText name), zoneProp "X-LIC-LOCATION" name] =
        (zonePairs name).map fun x => (⟨x.name, x.text⟩ : Cont.CProp) by simp [zonePairs, zoneProp_eq]] at hpp
      obtain ⟨ls, hls, rfl⟩ := perm_map hpp
      have hmem : ∀ m, m ∈ ls ↔ m = wline "TZID" (escapeText name) ∨ m = wline "X-LIC-LOCATION" name := by
        intro m
        rw [hls.mem_iff]
        simp [zonePairs]
      have hall : ∀ m ∈ ls, m.Allowed false ∧ ∀ p ∈ m.params, ∀ v ∈ p.values, v.Readable := by
        intro m hm
        rcases (hmem m).mp hm with rfl | rfl
        · exact wline_allowed (by simp [writtenNames]) _
        · exact wline_allowed (by simp [writtenNames]) _
      refine ⟨ls, ⟨by simp [Cont.Component.props], fun m hm => (hall m hm).1, fun m hm => (hall m hm).2⟩, ?_⟩
      refine .some (wline "TZID" (escapeText name)) _ ((hmem _).mpr (.inl rfl)) (by simp only [wline]; decide +kernel) ?_
        ⟨⟨none, wline_param _ _ _, .inl rfl⟩, denotes_escape name⟩
      intro m hm hk
      rcases (hmem m).mp hm with rfl | rfl
      · rfl
      · exact absurd hk (by simp only [wline]; decide +kernel)
    · intro o ho'
      exact L137.forall₂_left d2 (ho.symm.subset ho')
    · intro d hd
      obtain ⟨o, a, b⟩ := L137.forall₂_right d2 hd
      exact ⟨o, ho.subset a, b⟩

theorem forall₂_zones {zs : List (List Char × List Zonal.Observance)} {cs : List Cont.Component} (h : ∀ z ∈ zs, ∀ o ∈ z.2, Fits o)
    (hs : List.Forall₂ Same (zs.map fun z => zoneComponent z.1 z.2) cs) :
    ∃ zones, List.Forall₂ ZoneIn cs zones ∧
      List.Forall₂ (fun (z : List Char × List Zonal.Observance) (y : List Char × List ZoneText.Observance) =>
        y.1 = z.1 ∧ Descs z.2 y.2) zs zones := by
  induction zs generalizing cs with
  | nil => cases hs; exact ⟨[], .nil, .nil⟩
  | cons z zs ih =>
    cases hs with
    | cons a b =>
      obtain ⟨ys, b1, b2⟩ := ih (fun z hz => h z (by simp [hz])) b
      obtain ⟨ds, a1, a2⟩ := zone_in (h z (by simp)) a
      exact ⟨(z.1, ds) :: ys, .cons a1 b1, .cons ⟨rfl, a2⟩ b2⟩

theorem named_only {zs : List (List Char × List Zonal.Observance)} {zones : List (List Char × List ZoneText.Observance)}
    (h : List.Forall₂ (fun (z : List Char × List Zonal.Observance) (y : List Char × List ZoneText.Observance) =>
      y.1 = z.1 ∧ Descs z.2 y.2) zs zones) (hnd : (zs.map Prod.fst).Nodup) {z : List Char × List Zonal.Observance} (hz : z ∈ zs) :
    (∃ ds, Named zones z.1 ds) ∧ ∀ ds, Named zones z.1 ds → Descs z.2 ds := by
  induction h with
  | nil => cases hz
  | @cons w y zs zones a hrest ih =>
    have hnd' := List.nodup_cons.mp (by simpa using hnd : (w.1 :: zs.map Prod.fst).Nodup)
    rcases List.mem_cons.mp hz with rfl | hz
    · refine ⟨⟨y.2, [], zones, by rw [← a.1]; rfl, by simp⟩, ?_⟩
      rintro ds ⟨pre, post, he, hpre⟩
      cases pre with
      | nil =>
        rw [List.nil_append, List.cons.injEq] at he
        have : y.2 = ds := by rw [he.1]
        rw [← this]; exact a.2
      | cons q pre =>
        rw [List.cons_append, List.cons.injEq] at he
        exact absurd a.1 (by rw [he.1]; exact hpre q (by simp))
    · have hne : y.1 ≠ z.1 := by
        rw [a.1]
        intro he
        exact hnd'.1 (by rw [he]; exact List.mem_map_of_mem hz)
      obtain ⟨⟨ds, pre, post, he, hpre⟩, h2⟩ := ih hnd'.2 hz
      refine ⟨⟨ds, y :: pre, post, by rw [he]; rfl, ?_⟩, ?_⟩
      · intro p hp
        rcases List.mem_cons.mp hp with rfl | hp
        · exact hne
        · exact hpre p hp
      · rintro ds ⟨pre, post, he, hpre⟩
        cases pre with
        | nil =>
          rw [List.nil_append, List.cons.injEq] at he
          exact absurd (by rw [he.1]) hne
        | cons q pre =>
          rw [List.cons_append, List.cons.injEq] at he
          exact h2 ds ⟨pre, post, he.2, fun p hp => hpre p (by simp [hp])⟩

/-- The calendar that is written. -/
def calendar (ps : List Cont.CProp) (zs : List (List Char × List Zonal.Observance)) : Cont.Component :=
  .mk "VCALENDAR".toList ps (zs.map fun z => zoneComponent z.1 z.2)

theorem calendar_written (hT : Program ValueType.ical s.tables) (hfin : Finishes s)
    (heq : ∀ a b, order.eq a b = true → a.type = b.type) {ps : List Cont.CProp}
    (hp : ∀ p ∈ ps, ReadBack (CalendarRead.container s) p ∧ CalendarRead.valid s.toEnv p = true)
    (hv : ∃ p ∈ ps, p.key = "VERSION".toList)
    {zs : List (List Char × List Zonal.Observance)} (h : ∀ z ∈ zs, ∀ o ∈ z.2, Fits o) (hnd : (zs.map Prod.fst).Nodup)
    (hx : ∀ z ∈ zs, (readLine s.toEnv ("X-LIC-LOCATION:".toList ++ z.1)).isSome) :
    ∃ body ps' ss zones, Cont.generate order (calendar ps zs) =
        some ([] ++ "BEGIN:VCALENDAR".toList :: (body ++ "END:VCALENDAR".toList :: [])) ∧
      Spec.Body (CalendarRead.container s) true "VCALENDAR".toList body ps' ss ∧ (∃ p ∈ ps', p.key = "VERSION".toList) ∧
      List.Forall₂ ZoneIn (ss.filter fun d => decide (PropText.upper d.type = "VTIMEZONE".toList)) zones ∧
      (∀ y ∈ zones, ∀ d ∈ y.2, ZoneFits d) ∧
      ∀ z ∈ zs, (∃ ds, Named zones z.1 ds) ∧ ∀ ds, Named zones z.1 ds → Descs z.2 ds := by
  have hg : ∀ c ∈ zs.map fun z => zoneComponent z.1 z.2, Tree41.Good (CalendarRead.container s) order c ∧
      Spec.Writable (CalendarRead.container s) c := by
    intro c hc
    obtain ⟨z, hz, rfl⟩ := List.mem_map.mp hc
    refine zone_good hT hfin heq (h z hz) ?_
    have := hx z hz
    rwa [show (wline "X-LIC-LOCATION" z.1).text = "X-LIC-LOCATION:".toList ++ z.1 by
      simp [wline, ContentLine.text, show "X-LIC-LOCATION:".toList = "X-LIC-LOCATION".toList ++ [':'] from by decide +kernel]]
  obtain ⟨body, ss, l, h1, h2, h3, h4⟩ := Tree41.write (env := CalendarRead.container s) (o := order) (top := true) heq
    (t := "VCALENDAR".toList) (ps := ps) (fun p hp' => (hp p hp').1) (fun _ p hp' => (hp p hp').2) (fun c hc => (hg c hc).1)
    (fun c hc => ⟨fun h => absurd h (by decide +kernel), fun h => absurd h (by decide +kernel), fun h => absurd h (by decide +kernel),
      fun h => absurd h (by decide +kernel), fun h => absurd h (by decide +kernel)⟩)
    fun c hc => (hg c hc).2
  obtain ⟨zs', hz', rfl⟩ := perm_map h3
  obtain ⟨zones, z1, z2⟩ := forall₂_zones (fun z hz => h z (hz'.subset hz)) h4
  refine ⟨body, _, ss, zones, ?_, h2, ?_, ?_, ?_, ?_⟩
  · rw [List.nil_append]; exact h1
  · obtain ⟨p, hp', hk⟩ := hv
    exact ⟨p, (C42_properties _ _).symm.subset hp', hk⟩
  · rw [List.filter_eq_self.mpr]
    · exact z1
    · intro c hc
      obtain ⟨y, _, hy⟩ := L137.forall₂_left z1 hc
      rw [hy.type]; decide +kernel
  · intro y hy d hd
    obtain ⟨z, hz, _, hds⟩ := L137.forall₂_right z2 hy
    obtain ⟨o, ho', hd'⟩ := hds.2 d hd
    exact desc_fits (h z (hz'.subset hz) o ho') hd'
  · intro z hz
    exact named_only z2 ((hz'.map Prod.fst).nodup_iff.mpr hnd) (hz'.symm.subset hz)

end
end L142

/-! ## The offsets -/

/-- The offset after the last of the changes `W` that is, by `key`, not after the time `x`.  A change: the offsets before it and after
it, whether daylight saving time begins, and the time on the clock. -/
def Zonal.LastChange (W : Int → Int → Bool → DateTime → Prop) (key : Int → DateTime → Int) (x : DateTime) (v : Int) : Prop :=
  ∃ f d t, W f v d t ∧ key f t ≤ clockSec x ∧ ∀ f' v' d' t', W f' v' d' t' → key f' t' ≤ clockSec x → key f' t' ≤ key f t

/-- All changes are after the time `x`. -/
def Zonal.NoChange (W : Int → Int → Bool → DateTime → Prop) (key : Int → DateTime → Int) (x : DateTime) : Prop :=
  ∀ f v d t, W f v d t → clockSec x < key f t

/-- The changes up to the time `x` in UTC are in the same order on the clock as in UTC, and the clock shows no later year for them. -/
def Zonal.InOrder (W : Int → Int → Bool → DateTime → Prop) (x : DateTime) : Prop :=
  (∀ f v d t f' v' d' t', W f v d t → W f' v' d' t' → clockSec t' - f' ≤ clockSec x → clockSec t ≤ clockSec t' →
    clockSec t - f ≤ clockSec t' - f') ∧
  ∀ f v d t, W f v d t → clockSec t - f ≤ clockSec x → t.year ≤ x.year

namespace L142
open L138 Zonal

theorem written_onset {os : List Zonal.Observance} {ds : List ZoneText.Observance} (hf : ∀ o ∈ os, Fits o) (h : Descs os ds)
    {d : ZoneText.Observance} (hd : d ∈ ds) {t : DateTime} (hy : t.year ≤ 2100) (ho : ZoneText.Onset d t) :
    ∃ b, Written os d.offsetFrom d.offsetTo b t := by
  obtain ⟨o, ho', hdo⟩ := h.2 d hd
  exact ⟨_, o, ho', hdo.offsetFrom.symm, hdo.offsetTo.symm, rfl, (onset_iff (hf o ho') hdo hy).mp ho⟩

theorem onset_written {os : List Zonal.Observance} {ds : List ZoneText.Observance} (hf : ∀ o ∈ os, Fits o) (h : Descs os ds)
    {f v : Int} {b : Bool} {t : DateTime} (hy : t.year ≤ 2100) (hw : Written os f v b t) :
    ∃ d ∈ ds, d.offsetFrom = f ∧ d.offsetTo = v ∧ ZoneText.Onset d t := by
  obtain ⟨o, ho', rfl, rfl, rfl, hon⟩ := hw
  obtain ⟨d, hd, hdo⟩ := h.1 o ho'
  exact ⟨d, hd, hdo.offsetFrom, hdo.offsetTo, (onset_iff (hf o ho') hdo hy).mpr hon⟩

theorem written_clock {os : List Zonal.Observance} (hf : ∀ o ∈ os, Fits o) {f v : Int} {b : Bool} {t : DateTime}
    (hw : Written os f v b t) : Clock t ∧ f.natAbs < 86400 := by
  obtain ⟨o, ho', rfl, rfl, rfl, hon⟩ := hw
  exact ⟨onset_real (hf o ho') hon, (hf o ho').offsets.1⟩

/-- A day after `x` is in the year after at the latest. -/
theorem year_le {t x : DateTime} (ht : Clock t) (hx : x.Valid) (hd : x.dateOnly = false) (hy : x.year ≤ 2097)
    (h : clockSec t ≤ clockSec x + 86400) : t.year ≤ 2098 := by
  have h : t.num ≤ x.num + 86400 := h
  have hlt := lt_newYear (t := { x with utc := false, tzid := none }) (y := 2098) ⟨hx, hd, rfl, rfl⟩ (by
    show x.year < 2098
    omega)
  by_contra hn
  have h3 : ¬ t.num < (TzElement.newYear 2099).num := fun h3 => by
    have := (newYear_lt ht (y := 2099)).mp h3
    omega
  have h4 : (TzElement.newYear 2099).num = (TzElement.newYear 2098).num + 31536000 := by decide +kernel
  have h5 : ({ x with utc := false, tzid := none } : DateTime).num = x.num := rfl
  omega

theorem last_local {os : List Zonal.Observance} {ds : List ZoneText.Observance} (hf : ∀ o ∈ os, Fits o) (h : Descs os ds)
    (hz : ∀ d ∈ ds, ZoneFits d) {x : DateTime} (hx : x.Valid) (hy : x.year ≤ 2098) {v : Int}
    (hv : ZoneText.InForce ds x v ∨ ZoneText.Unset ds x ∧ v = 0) :
    LastChange (Written os) (fun _ t => clockSec t) x v ∨ NoChange (Written os) (fun _ t => clockSec t) x ∧ v = 0 := by
  have hyear : ∀ {t : DateTime}, Clock t → clockSec t ≤ clockSec x → t.year ≤ 2100 := fun ht hle =>
    le_trans (Rule.L133.year_of_time ht.1 hx hle) (by omega)
  rcases hv with ⟨d, hd, t, ho, hb, rfl, hl⟩ | ⟨hu, rfl⟩
  · left
    have hc := onset_clock (hz d hd) ho
    rw [Rule.L133.before_iff hx hc.1, not_lt] at hb
    obtain ⟨b, hw⟩ := written_onset hf h hd (hyear hc hb) ho
    refine ⟨_, b, t, hw, hb, fun f' v' d' t' hw' hle => ?_⟩
    have hc' := (written_clock hf hw').1
    obtain ⟨e, he, _, _, ho'⟩ := onset_written hf h (hyear hc' hle) hw'
    have := hl e he t' ho' (by rw [Rule.L133.before_iff hx hc'.1]; exact not_lt.mpr hle)
    rw [Rule.L133.before_iff hc.1 hc'.1, not_lt] at this
    exact this
  · right
    refine ⟨fun f v d t hw => ?_, rfl⟩
    by_contra hn
    have hle := not_lt.mp hn
    have hc := (written_clock hf hw).1
    obtain ⟨e, he, _, _, ho⟩ := onset_written hf h (hyear hc hle) hw
    have := hu e he t ho
    rw [Rule.L133.before_iff hx hc.1] at this
    exact hn this

theorem order_utc {os : List Zonal.Observance} {ds : List ZoneText.Observance} (hf : ∀ o ∈ os, Fits o) (h : Descs os ds)
    (hz : ∀ d ∈ ds, ZoneFits d) {x : DateTime} (hx : x.Valid) (hd : x.dateOnly = false) (hy : x.year ≤ 2097)
    (ho : Zonal.InOrder (Written os) x) : PyCal.InOrder ds x := by
  have hyear : ∀ {d : ZoneText.Observance} {t : DateTime}, d ∈ ds → Clock t → clockSec t - d.offsetFrom ≤ clockSec x → t.year ≤ 2100 ∧
      clockSec t ≤ clockSec x + 86400 := by
    intro d t hd' hc hle
    obtain ⟨o, ho', hdo⟩ := h.2 d hd'
    have := (hf o ho').offsets.1
    rw [← hdo.offsetFrom] at this
    have h2 : clockSec t ≤ clockSec x + 86400 := by omega
    exact ⟨le_trans (year_le hc hx hd hy h2) (by omega), h2⟩
  refine ⟨fun d hd1 d' hd2 t t' h1 h2 hle htt => ?_, fun d hd1 t h1 hle => ?_⟩
  · have hc := onset_clock (hz d hd1) h1
    have hc' := onset_clock (hz d' hd2) h2
    obtain ⟨hy', hb⟩ := hyear hd2 hc' hle
    have hyt : t.year ≤ 2100 := le_trans (Rule.L133.year_of_time hc.1 hc'.1 htt) hy'
    obtain ⟨b, hw⟩ := written_onset hf h hd1 hyt h1
    obtain ⟨b', hw'⟩ := written_onset hf h hd2 hy' h2
    exact ho.1 _ _ _ _ _ _ _ _ hw hw' hle htt
  · have hc := onset_clock (hz d hd1) h1
    obtain ⟨b, hw⟩ := written_onset hf h hd1 (hyear hd1 hc hle).1 h1
    exact ho.2 _ _ _ _ hw hle

theorem last_utc {os : List Zonal.Observance} {ds : List ZoneText.Observance} (hf : ∀ o ∈ os, Fits o) (h : Descs os ds)
    (hz : ∀ d ∈ ds, ZoneFits d) {x : DateTime} (hx : x.Valid) (hd : x.dateOnly = false) (hy : x.year ≤ 2097) {v : Int}
    (hv : ZoneText.InForceUtc ds x v ∨ ZoneText.UnsetUtc ds x ∧ v = 0) :
    LastChange (Written os) (fun f t => clockSec t - f) x v ∨ NoChange (Written os) (fun f t => clockSec t - f) x ∧ v = 0 := by
  have hyear : ∀ {f : Int} {t : DateTime}, f.natAbs < 86400 → Clock t → clockSec t - f ≤ clockSec x → t.year ≤ 2100 := by
    intro f t hf' hc hle
    exact le_trans (year_le hc hx hd hy (by omega)) (by omega)
  rcases hv with ⟨d, hd1, t, ho, hb, rfl, hl⟩ | ⟨hu, rfl⟩
  · left
    have hc := onset_clock (hz d hd1) ho
    obtain ⟨o, ho', hdo⟩ := h.2 d hd1
    have hk := (hf o ho').offsets.1
    rw [← hdo.offsetFrom] at hk
    obtain ⟨b, hw⟩ := written_onset hf h hd1 (hyear hk hc hb) ho
    refine ⟨_, b, t, hw, hb, fun f' v' d' t' hw' hle => ?_⟩
    obtain ⟨hc', hk'⟩ := written_clock hf hw'
    obtain ⟨e, he, rfl, _, ho'⟩ := onset_written hf h (hyear hk' hc' hle) hw'
    exact hl e he t' ho' hle
  · right
    refine ⟨fun f v d t hw => ?_, rfl⟩
    by_contra hn
    have hle := not_lt.mp hn
    obtain ⟨hc, hk⟩ := written_clock hf hw
    obtain ⟨e, he, rfl, _, ho⟩ := onset_written hf h (hyear hk hc hle) hw
    exact hn (hu e he t ho)

theorem named_mem {zones : List (List Char × List ZoneText.Observance)} {n : List Char} {ds : List ZoneText.Observance}
    (h : Named zones n ds) : (n, ds) ∈ zones := by
  obtain ⟨pre, post, rfl, _⟩ := h
  simp

end L142
open L142

/-- C142 (partial), local times: the components that the time zone compiler makes of zones are written as a calendar, which can be read;
then `getTimezoneOffsetSeconds` gives, for a local time and the name of one of the zones, the offset after the last change of its
components that is not after that time, and 0 before the first.

Needed: `Fits`, different names, and that the lines of the calendar itself and X-LIC-LOCATION can be read.  Missing: rules with
BYYEARDAY, seconds, years from 2099 on. -/
theorem C142_offset_partial (s : CalendarRead.Settings) (hT : Program ValueType.ical s.tables)
    (hfin : Finishes s) (order : Cont.Order) (heq : ∀ a b, order.eq a b = true → a.type = b.type) (ps : List Cont.CProp)
    (hp : ∀ p ∈ ps, ReadBack (CalendarRead.container s) p ∧ CalendarRead.valid s.toEnv p = true)
    (hv : ∃ p ∈ ps, p.key = "VERSION".toList) (zs : List (List Char × List Zonal.Observance))
    (hf : ∀ z ∈ zs, ∀ o ∈ z.2, Zonal.Fits o) (hnd : (zs.map Prod.fst).Nodup)
    (hx : ∀ z ∈ zs, (readLine s.toEnv ("X-LIC-LOCATION:".toList ++ z.1)).isSome) (env : TzEnv) (he : DefaultUtc env) :
    ∃ text c Zs, Cont.generate order (.mk "VCALENDAR".toList ps (zs.map fun z => Zonal.zoneComponent z.1 z.2)) = some text ∧
      CalendarRead.read s text = .ok (some c) ∧ CalendarRead.zonesOf env s.toEnv c = some Zs ∧
      ∀ o o' Zs1, ZonesReach env o o' Zs Zs1 → ∀ z ∈ zs, ∀ x, x.Valid → x.dateOnly = false → x.year ≤ 2098 →
        ∃ n v Zs2, (∀ fuel ≥ n, CalendarRead.offsetIn env o o' fuel z.1 x false Zs1 = some (v, Zs2)) ∧
          (Zonal.LastChange (Written z.2) (fun _ t => clockSec t) x v ∨
            Zonal.NoChange (Written z.2) (fun _ t => clockSec t) x ∧ v = 0) := by
  obtain ⟨body, ps', ss, zones, h1, h2, h3, h4, h5, h6⟩ := calendar_written hT hfin heq hp hv hf hnd hx
  obtain ⟨c, Zs, c1, c2, c3⟩ := C138_offset_partial s hT [] [] body ps' ss (by simp [Blank]) (by simp [Blank]) (.inr ⟨rfl, rfl⟩)
    h2 h3 zones h4 h5 env he
  refine ⟨_, c, Zs, h1, c1, c2, fun o o' Zs1 hr z hz x hx hd hy => ?_⟩
  obtain ⟨n, v, Zs2, d1, d2, -⟩ := c3 o o' Zs1 hr z.1 x hx hd hy
  obtain ⟨⟨ds, hds⟩, hall⟩ := h6 z hz
  exact ⟨n, v, Zs2, d1, last_local (hf z hz) (hall ds hds) (h5 _ (named_mem hds)) hx hy (d2 ds hds)⟩

/-- C142 (partial), times in UTC: with `relative_to_utc`, the offset after the last change that, in UTC, is not after the time.

Needed: as in `C142_offset_partial`, and that the changes are in order (`C138_utc_partial`).  Missing: years from 2098 on. -/
theorem C142_utc_partial (s : CalendarRead.Settings) (hT : Program ValueType.ical s.tables)
    (hfin : Finishes s) (order : Cont.Order) (heq : ∀ a b, order.eq a b = true → a.type = b.type) (ps : List Cont.CProp)
    (hp : ∀ p ∈ ps, ReadBack (CalendarRead.container s) p ∧ CalendarRead.valid s.toEnv p = true)
    (hv : ∃ p ∈ ps, p.key = "VERSION".toList) (zs : List (List Char × List Zonal.Observance))
    (hf : ∀ z ∈ zs, ∀ o ∈ z.2, Zonal.Fits o) (hnd : (zs.map Prod.fst).Nodup)
    (hx : ∀ z ∈ zs, (readLine s.toEnv ("X-LIC-LOCATION:".toList ++ z.1)).isSome) (env : TzEnv) (he : DefaultUtc env) :
    ∃ text c Zs, Cont.generate order (.mk "VCALENDAR".toList ps (zs.map fun z => Zonal.zoneComponent z.1 z.2)) = some text ∧
      CalendarRead.read s text = .ok (some c) ∧ CalendarRead.zonesOf env s.toEnv c = some Zs ∧
      ∀ o o' Zs1, ZonesReach env o o' Zs Zs1 → ∀ z ∈ zs, ∀ x, x.Valid → x.dateOnly = false → x.year ≤ 2097 →
        Zonal.InOrder (Written z.2) x →
        ∃ n v Zs2, (∀ fuel ≥ n, CalendarRead.offsetIn env o o' fuel z.1 x true Zs1 = some (v, Zs2)) ∧
          (Zonal.LastChange (Written z.2) (fun f t => clockSec t - f) x v ∨
            Zonal.NoChange (Written z.2) (fun f t => clockSec t - f) x ∧ v = 0) := by
  obtain ⟨body, ps', ss, zones, h1, h2, h3, h4, h5, h6⟩ := calendar_written hT hfin heq hp hv hf hnd hx
  obtain ⟨c, Zs, c1, c2, c3⟩ := C138_utc_partial s hT [] [] body ps' ss (by simp [Blank]) (by simp [Blank]) (.inr ⟨rfl, rfl⟩)
    h2 h3 zones h4 h5 env he
  refine ⟨_, c, Zs, h1, c1, c2, fun o o' Zs1 hr z hz x hx hd hy hord => ?_⟩
  obtain ⟨⟨ds, hds⟩, hall⟩ := h6 z hz
  obtain ⟨n, v, Zs2, d1, d2, -⟩ := c3 o o' Zs1 hr z.1 x hx hd hy fun ds' hds' =>
    order_utc (hf z hz) (hall ds' hds') (h5 _ (named_mem hds')) hx hd hy hord
  exact ⟨n, v, Zs2, d1, last_utc (hf z hz) (hall ds hds) (h5 _ (named_mem hds)) hx hd hy (d2 ds hds)⟩

/-- C142 (partial), zones: the same for a zone of the time zone data, with the transitions of the zone, and those with which its rules go
on where nothing ends them (`C88_exact_partial`), in place of the components.

Needed: as in `C142_offset_partial` and in `C88_exact_partial`.  Missing: the same. -/
theorem C142_zone_partial (s : CalendarRead.Settings) (hT : Program ValueType.ical s.tables)
    (hfin : Finishes s) (order : Cont.Order) (heq : ∀ a b, order.eq a b = true → a.type = b.type) (ps : List Cont.CProp)
    (hp : ∀ p ∈ ps, ReadBack (CalendarRead.container s) p ∧ CalendarRead.valid s.toEnv p = true)
    (hv : ∃ p ∈ ps, p.key = "VERSION".toList) (env : TzEnv) (he : DefaultUtc env)
    (R : Zonal.Reading) (zn : Zonal.Zone) (rules : List Char → Option (List Zonal.RuleObj)) (minYear maxYear : Int)
    (lmt : List Zonal.Transition) (secs : Zonal.Lines) (os : List Zonal.Observance)
    (hexp : zn.expand rules minYear maxYear = some (lmt ++ secs.flatMap (·.2)))
    (hlmt : ∀ t ∈ lmt, t.zone.format = "LMT".toList)
    (hsecs : ∀ s ∈ secs, s.1.format ≠ "LMT".toList ∧ s.2 ≠ [] ∧ ∀ t ∈ s.2, t.zone = s.1)
    (hnd : (secs.map (·.1)).Nodup) (hok : ∀ s ∈ secs, Zonal.LineOk R s.1 s.2)
    (h : zn.vtimezone rules minYear maxYear = some os) (hf : ∀ o ∈ os, Zonal.Fits o)
    (hx : (readLine s.toEnv ("X-LIC-LOCATION:".toList ++ zn.name)).isSome) :
    ∃ text c Zs, Cont.generate order (.mk "VCALENDAR".toList ps [Zonal.zoneComponent zn.name os]) = some text ∧
      CalendarRead.read s text = .ok (some c) ∧ CalendarRead.zonesOf env s.toEnv c = some Zs ∧
      ∀ o o' Zs1, ZonesReach env o o' Zs Zs1 → ∀ x, x.Valid → x.dateOnly = false → x.year ≤ 2098 →
        ∃ n v Zs2, (∀ fuel ≥ n, CalendarRead.offsetIn env o o' fuel zn.name x false Zs1 = some (v, Zs2)) ∧
          (Zonal.LastChange (fun f u d t => ∃ s ∈ secs,
              (∃ tr ∈ s.2, tr.dt = t ∧ tr.offsetFrom = f ∧ tr.offsetTo = u ∧ Zonal.Saving s.1 tr.rule d) ∨
                ∃ r, Zonal.Continues R s.1 s.2 r f u d t) (fun _ t => clockSec t) x v ∨
            Zonal.NoChange (fun f u d t => ∃ s ∈ secs,
              (∃ tr ∈ s.2, tr.dt = t ∧ tr.offsetFrom = f ∧ tr.offsetTo = u ∧ Zonal.Saving s.1 tr.rule d) ∨
                ∃ r, Zonal.Continues R s.1 s.2 r f u d t) (fun _ t => clockSec t) x ∧ v = 0) := by
  have hW : Written os = fun f u d t => ∃ s ∈ secs,
      (∃ tr ∈ s.2, tr.dt = t ∧ tr.offsetFrom = f ∧ tr.offsetTo = u ∧ Zonal.Saving s.1 tr.rule d) ∨
        ∃ r, Zonal.Continues R s.1 s.2 r f u d t := by
    funext f u d t
    exact propext (Zonal.C88_exact_partial R zn rules minYear maxYear lmt secs os hexp hlmt hsecs hnd hok h f u d t)
  obtain ⟨text, c, Zs, h1, h2, h3, h4⟩ := C142_offset_partial s hT hfin order heq ps hp hv [(zn.name, os)]
    (by simpa using hf) (by simp) (by simpa using hx) env he
  refine ⟨text, c, Zs, h1, h2, h3, fun o o' Zs1 hr x hx hd hy => ?_⟩
  rw [← hW]
  exact h4 o o' Zs1 hr (zn.name, os) (by simp) x hx hd hy

/-! ## A case -/

namespace L142
open Zonal L138

instance (t : DateTime) : Decidable (Clock t) := by unfold Clock; infer_instance

instance (o : Zonal.Observance) : Decidable (Fits o) :=
  decidable_of_iff
    ((Clock o.start ∧ (1902 ≤ o.start.year ∧ o.start.year ≤ 9999) ∧ o.start.seconds = 0) ∧
      (o.offsetFrom.natAbs < 86400 ∧ o.offsetTo.natAbs < 86400 ∧ o.offsetFrom % 60 = 0) ∧
      (∀ t ∈ o.rdates, Clock t ∧ o.start.num ≤ t.num ∧ (0 ≤ t.year ∧ t.year ≤ 9999) ∧ t.seconds = 0) ∧
      ∀ rr ∈ o.rrule.toList, rr.1.byYearDay = [] ∧ rr.1.byMonth ≠ [] ∧ (∀ m ∈ rr.1.byMonth, 1 ≤ m ∧ m ≤ 12) ∧
        (∀ v ∈ rr.1.byDay, (0 ≤ v.2 ∧ v.2 < 7) ∧ -53 ≤ v.1 ∧ v.1 ≤ 53) ∧
        (∀ n ∈ rr.1.byMonthDay, 1 ≤ n ∧ n ≤ 31 ∨ -31 ≤ n ∧ n ≤ -1) ∧
        ∀ w ∈ rr.2.toList, w.Valid ∧ w.dateOnly = false ∧ w.utc = true ∧ w.tzid = none ∧ (0 ≤ w.year ∧ w.year ≤ 9999) ∧
          o.start.num - o.offsetFrom ≤ w.num)
    ⟨fun ⟨a, b, c, d⟩ => ⟨a, b, c, fun rr hr => by
        obtain ⟨d1, d2, d3, d4, d5, d6⟩ := d rr (by simp [hr])
        exact ⟨d1, d2, d3, d4, d5, fun w hw => d6 w (by simp [hw])⟩⟩,
      fun h => ⟨h.start, h.offsets, h.rdates, fun rr hr => by
        obtain ⟨d1, d2, d3, d4, d5, d6⟩ := h.rule rr (by simpa using hr)
        exact ⟨d1, d2, d3, d4, d5, fun w hw => d6 w (by simpa using hw)⟩⟩⟩

/-- The lines of the calendar itself. -/
def version : Cont.CProp := ⟨"VERSION".toList, "VERSION:2.0".toList⟩

theorem cet_written : ∃ os, cet.vtimezone euRules 1990 1992 = some os ∧ os.length = 3 ∧ (∀ o ∈ os, Fits o) ∧
    Written os 3600 7200 true (clock 2033 3 27 2 0) := by
  have he : cet.expand euRules 1990 1992 = some cetTransitions := expandBy_eq (by decide +kernel)
  have hw : ((vtLoop none [] cetTransitions).map compressRDates).map
      (fun os => decide (os.length = 3 ∧ (∀ o ∈ os, Fits o) ∧ Written os 3600 7200 true (clock 2033 3 27 2 0))) = some true := by
    decide +kernel
  rw [Option.map_eq_some_iff] at hw
  obtain ⟨os, h1, h2⟩ := hw
  obtain ⟨h3, h4, h5⟩ := of_decide_eq_true h2
  refine ⟨os, ?_, h3, h4, h5⟩
  unfold Zone.vtimezone
  rw [he]; exact h1

theorem version_read : ReadBack (CalendarRead.container settings) version :=
  ⟨by decide +kernel, by decide +kernel, by decide +kernel, by decide +kernel⟩

theorem version_valid : CalendarRead.valid settings.toEnv version = true := by decide +kernel

theorem cet_location : (readLine settings.toEnv ("X-LIC-LOCATION:".toList ++ cet.name)).isSome = true := by decide +kernel

theorem cet_lines : ∀ s ∈ ([(cetLine, cetTransitions)] : Lines),
    s.1.format ≠ "LMT".toList ∧ s.2 ≠ [] ∧ ∀ t ∈ s.2, t.zone = s.1 := by decide +kernel

/-- The hypotheses of `C142_zone_partial` are met by a zone whose summer time begins and ends on the last Sundays of March and October:
its components are written and read, and in the zone that is read the offset can be asked for, up to 2098. -/
example (order : Cont.Order) (heq : ∀ a b, order.eq a b = true → a.type = b.type) (env : TzEnv) (he : DefaultUtc env) :
    ∃ os text c Zs, cet.vtimezone euRules 1990 1992 = some os ∧
      Cont.generate order (.mk "VCALENDAR".toList [version] [zoneComponent cet.name os]) = some text ∧
      CalendarRead.read settings text = .ok (some c) ∧ CalendarRead.zonesOf env settings.toEnv c = some Zs ∧
      ∀ o o', ∃ n v Zs2, (∀ fuel ≥ n, CalendarRead.offsetIn env o o' fuel cet.name (clock 2033 7 1 12 0) false Zs = some (v, Zs2)) := by
  obtain ⟨os, h1, -, h2, -⟩ := cet_written
  have hexp : cet.expand euRules 1990 1992 = some cetTransitions := expandBy_eq (by decide +kernel)
  have hver : version.key = "VERSION".toList := by decide +kernel
  obtain ⟨text, c, Zs, a, b, c', d⟩ := C142_zone_partial settings .base (fun _ _ => rfl) order heq [version]
    (fun p hp => by rw [List.mem_singleton.1 hp]; exact ⟨version_read, version_valid⟩) ⟨version, by simp, hver⟩ env he cetReading cet euRules 1990 1992 [] [(cetLine, cetTransitions)] os
    (by simpa using hexp) (by simp) cet_lines (by simp)
    (fun s hs => by rw [List.mem_singleton.1 hs]; exact cet_ok) h1 h2 cet_location
  have hclk : (clock 2033 7 1 12 0).Valid ∧ (clock 2033 7 1 12 0).dateOnly = false ∧ (clock 2033 7 1 12 0).year ≤ 2098 := by
    decide +kernel
  generalize clock 2033 7 1 12 0 = x at hclk ⊢
  refine ⟨os, text, c, Zs, h1, a, b, c', fun o o' => ?_⟩
  obtain ⟨n, v, Zs2, e, -⟩ := d o o' Zs .start x hclk.1 hclk.2.1 hclk.2.2
  exact ⟨n, v, Zs2, e⟩

end L142

end PyCal
