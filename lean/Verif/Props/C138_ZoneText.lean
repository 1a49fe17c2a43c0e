import Verif.Spec.ZoneText
import Verif.Model.ZoneLines
import Verif.Props.C133_Count
import Verif.Props.C135_Reading
import Verif.Props.C137_Calendar
import Verif.Props.C119_TimezoneRead

/-!
# C138: from the text of a time zone to its offsets

What the lines of a VTIMEZONE say by RFC 5545 (`Spec.ZoneText.Describes`), the offsets that this gives (`Spec.ZoneText.InForce`),
and those that the time zone read from the text gives.
-/

namespace PyCal
open Spec DateTime Spec.EventText EventRead
open Spec.CalendarText (HasLine)
open Spec.ZoneText (OffsetText OffsetLine Observance Falls Onset InForce Unset InForceUtc UnsetUtc utcOf)

namespace L138
open L132 ValueType

/-! ## Lines -/

theorem zone_of_line (e : Env) (line : List Char) :
    readZoneLine e line = (readLine e line).map fun q => ⟨String.ofList (PropText.upper q.name), q.value.tzVal⟩ := by
  unfold readZoneLine readLine
  generalize PropText.parseText false e.cfg line = r
  cases r with
  | ok x => simp only [Option.map_map]; rfl
  | _ => rfl

theorem line_isSome {e : Env} (line : List Char) : (readZoneLine e line).isSome = (readLine e line).isSome := by
  rw [zone_of_line, Option.isSome_map]

theorem zone_line {e : Env} {l : ContentLine} (ha : l.Allowed false)
    (hr : ∀ p ∈ l.params, ∀ v ∈ p.values, v.Readable) : readZoneLine e l.text =
      (createValue e l.name (l.params.map ShownParam.meaning) (some l.value)).map fun v => ⟨String.ofList (PropText.upper l.name), v.tzVal⟩ := by
  unfold readZoneLine
  rw [C131_read_partial false e.cfg l ha hr]

theorem fixed_number {s : List Char} {n : Nat} (h : Fixed 2 s n) : Reading.Number s n := by
  rw [← C135_number]
  obtain ⟨rfl, hn⟩ := fixed_two h
  rw [padInt2 (by omega) (by omega)]
  simpa using pyInt_d2 hn

theorem offset_parse {s : List Char} {v : Int} (h : OffsetText s v) : utcOffsetParse false s = some v := by
  rw [C135_utcOffset]
  cases h with
  | @minutes a b h m neg ha hb _ _ =>
    have := Reading.UtcOffset.minutes (iso := false) (x := []) neg ha.2 hb.2 rfl (fixed_number ha) (fixed_number hb)
    simp only [List.append_nil] at this
    convert this using 2
    ring
  | @seconds a b c h m s neg ha hb hc _ _ _ =>
    have := Reading.UtcOffset.seconds (iso := false) (x := []) (y := []) neg ha.2 hb.2 hc.2 rfl rfl (fixed_number ha)
      (fixed_number hb) (fixed_number hc)
    simp only [List.append_nil] at this
    convert this using 2
    ring

theorem offset_line {e : Env} (hT : Program ValueType.ical e.tables) {l : ContentLine} (ha : l.Allowed false)
    (hr : ∀ p ∈ l.params, ∀ v ∈ p.values, v.Readable) {key : String} (hk : key ∈ ["TZOFFSETFROM", "TZOFFSETTO"])
    (hn : PropText.upper l.name = key.toList) {v : Int} (h : OffsetLine l v) :
    readZoneLine e l.text = some ⟨key, .offset v⟩ := by
  rw [zone_line ha hr]
  have hmulti := (program_keeps hT).2.2.1
  obtain ⟨⟨x, hx, hxx⟩, hd⟩ := h
  have hkey : String.ofList (PropText.upper l.name) = key := by rw [hn]; exact String.ofList_toList
  have hall : ∀ key ∈ ["TZOFFSETFROM", "TZOFFSETTO"], (ValueType.ical.defaultOf key).isSome ∧ key ∉ ValueType.ical.multi ∧
      determine ValueType.ical key (Option.map String.ofList none) = .utcOffset ∧
      determine ValueType.ical key (Option.map String.ofList (some "UTC-OFFSET".toList)) = .utcOffset := by
    decide +kernel
  obtain ⟨k1, k2, k3, k4⟩ := hall key hk
  have hdet : ValueType.determine e.tables key
      ((paramValue (l.params.map ShownParam.meaning) "VALUE").map String.ofList) = .utcOffset := by
    rw [paramValue_of hx, determine_keeps hT k1]
    rcases hxx with rfl | rfl
    · exact k3
    · exact k4
  unfold createValue
  dsimp only
  rw [hkey, hdet, hmulti, if_neg k2, if_neg (by simp), if_neg (by simp), if_neg (by simp), if_neg (by simp), if_neg (by simp),
    if_neg (by simp), if_pos rfl, offset_parse hd]
  rfl

/-! ## Components -/

/-- The names, as texts. -/
def nameOf : List String := ["DTSTART", "RRULE", "EXRULE", "RDATE", "EXDATE"]

/-- The property is what the fact says. -/
def Agrees (f : Fact) (p : TzProp) : Prop :=
  match f with
  | .start t => p = ⟨"DTSTART", .dateTime t⟩
  | .rule ex ps => p = ⟨if ex then "EXRULE" else "RRULE", .rule (Recur.rule ps)⟩
  | .dates ex l => p = ⟨if ex then "EXDATE" else "RDATE", .dates l⟩
  | .other => p.name ∉ nameOf

theorem says_agrees {e : Env} (hT : Program ValueType.ical e.tables) {l : ContentLine} (ha : l.Allowed false)
    (hr : ∀ p ∈ l.params, ∀ v ∈ p.values, v.Readable) {f : Fact} (h : Says l f) {p : TzProp}
    (hp : readZoneLine e l.text = some p) : Agrees f p := by
  by_cases hf : f = .other
  · subst hf
    cases h with
    | other hn =>
      rw [zone_line ha hr, Option.map_eq_some_iff] at hp
      obtain ⟨v, _, rfl⟩ := hp
      show String.ofList (PropText.upper l.name) ∉ nameOf
      intro hc
      apply hn
      rw [show PropText.upper l.name = (String.ofList (PropText.upper l.name)).toList from String.toList_ofList.symm]
      generalize String.ofList (PropText.upper l.name) = n at hc
      simp only [nameOf, List.mem_cons, List.not_mem_nil, or_false] at hc
      rcases hc with rfl | rfl | rfl | rfl | rfl <;> decide +kernel
  · have h1 := line_says hT ha hr h hf
    rw [line_value ha hr, Option.map_eq_some_iff] at h1
    obtain ⟨v, h1, h2⟩ := h1
    cases h2
    rw [zone_line ha hr, h1, Option.map_some, Option.some.injEq] at hp
    subst hp
    cases h with
    | start hn => rw [hn]; exact rfl
    | rule ex hn => rw [hn]; cases ex <;> rfl
    | @dates d z ts ex hn =>
      rw [hn]
      have : (valueOf (.dates ex (ts.map (inZone z)))).tzVal = .dates (ts.map (inZone z)) := by
        simp only [valueOf, Value.tzVal, List.filterMap_map, Function.comp_def]
        rw [show (fun x => some (inZone z x)) = some ∘ inZone z from rfl, List.filterMap_eq_map]
      rw [this]
      cases ex <;> rfl
    | other => exact absurd rfl hf

theorem start_agrees {fs : List Fact} {ps : List TzProp} (h : List.Forall₂ Agrees fs ps) :
    loadDateTime ps "DTSTART" = startOf fs := by
  unfold loadDateTime firstValue
  induction h with
  | nil => rfl
  | @cons f p fs ps h1 _ ih =>
    cases f with
    | start t => cases h1; rfl
    | rule ex ps => cases h1; cases ex <;> exact ih
    | dates ex l => cases h1; cases ex <;> exact ih
    | other =>
      rw [List.find?_cons_of_neg]
      · exact ih
      · intro he; apply h1; rw [of_decide_eq_true he]; decide

theorem rules_agree {fs : List Fact} {ps : List TzProp} (h : List.Forall₂ Agrees fs ps) :
    ps.flatMap ruleOf = (rulesOf false fs).map Recur.rule := by
  induction h with
  | nil => rfl
  | @cons f p fs ps h1 _ ih =>
    rw [List.flatMap_cons, ih]
    cases f with
    | start t => cases h1; rfl
    | rule ex ps => cases h1; cases ex <;> rfl
    | dates ex l => cases h1; cases ex <;> rfl
    | other =>
      have : ruleOf p = [] := by
        unfold ruleOf
        split
        · rw [if_neg]
          intro he; apply h1; rw [he]; decide
        · rfl
      rw [this]; rfl

theorem dates_agree {fs : List Fact} {ps : List TzProp} (h : List.Forall₂ Agrees fs ps) :
    ps.flatMap PyCal.datesOf = EventText.datesOf false fs := by
  induction h with
  | nil => rfl
  | @cons f p fs ps h1 _ ih =>
    rw [List.flatMap_cons, ih]
    cases f with
    | start t => cases h1; rfl
    | rule ex ps => cases h1; cases ex <;> rfl
    | dates ex l => cases h1; cases ex <;> rfl
    | other =>
      have : PyCal.datesOf p = [] := by
        unfold PyCal.datesOf
        split
        · rw [if_neg]
          intro he; apply h1; rw [he]; decide
        · rfl
      rw [this]; rfl

/-- The lines are read as these properties. -/
def Lines (e : Env) (ls : List ContentLine) (ps : List TzProp) : Prop :=
  List.Forall₂ (fun l p => readZoneLine e l.text = some p) ls ps

theorem first_line {e : Env} {ls : List ContentLine} {ps : List TzProp} (h : Lines e ls ps) (ha : ∀ l ∈ ls, l.Allowed false)
    (hr : ∀ l ∈ ls, ∀ p ∈ l.params, ∀ v ∈ p.values, v.Readable) {key : String} {l : ContentLine} (hl : l ∈ ls)
    (hk : PropText.upper l.name = key.toList) (hu : ∀ m ∈ ls, PropText.upper m.name = key.toList → m = l) {p : TzProp}
    (hp : readZoneLine e l.text = some p) : firstValue ps key = some p.value := by
  unfold firstValue
  induction h with
  | nil => cases hl
  | @cons m q ls ps h1 _ ih =>
    have hq : q.name = String.ofList (PropText.upper m.name) := by
      rw [zone_line (ha m (by simp)) (hr m (by simp)), Option.map_eq_some_iff] at h1
      obtain ⟨v, _, rfl⟩ := h1
      rfl
    by_cases hm : PropText.upper m.name = key.toList
    · have := hu m (by simp) hm
      subst this
      rw [h1] at hp
      cases hp
      rw [List.find?_cons_of_pos (by rw [hq, hm]; simp)]
      rfl
    · rw [List.find?_cons_of_neg]
      · rcases List.mem_cons.mp hl with rfl | hl
        · exact absurd hk hm
        · exact ih (fun x hx => ha x (by simp [hx])) (fun x hx => hr x (by simp [hx])) hl fun x hx => hu x (by simp [hx])
      · intro he
        apply hm
        have := of_decide_eq_true he
        rw [hq] at this
        rw [← this, String.toList_ofList]

/-- The element that is read of an observance. -/
def element (d : Observance) (name : List Char) : TzElement where
  start := d.start
  offsetFrom := d.offsetFrom
  offsetTo := d.offsetTo
  name := name
  recurrences :=
    { rrules := (rulesOf false d.facts).map fun p => (Recur.rule p, {})
      rdates := EventText.datesOf false d.facts }

/-- What is read of an observance. -/
theorem observance_read {e : Env} (hT : Program ValueType.ical e.tables) {ls : List ContentLine} {d : Observance}
    (h : ZoneText.Describes ls d) (ha : ∀ l ∈ ls, l.Allowed false)
    (hr : ∀ l ∈ ls, ∀ p ∈ l.params, ∀ v ∈ p.values, v.Readable) {ps : List TzProp} (hps : Lines e ls ps) :
    ∃ name, TzElement.read ps = element d name := by
  have hag : List.Forall₂ Agrees d.facts ps := by
    have h2 : ∀ l ∈ ls, ∀ f p, Says l f → readZoneLine e l.text = some p → Agrees f p :=
      fun l hl f p h1 h2 => says_agrees hT (ha l hl) (hr l hl) h1 h2
    have h1 := h.lines
    clear h ha hr
    generalize d.facts = fs at h1 ⊢
    induction h1 generalizing ps with
    | nil => cases hps; exact .nil
    | cons a _ ih =>
      cases hps with
      | cons b c => exact .cons (h2 _ (by simp) _ _ a b) (ih c fun l hl => h2 l (by simp [hl]))
  have off : ∀ key v, key ∈ ["TZOFFSETFROM", "TZOFFSETTO"] → HasLine ls key.toList OffsetLine (some v) → loadOffset ps key = some v := by
    intro key v hk hl
    cases hl with
    | some l _ h1 h2 h3 h4 =>
      unfold loadOffset
      rw [first_line hps ha hr h1 h2 h3 (offset_line hT (ha l h1) (hr l h1) hk h2 h4)]
  refine ⟨(PyCal.loadText ps "TZNAME").getD [], ?_⟩
  unfold TzElement.read TzElement.finalise
  rw [start_agrees hag, h.start, off _ _ (by simp) h.offsetFrom, off _ _ (by simp) h.offsetTo, rules_agree hag, dates_agree hag]
  simp [TzElement.new, element, List.map_map, Function.comp_def]

end L138

/-- The rules that are read as the standard says: YEARLY, `Tame` and `Standard` (see C133), with UNTIL in UTC. -/
structure ZoneRuleFits (r : Rule) (d : Observance) : Prop where
  freq : r.freq = .yearly
  tame : Rule.Tame r d.start
  standard : Rule.Standard r
  seconds : r.bySeconds = []
  count : r.useCount = true → 1 ≤ r.count ∧ r.useUntil = false ∧ Rule.Distinct r
  untilSet : r.useUntil = true → r.untilDate ≠ none
  upto : ∀ w, r.untilDate = some w → w.Valid ∧ w.dateOnly = false ∧ w.utc = true ∧ d.start.num - d.offsetFrom ≤ w.num

/-- The changes of the offset that are read as the standard says: at local times that are whole minutes, and not before DTSTART. -/
structure ZoneFits (d : Observance) : Prop where
  start : Clock d.start
  year : 1902 ≤ d.start.year
  leap : d.start.month = 2 → d.start.day = 29 → GregorianLeap d.start.year
  minutes : d.start.seconds = 0 ∧ d.offsetFrom % 60 = 0
  rdates : ∀ t ∈ EventText.datesOf false d.facts, Clock t ∧ ¬ Rfc.Before t d.start ∧ t.seconds = 0
  rules : ∀ ps ∈ rulesOf false d.facts, ZoneRuleFits (Recur.rule ps) d

/-- The onsets up to the time `x` in UTC are in the same order on the clock as in UTC, and the clock shows no later year for them. -/
def InOrder (ds : List Observance) (x : DateTime) : Prop :=
  (∀ d ∈ ds, ∀ d' ∈ ds, ∀ t t', Onset d t → Onset d' t' → utcOf d' t' ≤ timeNum x.civil → timeNum t.civil ≤ timeNum t'.civil →
    utcOf d t ≤ utcOf d' t') ∧
  ∀ d ∈ ds, ∀ t, Onset d t → utcOf d t ≤ timeNum x.civil → t.year ≤ x.year

namespace L138
open Rule.L133 Rule

section
variable {env : TzEnv} {r : Rule} {d : Observance} {t : DateTime}

theorem offset_num {w : DateTime} (h : w.Valid) (hd : w.dateOnly = false) (k : Int) :
    (w.offsetSeconds k).Valid ∧ (w.offsetSeconds k).num = w.num + k := by
  have hv : (w.offsetSeconds k).Valid := normalise_valid _
  refine ⟨hv, ?_⟩
  show timeNum _ = timeNum _ + k
  rw [← hv.secNum, ← h.secNum, DateTime.offsetSeconds, normalise_secNum { w with seconds := w.seconds + k } hd]
  simp only [secNum, dayNumOf, secondsOfDay]
  omega

theorem until_num (hr : ZoneRuleFits r d) (hs : Clock d.start) (ht : Clock t) :
    (∀ u, Rule.UntilBound r d.start d.offsetFrom u → t.gt env u = false) ↔
      ∀ w, r.useUntil = true → r.untilDate = some w → t.num - d.offsetFrom ≤ w.num := by
  have hf : d.start.floating = true := by
    unfold DateTime.floating
    rw [hs.2.2.1, hs.2.2.2]; rfl
  have key : ∀ w, r.untilDate = some w → ∀ u, u.floating = true → u.dateOnly = w.dateOnly →
      u.civil = (w.offsetSeconds d.offsetFrom).civil → (t.gt env u = false ↔ t.num - d.offsetFrom ≤ w.num) := by
    intro w hw u h1 h2 h3
    obtain ⟨w1, w2, _⟩ := hr.upto w hw
    obtain ⟨o1, o2⟩ := offset_num w1 w2 d.offsetFrom
    set v : DateTime := { w.offsetSeconds d.offsetFrom with utc := false, tzid := none, dateOnly := false } with hv
    have hvc : Clock v := ⟨⟨o1.1, by simp [hv]⟩, rfl, rfl, rfl⟩
    have hvn : v.num = w.num + d.offsetFrom := o2
    have e1 : t.gt env u = t.gt env v := by
      unfold DateTime.gt
      rw [compare_floating h1 (v := v) rfl (by rw [h2, w2]) h3]
    have e2 : t.gt env v = v.lt env t := by
      unfold DateTime.gt DateTime.lt
      rw [compare_neg env v t]
      simp
    rw [e1, e2, Bool.eq_false_iff, ne_eq, clock_lt hvc ht.1 ht.2.1, hvn]
    omega
  constructor
  · intro h w h1 h2
    obtain ⟨w1, w2, _⟩ := hr.upto w h2
    refine (key w h2 { w.offsetSeconds d.offsetFrom with utc := false, tzid := none, dateOnly := w.dateOnly } rfl rfl rfl).mp (h _ ?_)
    exact ⟨h1, w, h2, .inr ⟨hf, rfl, rfl, rfl⟩⟩
  · rintro h u ⟨h1, w, h2, h3 | ⟨_, h4, h5, h6⟩⟩
    · rw [hf] at h3; simp at h3
    · exact (key w h2 u h4 h5 h6).mpr (h w h1 h2)

/-- The rule as C35 takes it. -/
theorem fits_rule (hr : ZoneRuleFits r d) (hs : Clock d.start) : ZoneRule r d.start ∨ PlainRule r d.start d.offsetFrom := by
  have h1 : ∀ u, r.untilDate = some u → u.dateOnly = false := fun u hu => (hr.upto u hu).2.1
  by_cases hb : r.hasBy = true
  · exact .inl ⟨hb, hr.tame, by rw [hr.freq]; simp, hr.untilSet, h1⟩
  · refine .inr ⟨by simpa using hb, hr.tame.interval, fun hc => ⟨(hr.count hc).1, (hr.count hc).2.1⟩, hr.untilSet, h1, ?_⟩
    exact (until_num hr hs hs).mpr fun w _ hw => (hr.upto w hw).2.2.2

theorem clock_of_kind (hs : Clock d.start) (hv : t.Valid) (hk : t.SameKind d.start) : Clock t :=
  ⟨hv, by rw [hk.1, hs.2.1], by rw [hk.2.1, hs.2.2.1], by rw [hk.2.2, hs.2.2.2]⟩

/-- The times of a rule keep the seconds of the start. -/
theorem occurs_seconds (hr : ZoneRuleFits r d) {n k : Nat} (hn : r.interval = n) (h : t ∈ r.occursIn env n d.start k) :
    t.seconds = d.start.seconds := by
  have hT := hr.tame
  have hS := hr.standard
  unfold occursIn at h
  rw [← raw_atTime hT.valid (fun h => (hT.dates h).1) hn k, raw_year hr.freq] at h
  have hraw := raw_near (r := r) hT.valid k
  have htime := raw_timeOK (r := r) hT.valid k
  rw [raw_year hr.freq] at hraw htime
  have hone : ∀ {u : DateTime}, TimesFrom r.byHours r.byMinutes r.bySeconds u t → t.seconds = u.seconds := by
    intro u hu
    have := hu.2.2
    unfold OneOf at this
    simpa [hr.seconds] using this
  by_cases hbm : r.byMonth ≠ [] ∨ r.byMonthDay = [] ∧ r.byDay = []
  · rw [C53_yearly_month env r _ ⟨hraw.1, hraw.2.1⟩ htime hr.freq hS.yearDay hS.weekNo hbm hT.byMonth hT.byMonthDay hT.byDay
      hS.setPos] at h
    exact hone h.2.2.2.2
  · have h1 : r.byMonth = [] := by by_contra hc; exact hbm (.inl hc)
    have h2 := hS.yearly hr.freq h1
    have h3 : r.byDay ≠ [] := fun hc => hbm (.inr ⟨h2, hc⟩)
    rw [C53_yearly_day_partial env r _ htime hr.freq hS.yearDay hS.weekNo h1 h2 h3 (fun v hv => by
      obtain ⟨a, b⟩ := hT.byDay v hv
      exact ⟨a, b, (hT.yearly hr.freq).2.2 h1 h2 v hv⟩) hS.setPos] at h
    exact hone h.2.2.2

theorem rule_seconds (hr : ZoneRuleFits r d) {n : Nat} (hn : r.interval = n)
    (h : RuleDate env r n d.start d.offsetFrom t) : t.seconds = d.start.seconds := by
  unfold RuleDate at h
  split at h
  · obtain ⟨k, h1, _⟩ := h
    exact occurs_seconds hr hn h1
  · obtain ⟨k, _, h1, _⟩ := h
    rw [hr.freq] at h1
    exact congrArg Time.s h1

/-- The dates of a rule are those that the standard describes. -/
theorem rule_falls (hr : ZoneRuleFits r d) (hs : Clock d.start) (hy : 1902 ≤ d.start.year) (ht2 : t.year ≤ 2098) (hne : t ≠ d.start) :
    RuleDate env r r.interval.toNat d.start d.offsetFrom t ↔ Falls r d t := by
  have hT := hr.tame
  have hS := hr.standard
  have hn : r.interval = r.interval.toNat := by have := hT.interval; omega
  have hs0 : Sound env (InZone false none) r d.start none :=
    ⟨.inr (.inl ⟨false, none, rfl⟩), hs.1, clock_inZone hs, by simp, fun hd => absurd hd (by rw [hs.2.1]; simp), hT.interval⟩
  generalize r.interval.toNat = n at hn
  have main : RuleDate env r n d.start d.offsetFrom t ↔ ∃ k, t ∈ r.occursIn env n d.start k ∧ d.start.num < t.num ∧
      (∀ u, Rule.UntilBound r d.start d.offsetFrom u → t.gt env u = false) ∧
      (r.useCount = true → (r.occurrencesBefore env n d.start k t : Int) + 1 < r.count) := by
    have hlt : Clock t → d.start.num ≤ t.num → d.start.num < t.num := by
      intro hc hle
      rcases Int.lt_or_eq_of_le hle with h | h
      · exact h
      · exact absurd (clock_ext hs hc h).symm hne
    unfold RuleDate
    by_cases hb : r.hasBy = true
    · rw [if_pos hb]
      unfold ByDate
      constructor
      · rintro ⟨k, a, b, c, e⟩
        obtain ⟨v1, v2⟩ := in_interval hT hn a
        exact ⟨k, a, hlt (clock_of_kind hs v1 v2) b, c, fun hc => (e hc).2⟩
      · rintro ⟨k, a, b, c, e⟩
        exact ⟨k, a, by omega, c, fun hc => ⟨b, e hc⟩⟩
    · rw [if_neg hb]
      have hp : r.Plain := hasBy_false_iff.mp (by simpa using hb)
      unfold PlainDate
      have hkey : ∀ k, t.SameKind d.start → t.civil = repetition r.freq n d.start.civil k → t.civil.Valid →
          t = r.raw d.start k ∧ (r.raw d.start k).invalid = false := by
        intro k a b c
        have he : t = r.raw d.start k := eq_of_civil (kind_to a (r.raw_kind d.start k))
          (by rw [b, raw_civil hs.1 hs0.dates hn])
        exact ⟨he, (raw_valid_iff hs.1 k).mpr ((raw_near (r := r) hs.1 k).2.2 (by rw [← he]; exact c.1))⟩
      have hcount : ∀ k, t.SameKind d.start → t.civil = repetition r.freq n d.start.civil k → t.civil.Valid →
          d.start.num < t.num ∧ repetitionsBefore r.freq n d.start.civil k = r.occurrencesBefore env n d.start k t + 1 := by
        intro k a b c
        obtain ⟨he, hi⟩ := hkey k a b c
        have hk : 1 ≤ k := by
          rcases Nat.eq_zero_or_pos k with rfl | hp
          · exact absurd he hne
          · exact hp
        have htv : t.Valid := by rw [he]; exact (raw_valid_iff hs.1 k).mp hi
        have := hs0.raw_lt hk ((raw_valid_iff hs.1 0).mpr hs.1) hi
        rw [show r.raw d.start 0 = d.start from rfl, ← he, clock_lt hs htv (by rw [a.1, hs.2.1])] at this
        refine ⟨this, ?_⟩
        have := plain_count hs0 hT hp hn hk hi
        rwa [← he] at this
      simp only [plain_occurs hT hp hn]
      constructor
      · rintro ⟨k, a, b, c, e, g⟩
        obtain ⟨h1, h2⟩ := hcount k a b c
        exact ⟨k, ⟨a, b, c⟩, h1, e, fun hc => by have := g hc; omega⟩
      · rintro ⟨k, ⟨a, b, c⟩, _, e, g⟩
        obtain ⟨h1, h2⟩ := hcount k a b c
        exact ⟨k, a, b, c, e, fun hc => by have := g hc; omega⟩
  rw [main]
  unfold Falls
  constructor
  · rintro ⟨k, a, b, c, e⟩
    obtain ⟨v1, v2⟩ := in_interval hT hn a
    have hc := clock_of_kind hs v1 v2
    have hyt : 1902 ≤ t.year := le_trans hy (year_of_time hs.1 v1 (le_of_lt b))
    have hb : Rfc.Before d.start t := (before_iff hs.1 v1).mpr b
    refine ⟨(occurs_iff hT hS hn hyt ht2).mp ⟨k, a⟩, ?_, (until_num hr hs hc).mp c, fun h => .inr ?_⟩
    · rw [before_iff v1 hs.1]
      have : timeNum d.start.civil < timeNum t.civil := b
      omega
    · exact (fewer_iff hT hS (hr.count h).2.2 hy hn a ht2 hb _).mp (by have := e h; omega)
  · rintro ⟨a, b, c, e⟩
    have v1 := a.2.valid
    have hc := clock_of_kind hs v1 a.2.kind
    rw [before_iff v1 hs.1] at b
    have hle : timeNum d.start.civil ≤ timeNum t.civil := by omega
    have hlt : d.start.num < t.num := by
      rcases Int.lt_or_eq_of_le hle with h | h
      · exact h
      · exact absurd (clock_ext hs hc h).symm hne
    have hyt : 1902 ≤ t.year := le_trans hy (year_of_time hs.1 v1 hle)
    have hb : Rfc.Before d.start t := (before_iff hs.1 v1).mpr hlt
    obtain ⟨k, a⟩ := (occurs_iff (env := env) hT hS hn hyt ht2).mpr a
    refine ⟨k, a, hlt, (until_num hr hs hc).mpr c, fun h => ?_⟩
    have := (fewer_iff hT hS (hr.count h).2.2 hy hn a ht2 hb _).mpr ((e h).resolve_left hne)
    omega

theorem element_parsed (h : ZoneFits d) (name : List Char) : ParsedElement (element d name) := by
  refine ⟨h.start, h.leap, ?_, fun t ht => (h.rdates t ht).1, ⟨rfl, rfl, rfl, rfl⟩, rfl, rfl⟩
  intro p hp
  obtain ⟨ps, h1, rfl⟩ := List.mem_map.mp hp
  exact ⟨rfl, fits_rule (h.rules ps h1) h.start⟩

theorem element_dates (h : ZoneFits d) (name : List Char) (ht : t.year ≤ 2098) :
    (descOf env (element d name)).S t ↔ Onset d t := by
  show (t = d.start ∨ (∃ r ∈ _, _) ∨ t ∈ EventText.datesOf false d.facts ∧ d.start.num ≤ t.num) ↔ _
  unfold Onset
  by_cases hne : t = d.start
  · simp [hne]
  · have h1 : t ∈ EventText.datesOf false d.facts ∧ d.start.num ≤ t.num ↔ t ∈ EventText.datesOf false d.facts := by
      refine and_iff_left_of_imp fun hm => ?_
      obtain ⟨a, b, _⟩ := h.rdates t hm
      rw [before_iff a.1 h.start.1] at b
      unfold DateTime.num
      omega
    rw [h1]
    simp only [hne, false_or]
    rw [or_comm]
    refine or_congr_right ?_
    constructor
    · rintro ⟨x, hx, hR⟩
      obtain ⟨p, hp, rfl⟩ := List.mem_map.mp hx
      obtain ⟨ps, hps, rfl⟩ := List.mem_map.mp hp
      exact ⟨ps, hps, (rule_falls (h.rules ps hps) h.start h.year ht hne).mp hR⟩
    · rintro ⟨ps, hps, hF⟩
      exact ⟨_, List.mem_map_of_mem (List.mem_map_of_mem hps), (rule_falls (h.rules ps hps) h.start h.year ht hne).mpr hF⟩

theorem element_minutes (h : ZoneFits d) (name : List Char) (ht : (descOf env (element d name)).S t) : t.seconds = 0 := by
  rcases ht with rfl | ⟨x, hx, hR⟩ | ⟨hm, _⟩
  · exact h.minutes.1
  · obtain ⟨p, hp, rfl⟩ := List.mem_map.mp hx
    obtain ⟨ps, hps, rfl⟩ := List.mem_map.mp hp
    have hr := h.rules ps hps
    have hn : (Recur.rule ps).interval = (Recur.rule ps).interval.toNat := by have := hr.tame.interval; omega
    rw [rule_seconds hr hn hR]
    exact h.minutes.1
  · exact (h.rdates t hm).2.2

end
end L138

/-- The lines of the component, apart from those of components in it. -/
def HasLines (c : Cont.Component) (ls : List ContentLine) : Prop :=
  c.props.map (·.text) = ls.map ContentLine.text ∧ (∀ l ∈ ls, l.Allowed false) ∧ ∀ l ∈ ls, ∀ p ∈ l.params, ∀ v ∈ p.values, v.Readable

/-- A component that is a time zone with this name, in which the lines of the components say this. -/
structure ZoneIn (c : Cont.Component) (z : List Char × List Observance) : Prop where
  type : c.type = "VTIMEZONE".toList
  tzid : ∃ ls, HasLines c ls ∧ HasLine ls "TZID".toList CalendarText.TextLine (some z.1)
  observances : List.Forall₂ (fun o d => ∃ ls, HasLines o ls ∧ ZoneText.Describes ls d) c.subs z.2

/-- The states in which the time zones of a calendar can be after questions about offsets. -/
inductive ZonesReach (env : TzEnv) (o : SetOrder) (o' : SetOrder (DateTime × Int × Int)) (zs : List (List Char × Zone)) :
    List (List Char × Zone) → Prop
  | start : ZonesReach env o o' zs zs
  | ask {zs1 zs2 fuel tzid x rel v} : ZonesReach env o o' zs zs1 → x.Valid → x.dateOnly = false →
      CalendarRead.offsetIn env o o' fuel tzid x rel zs1 = some (v, zs2) → ZonesReach env o o' zs zs2

/-- The first time zone of that name. -/
def Named (zs : List (List Char × List Observance)) (tzid : List Char) (ds : List Observance) : Prop :=
  ∃ pre post, zs = pre ++ (tzid, ds) :: post ∧ ∀ p ∈ pre, p.1 ≠ tzid

namespace L138
open L137 CalendarRead Rule.L133 L132 T119

theorem body_nested {s : Settings} {top : Bool} {t : List Char} {body : List (List Char)} {ps : List Cont.CProp}
    {ss : List Cont.Component} (h : Spec.Body (container s) top t body ps ss) : ∀ c ∈ ss, ∀ o ∈ c.subs, Sound s o := by
  induction h with
  | nil => simp
  | blank _ _ ih => exact ih
  | prop _ _ _ _ _ _ ih => exact ih
  | @comp top t t' body ps' ss' c ls ps ss _ _ hf _ h1 _ _ ih2 =>
    intro d hd
    rcases List.mem_cons.mp hd with rfl | hd
    · have hf : (if (if isRecur t' then (timed s.toEnv (.mk t' ps' ss')).isSome else s.finishes (.mk t' ps' ss')) = true
          then some (Cont.Component.mk t' ps' ss') else none) = some d := hf
      by_cases hc : (if isRecur t' then (timed s.toEnv (.mk t' ps' ss')).isSome else s.finishes (.mk t' ps' ss')) = true
      · rw [if_pos hc] at hf
        cases hf
        exact (body_sound h1).2
      · rw [if_neg hc] at hf
        cases hf
    · exact ih2 d hd

/-- The properties of a component with these lines. -/
theorem lines_read {s : Settings} {c : Cont.Component} (hs : Sound s c) {ls : List ContentLine}
    (h : HasLines c ls) : ∃ ps, (c.props.mapM fun p => readZoneLine s.toEnv p.text) = some ps ∧ Lines s.toEnv ls ps := by
  have e : (c.props.mapM fun p => readZoneLine s.toEnv p.text) = (ls.map ContentLine.text).mapM (readZoneLine s.toEnv) := by
    rw [← h.1, List.mapM_map]; rfl
  have hsome : ∀ t ∈ ls.map ContentLine.text, ∃ b, readZoneLine s.toEnv t = some b := by
    intro t ht
    rw [← h.1] at ht
    obtain ⟨p, hp, rfl⟩ := List.mem_map.mp ht
    obtain ⟨q, hq, _⟩ := hs.1 p hp
    rw [← Option.isSome_iff_exists, line_isSome, hq]; rfl
  obtain ⟨ps, hps⟩ := mapM_some hsome
  refine ⟨ps, by rw [e, hps], ?_⟩
  have : ∀ {ts : List ContentLine} {ps : List TzProp}, (ts.map ContentLine.text).mapM (readZoneLine s.toEnv) = some ps →
      Lines s.toEnv ts ps := by
    intro ts
    induction ts with
    | nil => intro ps h; cases h; exact .nil
    | cons t ts ih =>
      intro ps h
      rw [List.map_cons, List.mapM_cons] at h
      cases h1 : readZoneLine s.toEnv t.text with
      | none => rw [h1] at h; cases h
      | some p =>
        cases h2 : (ts.map ContentLine.text).mapM (readZoneLine s.toEnv) with
        | none => rw [h1, h2] at h; cases h
        | some qs =>
          rw [h1, h2] at h
          cases h
          exact .cons h1 (ih h2)
  exact this hps

theorem id_line {e : Env} (hT : Program ValueType.ical e.tables) {l : ContentLine} (ha : l.Allowed false)
    (hr : ∀ p ∈ l.params, ∀ v ∈ p.values, v.Readable) (hn : PropText.upper l.name = "TZID".toList) {s : List Char}
    (h : CalendarText.TextLine l s) : readZoneLine e l.text = some ⟨"TZID", .text s⟩ := by
  have hmulti := (program_keeps hT).2.2.1
  obtain ⟨⟨v, hv, hvv⟩, hd⟩ := h
  have hkey : String.ofList (PropText.upper l.name) = "TZID" := by rw [hn]; rfl
  have hdet : ValueType.determine e.tables "TZID"
      ((paramValue (l.params.map ShownParam.meaning) "VALUE").map String.ofList) = .text := by
    rw [paramValue_of hv, determine_keeps hT (by decide +kernel)]
    rcases hvv with rfl | rfl <;> decide +kernel
  have hc : createValue e l.name (l.params.map ShownParam.meaning) (some l.value) = some (.text s) := by
    unfold createValue
    dsimp only
    rw [hkey, hdet, hmulti, if_neg (by decide +kernel), if_neg (by simp), if_neg (by simp), if_neg (by simp), if_pos (.inl rfl),
      C20_decode_rfc _ _ hd]
    rfl
  rw [zone_line ha hr, hc, Option.map_some, hkey]
  rfl

theorem zone_read {s : Settings} (hT : Program ValueType.ical s.tables) (env : TzEnv) {c : Cont.Component}
    (hs : Sound s c) (hn : ∀ o ∈ c.subs, Sound s o) {z : List Char × List Observance} (h : ZoneIn c z) :
    ∃ Z : Zone, zoneOf env s.toEnv c = some (z.1, Z) ∧ Z.maxYear = none ∧
      (∀ e ∈ Z.elements, ∃ d ∈ z.2, ∃ name, e = element d name) ∧
        ∀ d ∈ z.2, ∃ name, element d name ∈ Z.elements := by
  obtain ⟨ls, h1, h2⟩ := h.tzid
  obtain ⟨ps, hps, hl⟩ := lines_read hs h1
  have hobs : ∃ os, (c.subs.mapM fun (d : Cont.Component) => d.props.mapM fun p => readZoneLine s.toEnv p.text) = some os ∧
      List.Forall₂ (fun d ps => ∃ name, TzElement.read ps = element d name) z.2 os := by
    have := h.observances
    generalize c.subs = cs at this hn
    generalize z.2 = ds at this
    induction this with
    | nil => exact ⟨[], rfl, .nil⟩
    | @cons o d cs ds a _ ih =>
      obtain ⟨ls, a1, a2⟩ := a
      obtain ⟨os, b1, b2⟩ := ih fun o ho => hn o (by simp [ho])
      obtain ⟨qs, c1, c2⟩ := lines_read (hn o (by simp)) a1
      refine ⟨qs :: os, ?_, .cons (observance_read hT a2 a1.2.1 a1.2.2 c2) b2⟩
      rw [List.mapM_cons, c1, b1]; rfl
  obtain ⟨os, ho1, ho2⟩ := hobs
  refine ⟨(Zone.read env ps os).2, ?_, rfl, ?_⟩
  · unfold zoneOf
    rw [hps, Option.bind_some, ho1, Option.map_some, Option.some.injEq]
    have : PyCal.loadText ps "TZID" = some z.1 := by
      cases h2 with
      | some l _ l1 l2 l3 l4 =>
        unfold PyCal.loadText
        rw [first_line hl h1.2.1 h1.2.2 l1 l2 l3 (id_line hT (h1.2.1 l l1) (h1.2.2 l l1) l2 l4)]
    unfold Zone.read
    rw [this]; rfl
  · refine ⟨fun e he => ?_, fun d hd => ?_⟩
    · obtain ⟨ps, hp, rfl⟩ := List.mem_map.mp ((read_mem env _ os).subset he)
      obtain ⟨d, hd, name, hr⟩ := forall₂_left ho2.flip hp
      exact ⟨d, hd, name, hr⟩
    · obtain ⟨ps, hp, name, hr⟩ := forall₂_left ho2 hd
      exact ⟨name, (read_mem env _ os).symm.subset (by rw [← hr]; exact List.mem_map_of_mem hp)⟩

theorem newYear_lt {t : DateTime} (h : Clock t) {y : Int} : t.num < (TzElement.newYear y).num ↔ t.year < y := by
  refine ⟨fun hlt => ?_, lt_newYear h⟩
  have h1 := (DateTime.fieldsLt_iff_timeNum h.1.1 (clock_newYear y).1.1).mpr hlt
  obtain ⟨⟨⟨_, _, _, _⟩, _, _, _, _, _, _⟩, _⟩ := h.1
  unfold DateTime.FieldsLt Date.lt at h1
  simp only [DateTime.date, TzElement.newYear, DateTime.civil] at *
  omega

/-- The transitions of a time zone that is read. -/
theorem zone_parsed {env : TzEnv} {Z : Zone} {ds : List Observance} (hf : ∀ d ∈ ds, ZoneFits d)
    (h1 : ∀ e ∈ Z.elements, ∃ d ∈ ds, ∃ name, e = element d name) :
    (∀ e ∈ Z.elements, ParsedElement e) ∧
    (∀ t f g, Tr (Z.elements.map (descOf env)) t f g ↔
      ∃ d ∈ ds, ∃ name, (descOf env (element d name)).S t ∧ element d name ∈ Z.elements ∧ f = d.offsetFrom ∧ g = d.offsetTo) ∧
    WholeMinutes (Z.elements.map (descOf env)) := by
  have htr : ∀ t f g, Tr (Z.elements.map (descOf env)) t f g ↔
      ∃ d ∈ ds, ∃ name, (descOf env (element d name)).S t ∧ element d name ∈ Z.elements ∧ f = d.offsetFrom ∧ g = d.offsetTo := by
    intro t f g
    constructor
    · rintro ⟨q, hq, a, b, c⟩
      obtain ⟨e, he, rfl⟩ := List.mem_map.mp hq
      obtain ⟨d, hd, name, rfl⟩ := h1 e he
      exact ⟨d, hd, name, a, he, b, c⟩
    · rintro ⟨d, hd, name, a, he, b, c⟩
      exact ⟨_, List.mem_map_of_mem he, a, b, c⟩
  refine ⟨fun e he => ?_, htr, fun t f g h => ?_⟩
  · obtain ⟨d, hd, name, rfl⟩ := h1 e he
    exact element_parsed (hf d hd) name
  · obtain ⟨d, hd, name, a, _, rfl, _⟩ := (htr t f g).mp h
    exact ⟨element_minutes (hf d hd) name a, (hf d hd).minutes.2⟩

theorem onset_clock {d : Observance} (h : ZoneFits d) {t : DateTime} (ht : Onset d t) : Clock t := by
  rcases ht with rfl | ht | ⟨ps, hps, ht⟩
  · exact h.start
  · exact (h.rdates t ht).1
  · exact clock_of_kind h.start ht.1.2.valid ht.1.2.kind

/-- The offset that is given for a time. -/
theorem zone_offset {env : TzEnv} (he : DefaultUtc env) {o : SetOrder} {o' : SetOrder (DateTime × Int × Int)} {Z z1 : Zone}
    {ds : List Observance} (hf : ∀ d ∈ ds, ZoneFits d) (h0 : Z.maxYear = none)
    (h1 : ∀ e ∈ Z.elements, ∃ d ∈ ds, ∃ name, e = element d name) (h2 : ∀ d ∈ ds, ∃ name, element d name ∈ Z.elements)
    (hr : ZoneReach env o o' Z z1) {x : DateTime} (hx : x.Valid) (hd : x.dateOnly = false) (hy : x.year ≤ 2098) :
    ∃ n v z2, (∀ fuel ≥ n, z1.offsetSeconds env o o' fuel x false = some (v, z2)) ∧ (InForce ds x v ∨ Unset ds x ∧ v = 0) := by
  obtain ⟨hp, htr, hm⟩ := zone_parsed (env := env) hf h1
  obtain ⟨n, v, z2, hq⟩ := C35_ends_partial env he o o' Z z1 hp h0 hm hr x hx hd false
  refine ⟨n, v, z2, hq, ?_⟩
  have hclock : ∀ {d name t}, element d name ∈ Z.elements → (descOf env (element d name)).S t → Clock t := by
    intro d name t he' hS
    exact ((parsed_ok (o := o) he (hp _ he')).clock t hS).1
  have hyear : ∀ {t}, Clock t → t.num ≤ x.num → t.year ≤ 2098 := fun ht hle => le_trans (year_of_time ht.1 hx hle) hy
  have hbef : ∀ {t}, Clock t → (¬ Rfc.Before x t ↔ t.num ≤ x.num) := by
    intro t ht
    rw [before_iff hx ht.1]
    exact not_lt
  -- onsets up to `x`
  have honset : ∀ {d}, d ∈ ds → ∀ {t}, Onset d t → Clock t := fun hd _ ht => onset_clock (hf _ hd) ht
  rcases C35_zone_partial he hp h0 hm hr hx hd (rel := false) (by simp) (hq n le_rfl) with ⟨t, f, a, b, c⟩ | ⟨a, b⟩
  · left
    obtain ⟨d, hd, name, hS, he', rfl, rfl⟩ := (htr t f v).mp a
    have ht := hclock he' hS
    have b : t.num ≤ x.num := b
    refine ⟨d, hd, t, (element_dates (hf d hd) name (hyear ht b)).mp hS, (hbef ht).mpr b, rfl, ?_⟩
    intro d' hd' t' ho' hb'
    have ht' := honset hd' ho'
    rw [hbef ht'] at hb'
    obtain ⟨name', he''⟩ := h2 d' hd'
    have hS' := (element_dates (env := env) (hf d' hd') name' (hyear ht' hb')).mpr ho'
    have c : t'.num ≤ t.num := c t' _ _ ((htr t' _ _).mpr ⟨d', hd', name', hS', he'', rfl, rfl⟩) hb'
    rw [before_iff ht.1 ht'.1]
    exact not_lt.mpr c
  · right
    refine ⟨fun d hd t ho => ?_, b⟩
    have ht := honset hd ho
    by_contra hb
    rw [hbef ht] at hb
    obtain ⟨name, he'⟩ := h2 d hd
    have hS := (element_dates (env := env) (hf d hd) name (hyear ht hb)).mpr ho
    have : x.num < t.num := a t _ _ ((htr t _ _).mpr ⟨d, hd, name, hS, he', rfl, rfl⟩)
    omega

/-- The offset that is given for a time in UTC. -/
theorem zone_offset_utc {env : TzEnv} (he : DefaultUtc env) {o : SetOrder} {o' : SetOrder (DateTime × Int × Int)} {Z z1 : Zone}
    {ds : List Observance} (hf : ∀ d ∈ ds, ZoneFits d) (h0 : Z.maxYear = none)
    (h1 : ∀ e ∈ Z.elements, ∃ d ∈ ds, ∃ name, e = element d name) (h2 : ∀ d ∈ ds, ∃ name, element d name ∈ Z.elements)
    (hb : ∀ d ∈ ds, d.offsetFrom ≤ 86400) (hr : ZoneReach env o o' Z z1) {x : DateTime} (hx : x.Valid) (hd : x.dateOnly = false)
    (hy : x.year ≤ 2097) (hord : InOrder ds x) :
    ∃ n v z2, (∀ fuel ≥ n, z1.offsetSeconds env o o' fuel x true = some (v, z2)) ∧
      (InForceUtc ds x v ∨ UnsetUtc ds x ∧ v = 0) := by
  obtain ⟨hp, htr, hm⟩ := zone_parsed (env := env) hf h1
  obtain ⟨n, v, z2, hq⟩ := C35_ends_partial env he o o' Z z1 hp h0 hm hr x hx hd true
  refine ⟨n, v, z2, hq, ?_⟩
  have hclock : ∀ {d name t}, element d name ∈ Z.elements → (descOf env (element d name)).S t → Clock t := by
    intro d name t he' hS
    exact ((parsed_ok (o := o) he (hp _ he')).clock t hS).1
  -- a day after `x` is in the year after at the latest
  have hyear : ∀ {t}, Clock t → t.num ≤ x.num + 86400 → t.year ≤ 2098 := by
    intro t ht hle
    have hlt := lt_newYear (t := { x with utc := false, tzid := none }) (y := 2098) ⟨hx, hd, rfl, rfl⟩ (by
      show x.year < 2098
      omega)
    by_contra hn
    have h3 : ¬ t.num < (TzElement.newYear 2099).num := fun h3 => by
      have := (newYear_lt ht (y := 2099)).mp h3
      omega
    have h4 : (TzElement.newYear 2099).num = (TzElement.newYear 2098).num + 31536000 := by decide +kernel
    have h5 : ({ x with utc := false, tzid := none } : DateTime).num = x.num := rfl
    omega
  have honset : ∀ {d}, d ∈ ds → ∀ {t}, Onset d t → t.num - d.offsetFrom ≤ x.num →
      Tr (Z.elements.map (descOf env)) t d.offsetFrom d.offsetTo := by
    intro d hd t ht hle
    obtain ⟨name, he'⟩ := h2 d hd
    have := hb d hd
    exact (htr _ _ _).mpr ⟨d, hd, name, (element_dates (env := env) (hf d hd) name
      (hyear (onset_clock (hf d hd) ht) (by omega))).mpr ht, he', rfl, rfl⟩
  have hback : ∀ {t f g}, Tr (Z.elements.map (descOf env)) t f g → t.num ≤ x.num + 86400 →
      ∃ d ∈ ds, Onset d t ∧ f = d.offsetFrom ∧ g = d.offsetTo := by
    intro t f g h hle
    obtain ⟨d, hd, name, a, he', rfl, rfl⟩ := (htr t f g).mp h
    exact ⟨d, hd, (element_dates (hf d hd) name (hyear (hclock he' a) hle)).mp a, rfl, rfl⟩
  have hfrom : ∀ {t f g}, Tr (Z.elements.map (descOf env)) t f g → f ≤ 86400 := by
    intro t f g h
    obtain ⟨d, hd, name, _, _, rfl, _⟩ := (htr t f g).mp h
    exact hb d hd
  have horder : OrderlyAt (Z.elements.map (descOf env)) x.num := by
    constructor
    · intro t f g t' f' g' a b hle htt
      have hf1 := hfrom b
      obtain ⟨d, hd, c1, rfl, rfl⟩ := hback a (by omega)
      obtain ⟨d', hd', c2, rfl, rfl⟩ := hback b (by omega)
      exact hord.1 d hd d' hd' t t' c1 c2 hle htt
    · intro t f g y a hle hlt
      have hf1 := hfrom a
      obtain ⟨d, hd, c1, rfl, rfl⟩ := hback a (by omega)
      have hty := hord.2 d hd t c1 hle
      have hxy := (newYear_lt (t := { x with utc := false, tzid := none }) ⟨hx, ‹x.dateOnly = false›, rfl, rfl⟩).mp hlt
      exact (newYear_lt (onset_clock (hf d hd) c1)).mpr (lt_of_le_of_lt hty hxy)
  rcases C35_zone_partial he hp h0 hm hr hx hd (rel := true) (fun _ => horder) (hq n le_rfl) with ⟨t, f, a, b, c⟩ | ⟨a, b⟩
  · left
    have b : t.num - f ≤ x.num := b
    have hf1 := hfrom a
    obtain ⟨d, hd, c1, rfl, rfl⟩ := hback a (by omega)
    refine ⟨d, hd, t, c1, b, rfl, fun d' hd' t' ho' hb' => ?_⟩
    exact c t' _ _ (honset hd' ho' hb') hb'
  · right
    refine ⟨fun d hd t ho => ?_, b⟩
    by_contra hn
    have hle : t.num - d.offsetFrom ≤ x.num := not_lt.mp hn
    have : x.num < t.num - d.offsetFrom := a t _ _ (honset hd ho hle)
    omega

/-- The time zones of a calendar after questions. -/
theorem reach_zones {env : TzEnv} {o : SetOrder} {o' : SetOrder (DateTime × Int × Int)} {zs zs1 : List (List Char × Zone)}
    (h : ZonesReach env o o' zs zs1) : List.Forall₂ (fun a b => a.1 = b.1 ∧ ZoneReach env o o' a.2 b.2) zs zs1 := by
  induction h with
  | start => exact List.forall₂_same.mpr fun _ _ => ⟨rfl, .start⟩
  | @ask zs1 zs2 fuel tzid x rel v _ hx hd hq ih =>
    clear * - ih hq hx hd
    induction ih generalizing zs2 v with
    | nil => rw [offsetIn] at hq; cases hq; exact .nil
    | @cons a b zs zs1 h1 h2 ih =>
      obtain ⟨id, z⟩ := b
      rw [offsetIn] at hq
      split at hq
      · rw [Option.map_eq_some_iff] at hq
        obtain ⟨w, w1, w2⟩ := hq
        cases w2
        exact .cons ⟨h1.1, .offset h1.2 hx hd w1⟩ h2
      · rw [Option.map_eq_some_iff] at hq
        obtain ⟨w, w1, w2⟩ := hq
        cases w2
        exact .cons h1 (ih w1)

/-- The time zones of a calendar that is read. -/
theorem zones_read {s : Settings} (hT : Program ValueType.ical s.tables) {body : List (List Char)}
    {ps : List Cont.CProp} {ss : List Cont.Component} (h : Spec.Body (container s) true "VCALENDAR".toList body ps ss)
    {zones : List (List Char × List Observance)}
    (hz : List.Forall₂ ZoneIn (ss.filter fun d => decide (PropText.upper d.type = "VTIMEZONE".toList)) zones) (env : TzEnv) :
    (∃ zs, zonesOf env s.toEnv (.mk "VCALENDAR".toList ps ss) = some zs ∧
      List.Forall₂ (fun z Z => Z.1 = z.1 ∧ Z.2.maxYear = none ∧ (∀ e ∈ Z.2.elements, ∃ d ∈ z.2, ∃ name, e = element d name) ∧
        ∀ d ∈ z.2, ∃ name, element d name ∈ Z.2.elements) zones zs) ∧
      ∀ d ∈ ss, PropText.upper d.type = "VTIMEZONE".toList → d.type = "VTIMEZONE".toList := by
  have hs := (L137.body_sound h).2
  have hn := body_nested h
  constructor
  · unfold zonesOf
    show ∃ zs, ((ss.filter fun d => decide (PropText.upper d.type = "VTIMEZONE".toList)).mapM _) = some zs ∧ _
    have hsub : ∀ c ∈ ss.filter (fun d => decide (PropText.upper d.type = "VTIMEZONE".toList)), c ∈ ss := fun c hc =>
      (List.mem_filter.mp hc).1
    generalize (ss.filter fun d => decide (PropText.upper d.type = "VTIMEZONE".toList)) = cs at hz hsub
    induction hz with
    | nil => exact ⟨[], rfl, .nil⟩
    | @cons c z cs zones a _ ih =>
      obtain ⟨zs, b1, b2⟩ := ih fun c hc => hsub c (by simp [hc])
      have hc := hsub c (by simp)
      obtain ⟨Z, c1, c2, c3, c4⟩ := zone_read hT env (hs c hc) (hn c hc) a
      refine ⟨(z.1, Z) :: zs, ?_, .cons ⟨rfl, c2, c3, c4⟩ b2⟩
      rw [List.mapM_cons, if_pos a.type, c1, b1]; rfl
  · intro d hd hu
    obtain ⟨z, _, hz⟩ := L137.forall₂_left hz (List.mem_filter.mpr ⟨hd, decide_eq_true hu⟩)
    exact hz.type

/-- The offset that a calendar gives is that of its first time zone with the name. -/
theorem zones_offset {env : TzEnv} {o : SetOrder} {o' : SetOrder (DateTime × Int × Int)} {tzid : List Char} {x : DateTime} {rel : Bool}
    {Z : List Char × List Observance → List Char × Zone → Prop} {P : List Observance → Int → Prop}
    {zones : List (List Char × List Observance)} {zs zs1 : List (List Char × Zone)}
    (hall : List.Forall₂ (fun z a => a.1 = z.1 ∧ Z z a) zones zs) (hr : ZonesReach env o o' zs zs1)
    (hone : ∀ z ∈ zones, Named zones tzid z.2 → ∀ a, Z z a → ∀ z1, ZoneReach env o o' a.2 z1 →
      ∃ n v z2, (∀ fuel ≥ n, z1.offsetSeconds env o o' fuel x rel = some (v, z2)) ∧ P z.2 v) :
    ∃ n v zs2, (∀ fuel ≥ n, offsetIn env o o' fuel tzid x rel zs1 = some (v, zs2)) ∧ (∀ ds, Named zones tzid ds → P ds v) ∧
      ((∀ z ∈ zones, z.1 ≠ tzid) → v = 0) := by
  have hreach := reach_zones hr
  clear hr
  induction hall generalizing zs1 with
  | nil =>
    cases hreach
    exact ⟨0, 0, [], fun _ _ => rfl, (fun ds ⟨pre, post, hc, _⟩ => by simp at hc), fun _ => rfl⟩
  | @cons z a zones zs h1 _ ih =>
    cases hreach with
    | @cons _ b _ zs1 r1 r2 =>
      obtain ⟨id, z1⟩ := b
      have hid : id = z.1 := by rw [← h1.1]; exact r1.1.symm
      by_cases hk : id = tzid
      · obtain ⟨n, v, z2, q1, q2⟩ := hone z (by simp) ⟨[], zones, by rw [← hk, hid]; rfl, by simp⟩ a h1.2 z1 r1.2
        refine ⟨n, v, (id, z2) :: zs1, fun fuel hfu => ?_, ?_, fun hc => absurd (hid.symm.trans hk) (hc z (by simp))⟩
        · rw [offsetIn, if_pos hk, q1 fuel hfu]; rfl
        · rintro ds ⟨pre, post, hc, hpre⟩
          cases pre with
          | nil => cases hc; exact q2
          | cons p pre =>
            obtain ⟨rfl, _⟩ := List.cons.inj hc
            exact absurd (hid.symm.trans hk) (hpre z (by simp))
      · obtain ⟨n, v, zs2, q1, q2, q3⟩ := ih (fun z' hz' ⟨pre, post, hc, hpre⟩ => hone z' (by simp [hz'])
          ⟨z :: pre, post, by rw [hc]; rfl, by
            intro p hp
            rcases List.mem_cons.mp hp with rfl | hp
            · exact fun h => hk (hid.trans h)
            · exact hpre p hp⟩) r2
        refine ⟨n, v, (id, z1) :: zs2, fun fuel hfu => ?_, ?_, fun hc => q3 fun z hz => hc z (by simp [hz])⟩
        · rw [offsetIn, if_neg hk, q1 fuel hfu]; rfl
        · rintro ds ⟨pre, post, hc, hpre⟩
          cases pre with
          | nil =>
            cases hc
            exact absurd hid hk
          | cons p pre =>
            cases hc
            exact q2 ds ⟨pre, post, rfl, fun p hp => hpre p (by simp [hp])⟩

theorem offset_bound {s : List Char} {v : Int} (h : OffsetText s v) : -86400 < v ∧ v < 86400 := by
  cases h with
  | minutes neg _ _ _ _ => cases neg <;> simp <;> omega
  | seconds neg _ _ _ _ _ _ => cases neg <;> simp <;> omega

/-- Offsets are less than a day. -/
theorem zone_bound {c : Cont.Component} {z : List Char × List Observance} (h : ZoneIn c z) :
    ∀ d ∈ z.2, -86400 < d.offsetFrom ∧ d.offsetFrom < 86400 := by
  intro d hd
  obtain ⟨q, _, ls, _, hl⟩ := forall₂_right h.observances hd
  cases hl.offsetFrom with
  | some l v _ _ _ hv => exact offset_bound hv.2

theorem zone_bound_to {c : Cont.Component} {z : List Char × List Observance} (h : ZoneIn c z) :
    ∀ d ∈ z.2, -86400 < d.offsetTo ∧ d.offsetTo < 86400 := by
  intro d hd
  obtain ⟨q, _, ls, _, hl⟩ := forall₂_right h.observances hd
  cases hl.offsetTo with
  | some l v _ _ _ hv => exact offset_bound hv.2

end L138
open L138 CalendarRead

/-- C138 (partial), from the text of a calendar to the offsets of its time zones: `getTimezoneOffsetSeconds` of a calendar whose
text is well-formed gives, for a local time and the name of one of its time zones, after whatever questions, the TZOFFSETTO of the
observance with the last onset that is not after that time, as the lines of the time zone describe them, and 0 before the first
onset; for other names it gives 0.

Needed: `ZoneFits`, that is: onsets at whole minutes and not before DTSTART, from 1902 on, by YEARLY rules as in
`C133_rule_partial`, or by RDATEs that are no periods.  Missing: before the first onset (`C35_fails_before`), years to 2098
(`C05_fails`), dates (`C36_fails_date`), `BEGIN:vtimezone` (`C40_fails_zone`). -/
theorem C138_offset_partial (s : Settings) (hT : Program ValueType.ical s.tables)
    (b1 b2 body : List (List Char)) (ps : List Cont.CProp) (ss : List Cont.Component) (h1 : Blank b1) (h2 : Blank b2)
    (hb : s.blankRaise = false ∨ b1 = [] ∧ b2 = []) (h : Spec.Body (container s) true "VCALENDAR".toList body ps ss)
    (hv : ∃ p ∈ ps, p.key = "VERSION".toList) (zones : List (List Char × List Observance))
    (hz : List.Forall₂ ZoneIn (ss.filter fun d => decide (PropText.upper d.type = "VTIMEZONE".toList)) zones)
    (hf : ∀ z ∈ zones, ∀ d ∈ z.2, ZoneFits d) (env : TzEnv) (he : DefaultUtc env) :
    ∃ c zs, read s (b1 ++ "BEGIN:VCALENDAR".toList :: (body ++ "END:VCALENDAR".toList :: b2)) = .ok (some c) ∧
      zonesOf env s.toEnv c = some zs ∧
      ∀ o o' zs1, ZonesReach env o o' zs zs1 → ∀ tzid x, x.Valid → x.dateOnly = false → x.year ≤ 2098 →
        ∃ n v zs2, (∀ fuel ≥ n, offsetIn env o o' fuel tzid x false zs1 = some (v, zs2)) ∧
          (∀ ds, Named zones tzid ds → InForce ds x v ∨ Unset ds x ∧ v = 0) ∧
          ((∀ z ∈ zones, z.1 ≠ tzid) → v = 0) := by
  obtain ⟨⟨zs, hzs, hall⟩, hzone⟩ := zones_read hT h hz env
  refine ⟨.mk "VCALENDAR".toList ps ss, zs, (C40_calendar (container s) _ _).mpr
    ⟨C40_complete (container s) rfl b1 b2 body ps ss h1 h2 hb h hv, hzone⟩, hzs, ?_⟩
  intro o o' zs1 hr tzid x hx hd hy
  exact zones_offset (P := fun ds v => InForce ds x v ∨ Unset ds x ∧ v = 0) hall hr fun z hz _ a ha z1 hr1 =>
    zone_offset he (hf z hz) ha.1 ha.2.1 ha.2.2 hr1 hx hd hy

/-- C138 (partial), times in UTC: `getTimezoneOffsetSeconds` with `relative_to_utc` gives, for a time in UTC and the name of one of the
time zones, the TZOFFSETTO of the observance with the last onset that, in UTC, is not after that time, and 0 before the first.

Needed: as in `C138_offset_partial`; and `InOrder`: changes that are in the same order in UTC as on the clock, and not in a later year on
the clock (`C36_fails_year`).  Missing: years from 2098 on. -/
theorem C138_utc_partial (s : Settings) (hT : Program ValueType.ical s.tables)
    (b1 b2 body : List (List Char)) (ps : List Cont.CProp) (ss : List Cont.Component) (h1 : Blank b1) (h2 : Blank b2)
    (hb : s.blankRaise = false ∨ b1 = [] ∧ b2 = []) (h : Spec.Body (container s) true "VCALENDAR".toList body ps ss)
    (hv : ∃ p ∈ ps, p.key = "VERSION".toList) (zones : List (List Char × List Observance))
    (hz : List.Forall₂ ZoneIn (ss.filter fun d => decide (PropText.upper d.type = "VTIMEZONE".toList)) zones)
    (hf : ∀ z ∈ zones, ∀ d ∈ z.2, ZoneFits d) (env : TzEnv) (he : DefaultUtc env) :
    ∃ c zs, read s (b1 ++ "BEGIN:VCALENDAR".toList :: (body ++ "END:VCALENDAR".toList :: b2)) = .ok (some c) ∧
      zonesOf env s.toEnv c = some zs ∧
      ∀ o o' zs1, ZonesReach env o o' zs zs1 → ∀ tzid x, x.Valid → x.dateOnly = false → x.year ≤ 2097 →
        (∀ ds, Named zones tzid ds → InOrder ds x) →
        ∃ n v zs2, (∀ fuel ≥ n, offsetIn env o o' fuel tzid x true zs1 = some (v, zs2)) ∧
          (∀ ds, Named zones tzid ds → InForceUtc ds x v ∨ UnsetUtc ds x ∧ v = 0) ∧
          ((∀ z ∈ zones, z.1 ≠ tzid) → v = 0) := by
  obtain ⟨⟨zs, hzs, hall⟩, hzone⟩ := zones_read hT h hz env
  refine ⟨.mk "VCALENDAR".toList ps ss, zs, (C40_calendar (container s) _ _).mpr
    ⟨C40_complete (container s) rfl b1 b2 body ps ss h1 h2 hb h hv, hzone⟩, hzs, ?_⟩
  intro o o' zs1 hr tzid x hx hd hy hord
  refine zones_offset (P := fun ds v => InForceUtc ds x v ∨ UnsetUtc ds x ∧ v = 0) hall hr fun z hz' hn a ha z1 hr1 =>
    zone_offset_utc he (hf z hz') ha.1 ha.2.1 ha.2.2 (fun d hd => ?_) hr1 hx hd hy (hord z.2 hn)
  obtain ⟨c, _, hc⟩ := L137.forall₂_right hz hz'
  exact (zone_bound hc d hd).2.le

namespace L138
open L132 L137 ValueType

/-- The settings, as they are at first. -/
def settings : Settings := { toEnv := ⟨true, true, {}, ValueType.ical, fun _ _ => true, .fix, .raise, true⟩ }

/-- Daylight saving time from the second Sunday in March. -/
def daylight : List ContentLine :=
  [line "DTSTART" "20070311T020000", line "RRULE" "FREQ=YEARLY;BYMONTH=3;BYDAY=2SU", line "TZOFFSETFROM" "-0500",
    line "TZOFFSETTO" "-0400"]

/-- Standard time from the first Sunday in November. -/
def standard : List ContentLine :=
  [line "DTSTART" "20071104T020000", line "RRULE" "FREQ=YEARLY;BYMONTH=11;BYDAY=1SU", line "TZOFFSETFROM" "-0400",
    line "TZOFFSETTO" "-0500"]

def daylightDesc : Observance where
  facts := [.start easternDaylight, .rule false [.freq .yearly, .num .month [3], .byDay [(2, 0)]], .other, .other]
  start := easternDaylight
  offsetFrom := -18000
  offsetTo := -14400

def standardDesc : Observance where
  facts := [.start easternStandard, .rule false [.freq .yearly, .num .month [11], .byDay [(1, 0)]], .other, .other]
  start := easternStandard
  offsetFrom := -14400
  offsetTo := -18000

theorem hour_text (a : List Char) (neg : Bool) (h : Nat) (hh : h < 24) (ha : a ≠ [] ∧ a.all Char.isDigit ∧
    a.foldl (fun a c => 10 * a + (c.toNat - 48)) 0 = h ∧ a.length = 2) :
    OffsetText ((if neg then '-' else '+') :: (a ++ ['0', '0'])) ((if neg then -1 else 1) * (h * 3600 + ((0 : Nat) : Int) * 60)) :=
  .minutes neg (fixed 2 a h ha) (fixed 2 ['0', '0'] 0 (by decide +kernel)) hh (by decide)

theorem hour_line {ls : List ContentLine} {n v : String} {k : Int} (h1 : line n v ∈ ls)
    (h2 : ∀ m ∈ ls, PropText.upper m.name = PropText.upper n.toList → m = line n v) (h3 : OffsetText v.toList k) :
    HasLine ls (PropText.upper n.toList) OffsetLine (some k) :=
  .some (line n v) k h1 rfl h2 ⟨⟨none, noParam _ _ _, .inl rfl⟩, h3⟩

theorem four : OffsetText "-0400".toList (-14400) := by
  simpa using hour_text ['0', '4'] true 4 (by decide) (by decide +kernel)

theorem five : OffsetText "-0500".toList (-18000) := by
  simpa using hour_text ['0', '5'] true 5 (by decide) (by decide +kernel)

/-- The other lines have other names. -/
theorem others {ls : List ContentLine} {l : ContentLine} {key : List Char}
    (h : (ls.filter fun m => decide (PropText.upper m.name = key)).length = 1) (hl : l ∈ ls) (hk : PropText.upper l.name = key) :
    ∀ m ∈ ls, PropText.upper m.name = key → m = l := by
  intro m hm hkm
  obtain ⟨x, hx⟩ := List.length_eq_one_iff.mp h
  have h1 : m ∈ ls.filter fun m => decide (PropText.upper m.name = key) := List.mem_filter.mpr ⟨hm, by simp [hkm]⟩
  have h2 : l ∈ ls.filter fun m => decide (PropText.upper m.name = key) := List.mem_filter.mpr ⟨hl, by simp [hk]⟩
  rw [hx, List.mem_singleton] at h1 h2
  rw [h1, h2]

theorem daylight_describes : ZoneText.Describes daylight daylightDesc where
  lines := by
    refine .cons ?_ (.cons ?_ (.cons (.other (by decide +kernel)) (.cons (.other (by decide +kernel)) .nil)))
    · refine .start (d := false) (z := none) (by decide +kernel) (noParams _ _) ?_ rfl (by simp)
      exact .time (a := "2007".toList) (b := "03".toList) (c := "11".toList) (y := 2007) (mm := 0) (ss := 0) false
        (fixed 4 _ 2007 (by decide +kernel)) (fixed 2 _ 3 (by decide +kernel)) (fixed 2 _ 11 (by decide +kernel))
        (fixed 2 "02".toList 2 (by decide +kernel)) (fixed 2 "00".toList 0 (by decide +kernel))
        (fixed 2 "00".toList 0 (by decide +kernel)) (by decide +kernel)
    · refine .rule false (by decide +kernel) ⟨none, noParam _ _ _, .inl rfl⟩ ⟨?_, by simp [Recur.Part.Clash]⟩
      rw [show (line "RRULE" "FREQ=YEARLY;BYMONTH=3;BYDAY=2SU").value = ("FREQ=".toList ++ "YEARLY".toList) ++
        ';' :: ((Recur.By.month.name ++ '=' :: ['3']) ++ ';' :: ("BYDAY=".toList ++ (['2'] ++ "SU".toList))) by decide +kernel]
      exact .more (.freq .yearly) (.more (.num (.one (.plain (digits ['3'] 3 (by decide +kernel)))) (by simp [Recur.By.Allows]))
        (.one (.byDay (.one (.nth (.plain (digits ['2'] 2 (by decide +kernel))) (by decide) .su)) (by decide +kernel))))
  start := rfl
  offsetFrom := hour_line (n := "TZOFFSETFROM") (by simp [daylight]) (others (by decide +kernel) (by simp [daylight]) rfl) five
  offsetTo := hour_line (n := "TZOFFSETTO") (by simp [daylight]) (others (by decide +kernel) (by simp [daylight]) rfl) four

theorem standard_describes : ZoneText.Describes standard standardDesc where
  lines := by
    refine .cons ?_ (.cons ?_ (.cons (.other (by decide +kernel)) (.cons (.other (by decide +kernel)) .nil)))
    · refine .start (d := false) (z := none) (by decide +kernel) (noParams _ _) ?_ rfl (by simp)
      exact .time (a := "2007".toList) (b := "11".toList) (c := "04".toList) (y := 2007) (mm := 0) (ss := 0) false
        (fixed 4 _ 2007 (by decide +kernel)) (fixed 2 _ 11 (by decide +kernel)) (fixed 2 _ 4 (by decide +kernel))
        (fixed 2 "02".toList 2 (by decide +kernel)) (fixed 2 "00".toList 0 (by decide +kernel))
        (fixed 2 "00".toList 0 (by decide +kernel)) (by decide +kernel)
    · refine .rule false (by decide +kernel) ⟨none, noParam _ _ _, .inl rfl⟩ ⟨?_, by simp [Recur.Part.Clash]⟩
      rw [show (line "RRULE" "FREQ=YEARLY;BYMONTH=11;BYDAY=1SU").value = ("FREQ=".toList ++ "YEARLY".toList) ++
        ';' :: ((Recur.By.month.name ++ '=' :: "11".toList) ++ ';' :: ("BYDAY=".toList ++ (['1'] ++ "SU".toList))) by decide +kernel]
      exact .more (.freq .yearly) (.more (.num (.one (.plain (digits _ 11 (by decide +kernel)))) (by simp [Recur.By.Allows]))
        (.one (.byDay (.one (.nth (.plain (digits ['1'] 1 (by decide +kernel))) (by decide) .su)) (by decide +kernel))))
  start := rfl
  offsetFrom := hour_line (n := "TZOFFSETFROM") (by simp [standard]) (others (by decide +kernel) (by simp [standard]) rfl) four
  offsetTo := hour_line (n := "TZOFFSETTO") (by simp [standard]) (others (by decide +kernel) (by simp [standard]) rfl) five

def observance (type : String) (ls : List ContentLine) : Cont.Component := .mk type.toList (ls.map fun l => ⟨l.name, l.text⟩) []

def easternLines : List ContentLine := [line "TZID" "ET"]

def easternComp : Cont.Component :=
  .mk "VTIMEZONE".toList (easternLines.map fun l => ⟨l.name, l.text⟩) [observance "DAYLIGHT" daylight, observance "STANDARD" standard]

theorem allowed_line {l : ContentLine} (h : l.name ≠ [] ∧ ∀ c ∈ l.name, c.isAlphanum = true ∨ c = '-') (h2 : l.group = none)
    (h3 : l.params = []) : l.Allowed false ∧ ∀ p ∈ l.params, ∀ v ∈ p.values, v.Readable := by
  refine ⟨⟨h, (fun g hg => by rw [h2] at hg; cases hg), by simp [h3]⟩, by simp [h3]⟩

theorem has_lines {t : List Char} {ls : List ContentLine} {ss : List Cont.Component}
    (h : ∀ l ∈ ls, (l.name ≠ [] ∧ ∀ c ∈ l.name, c.isAlphanum = true ∨ c = '-') ∧ l.group = none ∧ l.params = []) :
    HasLines (.mk t (ls.map fun l => ⟨l.name, l.text⟩) ss) ls :=
  ⟨by simp [Cont.Component.props], fun l hl => (allowed_line (h l hl).1 (h l hl).2.1 (h l hl).2.2).1,
    fun l hl => (allowed_line (h l hl).1 (h l hl).2.1 (h l hl).2.2).2⟩

theorem eastern_in : ZoneIn easternComp ("ET".toList, [daylightDesc, standardDesc]) where
  type := rfl
  tzid := by
    refine ⟨easternLines, has_lines (by simp only [easternLines, List.mem_singleton, forall_eq]; decide +kernel), ?_⟩
    refine .some (line "TZID" "ET") _ (by simp [easternLines]) (by decide +kernel) (by simp [easternLines])
      ⟨⟨none, noParam _ _ _, .inl rfl⟩, ?_⟩
    exact .plain _ (by decide) (.plain _ (by decide) .nil)
  observances :=
    .cons ⟨daylight, has_lines (by simp only [daylight]; decide +kernel), daylight_describes⟩
      (.cons ⟨standard, has_lines (by simp only [standard]; decide +kernel), standard_describes⟩ .nil)

theorem sunday_fits {d : Observance} {m n : Int} (hs : Clock d.start) (hm : 1 ≤ m ∧ m ≤ 12) :
    ZoneRuleFits (Recur.rule [.freq .yearly, .num .month [m], .byDay [(n, 0)]]) d where
  freq := rfl
  tame := by
    refine ⟨hs.1, le_rfl, (by decide : (0 : Int) ≤ 1 ∧ (1 : Int) < 7), ?_, nofun, ?_, nofun, nofun, nofun, ?_, nofun, ?_, nofun⟩
    · intro v hv
      rw [List.mem_singleton.mp hv]
      exact (by decide : (0 : Int) ≤ 0 ∧ (0 : Int) < 7)
    · intro v hv
      rw [List.mem_singleton.mp hv]
      exact hm
    · intro h
      rw [hs.2.1] at h
      cases h
    · exact fun _ => ⟨rfl, rfl, nofun⟩
  standard := ⟨rfl, rfl, rfl, nofun, nofun⟩
  seconds := rfl
  count := nofun
  untilSet := nofun
  upto := nofun

theorem daylight_fits : ZoneFits daylightDesc where
  start := clock_daylight
  year := by decide
  leap := by decide
  minutes := by decide
  rdates := nofun
  rules := by
    intro ps hps
    rw [show ps = _ from List.mem_singleton.mp hps]
    exact sunday_fits clock_daylight (by decide)

theorem standard_fits : ZoneFits standardDesc where
  start := clock_standard
  year := by decide
  leap := by decide
  minutes := by decide
  rdates := nofun
  rules := by
    intro ps hps
    rw [show ps = _ from List.mem_singleton.mp hps]
    exact sunday_fits clock_standard (by decide)

/-- The text of the calendar between its delimiters. -/
def etText : List (List Char) :=
  "VERSION:2.0".toList :: ("BEGIN:".toList ++ "VTIMEZONE".toList) :: ((easternLines.map ContentLine.text ++
    (("BEGIN:".toList ++ "DAYLIGHT".toList) :: (daylight.map ContentLine.text ++ ("END:".toList ++ "DAYLIGHT".toList) ::
      (("BEGIN:".toList ++ "STANDARD".toList) :: (standard.map ContentLine.text ++ ("END:".toList ++ "STANDARD".toList) :: []))))) ++
    ("END:".toList ++ "VTIMEZONE".toList) :: [])

theorem eastern_body : Spec.Body (container settings) false "VTIMEZONE".toList
    (easternLines.map ContentLine.text ++
    (("BEGIN:".toList ++ "DAYLIGHT".toList) :: (daylight.map ContentLine.text ++ ("END:".toList ++ "DAYLIGHT".toList) ::
      (("BEGIN:".toList ++ "STANDARD".toList) :: (standard.map ContentLine.text ++ ("END:".toList ++ "STANDARD".toList) :: [])))))
    (easternLines.map fun l => ⟨l.name, l.text⟩) [observance "DAYLIGHT" daylight, observance "STANDARD" standard] :=
  .prop (by decide +kernel) (by decide +kernel) (by decide +kernel) (by decide +kernel) (by decide +kernel)
    (.comp "DAYLIGHT".toList (by decide +kernel) (by decide +kernel) (by decide +kernel) (by decide +kernel)
      (lines_body (by decide +kernel))
      (.comp "STANDARD".toList (by decide +kernel) (by decide +kernel) (by decide +kernel) (by decide +kernel)
        (lines_body (by decide +kernel)) .nil))

theorem zone_body : Spec.Body (container settings) true "VCALENDAR".toList etText [⟨"VERSION".toList, "VERSION:2.0".toList⟩]
    [easternComp] :=
  .prop (by decide +kernel) (by decide +kernel) (by decide +kernel) (by decide +kernel) (by decide +kernel)
    (.comp "VTIMEZONE".toList (by decide +kernel) (by decide +kernel) (by decide +kernel) (by decide +kernel) eastern_body .nil)

end L138

/-- The conditions of C138 are met: Eastern Time. -/
example (env : TzEnv) (he : DefaultUtc env) (o : SetOrder) (o' : SetOrder (DateTime × Int × Int)) (x : DateTime) (hx : x.Valid)
    (hd : x.dateOnly = false) (hy : x.year ≤ 2098) :
    ∃ c zs, CalendarRead.read settings ([] ++ "BEGIN:VCALENDAR".toList :: (etText ++ "END:VCALENDAR".toList :: [])) = .ok (some c) ∧
      zonesOf env settings.toEnv c = some zs ∧ ∃ n v zs2, (∀ fuel ≥ n, offsetIn env o o' fuel "ET".toList x false zs = some (v, zs2)) ∧
        (InForce [daylightDesc, standardDesc] x v ∨ Unset [daylightDesc, standardDesc] x ∧ v = 0) := by
  obtain ⟨c, zs, h1, h2, h3⟩ := C138_offset_partial settings .base [] [] etText _ _ (by simp [Blank])
    (by simp [Blank]) (.inl rfl) zone_body ⟨_, List.mem_singleton.mpr rfl, by decide +kernel⟩
    [("ET".toList, [daylightDesc, standardDesc])] (by
      rw [show ([easternComp].filter fun d => decide (PropText.upper d.type = "VTIMEZONE".toList)) = [easternComp] by
        rw [List.filter_cons_of_pos (by decide +kernel)]; rfl]
      exact .cons eastern_in .nil) (by
      simp only [List.mem_cons, List.not_mem_nil, or_false, forall_eq, forall_eq_or_imp]
      exact ⟨daylight_fits, standard_fits⟩) env he
  obtain ⟨n, v, zs2, h4, h5, _⟩ := h3 o o' zs .start "ET".toList x hx hd hy
  exact ⟨c, zs, h1, h2, n, v, zs2, h4, h5 _ ⟨[], [], rfl, by simp⟩⟩

namespace L138

/-- The onsets by such rules. -/
theorem sunday_onset {d : Observance} {m n : Int} (hs : Clock d.start) (hm : d.start.month = m) (h2 : d.start.hours = 2)
    (h0 : d.start.minutes = 0 ∧ d.start.seconds = 0)
    (hr : rulesOf false d.facts = [[.freq .yearly, .num .month [m], .byDay [(n, 0)]]]) (hd : EventText.datesOf false d.facts = [])
    {t : DateTime} (h : Onset d t) : t.Valid ∧ t.month = m ∧ t.num % 86400 = 7200 := by
  have key : t.Valid ∧ t.month = m ∧ t.hours = 2 ∧ t.minutes = 0 ∧ t.seconds = 0 := by
    rcases h with rfl | h | ⟨ps, hps, h⟩
    · exact ⟨hs.1, hm, h2, h0⟩
    · rw [hd] at h; cases h
    · rw [hr, List.mem_singleton] at hps
      subst hps
      have hk := h.1.2.kept
      refine ⟨h.1.2.valid, ?_, (hk.hour trivial rfl).trans h2, (hk.minute trivial rfl).trans h0.1, (hk.second trivial rfl).trans h0.2⟩
      obtain hn | ⟨v, hv, he⟩ := h.1.2.byMonth
      · exact nomatch (show [m] = [] from hn)
      have hv : v ∈ [m] := hv
      rw [List.mem_singleton] at hv
      rw [he, hv]
  obtain ⟨k1, k2, k3, k4, k5⟩ := key
  refine ⟨k1, k2, ?_⟩
  unfold DateTime.num timeNum
  simp only [DateTime.civil, k3, k4, k5]
  omega

theorem eastern_onset {d : Observance} (hd : d ∈ [daylightDesc, standardDesc]) {t : DateTime} (h : Onset d t) :
    t.Valid ∧ t.num % 86400 = 7200 ∧ (d = daylightDesc ∧ t.month = 3 ∨ d = standardDesc ∧ t.month = 11) := by
  simp only [List.mem_cons, List.not_mem_nil, or_false] at hd
  rcases hd with rfl | rfl
  · have k := sunday_onset (m := 3) (n := 2) clock_daylight rfl rfl ⟨rfl, rfl⟩ rfl rfl h
    exact ⟨k.1, k.2.2, .inl ⟨rfl, k.2.1⟩⟩
  · have k := sunday_onset (m := 11) (n := 1) clock_standard rfl rfl ⟨rfl, rfl⟩ rfl rfl h
    exact ⟨k.1, k.2.2, .inr ⟨rfl, k.2.1⟩⟩

theorem eastern_order (x : DateTime) (hx : x.Valid) : InOrder [daylightDesc, standardDesc] x := by
  constructor
  · intro d hd d' hd' t t' h h' _ hle
    obtain ⟨v, k, m⟩ := eastern_onset hd h
    obtain ⟨v', k', m'⟩ := eastern_onset hd' h'
    have hle : t.num ≤ t'.num := hle
    show t.num - d.offsetFrom ≤ t'.num - d'.offsetFrom
    rcases m with ⟨rfl, m⟩ | ⟨rfl, m⟩ <;> rcases m' with ⟨rfl, m'⟩ | ⟨rfl, m'⟩ <;> simp only [daylightDesc, standardDesc] <;>
      first
      | omega
      | have hne : t.num ≠ t'.num := fun hc => by
          have := congrArg (fun c => c.date.m) (timeNum_inj v.1 v'.1 hc)
          simp only [DateTime.civil, DateTime.date, m, m'] at this
          omega
        omega
  · intro d hd t h hle
    obtain ⟨v, _, m⟩ := eastern_onset hd h
    refine Rule.L133.year_of_time v hx ?_
    have hle : t.num - d.offsetFrom ≤ x.num := hle
    show t.num ≤ x.num
    rcases m with ⟨rfl, _⟩ | ⟨rfl, _⟩ <;> simp only [daylightDesc, standardDesc] at hle <;> omega

end L138

/-- The conditions of C138 for times in UTC are met. -/
example (env : TzEnv) (he : DefaultUtc env) (o : SetOrder) (o' : SetOrder (DateTime × Int × Int)) (x : DateTime) (hx : x.Valid)
    (hd : x.dateOnly = false) (hy : x.year ≤ 2097) :
    ∃ c zs, CalendarRead.read settings ([] ++ "BEGIN:VCALENDAR".toList :: (etText ++ "END:VCALENDAR".toList :: [])) = .ok (some c) ∧
      zonesOf env settings.toEnv c = some zs ∧ ∃ n v zs2, (∀ fuel ≥ n, offsetIn env o o' fuel "ET".toList x true zs = some (v, zs2)) ∧
        (InForceUtc [daylightDesc, standardDesc] x v ∨ UnsetUtc [daylightDesc, standardDesc] x ∧ v = 0) := by
  obtain ⟨c, zs, h1, h2, h3⟩ := C138_utc_partial settings .base [] [] etText _ _ (by simp [Blank])
    (by simp [Blank]) (.inl rfl) zone_body ⟨_, List.mem_singleton.mpr rfl, by decide +kernel⟩
    [("ET".toList, [daylightDesc, standardDesc])] (by
      rw [show ([easternComp].filter fun d => decide (PropText.upper d.type = "VTIMEZONE".toList)) = [easternComp] by
        rw [List.filter_cons_of_pos (by decide +kernel)]; rfl]
      exact .cons eastern_in .nil) (by
      simp only [List.mem_cons, List.not_mem_nil, or_false, forall_eq, forall_eq_or_imp]
      exact ⟨daylight_fits, standard_fits⟩) env he
  obtain ⟨n, v, zs2, h4, h5, _⟩ := h3 o o' zs .start "ET".toList x hx hd hy (by
    rintro ds ⟨pre, post, hc, _⟩
    have hm : ("ET".toList, ds) ∈ [("ET".toList, [daylightDesc, standardDesc])] := by rw [hc]; simp
    rw [List.mem_singleton, Prod.mk.injEq] at hm
    rw [hm.2]
    exact eastern_order x hx)
  exact ⟨c, zs, h1, h2, n, v, zs2, h4, h5 _ ⟨[], [], rfl, by simp⟩⟩

/-- The offset that is given for a time by a calendar with this text, if nothing is raised. -/
def L138.offsetOf (lines : List (List Char)) (tzid : List Char) (x : DateTime) (rel : Bool := false) : Option Int :=
  match CalendarRead.read settings lines with
  | .ok (some c) => (zonesOf .empty settings.toEnv c).bind fun zs =>
    (offsetIn .empty RecurrenceSet.inOrder inOrder' 40 tzid x rel zs).map (·.1)
  | _ => none

/-- What is computed for it, in July and in December of 2007. -/
example : offsetOf ("BEGIN:VCALENDAR".toList :: (etText ++ ["END:VCALENDAR".toList])) "ET".toList
      ⟨2007, 7, 1, 12, 0, 0, false, false, none⟩ = some (-14400) ∧
    offsetOf ("BEGIN:VCALENDAR".toList :: (etText ++ ["END:VCALENDAR".toList])) "ET".toList
      ⟨2007, 12, 1, 12, 0, 0, false, false, none⟩ = some (-18000) := by
  decide +kernel

/-- In UTC the change in November of 2010 is at six o'clock. -/
example : offsetOf ("BEGIN:VCALENDAR".toList :: (etText ++ ["END:VCALENDAR".toList])) "ET".toList
      ⟨2010, 11, 7, 5, 59, 0, false, false, none⟩ true = some (-14400) ∧
    offsetOf ("BEGIN:VCALENDAR".toList :: (etText ++ ["END:VCALENDAR".toList])) "ET".toList
      ⟨2010, 11, 7, 6, 0, 0, false, false, none⟩ true = some (-18000) := by
  decide +kernel

end PyCal
