import Verif.Props.C35_C36_Offset
import Verif.Props.C30_C55_Complex

/-!
# C35, C36: time zones with recurring transitions

The condition of `C35_offset_partial`, that the recurrence set of each element expands to a fixed
set of dates, is met by the elements found in VTIMEZONEs: without recurrence, with RDATEs, with
RRULEs with or without BYxxx parts.
-/

namespace PyCal
open DateTime (TzEnv InZone)
open Spec
open TzElement (newYear)

/-- A rule object that expands, from the given start up to any later time, to the dates `R`
whatever was asked of it before; `J` are its cache states. -/
structure RuleOk (env : TzEnv) (start : DateTime) (off : Int) (r : Rule) (R : DateTime → Prop)
    (J : Rule.Cache → Prop) : Prop where
  clock : ∀ t, R t → Clock t ∧ start.num ≤ t.num
  expand : ∀ c fuel stop l lim c', J c → Clock stop → start.num < stop.num →
    r.expand env fuel c start (.ofEnd start stop) off none = some (.dates l lim, c') →
    J c' ∧ ∀ t, t ∈ l ↔ R t ∧ t.num < stop.num

/-- The date-times that compare by their fields with clock times. -/
theorem clock_inZone {t : DateTime} (h : Clock t) : InZone false none t :=
  ⟨h.2.1, .inr ⟨h.2.2.1, .inr h.2.2.2⟩⟩

/-- The dates of a rule with BYxxx parts. -/
def ByDate (env : TzEnv) (r : Rule) (n : Nat) (start : DateTime) (off : Int) (t : DateTime) :
    Prop :=
  ∃ k, t ∈ r.occursIn env n start k ∧ start.num ≤ t.num ∧
    (∀ u, Rule.UntilBound r start off u → t.gt env u = false) ∧
    (r.useCount = true → start.num < t.num ∧
      (r.occurrencesBefore env n start k t : Int) + 1 < r.count)

section
variable {env : TzEnv} {o : SetOrder} {start : DateTime} {off : Int} {r : Rule} {n : Nat}

theorem within_stop {t stop : DateTime} (hy : Clock stop) (hs : Clock start) (ht : Clock t) :
    (Period.ofEnd start stop).isDateWithin env t = true ↔
      start.num ≤ t.num ∧ t.num < stop.num := by
  unfold Period.isDateWithin
  rw [Bool.and_eq_true]
  exact and_congr (clock_ge ht hs) (clock_lt ht (hy).1 (hy).2.1)

/-- What a rule of a time zone must be: not WEEKLY, with values in their ranges, UNTIL a
date-time. -/
structure ZoneRule (r : Rule) (start : DateTime) : Prop where
  hasBy : r.hasBy = true
  tame : Rule.Tame r start
  notWeekly : r.freq ≠ .weekly
  untilSet : r.useUntil = true → r.untilDate ≠ none
  untilTime : ∀ u, r.untilDate = some u → u.dateOnly = false

theorem zoneRule_ask (he : DefaultUtc env) (hs : Clock start) (hr : ZoneRule r start)
    {stop : DateTime} (hy : Clock stop) :
    Rule.AskBy env (InZone false none) r start off start (.ofEnd start stop) off := by
  have hz : Period.Kind env (InZone false none) := .inr (.inl ⟨false, none, rfl⟩)
  refine ⟨⟨hr.tame, hz, clock_inZone hs, ?_, clock_inZone (hy), fun _ =>
    .inr (.inl ⟨_, _, rfl⟩), Rule.steady_of_fixed hr.tame (.inr (.inr ⟨hs.2.2.2, he⟩)),
    fun h => absurd h hr.notWeekly⟩, ⟨rfl, rfl, rfl⟩, rfl⟩
  intro u hu
  have hf : start.floating = true := by
    unfold DateTime.floating
    rw [hs.2.2.1, hs.2.2.2]; rfl
  unfold Rule.untilLimit at hu
  split at hu
  · rw [Option.map_eq_some_iff] at hu
    obtain ⟨w, hw, hu⟩ := hu
    subst hu
    exact ⟨hr.untilTime w hw, .inr ⟨rfl, .inr rfl⟩⟩
  · simp at hu

theorem zoneRule_ok (he : DefaultUtc env) (hs : Clock start) (hr : ZoneRule r start)
    (hn : r.interval = n) (hleap : start.month = 2 → start.day = 29 → GregorianLeap start.year) :
    RuleOk env start off r (ByDate env r n start off)
      (Rule.Reachable env r fun s p o _ a =>
        Rule.AskBy env (InZone false none) r start off s p o ∧ a ≠ .tooMany) := by
  have hclock : ∀ k t, t ∈ r.occursIn env n start k → Clock t := by
    intro k t ht
    unfold Rule.occursIn at ht
    rw [← Rule.raw_atTime hs.1 (fun hd => absurd hd (by rw [hs.2.1]; simp)) hn] at ht
    obtain ⟨h1, h2, _⟩ := Rule.cand_spec hr.tame ht
    exact ⟨h1, h2.1.trans hs.2.1, h2.2.1.trans hs.2.2.1, h2.2.2.trans hs.2.2.2⟩
  refine ⟨?_, ?_⟩
  · rintro t ⟨k, ht, hle, _⟩
    exact ⟨hclock k t ht, hle⟩
  · intro c fuel stop l lim c' hc hy hlt hx
    have hA := zoneRule_ask (off := off) he hs hr hy
    refine ⟨.query _ _ _ _ _ hc ⟨hA, by simp⟩ hx, ?_⟩
    have hz : Period.Kind env (InZone false none) := .inr (.inl ⟨false, none, rfl⟩)
    obtain ⟨fuel', a, ha⟩ := Rule.C54_ends_partial env (InZone false none) r start
      (.ofEnd start stop) off hr.hasBy
      ⟨hz, hs.1, clock_inZone hs, by simp, fun hd => absurd hd (by rw [hs.2.1]; simp),
        hr.tame.interval⟩ (clock_inZone (hy)) hleap
    have hl := Rule.C30_complex_partial env (InZone false none) r start off c c' fuel fuel' start
      (.ofEnd start stop) none _ a hr.hasBy hc hA hx (by simp) ha
    cases a with
    | tooMany =>
      unfold Rule.expandFresh at ha
      simp only [Option.map_eq_some_iff] at ha
      obtain ⟨⟨a'', c''⟩, ha, he'⟩ := ha
      rcases Rule.expand_cases ha with ⟨_, ho, _, _⟩ | ⟨_, _, _, _, h1⟩ | ⟨hf, _⟩
      · exact absurd ho Rule.expandRaw_none_done
      · rw [h1] at he'; simp [Rule.answer] at he'
      · simp at hf
    | dates l' lim' =>
      have hl : l = l' := hl
      subst hl
      intro t
      rw [(Rule.C54_exact_partial hA.good rfl hn hr.untilSet (Rule.hasBy_iff.mp hr.hasBy) ha).1 t]
      constructor
      · rintro ⟨k, h1, h2, h3, h4, h5⟩
        have ht := hclock k t h1
        rw [within_stop hy hs ht] at h2
        refine ⟨⟨k, h1, h2.1, h4, fun hu => ⟨?_, (h5 hu).2⟩⟩, h2.2⟩
        exact (clock_lt hs ht.1 ht.2.1).mp (h5 hu).1
      · rintro ⟨⟨k, h1, h2, h4, h5⟩, h6⟩
        have ht := hclock k t h1
        refine ⟨k, h1, (within_stop hy hs ht).mpr ⟨h2, h6⟩, ?_, h4, fun hu => ⟨?_, (h5 hu).2⟩⟩
        · rw [Bool.eq_false_iff, ne_eq, clock_lt ht hs.1 hs.2.1]
          omega
        · exact (clock_lt hs ht.1 ht.2.1).mpr (h5 hu).1

/-- The dates of a rule without BYxxx parts. -/
def PlainDate (env : TzEnv) (r : Rule) (n : Nat) (start : DateTime) (off : Int) (t : DateTime) :
    Prop :=
  ∃ k, t.SameKind start ∧ t.civil = repetition r.freq n start.civil k ∧ t.civil.Valid ∧
    (∀ u, Rule.UntilBound r start off u → t.gt env u = false) ∧
    (r.useCount = true → (repetitionsBefore r.freq n start.civil k : Int) < r.count)

/-- What a rule without BYxxx parts must be: COUNT at least 1 and not together with UNTIL, UNTIL a
date-time not before the start. -/
structure PlainRule (r : Rule) (start : DateTime) (off : Int) : Prop where
  noBy : r.hasBy = false
  interval : 1 ≤ r.interval
  count : r.useCount = true → 1 ≤ r.count ∧ r.useUntil = false
  untilSet : r.useUntil = true → r.untilDate ≠ none
  untilTime : ∀ u, r.untilDate = some u → u.dateOnly = false
  untilAfter : ∀ u, Rule.UntilBound r start off u → start.gt .empty u = false

theorem gt_floating {env env' : TzEnv} {t u : DateTime} (hu : u.floating = true) :
    t.gt env u = t.gt env' u := by
  have e1 : tzSame t.utc t.tzid u.utc u.tzid = true := by
    unfold tzSame
    have : tzIsFloat u.utc u.tzid = true := hu
    rw [this]; simp
  unfold DateTime.gt DateTime.compare
  rw [e1]
  simp

theorem plainRule_ask (hs : Clock start) (hr : PlainRule r start off)
    {stop : DateTime} (hy : Clock stop) :
    Rule.Ask env (InZone false none) r start off start (.ofEnd start stop) off := by
  refine ⟨⟨.inr (.inl ⟨false, none, rfl⟩), hs.1, clock_inZone hs, ?_, fun hd => absurd hd (by
    rw [hs.2.1]; simp), hr.interval⟩, clock_inZone (hy), ⟨rfl, rfl, rfl⟩, rfl⟩
  intro u hu
  have hf : start.floating = true := by
    unfold DateTime.floating
    rw [hs.2.2.1, hs.2.2.2]; rfl
  unfold Rule.untilLimit at hu
  split at hu
  · rw [Option.map_eq_some_iff] at hu
    obtain ⟨w, hw, hu⟩ := hu
    subst hu
    exact ⟨hr.untilTime w hw, .inl rfl⟩
  · simp at hu

theorem plainRule_ok (hs : Clock start) (hr : PlainRule r start off)
    (hn : r.interval = n) (hleap : start.month = 2 → start.day = 29 → GregorianLeap start.year) :
    RuleOk env start off r (PlainDate env r n start off)
      (Rule.Reachable env r fun s p o _ a =>
        Rule.Ask env (InZone false none) r start off s p o ∧ a ≠ .tooMany) := by
  have hdates : start.dateOnly = true → Rule.subDaily r.freq = false := fun hd => absurd hd (by
    rw [hs.2.1]; simp)
  have hclock : ∀ t, PlainDate env r n start off t → Clock t ∧ start.num ≤ t.num := by
    rintro t ⟨k, h1, h2, h3, _⟩
    have hraw := Rule.raw_civil hs.1 hdates hn k
    have hd : t.dateOnly = false := h1.1.trans hs.2.1
    have ht : t.Valid := ⟨h3, fun h => absurd h (by rw [hd]; simp)⟩
    have hc : Clock t := ⟨ht, hd, h1.2.1.trans hs.2.2.1, h1.2.2.trans hs.2.2.2⟩
    refine ⟨hc, ?_⟩
    have hnum : t.num = (r.raw start k).num := by
      unfold DateTime.num; rw [h2, hraw]
    have hv : (r.raw start k).Valid := ⟨by rw [hraw, ← h2]; exact h3, fun h => absurd h (by
      rw [(r.raw_kind start k).1, hs.2.1]; simp)⟩
    rcases Nat.eq_zero_or_pos k with rfl | hk
    · rw [hnum, Rule.raw]
    · have h0 : (r.raw start 0).Valid := by rw [Rule.raw]; exact hs.1
      have hlt := Rule.raw_lt (env := env) hs.1 hdates hr.interval hk h0 hv
      rw [Rule.raw] at hlt
      rw [clock_lt hs hv ((r.raw_kind start k).1.trans hs.2.1)] at hlt
      omega
  refine ⟨hclock, ?_⟩
  intro c fuel stop l lim c' hc hy hlt hx
  have hA := plainRule_ask (env := env) hs hr hy
  refine ⟨.query _ _ _ _ _ hc ⟨hA, by simp⟩ hx, ?_⟩
  obtain ⟨fuel', L, lim', ha⟩ := Rule.C28_ends_partial env (InZone false none) r start
    (.ofEnd start stop) off hr.noBy hA.sound hA.stopK hleap
  have hl := Rule.C30_simple_partial env (InZone false none) r start off c c' fuel fuel' start
    (.ofEnd start stop) none _ _ hr.noBy (fun h => (hr.count h).1) hc hA hx (by simp) ha
  simp only [Rule.Answer.dates.injEq] at hl
  obtain ⟨rfl, rfl⟩ := hl
  have hex := (Rule.C28_exact_partial env (InZone false none) r fuel' start
    (.ofEnd start stop) off n l lim (Rule.hasBy_false_iff.mp hr.noBy) hA.sound hA.stopK hn hr.count hr.untilSet
    (fun u hu => by
      have hf : start.floating = true := by
        unfold DateTime.floating
        rw [hs.2.2.1, hs.2.2.2]; rfl
      obtain ⟨hu1, w, hw, h | h⟩ := hu
      · rw [hf] at h; exact absurd h.1 (by simp)
      · rw [gt_floating (env' := .empty) h.2.1]
        exact hr.untilAfter u ⟨hu1, w, hw, .inr h⟩) ha).1
  intro t
  rw [hex t]
  constructor
  · rintro ⟨k, h1, h2, h3, h4, h5, h6⟩
    have hp : PlainDate env r n start off t := ⟨k, h1, h2, h3, h5, h6⟩
    exact ⟨hp, ((within_stop hy hs (hclock t hp).1).mp h4).2⟩
  · rintro ⟨hp, hlt'⟩
    obtain ⟨k, h1, h2, h3, h5, h6⟩ := id hp
    exact ⟨k, h1, h2, h3, (within_stop hy hs (hclock t hp).1).mpr ⟨(hclock t hp).2, hlt'⟩, h5, h6⟩

/-- The dates of a rule. -/
def RuleDate (env : TzEnv) (r : Rule) (n : Nat) (start : DateTime) (off : Int) (t : DateTime) :
    Prop :=
  if r.hasBy = true then ByDate env r n start off t else PlainDate env r n start off t

/-- The cache states of a rule. -/
def RuleState (env : TzEnv) (r : Rule) (start : DateTime) (off : Int) (c : Rule.Cache) : Prop :=
  if r.hasBy = true then
    Rule.Reachable env r (fun s p o _ a =>
      Rule.AskBy env (InZone false none) r start off s p o ∧ a ≠ .tooMany) c
  else
    Rule.Reachable env r (fun s p o _ a =>
      Rule.Ask env (InZone false none) r start off s p o ∧ a ≠ .tooMany) c

theorem rule_ok (he : DefaultUtc env) (hs : Clock start)
    (hr : ZoneRule r start ∨ PlainRule r start off)
    (hleap : start.month = 2 → start.day = 29 → GregorianLeap start.year) :
    RuleOk env start off r (RuleDate env r r.interval.toNat start off)
      (RuleState env r start off) := by
  rcases hr with hr | hr
  · have := hr.tame.interval
    have h := zoneRule_ok (off := off) (n := r.interval.toNat) he hs hr (by omega) hleap
    have e1 : RuleDate env r r.interval.toNat start off = ByDate env r r.interval.toNat start off := by
      funext t; simp [RuleDate, hr.hasBy]
    have e2 : RuleState env r start off = Rule.Reachable env r (fun s p o _ a =>
        Rule.AskBy env (InZone false none) r start off s p o ∧ a ≠ .tooMany) := by
      funext t; simp [RuleState, hr.hasBy]
    rw [e1, e2]; exact h
  · have := hr.interval
    have h := plainRule_ok (env := env) (n := r.interval.toNat) hs hr (by omega) hleap
    have e1 : RuleDate env r r.interval.toNat start off = PlainDate env r r.interval.toNat start off := by
      funext t; simp [RuleDate, hr.noBy]
    have e2 : RuleState env r start off = Rule.Reachable env r (fun s p o _ a =>
        Rule.Ask env (InZone false none) r start off s p o ∧ a ≠ .tooMany) := by
      funext t; simp [RuleState, hr.noBy]
    rw [e1, e2]; exact h

/-! ## Elements -/

/-- What is needed of one rule of an element. -/
structure RuleDesc where
  rule : Rule
  R : DateTime → Prop
  J : Rule.Cache → Prop

/-- An element with RRULEs and RDATEs (as date-times): it has its DTSTART, what the rules give and
the RDATEs not before the start. -/
def zoneDesc (start : DateTime) (f g : Int) (rules : List RuleDesc) (rdates : List DateTime) :
    Desc where
  start := start
  offsetFrom := f
  offsetTo := g
  S t := t = start ∨ (∃ r ∈ rules, r.R t) ∨ t ∈ rdates ∧ start.num ≤ t.num
  I s := List.Forall₂ (fun r p => p.1 = r.rule ∧ r.J p.2) rules s.rrules ∧ s.rdates = rdates ∧
    s.exrules = [] ∧ s.exdates = [] ∧ s.rperiods = [] ∧ s.experiods = []

theorem expandRules_zone {rules : List RuleDesc} {rs rs' : List (Rule × Rule.Cache)} {fuel : Nat}
    {stop : DateTime} {items items' : List DateTime} {lim lim' : Bool} (hy : Clock stop)
    (hlt : start.num < stop.num)
    (hok : ∀ r ∈ rules, RuleOk env start off r.rule r.R r.J)
    (h2 : List.Forall₂ (fun r p => p.1 = r.rule ∧ r.J p.2) rules rs)
    (h : RecurrenceSet.expandRules env fuel start (.ofEnd start stop) off none rs items lim =
      some (.dates items' lim' rs')) :
    List.Forall₂ (fun r p => p.1 = r.rule ∧ r.J p.2) rules rs' ∧
    ∀ t, t ∈ items' ↔ t ∈ items ∨ (∃ r ∈ rules, r.R t) ∧ t.num < stop.num := by
  induction h2 generalizing items lim rs' items' lim' with
  | nil =>
    simp only [RecurrenceSet.expandRules, Option.some.injEq,
      RecurrenceSet.RulesResult.dates.injEq] at h
    obtain ⟨rfl, rfl, rfl⟩ := h
    exact ⟨.nil, by simp⟩
  | @cons d p rules rs hp hrest ih =>
    obtain ⟨r, c⟩ := p
    obtain ⟨hr, hc⟩ := hp
    simp only at hr hc
    subst hr
    rw [RecurrenceSet.expandRules] at h
    split at h
    · simp at h
    · simp at h
    · next ds lim1 c1 hx =>
      obtain ⟨h1, h3⟩ := (hok d (by simp)).expand _ _ _ _ _ _ hc hy hlt hx
      split at h
      · simp at h
      · simp at h
      · next items2 lim2 rs2 hx2 =>
        simp only [Option.some.injEq, RecurrenceSet.RulesResult.dates.injEq] at h
        obtain ⟨rfl, rfl, rfl⟩ := h
        obtain ⟨i1, i2⟩ := ih (fun r hr => hok r (by simp [hr])) hx2
        refine ⟨.cons ⟨rfl, h1⟩ i1, fun t => ?_⟩
        rw [i2, List.mem_append, h3]
        simp only [List.mem_cons, exists_eq_or_imp]
        constructor
        · rintro ((h | h) | h)
          · exact .inl h
          · exact .inr ⟨.inl h.1, h.2⟩
          · exact .inr ⟨.inr h.1, h.2⟩
        · rintro (h | ⟨h | h, h'⟩)
          · exact .inl (.inl h)
          · exact .inl (.inr ⟨h, h'⟩)
          · exact .inr ⟨h, h'⟩

theorem addOne_mem : ∀ {l : List (DateTime × Bool)} {acc acc' : List DateTime × Bool},
    l.foldlM (RecurrenceSet.addOne none) acc = some acc' →
    ∀ t, t ∈ acc'.1 ↔ t ∈ acc.1 ∨ (t, true) ∈ l
  | [], acc, acc', h, t => by
    simp only [List.foldlM_nil, Option.pure_def, Option.some.injEq] at h
    subst h; simp
  | (u, b) :: l, acc, acc', h, t => by
    rw [List.foldlM_cons] at h
    cases b with
    | true =>
      simp only [RecurrenceSet.addOne, Rule.exceeds, if_true, Bool.false_eq_true, if_false] at h
      rw [addOne_mem h]
      simp [or_assoc]
    | false =>
      simp only [RecurrenceSet.addOne, Bool.false_eq_true, if_false] at h
      rw [addOne_mem h]
      simp

theorem zoneDesc_ok (he : DefaultUtc env) (hs : Clock start) (f g : Int) {rules : List RuleDesc}
    {rdates : List DateTime} (hok : ∀ r ∈ rules, RuleOk env start f r.rule r.R r.J)
    (hrd : ∀ t ∈ rdates, Clock t) : (zoneDesc start f g rules rdates).Ok env o := by
  have hclock : ∀ t, (zoneDesc start f g rules rdates).S t → Clock t ∧ start.num ≤ t.num := by
    rintro t (rfl | ⟨r, hr, ht⟩ | ⟨ht, hle⟩)
    · exact ⟨hs, le_refl _⟩
    · exact (hok r hr).clock t ht
    · exact ⟨hrd t ht, hle⟩
  refine ⟨hs, hclock, ?_, ?_⟩
  · rintro s ⟨h1, h2, _⟩ hr t
    unfold RecurrenceSet.hasRecurrence at hr
    simp only [Bool.or_eq_false_iff, Bool.not_eq_false', List.isEmpty_iff] at hr
    rw [hr.1.1.1.1.1] at h1
    rw [hr.1.1.1.1.2] at h2
    subst h2
    cases h1
    simp [zoneDesc]
  · rintro s fuel stop l lim s' ⟨h1, h2, h3, h4, h5, h6⟩ hr hy hlt hx
    have hlt : start.num < stop.num := hlt
    unfold RecurrenceSet.expand at hx
    have hin : (Period.ofEnd start stop).isDateWithin env start = true :=
      (within_stop hy hs hs).mpr ⟨le_refl _, hlt⟩
    simp only [show (zoneDesc start f g rules rdates).start = start from rfl,
      show (zoneDesc start f g rules rdates).offsetFrom = f from rfl, hin, if_true, h3,
      RecurrenceSet.expandRules] at hx
    split at hx
    · simp at hx
    · simp at hx
    · next items limited rs hxr =>
      obtain ⟨i1, i2⟩ := expandRules_zone hy hlt hok h1 hxr
      split at hx
      · simp at hx
      · next items' limited' hxa =>
        have ha := addOne_mem hxa
        have hnil : s.exdateList env (.ofEnd start stop) = [] := by
          unfold RecurrenceSet.exdateList
          rw [h4, h6]; rfl
        have hu : uniqueSorted env o [] = [] := by
          have : ∀ t, t ∉ uniqueSorted env o [] := fun t => by
            rw [mem_uniqueSorted]; simp [setOf]
          exact List.eq_nil_iff_forall_not_mem.mpr this
        simp only [hnil, List.append_nil, hu, setDifference, or_true, if_true, Option.some.injEq,
          RecurrenceSet.Result.dates.injEq] at hx
        obtain ⟨rfl, _, rfl⟩ := hx
        have hmem : ∀ t, t ∈ items' ↔ (zoneDesc start f g rules rdates).S t ∧
            t.num < stop.num := by
          intro t
          rw [ha t, i2 t]
          unfold RecurrenceSet.rdateTests
          rw [h2, h5]
          simp only [List.map_nil, List.append_nil, List.mem_map, Prod.mk.injEq,
            List.mem_singleton, zoneDesc]
          constructor
          · rintro ((rfl | ⟨h, h'⟩) | ⟨u, hu, rfl, hw⟩)
            · exact ⟨.inl rfl, hlt⟩
            · exact ⟨.inr (.inl h), h'⟩
            · rw [within_stop hy hs (hrd u hu)] at hw
              exact ⟨.inr (.inr ⟨hu, hw.1⟩), hw.2⟩
          · rintro ⟨rfl | h | ⟨h, h'⟩, hlt'⟩
            · exact .inl (.inl rfl)
            · exact .inl (.inr ⟨h, hlt'⟩)
            · exact .inr ⟨t, h, rfl, (within_stop hy hs (hrd t h)).mpr ⟨h', hlt'⟩⟩
        refine ⟨⟨i1, h2, rfl, h4, h5, h6⟩, fun t => ?_⟩
        have hK : ByInstant env Clock := fun a b ha hb =>
          ⟨(clock_lt ha hb.1 hb.2.1).trans (clock_posix_lt he ha hb).symm, by
            rw [clock_eq ha hb]
            constructor
            · rintro rfl; rfl
            · intro h
              have h1 := clock_posix_le he ha hb
              have h2 := clock_posix_le he hb ha
              exact clock_ext ha hb (by omega)⟩
        have hc : ∀ t ∈ items', Clock t := fun t ht => (hclock t ((hmem t).mp ht).1).1
        obtain ⟨u1, u2, _⟩ := setOf_spec hK hc
        rw [mem_uniqueSorted, ← hmem t]
        refine ⟨u1 t, fun ht => ?_⟩
        obtain ⟨v, hv, hv'⟩ := u2 t ht
        have := (hK v t (hc v (u1 v hv)) (hc t ht)).2.mpr hv'
        rw [clock_eq (hc v (u1 v hv)) (hc t ht)] at this
        rw [← this]; exact hv

/-! ## Time zones as parsed -/

/-- An element as parsed from a VTIMEZONE, with RRULEs and RDATEs. -/
structure ParsedElement (e : TzElement) : Prop where
  start : Clock e.start
  leap : e.start.month = 2 → e.start.day = 29 → GregorianLeap e.start.year
  rules : ∀ p ∈ e.recurrences.rrules, p.2 = {} ∧
    (ZoneRule p.1 e.start ∨ PlainRule p.1 e.start e.offsetFrom)
  rdates : ∀ t ∈ e.recurrences.rdates, Clock t
  others : e.recurrences.exrules = [] ∧ e.recurrences.exdates = [] ∧ e.recurrences.rperiods = [] ∧
    e.recurrences.experiods = []
  fresh : e.below = none ∧ e.items = none

/-- What it means: its dates are DTSTART, those of the rules (`RuleDate`), and the RDATEs not before
DTSTART. -/
def descOf (env : TzEnv) (e : TzElement) : Desc :=
  zoneDesc e.start e.offsetFrom e.offsetTo
    (e.recurrences.rrules.map fun p => ⟨p.1,
      RuleDate env p.1 p.1.interval.toNat e.start e.offsetFrom,
      RuleState env p.1 e.start e.offsetFrom⟩)
    e.recurrences.rdates

theorem parsed_ok (he : DefaultUtc env) {e : TzElement} (h : ParsedElement e) : (descOf env e).Ok env o := by
  refine zoneDesc_ok he h.start _ _ ?_ h.rdates
  intro r hr
  obtain ⟨p, hp, rfl⟩ := List.mem_map.mp hr
  exact rule_ok he h.start (h.rules p hp).2 h.leap

theorem parsed_element {e : TzElement} (h : ParsedElement e) : ElementOk (descOf env e) e := by
  refine ⟨rfl, ⟨rfl, rfl⟩, ⟨?_, rfl, h.others.1, h.others.2.1, h.others.2.2.1, h.others.2.2.2⟩,
    fun _ => by rw [h.fresh.2]; rfl, fun b hb => by rw [h.fresh.1] at hb; exact absurd hb (by simp)⟩
  rw [List.forall₂_map_left_iff, List.forall₂_same]
  intro p hp
  refine ⟨rfl, ?_⟩
  rw [(h.rules p hp).1]
  show RuleState env p.1 e.start e.offsetFrom {}
  unfold RuleState
  split <;> exact .new

theorem parsed_zone (he : DefaultUtc env) {z : Zone} (h : ∀ e ∈ z.elements, ParsedElement e)
    (hm : z.maxYear = none) : Fresh (z.elements.map (descOf env)) z ∧
    ∀ d ∈ z.elements.map (descOf env), d.Ok env o := by
  refine ⟨⟨hm, ?_⟩, ?_⟩
  · rw [List.forall₂_map_left_iff, List.forall₂_same]
    exact fun e he' => parsed_element (h e he')
  · intro d hd
    obtain ⟨e, he', rfl⟩ := List.mem_map.mp hd
    exact parsed_ok he (h e he')

/-- C35 (partial): in a time zone as parsed, with whatever RRULEs (with values in their ranges; with
BYxxx parts not WEEKLY) and RDATEs its elements have, after any queries, the UTC offset given for a
time is that after the last transition at or before it, and 0 before the first.

Needed: transitions at whole minutes; relative to UTC, that transitions up to then are in the same order in
UTC and none of them moves over the turn of a year.  Missing: before the first transition
(`C35_fails_before`), the element itself (`C35_fails_element`), date-only queries
(`C36_fails_date`). -/
theorem C35_zone_partial (he : DefaultUtc env) {o' : SetOrder (DateTime × Int × Int)}
    {z z1 z2 : Zone} (hp : ∀ e ∈ z.elements, ParsedElement e) (h0 : z.maxYear = none)
    (hm : WholeMinutes (z.elements.map (descOf env))) (hr : ZoneReach env o o' z z1) {fuel : Nat}
    {x : DateTime} (hx : x.Valid) (hd : x.dateOnly = false) {rel : Bool}
    (hrel : rel = true → OrderlyAt (z.elements.map (descOf env)) x.num) {v : Int}
    (hq : z1.offsetSeconds env o o' fuel x rel = some (v, z2)) :
    IsOffset (z.elements.map (descOf env)) rel x.num v ∨
      BeforeAll (z.elements.map (descOf env)) rel x.num ∧ v = 0 :=
  C35_offset_partial he (parsed_zone he hp h0).2 hm (parsed_zone (o := o) he hp h0).1 hr hx hd hrel
    hq

/-- C36 (partial): in a time zone as parsed, the answer does not depend on what was asked before,
nor on the order in which sets are run through.  Needed: as for `C35_zone_partial`, and that no two
transitions at one time lead to different offsets (`C36_fails_tie`). -/
theorem C36_zone_partial (he : DefaultUtc env) {oa ob : SetOrder}
    {oa' ob' : SetOrder (DateTime × Int × Int)} {z za zb za' zb' : Zone}
    (hp : ∀ e ∈ z.elements, ParsedElement e) (h0 : z.maxYear = none)
    (hm : WholeMinutes (z.elements.map (descOf env))) (hra : ZoneReach env oa oa' z za)
    (hrb : ZoneReach env ob ob' z zb) {na nb : Nat} {x : DateTime} (hx : x.Valid)
    (hd : x.dateOnly = false) {rel : Bool}
    (hrel : rel = true → OrderlyAt (z.elements.map (descOf env)) x.num)
    (hone : ∀ t f g t' f' g', Tr (z.elements.map (descOf env)) t f g →
      Tr (z.elements.map (descOf env)) t' f' g' → timeOf rel t f = timeOf rel t' f' → g = g')
    {va vb : Int}
    (hqa : za.offsetSeconds env oa oa' na x rel = some (va, za'))
    (hqb : zb.offsetSeconds env ob ob' nb x rel = some (vb, zb')) : va = vb :=
  C36_history_partial he (parsed_zone he hp h0).2 (parsed_zone he hp h0).2 hm
    (parsed_zone (o := oa) he hp h0).1 hra hrb hx hd hrel hone hqa hqb

end

/-! ## An example: US Eastern Time since 2007 -/

/-- "Every year, on the `n`-th Sunday of month `m`". -/
def sundayRule (m n : Int) : Rule := { freq := .yearly, byMonth := [m], byDay := [(n, 0)] }

def easternDaylight : DateTime := ⟨2007, 3, 11, 2, 0, 0, false, false, none⟩
def easternStandard : DateTime := ⟨2007, 11, 4, 2, 0, 0, false, false, none⟩

def eastern : Zone where
  elements := [
    { start := easternDaylight, offsetFrom := -18000, offsetTo := -14400,
      recurrences := { rrules := [(sundayRule 3 2, {})] } },
    { start := easternStandard, offsetFrom := -14400, offsetTo := -18000,
      recurrences := { rrules := [(sundayRule 11 1, {})] } }]

/-- The set of its elements is run through in the order of insertion, or backwards. -/
def inOrder' : SetOrder (DateTime × Int × Int) := ⟨id, fun l => List.Perm.refl l⟩
def backwards' : SetOrder (DateTime × Int × Int) := ⟨List.reverse, fun l => List.reverse_perm l⟩

/-- What the elements of Eastern Time mean. -/
def easternDescs : List Desc := eastern.elements.map (descOf .empty)

theorem defaultUtc_empty : DefaultUtc .empty := fun _ _ => rfl

theorem sunday_zone {m n : Int} {start : DateTime} (hs : Clock start) (hm : 1 ≤ m ∧ m ≤ 12) :
    ZoneRule (sundayRule m n) start := by
  refine ⟨rfl, ⟨hs.1, by simp [sundayRule], by simp [sundayRule],
    by simp [sundayRule], by simp [sundayRule], by simpa [sundayRule] using hm,
    by simp [sundayRule], by simp [sundayRule], by simp [sundayRule], ?_, by simp [sundayRule],
    by simp [sundayRule], by simp [sundayRule]⟩, by simp [sundayRule], by simp [sundayRule],
    by simp [sundayRule]⟩
  intro h
  rw [hs.2.1] at h
  exact absurd h (by simp)

theorem clock_daylight : Clock easternDaylight := by
  refine ⟨by decide +kernel, rfl, rfl, rfl⟩

theorem clock_standard : Clock easternStandard := by
  refine ⟨by decide +kernel, rfl, rfl, rfl⟩

theorem eastern_parsed : ∀ e ∈ eastern.elements, ParsedElement e := by
  intro e he
  simp only [eastern, List.mem_cons, List.not_mem_nil, or_false] at he
  rcases he with rfl | rfl
  · exact ⟨clock_daylight, fun h => absurd h (by decide), by
      simp only [List.mem_singleton, forall_eq]
      exact ⟨trivial, .inl (sunday_zone clock_daylight (by decide))⟩, by simp, ⟨rfl, rfl, rfl, rfl⟩, rfl, rfl⟩
  · exact ⟨clock_standard, fun h => absurd h (by decide), by
      simp only [List.mem_singleton, forall_eq]
      exact ⟨trivial, .inl (sunday_zone clock_standard (by decide))⟩, by simp, ⟨rfl, rfl, rfl, rfl⟩, rfl, rfl⟩

theorem eastern_ok (o : SetOrder) : ∀ d ∈ easternDescs, d.Ok .empty o :=
  (parsed_zone (z := eastern) defaultUtc_empty eastern_parsed rfl).2

theorem sunday_date {m n f : Int} {start t : DateTime} (hs : Clock start) (hm : 1 ≤ m ∧ m ≤ 12)
    (h : ByDate .empty (sundayRule m n) 1 start f t) :
    t.month = m ∧ t.hours = start.hours ∧ t.minutes = start.minutes ∧ t.seconds = start.seconds := by
  obtain ⟨k, hk, _⟩ := h
  unfold Rule.occursIn at hk
  rw [← Rule.raw_atTime hs.1 (fun hd => absurd hd (by rw [hs.2.1]; simp)) rfl] at hk
  have hnear := Rule.raw_near (r := sundayRule m n) hs.1 k
  rw [Rule.C53_yearly_month .empty (sundayRule m n) _ ⟨hnear.1, hnear.2.1⟩
    (Rule.raw_timeOK hs.1 k) rfl rfl rfl (by simp [sundayRule]) (by simpa [sundayRule] using hm)
    (by simp [sundayRule]) (by simp [sundayRule]) rfl] at hk
  obtain ⟨_, h1, _, _, h2⟩ := hk
  rw [Rule.raw_year rfl] at h2
  unfold Rule.TimesFrom OneOf at h2
  unfold OneOf at h1
  simpa [sundayRule] using And.intro h1 h2

/-- The transitions of Eastern Time. -/
theorem eastern_tr {t : DateTime} {f g : Int} (h : Tr easternDescs t f g) :
    Clock t ∧ t.hours = 2 ∧ t.minutes = 0 ∧ t.seconds = 0 ∧
    (t.month = 3 ∧ f = -18000 ∧ g = -14400 ∨ t.month = 11 ∧ f = -14400 ∧ g = -18000) := by
  obtain ⟨d, hd, hs, rfl, rfl⟩ := h
  have hc := ((eastern_ok RecurrenceSet.inOrder d hd).clock t hs).1
  refine ⟨hc, ?_⟩
  simp only [easternDescs, eastern, List.map_cons, List.map_nil, List.mem_cons, List.not_mem_nil,
    or_false] at hd
  rcases hd with rfl | rfl
  · rcases hs with rfl | ⟨r, hr, hR⟩ | ⟨h, _⟩
    · exact ⟨rfl, rfl, rfl, .inl ⟨rfl, rfl, rfl⟩⟩
    · simp only [List.map_cons, List.map_nil, List.mem_singleton] at hr
      subst hr
      obtain ⟨h1, h2, h3, h4⟩ := sunday_date (m := 3) (n := 2) (f := -18000) clock_daylight (by decide) (by simpa [RuleDate, sundayRule, Rule.hasBy] using hR)
      exact ⟨h2, h3, h4, .inl ⟨h1, rfl, rfl⟩⟩
    · simp at h
  · rcases hs with rfl | ⟨r, hr, hR⟩ | ⟨h, _⟩
    · exact ⟨rfl, rfl, rfl, .inr ⟨rfl, rfl, rfl⟩⟩
    · simp only [List.map_cons, List.map_nil, List.mem_singleton] at hr
      subst hr
      obtain ⟨h1, h2, h3, h4⟩ := sunday_date (m := 11) (n := 1) (f := -14400) clock_standard (by decide) (by simpa [RuleDate, sundayRule, Rule.hasBy] using hR)
      exact ⟨h2, h3, h4, .inr ⟨h1, rfl, rfl⟩⟩
    · simp at h

theorem two_oclock {t : DateTime} (h : t.hours = 2 ∧ t.minutes = 0 ∧ t.seconds = 0) :
    t.num = dayNum t.year t.month t.day * 86400 + 7200 := by
  unfold DateTime.num timeNum
  simp [DateTime.civil, DateTime.date, h]

theorem eastern_differ {t t' : DateTime} (ht : Clock t) (ht' : Clock t')
    (h : t.month ≠ t'.month) : dayNum t.year t.month t.day ≠ dayNum t'.year t'.month t'.day :=
  fun he => h (dayNum_inj ht.1.ymd ht'.1.ymd he).2.1

/-- The conditions of `C35_zone_partial` and `C36_zone_partial` are met by Eastern Time, for
local time and for UTC. -/
theorem eastern_meets : (∀ e ∈ eastern.elements, ParsedElement e) ∧ eastern.maxYear = none ∧
    WholeMinutes easternDescs ∧ Orderly easternDescs ∧
    ∀ rel t f g t' f' g', Tr easternDescs t f g → Tr easternDescs t' f' g' →
      timeOf rel t f = timeOf rel t' f' → g = g' := by
  refine ⟨eastern_parsed, rfl, ?_, ⟨?_, ?_⟩, ?_⟩
  · intro t f g h
    obtain ⟨_, _, _, h1, h2⟩ := eastern_tr h
    exact ⟨h1, by omega⟩
  · intro t f g t' f' g' h h' hle
    obtain ⟨c, a1, a2, a3, a4⟩ := eastern_tr h
    obtain ⟨c', b1, b2, b3, b4⟩ := eastern_tr h'
    rw [two_oclock ⟨a1, a2, a3⟩, two_oclock ⟨b1, b2, b3⟩] at *
    have := eastern_differ c c'
    omega
  · intro t f g y h hlt
    obtain ⟨c, a1, a2, a3, a4⟩ := eastern_tr h
    omega
  · intro rel t f g t' f' g' h h' heq
    obtain ⟨c, a1, a2, a3, a4⟩ := eastern_tr h
    obtain ⟨c', b1, b2, b3, b4⟩ := eastern_tr h'
    have := eastern_differ c c'
    unfold timeOf at heq
    rw [two_oclock ⟨a1, a2, a3⟩, two_oclock ⟨b1, b2, b3⟩] at heq
    split at heq <;> omega

/-- A rule without BYxxx parts: every year until 2006. -/
def plainExample : Rule where
  freq := .yearly
  useUntil := true
  untilDate := some ⟨2006, 4, 2, 7, 0, 0, false, true, none⟩

example : PlainRule plainExample
    ⟨2000, 4, 2, 2, 0, 0, false, false, none⟩ (-18000) := by
  refine ⟨rfl, by decide, by simp [plainExample], by simp [plainExample], by simp [plainExample], ?_⟩
  rintro u ⟨_, w, hw, ⟨h, _⟩ | ⟨_, h1, h2, h3⟩⟩
  · exact absurd h (by decide)
  · simp only [plainExample, Option.some.injEq] at hw
    subst hw
    have : ∀ t, DateTime.gt .empty t u = DateTime.gt .empty t ⟨2006, 4, 2, 2, 0, 0, false, false, none⟩ := by
      intro t
      unfold DateTime.gt
      rw [Rule.compare_floating (v := ⟨2006, 4, 2, 2, 0, 0, false, false, none⟩) h1 (by decide) h2
        (h3.trans (by decide +kernel))]
    rw [this]
    decide +kernel

/-! ## Where the claims fail -/

/-- The answer to a query, and that to a second query after another one. -/
def ask (z : Zone) (t : DateTime) (rel : Bool) : Option Int :=
  (z.offsetSeconds .empty RecurrenceSet.inOrder inOrder' 30 t rel).map (·.1)

def askAfter (z : Zone) (before t : DateTime) (rel : Bool) : Option Int :=
  (z.offsetSeconds .empty RecurrenceSet.inOrder inOrder' 30 before rel).bind fun v => ask v.2 t rel

def foundOffset (z : Zone) (t : DateTime) : Option (Option Int) :=
  (z.findElement .empty RecurrenceSet.inOrder 30 t).map fun v => v.1.map (·.offsetTo)

def minute (y mo d h mi s : Int) : DateTime := ⟨y, mo, d, h, mi, s, false, false, none⟩

/-- Eastern Time is as expected around the start of daylight saving time in 2010, for local time and
for UTC. -/
example : ask eastern (minute 2010 3 14 1 59 59) false = some (-18000) ∧
    ask eastern (minute 2010 3 14 2 0 0) false = some (-14400) ∧
    ask eastern (minute 2010 3 14 6 59 59) true = some (-18000) ∧
    ask eastern (minute 2010 3 14 7 0 0) true = some (-14400) := by decide +kernel

/-- C35 fails: before the first transition the offset is 0, not the TZOFFSETFROM of the first. -/
theorem C35_fails_before : ask eastern (minute 2000 1 1 0 0 0) false = some 0 ∧
    (eastern.elements.map (·.offsetFrom)).head? = some (-18000) := by decide +kernel

/-- C35 fails for the element (whose TZNAME is shown): for 1 July 2010 in Eastern Time the element
found is STANDARD, as only transitions up to 1 January are looked at, though the offset is that of
daylight saving time; after a query for the offset, which fills the cache, it is DAYLIGHT. -/
theorem C35_fails_element : foundOffset eastern (minute 2010 7 1 0 0 0) = some (some (-18000)) ∧
    ask eastern (minute 2010 7 1 0 0 0) false = some (-14400) ∧
    ((eastern.offsetSeconds .empty RecurrenceSet.inOrder inOrder' 30 (minute 2010 7 1 0 0 0)
      false).bind fun v => foundOffset v.2 (minute 2010 7 1 0 0 0)) = some (some (-14400)) := by
  decide +kernel

/-- A time zone with one transition. -/
def single (t : DateTime) : Zone where
  elements := [{ start := t, offsetFrom := 0, offsetTo := 3600 }]

/-- C36 fails: with a transition at 02:00:30, the answer for 02:00:40 is wrong after a query for
02:00:00, as the seconds are not part of the key of the cache. -/
theorem C36_fails_seconds : ∃ z a b,
    ask z b false = some 3600 ∧ askAfter z a b false = some 0 ∧ z = single (minute 2010 3 11 2 0 30)
      ∧ a = minute 2010 3 11 2 0 0 ∧ b = minute 2010 3 11 2 0 40 :=
  ⟨_, _, _, by decide +kernel, by decide +kernel, rfl, rfl, rfl⟩

/-- C36 fails: a query for a date changes the answer for midnight on that date. -/
theorem C36_fails_date : ∃ z a b,
    ask z b false = some 0 ∧ askAfter z a b false = some 3600 ∧ z = single (minute 2010 3 11 2 0 0) ∧
      a = DateTime.ofDate 2010 3 11 ∧ b = minute 2010 3 11 0 0 0 :=
  ⟨_, _, _, by decide +kernel, by decide +kernel, rfl, rfl, rfl⟩

/-- A time zone east of Greenwich with a transition at half past midnight on New Year's Day 2012,
which is in the year 2011 in UTC. -/
def newYearZone : Zone where
  elements := [
    { start := minute 2005 1 1 0 30 0, offsetFrom := 3600, offsetTo := 7200,
      recurrences := { rdates := [minute 2012 1 1 0 30 0] } },
    { start := minute 2006 1 1 0 30 0, offsetFrom := 7200, offsetTo := 3600 }]

/-- C36 fails: relative to UTC, the answer for 23:45 on 31 December 2011 depends on an earlier query
for 2010, after which the transitions of local year 2012 are missing. -/
theorem C36_fails_year : ask newYearZone (minute 2011 12 31 23 45 0) true = some 7200 ∧
    askAfter newYearZone (minute 2010 1 1 0 0 0) (minute 2011 12 31 23 45 0) true = some 3600 := by
  decide +kernel

/-- C36 fails: with two transitions at one time, which offset is taken depends on the order in which
a set is run through. -/
theorem C36_fails_tie : ∃ z : Zone, z.elements.map (fun e => (e.start, e.offsetTo)) =
      [(minute 2010 3 11 2 0 0, 3600), (minute 2010 3 11 2 0 0, 7200)] ∧
    ∃ o o' : SetOrder (DateTime × Int × Int),
      (z.offsetSeconds .empty RecurrenceSet.inOrder o 30 (minute 2010 7 1 0 0 0) false).map (·.1) =
        some 7200 ∧
      (z.offsetSeconds .empty RecurrenceSet.inOrder o' 30 (minute 2010 7 1 0 0 0) false).map (·.1) =
        some 3600 :=
  ⟨{ elements := [{ start := minute 2010 3 11 2 0 0, offsetFrom := 0, offsetTo := 3600 },
                  { start := minute 2010 3 11 2 0 0, offsetFrom := 0, offsetTo := 7200 }] }, rfl,
    inOrder', backwards', by decide +kernel, by decide +kernel⟩

end PyCal
