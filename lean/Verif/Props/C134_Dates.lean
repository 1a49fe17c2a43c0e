import Verif.Spec.EventDates
import Verif.Props.C132_EventText
import Verif.Props.C133_SetPos
import Verif.Props.C123_RecurLoad
import Verif.Props.C35_Ends

/-!
# C134: from the lines of an event to its dates

What the text of an event says by RFC 5545 (`Spec.EventText.Says`), the dates that this gives by RFC 5545
(`Spec.EventDates.IsDate`), and the dates that the code computes from the text.
-/

namespace PyCal
open Spec DateTime Spec.EventText EventRead

/-- What is asked of a rule with BYSETPOS: not WEEKLY, two values of a part give different dates, and, with COUNT,
two positions give different dates. -/
structure Picked (r : Rule) (s : DateTime) : Prop where
  distinct : Rule.Distinct r
  freq : r.freq ≠ .weekly
  count : r.useCount = true → r.bySetPos.Nodup ∧ ∀ k t, ∀ p ∈ r.bySetPos, ∀ q ∈ r.bySetPos,
    Rfc.AtPosition r s k t p → Rfc.AtPosition r s k t q → p = q

/-- A rule in the parts that the code handles, with an UNTIL of the kind of the start. -/
structure Handled (r : Rule) (s : DateTime) : Prop where
  tame : Rule.Tame r s
  standard : Rule.Standard r.unpicked
  upto : r.useUntil = true → ∃ w, r.untilDate = some w ∧ w.Valid ∧ SameKind w s ∧ ¬ Rfc.Before w s
  count : r.useCount = true → 1 ≤ r.count ∧ r.useUntil = false ∧ Rule.Distinct r
  picked : r.bySetPos ≠ [] → Picked r s

/-- An event, all of whose date-times are of one kind with a fixed offset (UTC, a numeric offset, floating, or dates), and a range
of that kind. -/
structure OneKind (env : TzEnv) (fs : List Fact) (s : DateTime) (range : Period) (off : Int) : Prop where
  start : startOf fs = some s
  valid : s.Valid
  fixed : FixedOffset env s
  float : s.floating = true → off = 0
  from1902 : 1902 ≤ s.year
  rangeStart : range.start.Valid ∧ SameKind range.start s
  rangeStop : range.stop.Valid ∧ SameKind range.stop s
  to2098 : range.stop.year ≤ 2098
  dates : ∀ ex, ∀ t ∈ datesOf ex fs, t.Valid ∧ SameKind t s
  rules : ∀ ex, ∀ ps ∈ rulesOf ex fs, Handled (Recur.rule ps) s
  exrules : ∀ ps ∈ rulesOf true fs, (Recur.rule ps).useCount = false

namespace L134
open Rule.L133

/-- Valid and of the kind of `s`. -/
def Like (s t : DateTime) : Prop := t.Valid ∧ SameKind t s

theorem occursAt_like {r : Rule} {s t : DateTime} (h : Rfc.OccursAt r s t) : Like s t := by
  obtain ⟨_, h, _⟩ := h
  exact ⟨h.2.valid, h.2.kind⟩

theorem occursAt_iff {r : Rule} {s t : DateTime} (h : r.bySetPos = []) : Rfc.OccursAt r s t ↔ Rfc.Occurs r s t := by
  unfold Rfc.OccursAt Rfc.Occurs Rfc.InSet Spec.Limits
  rw [h]
  constructor
  · rintro ⟨k, ⟨a, b⟩, _⟩; exact ⟨⟨k, a⟩, b⟩
  · rintro ⟨⟨k, a⟩, b⟩; exact ⟨k, ⟨a, b⟩, by simp⟩

theorem fewerAt_iff {r : Rule} {s t : DateTime} (h : r.bySetPos = []) (n : Int) :
    Rfc.FewerBetweenAt r s t n ↔ Rfc.FewerBetween r s t n := by
  unfold Rfc.FewerBetweenAt Rfc.FewerBetween
  simp only [occursAt_iff h]

/-- The set of comparable date-times it is in. -/
def sort (s : DateTime) : DateTime → Prop := if s.dateOnly = true then DateTime.IsDate else InZone s.utc s.tzid

theorem sort_or (s : DateTime) : sort s = DateTime.IsDate ∨ ∃ u z, sort s = InZone u z := by
  unfold sort; split
  · exact .inl rfl
  · exact .inr ⟨_, _, rfl⟩

theorem sort_kind (env : TzEnv) (s : DateTime) : Period.Kind env (sort s) := by
  rcases sort_or s with h | ⟨u, z, h⟩
  · exact .inl h
  · exact .inr (.inl ⟨u, z, h⟩)

theorem sort_like {s t : DateTime} (h : SameKind t s) : sort s t := by
  unfold sort
  obtain ⟨h1, h2, h3⟩ := h
  split
  · next hd => unfold DateTime.IsDate; rw [h1]; exact hd
  · next hd => unfold InZone; exact ⟨by rw [h1]; simpa using hd, .inr ⟨h2, .inr h3⟩⟩

theorem like_trans {a b s : DateTime} (ha : SameKind a s) (hb : SameKind b s) : SameKind a b := kind_to ha hb

section
variable {env : TzEnv} {s : DateTime} (hf : FixedOffset env s)
include hf

theorem like_fixed {a : DateTime} (ha : SameKind a s) : FixedOffset env a := by
  obtain ⟨_, h2, h3⟩ := ha
  unfold FixedOffset at *
  rw [h2, h3]; exact hf

theorem posix_iff {a b : DateTime} (ha : Like s a) (hb : Like s b) :
    a.posix env < b.posix env ↔ timeNum a.civil < timeNum b.civil := by
  have h1 := posix_strictMono env (like_fixed hf ha.2) (kind_to hb.2 ha.2) ha.1 hb.1
  have h2 := posix_strictMono env (like_fixed hf hb.2) (kind_to ha.2 hb.2) hb.1 ha.1
  refine ⟨fun h => ?_, h1⟩
  rcases (by omega : timeNum a.civil < timeNum b.civil ∨ timeNum a.civil = timeNum b.civil ∨ timeNum b.civil < timeNum a.civil)
    with hl | hl | hl
  · exact hl
  · have : a = b := eq_of_civil (kind_to ha.2 hb.2) (timeNum_inj ha.1.1 hb.1.1 hl)
    rw [this] at h; omega
  · have := h2 hl; omega

theorem posix_inj {a b : DateTime} (ha : Like s a) (hb : Like s b) (h : a.posix env = b.posix env) : a = b := by
  have h1 := posix_iff hf ha hb
  have h2 := posix_iff hf hb ha
  exact eq_of_civil (kind_to ha.2 hb.2) (timeNum_inj ha.1.1 hb.1.1 (by omega))

theorem byInstant : ByInstant env (Like s) := by
  intro a b ha hb
  refine ⟨?_, ?_⟩
  · rw [lt_iff_before ha.1 hb.1 (kind_to hb.2 ha.2), before_iff ha.1 hb.1, posix_iff hf ha hb]
  · have l1 := lt_iff_before (env := env) ha.1 hb.1 (kind_to hb.2 ha.2)
    have l2 := lt_iff_before (env := env) hb.1 ha.1 (kind_to ha.2 hb.2)
    rw [before_iff ha.1 hb.1] at l1
    rw [before_iff hb.1 ha.1] at l2
    have p1 := posix_iff hf ha hb
    have p2 := posix_iff hf hb ha
    simp only [DateTime.lt, decide_eq_true_eq, DateTime.eq] at *
    have hc := compare_neg env a b
    omega

end

theorem within {env : TzEnv} {s : DateTime} {range : Period} (hs : Like s range.start) (he : Like s range.stop) {t : DateTime} (ht : Like s t) :
    range.isDateWithin env t = true ↔ ¬ Rfc.Before t range.start ∧ Rfc.Before t range.stop := by
  rw [Rule.within_iff, lt_iff_before ht.1 he.1 (kind_to he.2 ht.2), ← lt_iff_before (env := env) ht.1 hs.1 (kind_to hs.2 ht.2)]

/-- The limits that the code makes from UNTIL compare like UNTIL. -/
theorem until_like {r : Rule} {s : DateTime} {off : Int} (h0 : s.floating = true → off = 0)
    (hu : r.useUntil = true → ∃ w, r.untilDate = some w ∧ w.Valid ∧ SameKind w s ∧ ¬ Rfc.Before w s) {env : TzEnv} {u : DateTime}
    (h : Rule.UntilBound r s off u) :
    ∃ w, r.untilDate = some w ∧ Like s w ∧ ¬ Rfc.Before w s ∧ ∀ t : DateTime, t.gt env u = t.gt env w := by
  obtain ⟨h1, w, hw, h2⟩ := h
  obtain ⟨w', hw', hv, hk, hb⟩ := hu h1
  rw [hw] at hw'
  cases hw'
  refine ⟨w, hw, ⟨hv, hk⟩, hb, fun t => ?_⟩
  rcases h2 with ⟨_, rfl⟩ | ⟨h3, h4, h5, h6⟩
  · rfl
  · rw [h0 h3, (C02_zero_offsets w hv).2.2.2.2.2.1] at h6
    have : w.floating = true := by unfold floating; rw [hk.2.1, hk.2.2]; exact h3
    unfold DateTime.gt
    rw [Rule.compare_floating h4 this h5 h6]

theorem until_iff {r : Rule} {s : DateTime} {off : Int} (h0 : s.floating = true → off = 0)
    (hu : r.useUntil = true → ∃ w, r.untilDate = some w ∧ w.Valid ∧ SameKind w s ∧ ¬ Rfc.Before w s) (env : TzEnv) {t : DateTime}
    (ht : Like s t) :
    (∀ u, Rule.UntilBound r s off u → t.gt env u = false) ↔
      ∀ w, r.useUntil = true → r.untilDate = some w → ¬ Rfc.Before w t := by
  have hgt : ∀ w, Like s w → (t.gt env w = true ↔ Rfc.Before w t) := by
    intro w hw
    rw [← lt_iff_before hw.1 ht.1 (kind_to ht.2 hw.2) (env := env)]
    unfold DateTime.gt DateTime.lt
    rw [compare_neg env w t]
    simp
  constructor
  · intro h w h1 hw
    obtain ⟨w', hw', hv, hk, hb⟩ := hu h1
    rw [hw] at hw'
    cases hw'
    have := h w ⟨h1, w, hw, ?_⟩
    · rw [← hgt w ⟨hv, hk⟩, this]; simp
    · by_cases hf : s.floating = true
      · have : w.floating = true := by unfold floating; rw [hk.2.1, hk.2.2]; exact hf
        exact .inr ⟨hf, this, rfl, by rw [h0 hf, (C02_zero_offsets w hv).2.2.2.2.2.1]⟩
      · exact .inl ⟨by simpa using hf, rfl⟩
  · intro h u hb
    obtain ⟨w, hw, hl, _, he⟩ := until_like h0 hu (env := env) hb
    rw [he, ← Bool.not_eq_true, hgt w hl]
    exact h w hb.1 hw

section
variable {env : TzEnv} {r : Rule} {s : DateTime} {range : Period} {off : Int}

theorem asked (hf : Rule.Steady env r.unpicked s) (h0 : s.floating = true → off = 0) (hy : 1902 ≤ s.year) (he : Like s range.stop)
    (hy2 : range.stop.year ≤ 2098) (h : Handled r s) : Rule.Asked env (sort s) r s range off := by
  have hsK : sort s s := sort_like ⟨rfl, rfl, rfl⟩
  have heK := sort_like he.2
  refine ⟨⟨h.tame, sort_kind env s, hsK, by simp, heK, ?_, steady_picked hf, ?_⟩, h.standard, hy, ?_, ?_, ?_⟩
  · intro _
    rcases sort_or s with h | ⟨u, z, h⟩
    · exact .inl h
    · exact .inr (.inl ⟨u, z, h⟩)
  · intro _ t h1 h2
    exact Rule.far_of_year (sort_or s) heK (by omega) t h1 h2
  · intro z hz u hu
    unfold Rule.untilLimit at hu
    split at hu
    · next h1 =>
      obtain ⟨w, hw, hv, hk, _⟩ := h.upto h1
      rw [hw, Option.map_some, Option.some.injEq] at hu
      split at hu
      · next hs =>
        have hv' : ({ w with utc := false, tzid := z } : DateTime).Valid := hv
        rw [h0 hs, (C02_zero_offsets _ hv').2.2.2.2.2.1] at hu
        subst hu
        unfold sort
        split
        · next hd => unfold DateTime.IsDate; exact hk.1.trans hd
        · next hd =>
          unfold InZone
          exact ⟨by show w.dateOnly = false; rw [hk.1]; simpa using hd, .inl (by simp [floating, hz])⟩
      · subst hu; exact sort_like hk
    · cases hu
  · intro h1
    obtain ⟨w, hw, _⟩ := h.upto h1
    simp [hw]
  · intro u hb
    exact (until_iff h0 h.upto env ⟨h.tame.valid, rfl, rfl, rfl⟩).mpr (by
      intro w h1 hw
      obtain ⟨w', hw', _, _, hb⟩ := h.upto h1
      rw [hw] at hw'
      cases hw'
      exact hb) u hb

/-- What the expansion has is of the kind of the start and in the range. -/
theorem member (h : Rule.Asked env (sort s) r s range off) (hh : Handled r s) {fuel : Nat} {L : List DateTime} {lim : Bool}
    (hx : r.expandFresh env fuel s range off = some (.dates L lim)) {t : DateTime} (ht : t ∈ L) :
    Like s t ∧ range.isDateWithin env t = true := by
  have hT := hh.tame
  have hn : r.interval = r.interval.toNat := by have := hT.interval; omega
  by_cases hb : r.Plain
  · have hs := h.sound (z := some (.fixed 0)) (by decide)
    obtain ⟨k, a, b, c, d, _⟩ := ((Rule.C28_exact_partial env (sort s) r fuel s range off _ L lim hb hs h.good.stopK hn
      (fun hc => ⟨(hh.count hc).1, (hh.count hc).2.1⟩) h.untilDate h.untilStart hx).1 t).mp ht
    exact ⟨in_interval (env := env) hT hn ((plain_occurs hT hb hn k t).mpr ⟨a, b, c⟩), d⟩
  · obtain ⟨k, a, b, _⟩ := ((Rule.C54_exact_partial (h.limited (z := none) (by decide)) rfl hn h.untilDate hb hx).1 t).mp ht
    exact ⟨in_interval hT hn a, b⟩

/-- The range in terms of the standard. -/
def In (range : Period) (t : DateTime) : Prop := ¬ Rfc.Before t range.start ∧ Rfc.Before t range.stop

/-- The expansion of a rule: its instances in the range; with COUNT, this is left open for the start. -/
theorem rule_iff (hf : Rule.Steady env r.unpicked s) (h0 : s.floating = true → off = 0) (hy : 1902 ≤ s.year) (hs : Like s range.start)
    (he : Like s range.stop) (hy2 : range.stop.year ≤ 2098) (hh : Handled r s) {fuel : Nat} {L : List DateTime} {lim : Bool}
    (hx : r.expandFresh env fuel s range off = some (.dates L lim)) {t : DateTime} (hc : r.useCount = true → t ≠ s) :
    t ∈ L ↔ Spec.EventDates.Instance r s t ∧ In range t := by
  have ha := asked hf h0 hy he hy2 hh
  have hT := hh.tame
  by_cases hk : Like s t ∧ In range t
  · obtain ⟨hk, hi⟩ := hk
    have hyt : t.year ≤ 2098 := by
      have := (before_iff hk.1 he.1).mp hi.2
      have := year_of_time hk.1 he.1 (by omega)
      omega
    have hw := (within (env := env) hs he hk).mpr hi
    unfold Spec.EventDates.Instance
    by_cases hcc : r.useCount = true
    · obtain ⟨c1, c2, c3⟩ := hh.count hcc
      have hne := hc hcc
      have hb : Rfc.Before s t ↔ ¬ Rfc.Before t s := by
        rw [before_iff hT.valid hk.1, before_iff hk.1 hT.valid]
        constructor
        · intro h; omega
        · intro h
          by_contra hc
          exact hne (eq_of_civil hk.2 (timeNum_inj hk.1.1 hT.valid.1 (by omega)))
      have : t ∈ L ↔ Rfc.OccursAt r s t ∧ Rfc.Before s t ∧ Rfc.FewerBetweenAt r s t (r.count - 1) := by
        by_cases hp : r.bySetPos = []
        · have := Rule.C133_count_partial ha hp c3 ⟨hcc, c1⟩ c2 hx t hyt
          simp only [hne, ne_eq, not_false_eq_true, and_true, hw, true_and] at this
          rw [this, occursAt_iff hp, fewerAt_iff hp]
        · obtain ⟨p1, p2, p3⟩ := hh.picked hp
          obtain ⟨p3, p4⟩ := p3 hcc
          have := Rule.C133_setpos_count_partial ha hp p1 hf hcc c2 p3 p4 hx t hyt (fun h => absurd h p2)
          simp only [hw, true_and] at this
          exact this
      rw [this]
      simp [hb, c2, hcc, hne, hi]
    · have : t ∈ L ↔ Rfc.OccursAt r s t ∧ ¬ Rfc.Before t s ∧ range.isDateWithin env t = true ∧
          ∀ u, Rule.UntilBound r s off u → t.gt env u = false := by
        by_cases hp : r.bySetPos = []
        · rw [occursAt_iff hp]
          exact Rule.C133_rule_partial ha hp (by simpa using hcc) hx t hyt
        · obtain ⟨p1, p2, _⟩ := hh.picked hp
          exact Rule.C133_setpos_partial ha hp p1 hf (by simpa using hcc) hx t hyt (fun h => absurd h p2)
      rw [until_iff h0 hh.upto env hk] at this
      rw [this]
      simp [hw, hi, hcc]
  · constructor
    · intro h
      obtain ⟨a, b⟩ := member ha hh hx h
      exact absurd ⟨a, (within hs he a).mp b⟩ hk
    · rintro ⟨a, b⟩
      exact absurd ⟨occursAt_like a.1, b⟩ hk

end

/-- If a list of rules is expanded, each of them is. -/
theorem rules_expanded {env : TzEnv} {fuel : Nat} {start : DateTime} {range : Period} {off : Int} {max : Option Int} :
    ∀ {rs : List (Rule × Rule.Cache)} {items items' : List DateTime} {lim lim' : Bool} {rs' : List (Rule × Rule.Cache)},
    (∀ rc ∈ rs, rc.2 = {}) →
    RecurrenceSet.expandRules env fuel start range off max rs items lim = some (.dates items' lim' rs') →
    ∀ rc ∈ rs, ∃ D l, rc.1.expandFresh env fuel start range off = some (.dates D l)
  | [], _, _, _, _, _, _, _ => by simp
  | (r, c) :: rs, items, items', lim, lim', rs', hc, h => by
    have hc0 : c = {} := hc (r, c) (by simp)
    subst hc0
    rw [RecurrenceSet.expandRules] at h
    split at h
    · cases h
    · cases h
    · next l lm c' h1 =>
      intro rc hrc
      rcases List.mem_cons.mp hrc with rfl | hrc
      · exact ⟨_, _, RecurrenceSet.expand_new h1⟩
      · split at h
        · cases h
        · cases h
        · next h2 => exact rules_expanded (fun rc h => hc rc (by simp [h])) h2 rc hrc

theorem loaded_expanded {env : TzEnv} {o : SetOrder} {fuel : Nat} {s : RecurLoad.Loaded} {start : DateTime} {range : Period}
    {off : Int} {max : Option Int} {L : List DateTime} {lim : Bool} (hc : ∀ rc ∈ s.rrules ++ s.exrules, rc.2 = {})
    (h : s.expand env o fuel start range off max = some (.dates L lim)) :
    ∀ rc ∈ s.rrules ++ s.exrules, ∃ D l, rc.1.expandFresh env fuel start range off = some (.dates D l) := by
  unfold RecurLoad.Loaded.expand at h
  dsimp only at h
  split at h
  · cases h
  · cases h
  · next h1 =>
    split at h
    · cases h
    · split at h
      · cases h
      · split at h
        · cases h
        · cases h
        · next h2 =>
          intro rc hrc
          rcases List.mem_append.mp hrc with hr | hr
          · exact rules_expanded (fun rc h => hc rc (by simp [h])) h1 rc hr
          · exact rules_expanded (fun rc h => hc rc (by simp [h])) h2 rc hr

theorem leap_of_valid {s : DateTime} (hv : s.Valid) (hy : 1902 ≤ s.year) (hm : s.month = 2) (hd : s.day = 29) :
    GregorianLeap s.year := by
  have h : s.day ≤ monthLen s.year s.month := hv.1.1.2.2.2
  rw [hm, hd] at h
  unfold monthLen at h
  rw [if_pos rfl] at h
  split at h
  · next hl => unfold Leap at hl; unfold GregorianLeap; omega
  · omega

section
variable {env : TzEnv} {r : Rule} {s : DateTime} {range : Period} {off : Int}

theorem rule_ends (h : Rule.Asked env (sort s) r s range off) (c : Rule.Cache) :
    ∃ fuel l lim c', r.expand env fuel c s range off none = some (.dates l lim, c') := by
  have hleap := leap_of_valid h.good.tame.valid h.year
  by_cases hb : r.hasBy = true
  · have hs := h.sound (z := none) (by decide)
    obtain ⟨fuel, a, ha⟩ := Rule.C54_ends_partial env (sort s) r s range off hb { hs with limitK := by simp } h.good.stopK hleap
    exact ruleEnds_of ha c
  · obtain ⟨fuel, L, lim, ha⟩ := Rule.C28_ends_partial env (sort s) r s range off (by simpa using hb)
      (h.sound (z := some (.fixed 0)) (by decide)) h.good.stopK hleap
    exact ruleEnds_of ha c

/-- The expansion ends, with whatever is cached. -/
def Ends (env : TzEnv) (s : DateTime) (range : Period) (off : Int) (r : Rule) : Prop :=
  ∀ c, ∃ fuel l lim c', r.expand env fuel c s range off none = some (.dates l lim, c')

theorem rules_end : ∀ {rs : List (Rule × Rule.Cache)} (items : List DateTime) (lim : Bool),
    (∀ p ∈ rs, Ends env s range off p.1) → ∃ fuel items' lim' rs',
    RecurrenceSet.expandRules env fuel s range off none rs items lim = some (.dates items' lim' rs')
  | [], items, lim, _ => ⟨0, items, lim, [], rfl⟩
  | (r, c) :: rs, items, lim, h => by
    obtain ⟨n, l, lim1, c', h1⟩ := h (r, c) (by simp) c
    obtain ⟨m, items', lim', rs', h2⟩ := rules_end (items ++ l) (lim || lim1) (rs := rs) (fun p hp => h p (by simp [hp]))
    refine ⟨max n m, items', lim', (r, c') :: rs', ?_⟩
    rw [RecurrenceSet.expandRules, Rule.expand_mono (le_max_left n m) h1]
    simp only
    rw [RecurrenceSet.expandRules_mono (le_max_right n m) h2]

theorem loaded_ends (o : SetOrder) {v : RecurLoad.Loaded} (hp : v.rperiods = [] ∧ v.experiods = [])
    (h : ∀ p ∈ v.rrules ++ v.exrules, Ends env s range off p.1) :
    ∃ n, ∀ fuel ≥ n, ∃ L lim, v.expand env o fuel s range off none = some (.dates L lim) := by
  obtain ⟨n, a1, a2, a3, ha⟩ := rules_end (rs := v.rrules) (if range.isDateWithin env s then [s] else [])
    (!range.isDateWithin env s) (fun p hp => h p (by simp [hp]))
  obtain ⟨m, b1, b2, b3, hb⟩ := rules_end (rs := v.exrules) [] false (fun p hp => h p (by simp [hp]))
  refine ⟨max n m, fun fuel hf => ?_⟩
  obtain ⟨⟨c1, c2⟩, hc⟩ := addOne_some (v.rdates.map fun t => (t, range.isDateWithin env t)) (a1, a2)
  unfold RecurLoad.Loaded.expand
  dsimp only
  rw [RecurrenceSet.expandRules_mono (by omega) ha]
  simp only [hc, hp.1, hp.2]
  rw [RecurrenceSet.expandRules_mono (by omega) hb]
  exact ⟨_, _, rfl⟩

end

section
variable {env : TzEnv} {fs : List Fact} {s : DateTime} {range : Period} {off : Int}

theorem one_asked (h : OneKind env fs s range off) :
    ∀ p ∈ (loaded fs).rrules ++ (loaded fs).exrules, Rule.Asked env (sort s) p.1 s range off := by
  intro p hp
  have : Handled p.1 s := by
    simp only [loaded, List.mem_append, List.mem_map] at hp
    rcases hp with ⟨q, hq, rfl⟩ | ⟨q, hq, rfl⟩
    · exact h.rules _ q hq
    · exact h.rules _ q hq
  exact asked (Rule.steady_of_fixed (tame_unpicked this.tame) h.fixed) h.float h.from1902 h.rangeStop h.to2098 this

theorem expand_iff (h : OneKind env fs s range off) {o : SetOrder} {fuel : Nat} {max : Option Int} {L : List DateTime} {lim : Bool}
    (hx : (loaded fs).expand env o fuel s range off max = some (.dates L lim)) :
    L.Nodup ∧ ∀ t, t ∈ L ↔ Spec.EventDates.IsDate fs s t ∧ In range t := by
  have hc : ∀ rc ∈ (loaded fs).rrules ++ (loaded fs).exrules, rc.2 = {} := by
    intro rc h
    simp only [loaded, List.mem_append, List.mem_map] at h
    rcases h with ⟨_, _, rfl⟩ | ⟨_, _, rfl⟩ <;> rfl
  have hall := loaded_expanded hc hx
  obtain ⟨s', hs'⟩ := L123.expand_setOf hx
  have hsL : Like s s := ⟨h.valid, rfl, rfl, rfl⟩
  have hbi := byInstant h.fixed
  have hin : ∀ {t}, Like s t → (RecurrenceSet.InRange env range t ↔ In range t) := by
    intro t ht
    rw [In, ← within h.rangeStart h.rangeStop ht,
      RecurrenceSet.within_iff hbi ⟨h.rangeStart, h.rangeStop⟩ ht]
  -- the rules
  have hrule : ∀ ex, ∀ ps ∈ rulesOf ex fs, ∀ t, ((Recur.rule ps).useCount = true → t ≠ s) →
      (RecurrenceSet.RuleDate env fuel s range off (Recur.rule ps) t ↔
        Spec.EventDates.Instance (Recur.rule ps) s t ∧ In range t) := by
    intro ex ps hps t hne
    obtain ⟨D, l, hD⟩ := hall (Recur.rule ps, {}) (by
      cases ex
      · exact List.mem_append_left _ (List.mem_map.mpr ⟨ps, hps, rfl⟩)
      · exact List.mem_append_right _ (List.mem_map.mpr ⟨ps, hps, rfl⟩))
    rw [← rule_iff (Rule.steady_of_fixed (tame_unpicked (h.rules ex ps hps).tame) h.fixed) h.float h.from1902 h.rangeStart h.rangeStop h.to2098 (h.rules ex ps hps) hD hne]
    constructor
    · rintro ⟨D', l', e, ht⟩
      rw [hD] at e; cases e; exact ht
    · intro ht; exact ⟨D, l, hD, ht⟩
  have hruleK : ∀ ex, ∀ ps ∈ rulesOf ex fs, ∀ t, RecurrenceSet.RuleDate env fuel s range off (Recur.rule ps) t →
      Like s t ∧ In range t := by
    rintro ex ps hps t ⟨D, l, hD, ht⟩
    have hh := h.rules ex ps hps
    obtain ⟨a, b⟩ := member (asked (Rule.steady_of_fixed (tame_unpicked hh.tame) h.fixed) h.float h.from1902 h.rangeStop h.to2098 hh) hh hD ht
    exact ⟨a, (within h.rangeStart h.rangeStop a).mp b⟩
  have hu : RecurrenceSet.Uniform env (Like s) fuel s range off (L123.setOf (loaded fs)) := by
    refine ⟨hbi, hsL, ⟨h.rangeStart, h.rangeStop⟩, ?_, ?_, ?_, ?_, ?_⟩
    · intro rc hrc
      refine ⟨hc rc hrc, fun t ht => ?_⟩
      simp only [L123.setOf, loaded, List.mem_append, List.mem_map] at hrc
      rcases hrc with ⟨q, hq, rfl⟩ | ⟨q, hq, rfl⟩
      · exact (hruleK _ q hq t ht).1
      · exact (hruleK _ q hq t ht).1
    · intro t ht
      rcases List.mem_append.mp ht with ht | ht
      · exact h.dates _ t ht
      · exact h.dates _ t ht
    · simp [L123.setOf]
    · simp [L123.setOf]
    · simp [L123.setOf]
  -- what is included and excluded
  have hinc : ∀ t, RecurrenceSet.Included env fuel s range off (L123.setOf (loaded fs)) t ↔
      (Like s t ∧ In range t) ∧ (t = s ∨ Spec.EventDates.Names fs s false t) := by
    intro t
    unfold RecurrenceSet.Included Spec.EventDates.Names
    simp only [L123.setOf, loaded, List.mem_map, List.not_mem_nil, false_and, exists_false, or_false]
    constructor
    · rintro (⟨rfl, a⟩ | ⟨_, ⟨ps, hps, rfl⟩, a⟩ | ⟨a, b⟩)
      · exact ⟨⟨hsL, (hin hsL).mp a⟩, .inl rfl⟩
      · refine ⟨hruleK _ ps hps t a, ?_⟩
        by_cases hne : t = s
        · exact .inl hne
        · exact .inr (.inr ⟨ps, hps, ((hrule _ ps hps t (fun _ => hne)).mp a).1⟩)
      · have := h.dates _ t a
        exact ⟨⟨this, (hin this).mp b⟩, .inr (.inl a)⟩
    · rintro ⟨⟨hk, hi⟩, a⟩
      by_cases hne : t = s
      · exact .inl ⟨hne, by rw [hne] at hi; exact (hin hsL).mpr hi⟩
      · rcases a with a | a | ⟨ps, hps, a⟩
        · exact absurd a hne
        · exact .inr (.inr ⟨a, (hin hk).mpr hi⟩)
        · exact .inr (.inl ⟨_, ⟨ps, hps, rfl⟩, (hrule _ ps hps t (fun _ => hne)).mpr ⟨a, hi⟩⟩)
  have hexL : ∀ t, RecurrenceSet.Excluded env fuel s range off (L123.setOf (loaded fs)) t → Like s t := by
    intro t ht
    unfold RecurrenceSet.Excluded at ht
    simp only [L123.setOf, loaded, List.mem_map, List.not_mem_nil, false_and, exists_false, or_false] at ht
    rcases ht with ⟨_, ⟨ps, hps, rfl⟩, a⟩ | a
    · exact (hruleK _ ps hps t a).1
    · exact h.dates _ t a
  have hexc : ∀ t, In range t → (RecurrenceSet.Excluded env fuel s range off (L123.setOf (loaded fs)) t ↔
      Spec.EventDates.Names fs s true t) := by
    intro t hi
    unfold RecurrenceSet.Excluded Spec.EventDates.Names
    simp only [L123.setOf, loaded, List.mem_map, List.not_mem_nil, false_and, exists_false, or_false]
    have hr : ∀ ps ∈ rulesOf true fs, (RecurrenceSet.RuleDate env fuel s range off (Recur.rule ps) t ↔
        Spec.EventDates.Instance (Recur.rule ps) s t) := by
      intro ps hps
      rw [hrule true ps hps t (fun hc => by rw [h.exrules ps hps] at hc; cases hc)]
      simp [hi]
    constructor
    · rintro (⟨_, ⟨ps, hps, rfl⟩, a⟩ | a)
      · exact .inr ⟨ps, hps, (hr ps hps).mp a⟩
      · exact .inl a
    · rintro (a | ⟨ps, hps, a⟩)
      · exact .inr a
      · exact .inl ⟨_, ⟨ps, hps, rfl⟩, (hr ps hps).mpr a⟩
  obtain ⟨h1, h2, h3⟩ := RecurrenceSet.C34_exact_partial o max L lim s' hu hs'
  refine ⟨h3.imp fun hne => fun he => hne (by rw [he]), fun t => ?_⟩
  unfold Spec.EventDates.IsDate
  constructor
  · intro ht
    have hi := (hinc t).mp (h2 t ht)
    refine ⟨⟨hi.2, fun hn => ?_⟩, hi.1.2⟩
    exact ((h1 (t.posix env)).mp ⟨t, ht, rfl⟩).2 ⟨t, (hexc t hi.1.2).mpr hn, rfl⟩
  · rintro ⟨⟨a, b⟩, c⟩
    have hk : Like s t := by
      rcases a with rfl | a | ⟨ps, _, a⟩
      · exact hsL
      · exact h.dates _ t a
      · exact occursAt_like a.1
    obtain ⟨t', ht', he⟩ := (h1 (t.posix env)).mpr ⟨⟨t, (hinc t).mpr ⟨⟨hk, c⟩, a⟩, rfl⟩, by
      rintro ⟨t', ht', he⟩
      have := posix_inj h.fixed (hexL t' ht') hk he
      rw [this] at ht'
      exact b ((hexc t c).mp ht')⟩
    have := posix_inj h.fixed ((hinc t').mp (h2 t' ht')).1.1 hk he
    rw [← this]; exact ht'

end

end L134

open L134 in
/-- C134 (partial), from the lines of an event to its dates: an event written as the standards say, with a start and lines for
recurrence, is read; its expansion over a range ends, and then has, each of them once, exactly the dates that RFC 5545 gives: the
start, the RDATEs and the instances of the RRULEs, without the EXDATEs and the instances of the EXRULEs, from the start of the range
on and before its end.

Missing: `OneKind`, that is what the standards allow beyond one kind of date-times with a fixed offset, and beyond rules that are
`Handled` (see `C133_rule_partial`, `C133_setpos_partial`); COUNT in EXRULEs; RDATE with periods (`C123_fails_period`). -/
theorem C134_dates_partial {e : Env} (hT : Program ValueType.ical e.tables) {ls : List ContentLine} {fs : List Fact}
    (h : List.Forall₂ Says ls fs) (ha : ∀ l ∈ ls, l.Allowed false)
    (hr : ∀ l ∈ ls, ∀ p ∈ l.params, ∀ v ∈ p.values, v.Readable)
    (ho : ∀ l ∈ ls, PropText.upper l.name ∉ names → (readLine e l.text).isSome) (hrec : Recurs fs)
    {env : TzEnv} {s : DateTime} {range : Period} {off : Int} (hk : OneKind env fs s range off) (o : SetOrder) :
    ∃ v, readEvent e (ls.map ContentLine.text) = some (s, some v) ∧
      ∃ n, ∀ fuel ≥ n, ∃ L lim, v.expand env o fuel s range off none = some (.dates L lim) ∧ L.Nodup ∧
        ∀ t, t ∈ L ↔ Spec.EventDates.IsDate fs s t ∧ ¬ Rfc.Before t range.start ∧ Rfc.Before t range.stop := by
  obtain ⟨v, h1, h2, _⟩ := C132_read_partial hT h ha hr ho
  have := h2 hrec
  subst this
  rw [hk.start] at h1
  refine ⟨_, h1, ?_⟩
  obtain ⟨n, hn⟩ := loaded_ends o (v := loaded fs) ⟨rfl, rfl⟩ (fun p hp => rule_ends (one_asked hk p hp))
  refine ⟨n, fun fuel hf => ?_⟩
  obtain ⟨L, lim, hL⟩ := hn fuel hf
  obtain ⟨a, b⟩ := expand_iff hk hL
  exact ⟨L, lim, hL, a, b⟩

open L134 in
/-- C134 (partial), with a limit on the number of instances: if the expansion does not raise, it has the same dates.

Missing: as for `C134_dates_partial`. -/
theorem C134_limit_partial {fs : List Fact} {env : TzEnv} {s : DateTime} {range : Period} {off : Int}
    (hk : OneKind env fs s range off) (o : SetOrder) (fuel : Nat) (max : Option Int) (L : List DateTime) (lim : Bool)
    (hx : (loaded fs).expand env o fuel s range off max = some (.dates L lim)) :
    L.Nodup ∧ ∀ t, t ∈ L ↔ Spec.EventDates.IsDate fs s t ∧ ¬ Rfc.Before t range.start ∧ Rfc.Before t range.stop :=
  expand_iff hk hx

/-- How many dates, and if there may be more. -/
def L134.shape : RecurLoad.Result → Nat × Bool
  | .dates L lim => (L.length, lim)
  | _ => (0, true)

theorem L134.event_shape : ((loaded L132.eventFacts).expand .empty RecurrenceSet.inOrder 10 (L132.nine 1)
    (Period.ofEnd ⟨2020, 1, 1, 0, 0, 0, false, true, none⟩ ⟨2020, 2, 1, 0, 0, 0, false, true, none⟩) 0 none).map L134.shape =
      some (2, false) := by decide +kernel

/-- The conditions of C134 are met: an event every second day, three times, without the second one, in UTC, asked for January
2020. -/
example : let range := Period.ofEnd ⟨2020, 1, 1, 0, 0, 0, false, true, none⟩ ⟨2020, 2, 1, 0, 0, 0, false, true, none⟩
    Recurs L132.eventFacts ∧ OneKind .empty L132.eventFacts (L132.nine 1) range 0 ∧
    ∃ L, (loaded L132.eventFacts).expand .empty RecurrenceSet.inOrder 10 (L132.nine 1) range 0 none = some (.dates L false) ∧
      L.length = 2 := by
  intro range
  have hT : Rule.Tame (Recur.rule [.freq .daily, .interval 2, .count 3]) (L132.nine 1) := by constructor <;> decide +kernel
  refine ⟨⟨.rule false [.freq .daily, .interval 2, .count 3], by simp [L132.eventFacts], .inl ⟨_, _, rfl⟩⟩, ?_, ?_⟩
  · refine ⟨rfl, by decide +kernel, .inl rfl, by decide, by decide, ⟨by decide +kernel, rfl, rfl, rfl⟩,
      ⟨by decide +kernel, rfl, rfl, rfl⟩, by decide, ?_, ?_, ?_⟩
    · intro ex t ht
      cases ex
      · simp [datesOf, L132.eventFacts] at ht
      · have : t = L132.nine 3 := by simpa [datesOf, L132.eventFacts] using ht
        subst this
        exact ⟨by decide +kernel, rfl, rfl, rfl⟩
    · intro ex ps hps
      cases ex
      · have : ps = [.freq .daily, .interval 2, .count 3] := by simpa [rulesOf, L132.eventFacts] using hps
        subst this
        refine ⟨hT, by constructor <;> decide, fun h => absurd h (by decide), fun _ => ⟨by decide, rfl, ?_⟩, fun h => absurd rfl h⟩
        refine ⟨by decide, by decide, by decide, by decide, by decide, by decide, ?_, ?_⟩
        · intro _ _ a ha; cases ha
        · intro _ _ a ha; cases ha
      · simp [rulesOf, L132.eventFacts] at hps
    · simp [rulesOf, L132.eventFacts]
  · have h2 := L134.event_shape
    simp only [Option.map_eq_some_iff] at h2
    obtain ⟨a, h3, h4⟩ := h2
    cases a with
    | dates L lim => simp only [L134.shape, Prod.mk.injEq] at h4; exact ⟨L, by rw [h3, h4.2], h4.1⟩
    | tooMany => simp [L134.shape] at h4
    | attributeError => simp [L134.shape] at h4

namespace L134

/-- An event on the last working day of every month, seven times. -/
def lastDays : List Fact :=
  [.start Rule.L133.firstWorkingDay, .rule false [.freq .monthly, .count 7, .byDay [(0, 1), (0, 2), (0, 3), (0, 4), (0, 5)], .num .setPos [-1]]]

theorem lastDays_shape : ((loaded lastDays).expand .empty RecurrenceSet.inOrder 100 Rule.L133.firstWorkingDay Rule.L133.year2024 0
    none).map shape = some (7, false) := by decide +kernel

end L134

/-- The conditions of C134 are met with BYSETPOS: the start, 1 January 2024, and the last working days of the months from January to
June. -/
example : Recurs L134.lastDays ∧ OneKind .empty L134.lastDays Rule.L133.firstWorkingDay Rule.L133.year2024 0 ∧
    ∃ L, (loaded L134.lastDays).expand .empty RecurrenceSet.inOrder 100 Rule.L133.firstWorkingDay Rule.L133.year2024 0 none =
      some (.dates L false) ∧ L.length = 7 := by
  obtain ⟨hA, hD, hS⟩ := Rule.L133.working_asked [-1] 7
  have e : Recur.rule [.freq .monthly, .count 7, .byDay [(0, 1), (0, 2), (0, 3), (0, 4), (0, 5)], .num .setPos [-1]] =
      Rule.L133.working [-1] 7 := by decide +kernel
  refine ⟨⟨.rule false _, by simp only [L134.lastDays, List.mem_cons]; exact .inr (.inl rfl), .inl ⟨_, _, rfl⟩⟩, ?_, ?_⟩
  · refine ⟨rfl, by decide +kernel, .inl rfl, by decide, by decide, ⟨by decide +kernel, rfl, rfl, rfl⟩,
      ⟨by decide +kernel, rfl, rfl, rfl⟩, by decide, ?_, ?_, ?_⟩
    · intro ex t ht
      cases ex <;> simp [datesOf, L134.lastDays] at ht
    · intro ex ps hps
      cases ex
      · have : ps = [.freq .monthly, .count 7, .byDay [(0, 1), (0, 2), (0, 3), (0, 4), (0, 5)], .num .setPos [-1]] := by
          simpa [rulesOf, L134.lastDays] using hps
        subst this
        rw [e]
        refine ⟨hA.good.tame, hA.standard, fun h => absurd h (by decide), fun _ => ⟨by decide, rfl, hD⟩, fun _ => ⟨hD, by decide, ?_⟩⟩
        refine fun _ => ⟨by decide, fun k t p hp q hq _ _ => ?_⟩
        rw [List.mem_singleton.mp hp, List.mem_singleton.mp hq]
      · simp [rulesOf, L134.lastDays] at hps
    · simp [rulesOf, L134.lastDays]
  · have h2 := L134.lastDays_shape
    simp only [Option.map_eq_some_iff] at h2
    obtain ⟨a, h3, h4⟩ := h2
    cases a with
    | dates L lim => simp only [L134.shape, Prod.mk.injEq] at h4; exact ⟨L, by rw [h3, h4.2], h4.1⟩
    | tooMany => simp [L134.shape] at h4
    | attributeError => simp [L134.shape] at h4

end PyCal
