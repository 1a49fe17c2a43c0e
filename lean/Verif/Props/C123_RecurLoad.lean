import Verif.Model.RecurLoad
import Verif.Props.C34_RecurrenceSet

/-!
# C123: a component recurs as its RRULE, RDATE, EXRULE and EXDATE properties say
-/

namespace PyCal
open DateTime (TzEnv)
open RecurLoad

namespace L123
open RecurrenceSet (RuleDate InRange)

/-- One of the properties has this rule. -/
def HasRule (l : List PVal) (r : Rule) : Prop := ∃ c, PVal.recur r c ∈ l

/-- One of the properties has this date. -/
def HasDate (l : List PVal) (t : DateTime) : Prop := ∃ items, PVal.multi items ∈ l ∧ Item.date t ∈ items

/-- One of the properties has this period. -/
def HasPeriod (l : List PVal) (p : Period) : Prop :=
  ∃ items, PVal.multi items ∈ l ∧ Item.period p ∈ items

/-- The component should have this instance, if it is not excluded: its start, the dates of its rules and
its RDATEs, in the range. -/
def Says (env : TzEnv) (fuel : Nat) (start : DateTime) (range : Period) (off : Int) (p : Props)
    (t : DateTime) : Prop :=
  t = start ∧ InRange env range start ∨
  (∃ r, HasRule p.rrule r ∧ RuleDate env fuel start range off r t) ∨
  (HasDate p.rdate t ∧ InRange env range t)

/-- It is excluded. -/
def Bars (env : TzEnv) (fuel : Nat) (start : DateTime) (range : Period) (off : Int) (p : Props)
    (t : DateTime) : Prop :=
  (∃ r, HasRule p.exrule r ∧ RuleDate env fuel start range off r t) ∨ HasDate p.exdate t

/-- Everything in the component compares as an instant, no rule has been used before, and there are no
periods. -/
structure Plain (env : TzEnv) (K : DateTime → Prop) (fuel : Nat) (start : DateTime) (range : Period)
    (off : Int) (p : Props) : Prop where
  byInstant : ByInstant env K
  startK : K start
  rangeK : K range.start ∧ K range.stop
  unused : ∀ r c, PVal.recur r c ∈ p.rrule ++ p.exrule → c = {}
  ruleK : ∀ r, HasRule (p.rrule ++ p.exrule) r → ∀ t, RuleDate env fuel start range off r t → K t
  dateK : ∀ t, HasDate (p.rdate ++ p.exdate) t → K t
  periods : ∀ q, ¬ HasPeriod (p.rdate ++ p.exdate) q

theorem mem_loadRules {l : List PVal} {r : Rule} {c : Rule.Cache} :
    (r, c) ∈ loadRules l ↔ PVal.recur r c ∈ l := by
  induction l with
  | nil => simp [loadRules]
  | cons v l ih =>
    cases v with
    | recur r' c' => simp [loadRules, ih]
    | multi items => simp [loadRules, ih]
    | other => simp [loadRules, ih]

theorem mem_loadItems {l : List Item} :
    (∀ t, t ∈ (loadItems l).1 ↔ Item.date t ∈ l) ∧
    (∀ t, t ∈ (loadItems l).2 ↔ ∃ p, Item.period p ∈ l ∧ p.start = t) := by
  induction l with
  | nil => simp [loadItems]
  | cons v l ih =>
    obtain ⟨h1, h2⟩ := ih
    cases v with
    | date t' => simp [loadItems, h1, h2]
    | period p' =>
      refine ⟨by simp [loadItems, h1], fun t => ?_⟩
      simp only [loadItems, List.mem_cons, h2]
      constructor
      · rintro (rfl | ⟨p, hp, rfl⟩)
        · exact ⟨p', .inl rfl, rfl⟩
        · exact ⟨p, .inr hp, rfl⟩
      · rintro ⟨p, hp | hp, rfl⟩
        · rw [Item.period.inj hp]; exact .inl rfl
        · exact .inr ⟨p, hp, rfl⟩
    | text s => simp [loadItems, h1, h2]
    | other => simp [loadItems, h1, h2]

theorem mem_loadDates {l : List PVal} :
    (∀ t, t ∈ (loadDates l).1 ↔ HasDate l t) ∧
    (∀ t, t ∈ (loadDates l).2 ↔ ∃ p, HasPeriod l p ∧ p.start = t) := by
  induction l with
  | nil => simp [loadDates, HasDate, HasPeriod]
  | cons v l ih =>
    obtain ⟨h1, h2⟩ := ih
    cases v with
    | recur r c => simpa [loadDates, HasDate, HasPeriod] using ⟨h1, h2⟩
    | other => simpa [loadDates, HasDate, HasPeriod] using ⟨h1, h2⟩
    | multi items =>
      refine ⟨fun t => ?_, fun t => ?_⟩
      · rw [loadDates, List.mem_append, h1, mem_loadItems.1]
        unfold HasDate
        constructor
        · rintro (h | ⟨i, hi, h⟩)
          · exact ⟨items, by simp, h⟩
          · exact ⟨i, by simp [hi], h⟩
        · rintro ⟨i, hi, h⟩
          rcases List.mem_cons.mp hi with hi | hi
          · rw [PVal.multi.inj hi] at h; exact .inl h
          · exact .inr ⟨i, hi, h⟩
      · rw [loadDates, List.mem_append, h2, mem_loadItems.2]
        unfold HasPeriod
        constructor
        · rintro (⟨p, h, rfl⟩ | ⟨p, ⟨i, hi, h⟩, rfl⟩)
          · exact ⟨p, ⟨items, by simp, h⟩, rfl⟩
          · exact ⟨p, ⟨i, by simp [hi], h⟩, rfl⟩
        · rintro ⟨p, ⟨i, hi, h⟩, rfl⟩
          rcases List.mem_cons.mp hi with hi | hi
          · rw [PVal.multi.inj hi] at h; exact .inl ⟨p, h, rfl⟩
          · exact .inr ⟨p, ⟨i, hi, h⟩, rfl⟩

/-- A set without periods. -/
def setOf (s : Loaded) : RecurrenceSet where
  rrules := s.rrules
  exrules := s.exrules
  rdates := s.rdates
  exdates := s.exdates

theorem expand_setOf {env : TzEnv} {o : SetOrder} {fuel : Nat} {s : Loaded} {start : DateTime}
    {range : Period} {off : Int} {max : Option Int} {L : List DateTime} {lim : Bool}
    (h : s.expand env o fuel start range off max = some (.dates L lim)) :
    ∃ s', (setOf s).expand env o fuel start range off max = some (.dates L lim s') := by
  unfold Loaded.expand at h
  unfold RecurrenceSet.expand
  dsimp only at h ⊢
  unfold RecurrenceSet.rdateTests RecurrenceSet.exdateList
  simp only [setOf, List.map_nil, List.append_nil, List.filter_nil] at h ⊢
  split at h
  · cases h
  · cases h
  · next items lm rs h1 =>
    rw [h1]
    simp only
    split at h
    · cases h
    · next items' lm' h2 =>
      rw [h2]
      simp only
      split at h
      · cases h
      · split at h
        · cases h
        · cases h
        · next ex lx es h3 =>
          rw [h3]
          simp only
          split at h
          · cases h
          · simp only [Option.some.injEq, Result.dates.injEq] at h
            obtain ⟨rfl, rfl⟩ := h
            exact ⟨_, rfl⟩

theorem hasRule_append {l l' : List PVal} {r : Rule} :
    HasRule (l ++ l') r ↔ HasRule l r ∨ HasRule l' r := by
  unfold HasRule
  simp only [List.mem_append]
  constructor
  · rintro ⟨c, h | h⟩
    · exact .inl ⟨c, h⟩
    · exact .inr ⟨c, h⟩
  · rintro (⟨c, h⟩ | ⟨c, h⟩)
    · exact ⟨c, .inl h⟩
    · exact ⟨c, .inr h⟩

theorem hasDate_append {l l' : List PVal} {t : DateTime} :
    HasDate (l ++ l') t ↔ HasDate l t ∨ HasDate l' t := by
  unfold HasDate
  simp only [List.mem_append]
  constructor
  · rintro ⟨c, h | h, ht⟩
    · exact .inl ⟨c, h, ht⟩
    · exact .inr ⟨c, h, ht⟩
  · rintro (⟨c, h, ht⟩ | ⟨c, h, ht⟩)
    · exact ⟨c, .inl h, ht⟩
    · exact ⟨c, .inr h, ht⟩

theorem reset_form {p : Props} {s : Loaded} (h : reset p = some s) :
    s.rrules = loadRules p.rrule ∧ s.exrules = loadRules p.exrule ∧
    s.rdates = (loadDates p.rdate).1 ∧ s.exdates = (loadDates p.exdate).1 ∧
    s.rperiods = (loadDates p.rdate).2 ∧ s.experiods = (loadDates p.exdate).2 := by
  unfold reset at h
  split at h
  · rw [← Option.some.inj h]
    exact ⟨rfl, rfl, rfl, rfl, rfl, rfl⟩
  · cases h

theorem uniform_of {env : TzEnv} {K : DateTime → Prop} {fuel : Nat} {start : DateTime} {range : Period}
    {off : Int} {p : Props} {s : Loaded} (hp : Plain env K fuel start range off p) (h : reset p = some s) :
    RecurrenceSet.Uniform env K fuel start range off (setOf s) := by
  obtain ⟨e1, e2, e3, e4, -, -⟩ := reset_form h
  have hr : ∀ rc ∈ s.rrules ++ s.exrules, PVal.recur rc.1 rc.2 ∈ p.rrule ++ p.exrule := by
    intro rc hrc
    rw [e1, e2] at hrc
    rcases List.mem_append.mp hrc with hrc | hrc
    · exact List.mem_append_left _ (mem_loadRules.mp hrc)
    · exact List.mem_append_right _ (mem_loadRules.mp hrc)
  refine ⟨hp.byInstant, hp.startK, hp.rangeK, ?_, ?_, ?_, ?_, ?_⟩
  · intro rc hrc
    exact ⟨hp.unused _ _ (hr rc hrc), hp.ruleK _ ⟨_, hr rc hrc⟩⟩
  · intro t ht
    refine hp.dateK t (hasDate_append.mpr ?_)
    rcases List.mem_append.mp ht with ht | ht
    · exact .inl (mem_loadDates.1 t |>.mp (by rw [← e3]; exact ht))
    · exact .inr (mem_loadDates.1 t |>.mp (by rw [← e4]; exact ht))
  · intro q hq; simp [setOf] at hq
  · intro q hq; simp [setOf] at hq
  · intro q hq; simp [setOf] at hq

theorem included_iff {env : TzEnv} {fuel : Nat} {start : DateTime} {range : Period}
    {off : Int} {p : Props} {s : Loaded} (h : reset p = some s) (t : DateTime) :
    (RecurrenceSet.Included env fuel start range off (setOf s) t ↔ Says env fuel start range off p t) ∧
    (RecurrenceSet.Excluded env fuel start range off (setOf s) t ↔ Bars env fuel start range off p t) := by
  obtain ⟨e1, e2, e3, e4, -, -⟩ := reset_form h
  have hrule : ∀ (l : List PVal), (∃ rc ∈ loadRules l, RuleDate env fuel start range off rc.1 t) ↔
      ∃ r, HasRule l r ∧ RuleDate env fuel start range off r t := by
    intro l
    constructor
    · rintro ⟨⟨r, c⟩, hm, hd⟩
      exact ⟨r, ⟨c, mem_loadRules.mp hm⟩, hd⟩
    · rintro ⟨r, ⟨c, hm⟩, hd⟩
      exact ⟨(r, c), mem_loadRules.mpr hm, hd⟩
  unfold RecurrenceSet.Included RecurrenceSet.Excluded Says Bars setOf
  simp only [e1, e2, e3, e4, hrule, mem_loadDates.1, List.not_mem_nil, false_and, exists_false, or_false,
    and_self]

end L123
open L123

/-- C123 (partial): what the expansion of a component gives are exactly the instants that its DTSTART, its
RRULE and its RDATE properties say in the range and its EXRULE and EXDATE properties do not bar, each
once.  Missing: RDATE or EXDATE with periods (`C123_fails_period`), and, as in C34, dates and times that
do not compare as instants and rules that have been expanded before. -/
theorem C123_exact_partial {env : TzEnv} {K : DateTime → Prop} {fuel : Nat} {start : DateTime}
    {range : Period} {off : Int} {p : Props} {s : Loaded} {o : SetOrder} {max : Option Int}
    {L : List DateTime} {lim : Bool} (hp : Plain env K fuel start range off p) (hr : reset p = some s)
    (h : s.expand env o fuel start range off max = some (.dates L lim)) :
    (∀ x, (∃ t ∈ L, t.posix env = x) ↔
      (∃ t, Says env fuel start range off p t ∧ t.posix env = x) ∧
      ¬ ∃ t, Bars env fuel start range off p t ∧ t.posix env = x) ∧
    (∀ t ∈ L, Says env fuel start range off p t) ∧
    L.Pairwise fun a b => a.posix env ≠ b.posix env := by
  obtain ⟨s', h'⟩ := expand_setOf h
  obtain ⟨h1, h2, h3⟩ := RecurrenceSet.C34_exact_partial o max L lim s' (uniform_of hp hr) h'
  have hi := fun t => (included_iff (env := env) (fuel := fuel) (start := start) (range := range)
    (off := off) hr t).1
  have he := fun t => (included_iff (env := env) (fuel := fuel) (start := start) (range := range)
    (off := off) hr t).2
  refine ⟨?_, fun t ht => (hi t).mp (h2 t ht), h3⟩
  intro x
  rw [h1 x]
  simp only [hi, he]

/-- C123: which properties make a component recurring: those with a rule, a date or a period. -/
theorem C123_recurring (p : Props) :
    isRecurring (reset p) = true ↔
      (∃ r, HasRule (p.rrule ++ p.exrule) r) ∨ (∃ t, HasDate (p.rdate ++ p.exdate) t) ∨
      ∃ q, HasPeriod (p.rdate ++ p.exdate) q := by
  have hlen : ∀ {α : Type} (l : List α), l.length ≠ 0 ↔ ∃ x, x ∈ l := by
    intro α l
    cases l with
    | nil => simp
    | cons x l => simp only [List.length_cons, ne_eq, Nat.add_eq_zero_iff, one_ne_zero, and_false,
        not_false_eq_true, true_iff]; exact ⟨x, by simp⟩
  have hrules : ∀ l : List PVal, (loadRules l).length ≠ 0 ↔ ∃ r, HasRule l r := by
    intro l
    rw [hlen]
    constructor
    · rintro ⟨⟨r, c⟩, h⟩; exact ⟨r, c, mem_loadRules.mp h⟩
    · rintro ⟨r, c, h⟩; exact ⟨(r, c), mem_loadRules.mpr h⟩
  have hdates : ∀ l : List PVal, (loadDates l).1.length ≠ 0 ↔ ∃ t, HasDate l t := by
    intro l
    rw [hlen]
    simp only [mem_loadDates.1]
  have hperiods : ∀ l : List PVal, (loadDates l).2.length ≠ 0 ↔ ∃ q, HasPeriod l q := by
    intro l
    rw [hlen]
    simp only [mem_loadDates.2]
    constructor
    · rintro ⟨_, q, h, _⟩; exact ⟨q, h⟩
    · rintro ⟨q, h⟩; exact ⟨_, q, h, rfl⟩
  have hperApp : ∀ (l l' : List PVal), (∃ q, HasPeriod (l ++ l') q) ↔
      (∃ q, HasPeriod l q) ∨ ∃ q, HasPeriod l' q := by
    intro l l'
    unfold HasPeriod
    simp only [List.mem_append]
    constructor
    · rintro ⟨q, i, h | h, hq⟩
      · exact .inl ⟨q, i, h, hq⟩
      · exact .inr ⟨q, i, h, hq⟩
    · rintro (⟨q, i, h, hq⟩ | ⟨q, i, h, hq⟩)
      · exact ⟨q, i, .inl h, hq⟩
      · exact ⟨q, i, .inr h, hq⟩
  unfold reset
  by_cases hc : p.rrule.length ≠ 0 ∨ p.rdate.length ≠ 0 ∨ p.exrule.length ≠ 0 ∨ p.exdate.length ≠ 0
  · rw [if_pos hc]
    simp only [isRecurring, Loaded.hasRecurrence, Bool.or_eq_true, decide_eq_true_eq, hrules, hdates,
      hperiods, hasRule_append, hasDate_append, exists_or, hperApp]
    tauto
  · rw [if_neg hc]
    push Not at hc
    obtain ⟨h1, h2, h3, h4⟩ := hc
    rw [List.length_eq_zero_iff] at h1 h2 h3 h4
    rw [h1, h2, h3, h4]
    simp [isRecurring, HasRule, HasDate, HasPeriod]

/-- C123 fails: if an RDATE or EXDATE property has a period, no expansion of the component, over whatever
range, gives any dates; it is always an exception (or does not end). -/
theorem C123_fails_period (p : Props) (hq : ∃ q, HasPeriod (p.rdate ++ p.exdate) q) :
    ∃ s, reset p = some s ∧ isRecurring (some s) = true ∧
      ∀ (env : TzEnv) (o : SetOrder) (fuel : Nat) (start : DateTime) (range : Period) (off : Int)
        (max : Option Int) (L : List DateTime) (lim : Bool),
        s.expand env o fuel start range off max ≠ some (.dates L lim) := by
  have hrec := (C123_recurring p).mpr (.inr (.inr hq))
  cases hr : reset p with
  | none => rw [hr] at hrec; cases hrec
  | some s =>
    rw [hr] at hrec
    refine ⟨s, rfl, hrec, ?_⟩
    intro env o fuel start range off max L lim h
    obtain ⟨-, -, -, -, e5, e6⟩ := reset_form hr
    obtain ⟨q, items, hm, hq⟩ := hq
    unfold Loaded.expand at h
    dsimp only at h
    rcases List.mem_append.mp hm with hm | hm
    · have hne : q.start ∈ s.rperiods := by
        rw [e5, mem_loadDates.2]
        exact ⟨q, ⟨items, hm, hq⟩, rfl⟩
      split at h
      · cases h
      · cases h
      · split at h
        · cases h
        · split at h
          · cases h
          · next hnil => rw [hnil] at hne; simp at hne
    · have hne : q.start ∈ s.experiods := by
        rw [e6, mem_loadDates.2]
        exact ⟨q, ⟨items, hm, hq⟩, rfl⟩
      split at h
      · cases h
      · cases h
      · split at h
        · cases h
        · split at h
          · cases h
          · split at h
            · cases h
            · cases h
            · split at h
              · cases h
              · next hnil => rw [hnil] at hne; simp at hne

/-- C123 fails: without rules the exception is `AttributeError`, whatever the range. -/
theorem C123_fails_attribute (p : Props) (hq : ∃ q, HasPeriod (p.rdate ++ p.exdate) q) (hn : p.rrule = [])
    (hx : p.exrule = []) :
    ∃ s, reset p = some s ∧
      ∀ (env : TzEnv) (o : SetOrder) (fuel : Nat) (start : DateTime) (range : Period) (off : Int),
        s.expand env o fuel start range off none = some .attributeError := by
  have hrec := (C123_recurring p).mpr (.inr (.inr hq))
  obtain ⟨q, items, hm, hq⟩ := hq
  cases hr : reset p with
  | none => rw [hr] at hrec; cases hrec
  | some s =>
    refine ⟨s, rfl, ?_⟩
    intro env o fuel start range off
    obtain ⟨e1, e2, -, -, e5, e6⟩ := reset_form hr
    have hne : s.rperiods ≠ [] ∨ s.experiods ≠ [] := by
      rcases List.mem_append.mp hm with hm | hm
      · left
        have : q.start ∈ s.rperiods := by
          rw [e5, mem_loadDates.2]
          exact ⟨q, ⟨items, hm, hq⟩, rfl⟩
        exact List.ne_nil_of_mem this
      · right
        have : q.start ∈ s.experiods := by
          rw [e6, mem_loadDates.2]
          exact ⟨q, ⟨items, hm, hq⟩, rfl⟩
        exact List.ne_nil_of_mem this
    have hfold : ∀ (l : List (DateTime × Bool)) (acc : List DateTime × Bool),
        ∃ acc', l.foldlM (RecurrenceSet.addOne none) acc = some acc' := by
      intro l
      induction l with
      | nil => intro acc; exact ⟨acc, rfl⟩
      | cons v l ih =>
        intro acc
        rw [List.foldlM_cons]
        have : ∃ a, RecurrenceSet.addOne none acc v = some a := by
          unfold RecurrenceSet.addOne Rule.exceeds
          split
          · exact ⟨(acc.1 ++ [v.1], acc.2), by simp⟩
          · exact ⟨_, rfl⟩
        obtain ⟨a, ha⟩ := this
        rw [ha]
        exact ih a
    unfold Loaded.expand
    dsimp only
    rw [e1, hn, e2, hx, loadRules, RecurrenceSet.expandRules]
    simp only
    obtain ⟨acc', ha⟩ := hfold (s.rdates.map fun t => (t, range.isDateWithin env t))
      (if range.isDateWithin env start then [start] else [], !range.isDateWithin env start)
    rw [ha]
    obtain ⟨its, lm⟩ := acc'
    simp only
    cases hs : s.rperiods with
    | cons x xs => rfl
    | nil =>
      simp only [RecurrenceSet.expandRules]
      cases hs' : s.experiods with
      | cons x xs => rfl
      | nil => simp [hs, hs'] at hne

/-- A component that meets the hypotheses of `C123_exact_partial`: two dates in
one RDATE, another in a second, and an EXDATE. -/
example : let p : Props := { rdate := [.multi [.date (RecurrenceSet.noon 20), .date (RecurrenceSet.noon 22)],
      .other, .multi [.date (RecurrenceSet.noon 21)]], exdate := [.multi [.date (RecurrenceSet.noon 22)]] }
    Plain .empty DateTime.IsInstant 100 (RecurrenceSet.noon 1) RecurrenceSet.january 0 p ∧
    ((reset p).bind fun s => s.expand .empty RecurrenceSet.inOrder 100 (RecurrenceSet.noon 1)
      RecurrenceSet.january) = some (.dates [RecurrenceSet.noon 1, RecurrenceSet.noon 20,
        RecurrenceSet.noon 21] false) := by
  refine ⟨⟨byInstant_instants (DateTime.regular_of_fixed (fun _ => 0) fun _ _ _ => rfl), ?_, ?_, ?_, ?_,
    ?_, ?_⟩, by decide +kernel⟩
  · unfold DateTime.IsInstant; decide +kernel
  · unfold DateTime.IsInstant; decide +kernel
  · intro r c h; simp at h
  · rintro r ⟨c, h⟩; simp at h
  · rintro t ⟨items, h, ht⟩
    have ht' : t = RecurrenceSet.noon 20 ∨ t = RecurrenceSet.noon 22 ∨ t = RecurrenceSet.noon 21 := by
      simp only [List.cons_append, List.nil_append, List.mem_cons, PVal.multi.injEq, reduceCtorEq,
        List.not_mem_nil, or_false, false_or] at h
      rcases h with rfl | rfl | rfl <;>
        simp only [List.mem_cons, Item.date.injEq, List.not_mem_nil, or_false] at ht <;> tauto
    rcases ht' with rfl | rfl | rfl <;> (unfold DateTime.IsInstant; decide +kernel)
  · rintro q ⟨items, h, hq⟩
    simp only [List.cons_append, List.nil_append, List.mem_cons, PVal.multi.injEq, reduceCtorEq,
      List.not_mem_nil, or_false, false_or] at h
    rcases h with rfl | rfl | rfl <;> simp at hq

end PyCal
