import Verif.Model.RecurrenceSet
import Verif.Props.C17_C18_Compare
import Verif.Props.C30_C55_Complex

/-!
# C34: a recurrence set is what its rules and dates include minus what they exclude
-/

namespace PyCal
open DateTime (TzEnv)

/-! ## Python sets -/

section
variable {env : TzEnv} {K : DateTime → Prop}

/-- Values that compare as instants: `<` and `==` as their posix times. -/
def ByInstant (env : TzEnv) (K : DateTime → Prop) : Prop :=
  ∀ a b, K a → K b → (a.lt env b = true ↔ a.posix env < b.posix env) ∧
    (a.eq env b = true ↔ a.posix env = b.posix env)

/-- All date-times that are neither date-only nor floating do, if no time zone has a gap. -/
theorem byInstant_instants {env : TzEnv} (hr : DateTime.Regular env) :
    ByInstant env DateTime.IsInstant :=
  (DateTime.C17_instants_partial env hr).2

theorem sameKey_iff (h : ByInstant env K) {a b : DateTime} (ha : K a) (hb : K b) :
    sameKey env a b = true ↔ a.posix env = b.posix env := by
  unfold sameKey DateTime.hashKey
  rw [Bool.and_eq_true, decide_eq_true_iff, (h a b ha hb).2, and_self]

theorem setInsert_mem {s : List DateTime} {x y : DateTime} (h : y ∈ setInsert env s x) :
    y ∈ s ∨ y = x := by
  unfold setInsert at h
  split at h
  · exact .inl h
  · simpa using h

theorem foldl_setInsert (h : ByInstant env K) : ∀ (l s : List DateTime),
    (∀ t ∈ s, K t) → (∀ t ∈ l, K t) → s.Pairwise (fun a b => a.posix env ≠ b.posix env) →
    (∀ t ∈ l.foldl (setInsert env) s, t ∈ s ∨ t ∈ l) ∧
    (∀ t, t ∈ s ∨ t ∈ l → ∃ u ∈ l.foldl (setInsert env) s, u.posix env = t.posix env) ∧
    (l.foldl (setInsert env) s).Pairwise (fun a b => a.posix env ≠ b.posix env)
  | [], s, _, _, hp => by
    refine ⟨fun t ht => .inl ht, fun t ht => ⟨t, by simpa using ht, rfl⟩, hp⟩
  | x :: l, s, hs, hl, hp => by
    have hx := hl x (by simp)
    have hs' : ∀ t ∈ setInsert env s x, K t := fun t ht => by
      rcases setInsert_mem ht with ht | rfl
      · exact hs t ht
      · exact hx
    have hany : (s.any fun y => sameKey env y x) = true ↔ ∃ y ∈ s, y.posix env = x.posix env := by
      rw [List.any_eq_true]
      constructor
      · rintro ⟨y, h1, h2⟩; exact ⟨y, h1, (sameKey_iff h (hs y h1) hx).mp h2⟩
      · rintro ⟨y, h1, h2⟩; exact ⟨y, h1, (sameKey_iff h (hs y h1) hx).mpr h2⟩
    have hp' : (setInsert env s x).Pairwise (fun a b => a.posix env ≠ b.posix env) := by
      unfold setInsert
      split
      · exact hp
      · next hn =>
        rw [hany] at hn
        rw [List.pairwise_append]
        refine ⟨hp, by simp, fun a ha b hb => ?_⟩
        simp only [List.mem_singleton] at hb
        subst hb
        exact fun he => hn ⟨a, ha, he⟩
    obtain ⟨h1, h2, h3⟩ := foldl_setInsert h l (setInsert env s x) hs'
      (fun t ht => hl t (by simp [ht])) hp'
    refine ⟨fun t ht => ?_, fun t ht => ?_, h3⟩
    · rcases h1 t ht with ht | ht
      · rcases setInsert_mem ht with ht | rfl
        · exact .inl ht
        · exact .inr (by simp)
      · exact .inr (by simp [ht])
    · have hsub : ∀ t ∈ s, t ∈ setInsert env s x := fun t ht => by
        unfold setInsert
        split
        · exact ht
        · simp [ht]
      rcases ht with ht | ht
      · exact h2 t (.inl (hsub t ht))
      · rcases List.mem_cons.mp ht with rfl | ht
        · by_cases hc : (s.any fun y => sameKey env y t) = true
          · obtain ⟨y, hy, he⟩ := hany.mp hc
            obtain ⟨u, hu, hu'⟩ := h2 y (.inl (hsub y hy))
            exact ⟨u, hu, hu'.trans he⟩
          · refine h2 t (.inl ?_)
            unfold setInsert
            rw [if_neg hc]
            simp
        · exact h2 t (.inr ht)

theorem setOf_spec (h : ByInstant env K) {l : List DateTime} (hl : ∀ t ∈ l, K t) :
    (∀ t ∈ setOf env l, t ∈ l) ∧
    (∀ t ∈ l, ∃ u ∈ setOf env l, u.posix env = t.posix env) ∧
    (setOf env l).Pairwise (fun a b => a.posix env ≠ b.posix env) := by
  obtain ⟨h1, h2, h3⟩ := foldl_setInsert h l [] (by simp) hl List.Pairwise.nil
  exact ⟨fun t ht => by simpa using h1 t ht, fun t ht => h2 t (.inr ht), h3⟩

instance (env : TzEnv) : Std.Total fun a b : DateTime => a.posix env ≤ b.posix env :=
  ⟨fun a b => le_total _ _⟩
instance (env : TzEnv) : IsTrans DateTime fun a b : DateTime => a.posix env ≤ b.posix env :=
  ⟨fun _ _ _ => le_trans⟩

theorem mem_uniqueSorted {o : SetOrder} {l : List DateTime} {t : DateTime} :
    t ∈ uniqueSorted env o l ↔ t ∈ setOf env l := by
  unfold uniqueSorted
  rw [List.mem_insertionSort, (o.perm _).mem_iff]

theorem uniqueSorted_spec (h : ByInstant env K) (o : SetOrder) {l : List DateTime}
    (hl : ∀ t ∈ l, K t) :
    (∀ t ∈ uniqueSorted env o l, t ∈ l) ∧
    (∀ t ∈ l, ∃ u ∈ uniqueSorted env o l, u.posix env = t.posix env) ∧
    (uniqueSorted env o l).Pairwise (fun a b => a.posix env < b.posix env) := by
  obtain ⟨h1, h2, h3⟩ := setOf_spec h hl
  refine ⟨fun t ht => h1 t (mem_uniqueSorted.mp ht), fun t ht => ?_, ?_⟩
  · obtain ⟨u, hu, he⟩ := h2 t ht
    exact ⟨u, mem_uniqueSorted.mpr hu, he⟩
  · have hne : (uniqueSorted env o l).Pairwise (fun a b => a.posix env ≠ b.posix env) := by
      refine List.Perm.pairwise ?_ h3 (fun hab => Ne.symm hab)
      exact ((List.perm_insertionSort _ _).trans (o.perm _)).symm
    have hle : (uniqueSorted env o l).Pairwise (fun a b => a.posix env ≤ b.posix env) :=
      List.pairwise_insertionSort _ _
    exact (hle.and hne).imp fun hab => lt_of_le_of_ne hab.1 hab.2

theorem setDifference_spec (h : ByInstant env K) (o : SetOrder) {a b : List DateTime}
    (ha : ∀ t ∈ a, K t) (hb : ∀ t ∈ b, K t)
    (hd : a.Pairwise fun x y => x.posix env ≠ y.posix env) :
    (∀ t ∈ setDifference env o a b, t ∈ a) ∧
    (∀ x, (∃ t ∈ setDifference env o a b, t.posix env = x) ↔
      (∃ t ∈ a, t.posix env = x) ∧ ¬ ∃ t ∈ b, t.posix env = x) ∧
    (setDifference env o a b).Pairwise (fun x y => x.posix env ≠ y.posix env) := by
  unfold setDifference
  split
  · next hn =>
    refine ⟨fun t ht => ht, fun x => ?_, hd⟩
    rcases hn with rfl | rfl <;> simp
  · obtain ⟨a1, a2, a3⟩ := setOf_spec h ha
    obtain ⟨b1, b2, b3⟩ := setOf_spec h hb
    have hmem : ∀ t, t ∈ (o.run ((setOf env a).filter fun x =>
        !(setOf env b).any fun y => sameKey env y x)) ↔
        t ∈ setOf env a ∧ ¬ ∃ u ∈ b, u.posix env = t.posix env := by
      intro t
      rw [(o.perm _).mem_iff, List.mem_filter]
      refine and_congr_right fun ht => ?_
      rw [Bool.not_eq_true', ← Bool.not_eq_true, not_iff_not, List.any_eq_true]
      constructor
      · rintro ⟨y, hy, hk⟩
        exact ⟨y, b1 y hy, (sameKey_iff h (hb y (b1 y hy)) (ha t (a1 t ht))).mp hk⟩
      · rintro ⟨u, hu, he⟩
        obtain ⟨y, hy, hy'⟩ := b2 u hu
        exact ⟨y, hy, (sameKey_iff h (hb y (b1 y hy)) (ha t (a1 t ht))).mpr (hy'.trans he)⟩
    refine ⟨fun t ht => a1 t ((hmem t).mp ht).1, fun x => ?_, ?_⟩
    · constructor
      · rintro ⟨t, ht, rfl⟩
        obtain ⟨h1, h2⟩ := (hmem t).mp ht
        exact ⟨⟨t, a1 t h1, rfl⟩, h2⟩
      · rintro ⟨⟨t, ht, rfl⟩, hn⟩
        obtain ⟨u, hu, he⟩ := a2 t ht
        exact ⟨u, (hmem u).mpr ⟨hu, by rwa [he]⟩, he⟩
    · exact List.Perm.pairwise (o.perm _).symm (a3.filter _) (fun hab => Ne.symm hab)

end

/-! ## The specification -/

namespace RecurrenceSet

variable {env : TzEnv} {K : DateTime → Prop}

/-- `t` is one of the dates the rule has in the range, see C28 and C54 for what these are. -/
def RuleDate (env : TzEnv) (fuel : Nat) (start : DateTime) (range : Period) (off : Int) (r : Rule)
    (t : DateTime) : Prop :=
  ∃ D lim, r.expandFresh env fuel start range off = some (.dates D lim) ∧ t ∈ D

/-- The instant is in the range: at or after its start, before its end. -/
def InRange (env : TzEnv) (range : Period) (t : DateTime) : Prop :=
  range.start.posix env ≤ t.posix env ∧ t.posix env < range.stop.posix env

/-- Included: the start, the dates of the rules and the RDATEs in the range, and the starts of the
periods that have some time in common with the range. -/
def Included (env : TzEnv) (fuel : Nat) (start : DateTime) (range : Period) (off : Int)
    (s : RecurrenceSet) (t : DateTime) : Prop :=
  t = start ∧ InRange env range start ∨
  (∃ rc ∈ s.rrules, RuleDate env fuel start range off rc.1 t) ∨
  t ∈ s.rdates ∧ InRange env range t ∨
  ∃ p ∈ s.rperiods, t = p.start ∧ p.start.posix env < range.stop.posix env ∧
    range.start.posix env < p.stop.posix env

/-- Excluded: the dates of the exclusion rules, the EXDATEs and the starts of the excluded
periods. -/
def Excluded (env : TzEnv) (fuel : Nat) (start : DateTime) (range : Period) (off : Int)
    (s : RecurrenceSet) (t : DateTime) : Prop :=
  (∃ rc ∈ s.exrules, RuleDate env fuel start range off rc.1 t) ∨ t ∈ s.exdates ∨
  ∃ p ∈ s.experiods, t = p.start

/-- Everything in the set compares as an instant, no rule has been used before. -/
structure Uniform (env : TzEnv) (K : DateTime → Prop) (fuel : Nat) (start : DateTime)
    (range : Period) (off : Int) (s : RecurrenceSet) : Prop where
  byInstant : ByInstant env K
  startK : K start
  rangeK : K range.start ∧ K range.stop
  ruleK : ∀ rc ∈ s.rrules ++ s.exrules, rc.2 = {} ∧
    ∀ t, RuleDate env fuel start range off rc.1 t → K t
  dateK : ∀ t ∈ s.rdates ++ s.exdates, K t
  periodK : ∀ p ∈ s.rperiods ++ s.experiods, K p.start ∧ K p.stop
  /-- a period that overlaps the range starts in it -/
  rperiods : ∀ p ∈ s.rperiods, p.start.posix env < range.stop.posix env →
    range.start.posix env < p.stop.posix env → InRange env range p.start
  /-- periods do not end where they start -/
  experiods : ∀ p ∈ s.experiods, p.start.posix env < p.stop.posix env

/-! ## The loops -/

theorem expand_new {r : Rule} {fuel : Nat} {start : DateTime} {range : Period} {off : Int}
    {max : Option Int} {D : List DateTime} {lim : Bool} {c : Rule.Cache}
    (h : r.expand env fuel {} start range off max = some (.dates D lim, c)) :
    r.expandFresh env fuel start range off = some (.dates D lim) := by
  unfold Rule.expandFresh Rule.expand at *
  simp only [Bool.false_and, Bool.false_eq_true, if_false, Bool.not_false, Bool.true_or, if_true]
    at h ⊢
  have key : ∀ items full, r.expandRaw env fuel start.normalise range off max =
        some (.done items full) →
      r.expandRaw env fuel start.normalise range off none = some (.done items full) := by
    intro items full he
    unfold Rule.expandRaw at he ⊢
    split at he
    · next hb => rw [if_pos hb]; exact Rule.simpleLoop_max _ _ _ _ he
    · next hb =>
      rw [if_neg hb]
      unfold Rule.complexExpand at he ⊢
      split at he
      · next h0 => rw [if_pos h0]; exact he
      · next h0 => rw [if_neg h0]; exact Rule.complexLoop_max _ _ _ _ he
  revert h key
  rcases r.expandRaw env fuel start.normalise range off max with _ | (_ | _)
  · simp
  · intro h key
    rw [key _ _ rfl]
    simp only [Option.some.injEq, Prod.mk.injEq] at h
    simp only [Option.map_some, h.1]
  · simp

theorem expandRules_spec {fuel : Nat} {start : DateTime} {range : Period} {off : Int}
    {max : Option Int} : ∀ {rs : List (Rule × Rule.Cache)} {items items' : List DateTime}
    {lim lim' : Bool} {rs' : List (Rule × Rule.Cache)}, (∀ rc ∈ rs, rc.2 = {}) →
    expandRules env fuel start range off max rs items lim = some (.dates items' lim' rs') →
    (∀ t, t ∈ items' ↔ t ∈ items ∨ ∃ rc ∈ rs, RuleDate env fuel start range off rc.1 t) ∧
    (lim' = true ↔ lim = true ∨
      ∃ rc ∈ rs, ∃ D, rc.1.expandFresh env fuel start range off = some (.dates D true))
  | [], items, items', lim, lim', rs', _, h => by
    simp only [expandRules, Option.some.injEq, RulesResult.dates.injEq] at h
    obtain ⟨rfl, rfl, _⟩ := h
    simp
  | (r, c) :: rs, items, items', lim, lim', rs', hc, h => by
    have hc0 : c = {} := hc (r, c) (by simp)
    subst hc0
    rw [expandRules] at h
    split at h
    · simp at h
    · simp at h
    · next ds l c' hr =>
      have hf := expand_new hr
      split at h
      · simp at h
      · simp at h
      · next its ls rs1 he =>
        simp only [Option.some.injEq, RulesResult.dates.injEq] at h
        obtain ⟨rfl, rfl, _⟩ := h
        obtain ⟨h1, h2⟩ := expandRules_spec (fun rc hrc => hc rc (by simp [hrc])) he
        have hd : ∀ t, RuleDate env fuel start range off r t ↔ t ∈ ds := by
          intro t
          unfold RuleDate
          rw [hf]
          constructor
          · rintro ⟨D, lim, he, ht⟩
            simp only [Option.some.injEq, Rule.Answer.dates.injEq] at he
            rwa [he.1]
          · exact fun ht => ⟨ds, l, rfl, ht⟩
        constructor
        · intro t
          rw [h1, List.mem_append, List.exists_mem_cons_iff, hd, or_assoc]
        · rw [h2, List.exists_mem_cons_iff, Bool.or_eq_true, or_assoc]
          simp only [hf, Option.some.injEq, Rule.Answer.dates.injEq]
          refine or_congr Iff.rfl (or_congr ?_ Iff.rfl)
          exact ⟨fun hl => ⟨ds, rfl, hl⟩, fun ⟨_, _, hl⟩ => hl⟩

theorem foldlM_addOne {max : Option Int} : ∀ {l : List (DateTime × Bool)}
    {items items' : List DateTime} {lim lim' : Bool},
    l.foldlM (addOne max) (items, lim) = some (items', lim') →
    (∀ t, t ∈ items' ↔ t ∈ items ∨ (t, true) ∈ l) ∧
    (lim' = true ↔ lim = true ∨ ∃ v ∈ l, v.2 = false)
  | [], items, items', lim, lim', h => by
    simp at h
    simp [h]
  | (x, b) :: l, items, items', lim, lim', h => by
    rw [List.foldlM_cons] at h
    cases hx : addOne max (items, lim) (x, b) with
    | none => rw [hx] at h; simp at h
    | some acc =>
      rw [hx] at h
      obtain ⟨i1, l1⟩ := acc
      obtain ⟨h1, h2⟩ := foldlM_addOne (l := l) h
      unfold addOne at hx
      cases b with
      | true =>
        simp only [if_true] at hx
        split at hx
        · simp at hx
        · simp only [Option.some.injEq, Prod.mk.injEq] at hx
          obtain ⟨rfl, rfl⟩ := hx
          refine ⟨fun t => ?_, ?_⟩
          · rw [h1]
            simp [or_assoc]
          · rw [h2]
            simp
      | false =>
        simp only [Bool.false_eq_true, if_false, Option.some.injEq, Prod.mk.injEq] at hx
        obtain ⟨rfl, rfl⟩ := hx
        refine ⟨fun t => ?_, ?_⟩
        · rw [h1]
          simp
        · rw [h2]
          simp

/-! ## C34 -/

section
variable {fuel : Nat} {start : DateTime} {range : Period} {off : Int} {s : RecurrenceSet}

theorem within_iff (h : ByInstant env K) (hr : K range.start ∧ K range.stop) {t : DateTime}
    (ht : K t) : range.isDateWithin env t = true ↔ InRange env range t := by
  unfold Period.isDateWithin InRange
  rw [Bool.and_eq_true, (h t _ ht hr.2).1]
  refine and_congr_left fun _ => ?_
  have h1 := (h t _ ht hr.1).1
  have h2 := (h t _ ht hr.1).2
  unfold DateTime.ge
  unfold DateTime.lt at h1
  rw [decide_eq_true_iff] at h1 ⊢
  omega

theorem overlap_iff (h : ByInstant env K) (hr : K range.start ∧ K range.stop) {p : Period}
    (hp : K p.start ∧ K p.stop) : range.isOverlap env p = true ↔
      p.start.posix env < range.stop.posix env ∧ range.start.posix env < p.stop.posix env := by
  have h1 := (h _ _ hr.1 hp.2).1
  have h2 := (h _ _ hr.2 hp.1).1
  have h3 := (h _ _ hr.2 hp.1).2
  unfold DateTime.lt at h1 h2
  unfold DateTime.eq at h3
  unfold Period.isOverlap DateTime.ge DateTime.le
  rw [Bool.not_eq_true', Bool.or_eq_false_iff, decide_eq_false_iff_not, decide_eq_false_iff_not]
  rw [decide_eq_true_iff] at h1 h2 h3
  omega

/-- The lists the set is made of. -/
theorem expand_form {o : SetOrder} {max : Option Int} {L : List DateTime} {lim : Bool}
    {s' : RecurrenceSet} (hu : Uniform env K fuel start range off s)
    (h : s.expand env o fuel start range off max = some (.dates L lim s')) :
    ∃ inc ex, L = setDifference env o (uniqueSorted env o inc) (uniqueSorted env o ex) ∧
      (∀ t, t ∈ inc ↔ Included env fuel start range off s t) ∧ (∀ t ∈ inc, K t) ∧
      (∀ t ∈ ex, Excluded env fuel start range off s t) ∧
      (∀ t, Excluded env fuel start range off s t → InRange env range t → t ∈ ex) ∧
      (∀ t ∈ ex, K t) ∧
      (lim = true ↔ ¬ InRange env range start ∨
        (∃ rc ∈ s.rrules, ∃ D, rc.1.expandFresh env fuel start range off = some (.dates D true)) ∨
        (∃ t ∈ s.rdates, ¬ InRange env range t) ∨
        ∃ p ∈ s.rperiods, ¬ (p.start.posix env < range.stop.posix env ∧
          range.start.posix env < p.stop.posix env)) := by
  have hR := hu.rangeK
  have hB := hu.byInstant
  have hrule : ∀ rc ∈ s.rrules, rc.2 = {} := fun rc hrc => (hu.ruleK rc (by simp [hrc])).1
  have hex : ∀ rc ∈ s.exrules, rc.2 = {} := fun rc hrc => (hu.ruleK rc (by simp [hrc])).1
  have hdw : ∀ t ∈ s.rdates, range.isDateWithin env t = true ↔ InRange env range t :=
    fun t ht => within_iff hB hR (hu.dateK t (by simp [ht]))
  have hew : ∀ t ∈ s.exdates, range.isDateWithin env t = true ↔ InRange env range t :=
    fun t ht => within_iff hB hR (hu.dateK t (by simp [ht]))
  have hpo := fun p (hp : p ∈ s.rperiods) => overlap_iff hB hR (hu.periodK p (by simp [hp]))
  have heo := fun p (hp : p ∈ s.experiods) => overlap_iff hB hR (hu.periodK p (by simp [hp]))
  have hsw := within_iff hB hR hu.startK
  unfold expand at h
  simp only at h
  split at h
  · simp at h
  · simp at h
  · next its lm rs h1 =>
    obtain ⟨a1, a2⟩ := expandRules_spec hrule h1
    split at h
    · simp at h
    · next its2 lm2 h2 =>
      obtain ⟨b1, b2⟩ := foldlM_addOne h2
      split at h
      · simp at h
      · simp at h
      · next ex lx es h3 =>
        obtain ⟨c1, _⟩ := expandRules_spec hex h3
        simp only [Option.some.injEq, Result.dates.injEq] at h
        obtain ⟨rfl, rfl, _⟩ := h
        have hinc : ∀ t, t ∈ its2 ↔ Included env fuel start range off s t := by
          intro t
          rw [b1, a1]
          unfold Included rdateTests
          rw [List.mem_append, or_assoc]
          refine or_congr ?_ (or_congr Iff.rfl (or_congr ?_ ?_))
          · split
            · next hw => simp [← hsw, hw]
            · next hw => simp [← hsw, hw]
          · simp only [List.mem_map, Prod.mk.injEq]
            constructor
            · rintro ⟨t', ht', rfl, hw⟩; exact ⟨ht', (hdw t' ht').mp hw⟩
            · rintro ⟨ht, hw⟩; exact ⟨t, ht, rfl, (hdw t ht).mpr hw⟩
          · simp only [List.mem_map, Prod.mk.injEq]
            constructor
            · rintro ⟨p, hp, rfl, hw⟩; exact ⟨p, hp, rfl, (hpo p hp).mp hw⟩
            · rintro ⟨p, hp, rfl, hw⟩; exact ⟨p, hp, rfl, (hpo p hp).mpr hw⟩
        have hexm : ∀ t, t ∈ ex ++ exdateList env range s ↔
            (∃ rc ∈ s.exrules, RuleDate env fuel start range off rc.1 t) ∨
            (t ∈ s.exdates ∧ InRange env range t) ∨
            ∃ p ∈ s.experiods, range.isOverlap env p = true ∧ t = p.start := by
          intro t
          unfold exdateList
          rw [List.mem_append, c1, List.mem_append, List.mem_filter, List.mem_map]
          simp only [List.not_mem_nil, false_or, List.mem_filter]
          refine or_congr Iff.rfl (or_congr (and_congr_right fun ht => hew t ht) ?_)
          constructor
          · rintro ⟨p, ⟨hp, hw⟩, rfl⟩; exact ⟨p, hp, hw, rfl⟩
          · rintro ⟨p, hp, hw, rfl⟩; exact ⟨p, ⟨hp, hw⟩, rfl⟩
        refine ⟨its2, ex ++ exdateList env range s, rfl, hinc, ?_, ?_, ?_, ?_, ?_⟩
        · intro t ht
          rcases (hinc t).mp ht with ⟨rfl, _⟩ | ⟨rc, hrc, hd⟩ | ⟨hd, _⟩ | ⟨p, hp, rfl, _⟩
          · exact hu.startK
          · exact (hu.ruleK rc (by simp [hrc])).2 t hd
          · exact hu.dateK t (by simp [hd])
          · exact (hu.periodK p (by simp [hp])).1
        · intro t ht
          rcases (hexm t).mp ht with h | ⟨h, _⟩ | ⟨p, hp, _, rfl⟩
          · exact .inl h
          · exact .inr (.inl h)
          · exact .inr (.inr ⟨p, hp, rfl⟩)
        · intro t ht hin
          refine (hexm t).mpr ?_
          rcases ht with h | h | ⟨p, hp, rfl⟩
          · exact .inl h
          · exact .inr (.inl ⟨h, hin⟩)
          · refine .inr (.inr ⟨p, hp, (heo p hp).mpr ⟨hin.2, ?_⟩, rfl⟩)
            exact lt_of_le_of_lt hin.1 (hu.experiods p hp)
        · intro t ht
          rcases (hexm t).mp ht with ⟨rc, hrc, hd⟩ | ⟨h, _⟩ | ⟨p, hp, _, rfl⟩
          · exact (hu.ruleK rc (by simp [hrc])).2 t hd
          · exact hu.dateK t (by simp [h])
          · exact (hu.periodK p (by simp [hp])).1
        · rw [b2, a2, or_assoc]
          refine or_congr ?_ (or_congr Iff.rfl ?_)
          · rw [← hsw]; simp
          · unfold rdateTests
            simp only [List.mem_append, or_and_right, exists_or]
            refine or_congr ?_ ?_
            · simp only [List.mem_map, Prod.exists]
              constructor
              · rintro ⟨_, _, ⟨t, ht, h⟩, hw⟩
                simp only [Prod.mk.injEq] at h
                exact ⟨t, ht, by rw [← hdw t ht, h.2, hw]; simp⟩
              · rintro ⟨t, ht, hw⟩
                exact ⟨_, _, ⟨t, ht, rfl⟩, by rw [← Bool.not_eq_true, hdw t ht]; exact hw⟩
            · simp only [List.mem_map, Prod.exists]
              constructor
              · rintro ⟨_, _, ⟨p, hp, h⟩, hw⟩
                simp only [Prod.mk.injEq] at h
                exact ⟨p, hp, by rw [← hpo p hp, h.2, hw]; simp⟩
              · rintro ⟨p, hp, hw⟩
                exact ⟨_, _, ⟨p, hp, rfl⟩, by rw [← Bool.not_eq_true, hpo p hp]; exact hw⟩

theorem ruleDate_within {r : Rule} {t : DateTime} (h : RuleDate env fuel start range off r t) :
    range.isDateWithin env t = true := by
  obtain ⟨D, lim, h, ht⟩ := h
  unfold Rule.expandFresh Rule.expand at h
  simp only [Bool.false_and, Bool.false_eq_true, if_false, Bool.not_false, Bool.true_or, if_true]
    at h
  revert h
  rcases r.expandRaw env fuel start.normalise range off none with _ | (_ | _)
  · simp
  · simp only [Option.map_some, Rule.answer, Option.some.injEq, Rule.Answer.dates.injEq]
    rintro ⟨rfl, _⟩
    exact (List.mem_filter.mp ht).2
  · simp

theorem included_inRange (hu : Uniform env K fuel start range off s) {t : DateTime}
    (h : Included env fuel start range off s t) : InRange env range t := by
  rcases h with ⟨rfl, h⟩ | ⟨rc, hrc, h⟩ | ⟨_, h⟩ | ⟨p, hp, rfl, h⟩
  · exact h
  · exact (within_iff hu.byInstant hu.rangeK ((hu.ruleK rc (by simp [hrc])).2 t h)).mp
      (ruleDate_within h)
  · exact h
  · exact hu.rperiods p hp h.1 h.2

/-- C34 (partial): the result has exactly the instants that are included and not excluded, each of
them once, and all its elements are included dates.  The condition (`Uniform`): everything compares
as an instant, and periods that overlap the range start in it.  The iteration order of the sets
(`o`) does not matter, nor does `maxInstances`, if nothing is raised.

Missing: dates among date-times, `C34_fails_dates`, and periods that began before the range, `C34_fails_period`. -/
theorem C34_exact_partial (o : SetOrder) (max : Option Int) (L : List DateTime) (lim : Bool)
    (s' : RecurrenceSet) (hu : Uniform env K fuel start range off s)
    (h : s.expand env o fuel start range off max = some (.dates L lim s')) :
    (∀ x, (∃ t ∈ L, t.posix env = x) ↔
      (∃ t, Included env fuel start range off s t ∧ t.posix env = x) ∧
      ¬ ∃ t, Excluded env fuel start range off s t ∧ t.posix env = x) ∧
    (∀ t ∈ L, Included env fuel start range off s t) ∧
    L.Pairwise fun a b => a.posix env ≠ b.posix env := by
  obtain ⟨inc, ex, rfl, h1, h2, h3, h4, h5, _⟩ := expand_form hu h
  obtain ⟨a1, a2, a3⟩ := uniqueSorted_spec hu.byInstant o h2
  obtain ⟨b1, b2, _⟩ := uniqueSorted_spec hu.byInstant o h5
  obtain ⟨d1, d2, d3⟩ := setDifference_spec hu.byInstant o (fun t ht => h2 t (a1 t ht))
    (fun t ht => h5 t (b1 t ht)) (a3.imp fun hab => ne_of_lt hab)
  refine ⟨fun x => ?_, fun t ht => (h1 t).mp (a1 t (d1 t ht)), d3⟩
  rw [d2]
  constructor
  · rintro ⟨⟨t, ht, rfl⟩, hn⟩
    have hi := (h1 t).mp (a1 t ht)
    refine ⟨⟨t, hi, rfl⟩, ?_⟩
    rintro ⟨u, hu', he⟩
    have hin := included_inRange hu hi
    obtain ⟨v, hv, hv'⟩ := b2 u (h4 u hu' (by unfold InRange at *; rwa [he]))
    exact hn ⟨v, hv, hv'.trans he⟩
  · rintro ⟨⟨t, ht, rfl⟩, hn⟩
    obtain ⟨v, hv, hv'⟩ := a2 t ((h1 t).mpr ht)
    refine ⟨⟨v, hv, hv'⟩, ?_⟩
    rintro ⟨u, hu', he⟩
    exact hn ⟨u, h3 u (b1 u hu'), he⟩

/-- C34, the returned flag: it tells if something was left out because of the range.

Missing: as for `C34_exact_partial`. -/
theorem C34_limited_partial (o : SetOrder) (max : Option Int) (L : List DateTime) (lim : Bool)
    (s' : RecurrenceSet) (hu : Uniform env K fuel start range off s)
    (h : s.expand env o fuel start range off max = some (.dates L lim s')) :
    lim = true ↔ ¬ InRange env range start ∨
      (∃ rc ∈ s.rrules, ∃ D, rc.1.expandFresh env fuel start range off = some (.dates D true)) ∨
      (∃ t ∈ s.rdates, ¬ InRange env range t) ∨
      ∃ p ∈ s.rperiods, ¬ (p.start.posix env < range.stop.posix env ∧
        range.start.posix env < p.stop.posix env) := by
  obtain ⟨inc, ex, _, _, _, _, _, _, h⟩ := expand_form hu h
  exact h

/-- C34, order: without exclusions the result is in ascending order.

Missing: the order with exclusions, `C34_fails_order`. -/
theorem C34_ascending_partial (o : SetOrder) (max : Option Int) (L : List DateTime) (lim : Bool)
    (s' : RecurrenceSet) (hu : Uniform env K fuel start range off s)
    (h : s.expand env o fuel start range off max = some (.dates L lim s'))
    (he : s.exrules = [] ∧ s.exdates = [] ∧ s.experiods = []) :
    L.Pairwise fun a b => a.posix env < b.posix env := by
  obtain ⟨inc, ex, rfl, h1, h2, h3, _, _, _⟩ := expand_form hu h
  obtain ⟨_, _, a3⟩ := uniqueSorted_spec hu.byInstant o h2
  have hex : ex = [] := by
    rw [List.eq_nil_iff_forall_not_mem]
    intro t ht
    rcases h3 t ht with ⟨rc, hrc, _⟩ | h | ⟨p, hp, _⟩
    · simp [he.1] at hrc
    · simp [he.2.1] at h
    · simp [he.2.2] at hp
  have : uniqueSorted env o [] = [] := by
    rw [List.eq_nil_iff_forall_not_mem]
    intro t ht
    rw [mem_uniqueSorted] at ht
    simp [setOf] at ht
  unfold setDifference
  rw [hex, this, if_pos (Or.inr rfl)]
  exact a3

end

/-- The iteration order of the sets: as inserted. -/
def inOrder : SetOrder := ⟨id, fun l => List.Perm.refl l⟩

/-- The iteration order of the sets: backwards. -/
def backwards : SetOrder := ⟨List.reverse, fun l => List.reverse_perm l⟩

/-- A January day at noon UTC. -/
def noon (d : Int) : DateTime := ⟨2020, 1, d, 12, 0, 0, false, true, none⟩

/-- January 2020. -/
def january : Period :=
  .ofEnd ⟨2020, 1, 1, 0, 0, 0, false, true, none⟩ ⟨2020, 2, 1, 0, 0, 0, false, true, none⟩

/-- The dates of an expansion. -/
def Result.list : Result → List DateTime
  | .dates l _ _ => l
  | .tooMany _ => []

/-- C34 fails: with an exclusion the result has no order (any order in which Python may iterate
over a set). -/
theorem C34_fails_order : ∃ (o : SetOrder) (s : RecurrenceSet),
    (s.expand .empty o 100 (noon 1) january).map Result.list = some [noon 3, noon 2, noon 1] ∧
    s.rdates = [noon 2, noon 3, noon 4] ∧ s.exdates = [noon 4] :=
  ⟨backwards, { rdates := [noon 2, noon 3, noon 4], exdates := [noon 4] }, by decide +kernel⟩

/-- C34 fails: an EXDATE that is a date equals the date-time of that day but does not exclude it,
as its hash differs. -/
theorem C34_fails_dates : ∃ (s : RecurrenceSet) (x : DateTime), s.exdates = [x] ∧
    x.eq .empty (noon 2) = true ∧
    (s.expand .empty inOrder 100 (noon 1) january).map Result.list = some [noon 1, noon 2] :=
  ⟨{ rdates := [noon 2], exdates := [DateTime.ofDate 2020 1 2] }, DateTime.ofDate 2020 1 2,
    by decide +kernel⟩

/-- C34 fails: the start of an RDATE period that began before the range is returned although there
is an EXDATE for it. -/
theorem C34_fails_period : ∃ s : RecurrenceSet, s.exdates = [noon 1] ∧
    s.rperiods = [.ofEnd (noon 1) (noon 3)] ∧
    (s.expand .empty inOrder 100 (noon 5) (.ofEnd (noon 2) (noon 10))).map Result.list =
      some [noon 1, noon 5] :=
  ⟨{ rperiods := [.ofEnd (noon 1) (noon 3)], exdates := [noon 1] }, rfl, rfl,
    by decide +kernel⟩

/-- The condition is met: every day from 1 to 5 January and on 20 January, but not on the 3rd. -/
example : Uniform .empty DateTime.IsInstant 100 (noon 1) january 0
    { rrules := [({ freq := .daily, useCount := true, count := 5 }, {})], rdates := [noon 20],
      exdates := [noon 3] } ∧
    (expand .empty backwards 100
      { rrules := [({ freq := .daily, useCount := true, count := 5 }, {})], rdates := [noon 20],
        exdates := [noon 3] } (noon 1) january).map Result.list =
      some [noon 20, noon 5, noon 4, noon 2, noon 1] := by
  refine ⟨⟨byInstant_instants (DateTime.regular_of_fixed (fun _ => 0) fun _ _ _ => rfl), ?_, ?_, ?_, ?_, by simp, by simp, by simp⟩, ?_⟩
  · unfold DateTime.IsInstant; decide +kernel
  · unfold DateTime.IsInstant; decide +kernel
  · intro rc hrc
    simp only [List.append_nil, List.mem_singleton] at hrc
    subst hrc
    refine ⟨rfl, fun t ht => ?_⟩
    obtain ⟨D, lim, h, ht⟩ := ht
    have : Rule.expandFresh .empty { freq := .daily, useCount := true, count := 5 } 100 (noon 1)
        january 0 = some (.dates [noon 1, noon 2, noon 3, noon 4, noon 5] false) := by
      decide +kernel
    rw [this] at h
    simp only [Option.some.injEq, Rule.Answer.dates.injEq] at h
    obtain ⟨rfl, _⟩ := h
    revert t
    unfold DateTime.IsInstant
    decide +kernel
  · unfold DateTime.IsInstant; decide +kernel
  · decide +kernel

/-! ## C57: `maxInstances` of a recurrence set -/

theorem setInsert_length {s : List DateTime} {x : DateTime} :
    (setInsert env s x).length ≤ s.length + 1 := by
  unfold setInsert
  split <;> simp

theorem setOf_length (l : List DateTime) : (setOf env l).length ≤ l.length := by
  have : ∀ (l s : List DateTime), (l.foldl (setInsert env) s).length ≤ s.length + l.length := by
    intro l
    induction l with
    | nil => simp
    | cons x l ih =>
      intro s
      have h1 := ih (setInsert env s x)
      have h2 := setInsert_length (env := env) (s := s) (x := x)
      simp only [List.foldl_cons, List.length_cons]
      omega
  have := this l []
  simp only [List.length_nil, Nat.zero_add] at this
  exact this

theorem setDifference_length (o : SetOrder) (a b : List DateTime) :
    (setDifference env o (uniqueSorted env o a) b).length ≤ a.length := by
  have h1 : (uniqueSorted env o a).length ≤ a.length := by
    unfold uniqueSorted
    rw [List.length_insertionSort, (o.perm _).length_eq]
    exact setOf_length a
  unfold setDifference
  split
  · exact h1
  · rw [(o.perm _).length_eq]
    exact (List.length_filter_le _ _).trans ((setOf_length _).trans h1)

theorem foldlM_addOne_max {m : Int} (hm : 0 < m) : ∀ {l : List (DateTime × Bool)}
    {items items' : List DateTime} {lim lim' : Bool},
    l.foldlM (addOne (some m)) (items, lim) = some (items', lim') →
    (∃ v ∈ l, v.2 = true) ∨ (items.length : Int) ≤ m → (items'.length : Int) ≤ m
  | [], items, items', lim, lim', h, hv => by
    simp at h
    simpa [h] using hv
  | (x, b) :: l, items, items', lim, lim', h, hv => by
    rw [List.foldlM_cons] at h
    cases hx : addOne (some m) (items, lim) (x, b) with
    | none => rw [hx] at h; simp at h
    | some acc =>
      rw [hx] at h
      obtain ⟨i1, l1⟩ := acc
      refine foldlM_addOne_max hm (l := l) h ?_
      unfold addOne at hx
      cases b with
      | true =>
        simp only [if_true] at hx
        split at hx
        · simp at hx
        · next he =>
          simp only [Option.some.injEq, Prod.mk.injEq] at hx
          obtain ⟨rfl, rfl⟩ := hx
          refine .inr ?_
          simp only [Rule.exceeds, Bool.and_eq_true, decide_eq_true_iff, not_and] at he
          have := he (by omega)
          omega
      | false =>
        simp only [Bool.false_eq_true, if_false, Option.some.injEq, Prod.mk.injEq] at hx
        obtain ⟨rfl, rfl⟩ := hx
        rcases hv with ⟨v, hv, hv'⟩ | hv
        · rcases List.mem_cons.mp hv with rfl | hv
          · simp at hv'
          · exact .inl ⟨v, hv, hv'⟩
        · exact .inr hv

/-- C57 (partial): if an RDATE is in the range or a period overlaps it, at most `maxInstances`
dates are returned.

Missing: sets without such a date, `C57_fails_over` and `C57_fails_under`. -/
theorem C57_rdates_partial (env : TzEnv) (o : SetOrder) (fuel : Nat) (start : DateTime)
    (range : Period) (off m : Int) (s s' : RecurrenceSet) (L : List DateTime) (lim : Bool)
    (hm : 0 < m)
    (h : s.expand env o fuel start range off (some m) = some (.dates L lim s'))
    (hd : (∃ t ∈ s.rdates, range.isDateWithin env t = true) ∨
      ∃ p ∈ s.rperiods, range.isOverlap env p = true) : (L.length : Int) ≤ m := by
  unfold expand at h
  simp only at h
  split at h
  · simp at h
  · simp at h
  · split at h
    · simp at h
    · next its2 lm2 h2 =>
      split at h
      · simp at h
      · simp at h
      · simp only [Option.some.injEq, Result.dates.injEq] at h
        obtain ⟨rfl, rfl, _⟩ := h
        refine le_trans (Int.ofNat_le.mpr (setDifference_length o _ _))
          (foldlM_addOne_max hm h2 (.inl ?_))
        unfold rdateTests
        rcases hd with ⟨t, ht, hw⟩ | ⟨p, hp, hw⟩
        · exact ⟨(t, _), List.mem_append.mpr (.inl (List.mem_map.mpr ⟨t, ht, rfl⟩)), hw⟩
        · exact ⟨(p.start, _), List.mem_append.mpr (.inr (List.mem_map.mpr ⟨p, hp, rfl⟩)), hw⟩

/-- C57 fails: two rules of three dates each, `maxInstances=3`: the limit is applied to each rule,
five different dates are returned. -/
theorem C57_fails_over : ∃ s : RecurrenceSet,
    (s.expand .empty inOrder 100 (noon 1) january 0 (some 3)).map Result.list =
      some [noon 1, noon 2, noon 3, noon 11, noon 21] :=
  ⟨{ rrules := [({ freq := .daily, useCount := true, count := 3 }, {}),
      ({ freq := .daily, interval := 10, useCount := true, count := 3 }, {})] }, by decide +kernel⟩

/-- The call raised `TooManyInstancesError`. -/
def Result.raised : Result → Bool
  | .dates .. => false
  | .tooMany _ => true

/-- C57 fails: the start is counted twice (once by the rule), so four dates are too many for
`maxInstances=4`. -/
theorem C57_fails_under : ∃ s : RecurrenceSet,
    (s.expand .empty inOrder 100 (noon 1) january 0 (some 4)).map Result.raised = some true ∧
    (s.expand .empty inOrder 100 (noon 1) january 0 none).map Result.list =
      some [noon 1, noon 2, noon 3, noon 20] :=
  ⟨{ rrules := [({ freq := .daily, useCount := true, count := 3 }, {})], rdates := [noon 20] },
    by decide +kernel⟩

/-- The condition of `C57_rdates_partial` is met, with exactly as many dates as allowed. -/
example : ∃ (L : List DateTime) (lim : Bool) (s' : RecurrenceSet),
    expand .empty inOrder 100 { rdates := [noon 2, noon 3] } (noon 1) january 0 (some 3) =
      some (.dates L lim s') ∧ L.length = 3 ∧ january.isDateWithin .empty (noon 2) = true :=
  ⟨[noon 1, noon 2, noon 3], false, { rdates := [noon 2, noon 3] }, rfl, rfl, by decide +kernel⟩

end RecurrenceSet
end PyCal
