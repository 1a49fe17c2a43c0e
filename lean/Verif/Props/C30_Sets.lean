import Verif.Props.C34_RecurrenceSet

/-!
# C30 for recurrence sets

A set keeps its rules, and the rules keep what they found when they were asked before.
-/

namespace PyCal.RecurrenceSet
open DateTime (TzEnv)
open Rule (Reachable Ask AskBy)

/-- The conditions of `C30_simple_partial` or `C30_complex_partial` on a query of a rule. -/
def RuleAsk (env : TzEnv) (K : DateTime → Prop) (s0 : DateTime) (off : Int) (start : DateTime) (range : Period)
    (r : Rule) : Prop :=
  (r.Plain → (r.useCount = true → 1 ≤ r.count) ∧ Ask env K r s0 off start range off) ∧
  (¬ r.Plain → AskBy env K r s0 off start range off)

/-- What a set made of new rules can be after queries that meet the conditions and do not raise. -/
inductive Asked (env : TzEnv) (o : SetOrder) (K : DateTime → Prop) (s0 : DateTime) (off : Int)
    (s : RecurrenceSet) : RecurrenceSet → Prop
  | new : Asked env o K s0 off s s
  | query {s1 s2 : RecurrenceSet} {L : List DateTime} {lim : Bool} (fuel : Nat) (start : DateTime)
      (range : Period) (max : Option Int) : Asked env o K s0 off s s1 →
      (∀ rc ∈ s.rrules ++ s.exrules, RuleAsk env K s0 off start range rc.1) →
      s1.expand env o fuel start range off max = some (.dates L lim s2) → Asked env o K s0 off s s2

/-- The rule has what earlier queries left. -/
def Kept (env : TzEnv) (K : DateTime → Prop) (s0 : DateTime) (off : Int) (rc : Rule × Rule.Cache) : Prop :=
  (rc.1.Plain →
    Reachable env rc.1 (fun s p o _ a => Ask env K rc.1 s0 off s p o ∧ a ≠ .tooMany) rc.2) ∧
  (¬ rc.1.Plain →
    Reachable env rc.1 (fun s p o _ a => AskBy env K rc.1 s0 off s p o ∧ a ≠ .tooMany) rc.2)

section
variable {env : TzEnv} {K : DateTime → Prop} {s0 : DateTime} {off : Int} {start : DateTime} {range : Period}

theorem kept_rules {fuel : Nat} {max : Option Int} : ∀ {rs rs' : List (Rule × Rule.Cache)}
    {items items' : List DateTime} {lim lim' : Bool},
    (∀ rc ∈ rs, Kept env K s0 off rc ∧ RuleAsk env K s0 off start range rc.1) →
    expandRules env fuel start range off max rs items lim = some (.dates items' lim' rs') →
    rs'.map Prod.fst = rs.map Prod.fst ∧ ∀ rc ∈ rs', Kept env K s0 off rc
  | [], rs', items, items', lim, lim', _, h => by
    simp only [expandRules, Option.some.injEq, RulesResult.dates.injEq] at h
    obtain ⟨_, _, rfl⟩ := h
    simp
  | (r, c) :: rs, rs', items, items', lim, lim', hk, h => by
    rw [expandRules] at h
    split at h
    · simp at h
    · simp at h
    · next ds l c' hr =>
      split at h
      · simp at h
      · simp at h
      · next its ls rs1 he =>
        simp only [Option.some.injEq, RulesResult.dates.injEq] at h
        obtain ⟨_, _, rfl⟩ := h
        obtain ⟨h1, h2⟩ := kept_rules (fun rc hrc => hk rc (by simp [hrc])) he
        obtain ⟨⟨k1, k2⟩, a1, a2⟩ := hk (r, c) (by simp)
        refine ⟨by simp [h1], fun rc hrc => ?_⟩
        rcases List.mem_cons.mp hrc with rfl | hrc
        · exact ⟨fun hp => .query fuel start range off max (k1 hp) ⟨(a1 hp).2, by simp⟩ hr,
            fun hp => .query fuel start range off max (k2 hp) ⟨a2 hp, by simp⟩ hr⟩
        · exact h2 rc hrc

/-- The dates of rules with caches and of new rules. -/
theorem same_rules {fuel fuel' : Nat} {max : Option Int} : ∀ {rs rs0 rs1 rs2 : List (Rule × Rule.Cache)}
    {items I J : List DateTime} {l1 l2 l1' l2' : Bool},
    (∀ rc ∈ rs, Kept env K s0 off rc ∧ RuleAsk env K s0 off start range rc.1) →
    rs0.map Prod.fst = rs.map Prod.fst → (∀ rc ∈ rs0, rc.2 = {}) →
    expandRules env fuel start range off max rs items l1 = some (.dates I l1' rs1) →
    expandRules env fuel' start range off none rs0 items l2 = some (.dates J l2' rs2) → I = J
  | [], rs0, rs1, rs2, items, I, J, l1, l2, l1', l2', _, h0, _, h, h' => by
    have : rs0 = [] := by simpa using h0
    subst this
    simp only [expandRules, Option.some.injEq, RulesResult.dates.injEq] at h h'
    rw [← h.1, ← h'.1]
  | (r, c) :: rs, [], rs1, rs2, items, I, J, l1, l2, l1', l2', _, h0, _, h, h' => by simp at h0
  | (r, c) :: rs, (r', c0) :: rs0, rs1, rs2, items, I, J, l1, l2, l1', l2', hk, h0, hn, h, h' => by
    simp only [List.map_cons, List.cons.injEq] at h0
    obtain ⟨rfl, h0⟩ := h0
    have hc0 : c0 = {} := hn (r', c0) (by simp)
    subst hc0
    rw [expandRules] at h h'
    split at h
    · simp at h
    · simp at h
    · next ds l c' hr =>
      split at h'
      · simp at h'
      · simp at h'
      · next ds0 l0 c0' hr0 =>
        have hds : ds = ds0 := by
          obtain ⟨⟨k1, k2⟩, a1, a2⟩ := hk (r', c) (by simp)
          have hf : r'.expandFresh env fuel' start range off = some (.dates ds0 l0) := by
            unfold Rule.expandFresh
            rw [hr0]
            rfl
          by_cases hp : r'.Plain
          · have := Rule.C30_simple_partial env K r' s0 off c c' fuel fuel' start range max _ _
              (Rule.hasBy_false_iff.mpr hp) (a1 hp).1 (k1 hp) (a1 hp).2 hr (by simp) hf
            simp only [Rule.Answer.dates.injEq] at this
            exact this.1
          · exact Rule.C30_complex_partial env K r' s0 off c c' fuel fuel' start range max _ _
              (Rule.hasBy_iff.mpr hp) (k2 hp) (a2 hp) hr (by simp) hf
        subst hds
        split at h
        · simp at h
        · simp at h
        · next its ls rs3 he =>
          split at h'
          · simp at h'
          · simp at h'
          · next its' ls' rs4 he' =>
            simp only [Option.some.injEq, RulesResult.dates.injEq] at h h'
            obtain ⟨rfl, _, _⟩ := h
            obtain ⟨rfl, _, _⟩ := h'
            exact same_rules (fun rc hrc => hk rc (by simp [hrc])) h0 (fun rc hrc => hn rc (by simp [hrc])) he he'

theorem foldlM_same {max : Option Int} : ∀ {l : List (DateTime × Bool)} {items I J : List DateTime}
    {l1 l2 l1' l2' : Bool}, l.foldlM (addOne max) (items, l1) = some (I, l1') →
    l.foldlM (addOne none) (items, l2) = some (J, l2') → I = J
  | [], items, I, J, l1, l2, l1', l2', h, h' => by
    simp at h h'
    rw [← h.1, ← h'.1]
  | (x, b) :: l, items, I, J, l1, l2, l1', l2', h, h' => by
    rw [List.foldlM_cons] at h h'
    cases b with
    | false =>
      simp only [addOne, Bool.false_eq_true, if_false] at h h'
      exact foldlM_same h h'
    | true =>
      by_cases he : Rule.exceeds max (items ++ [x]) = true
      · simp [addOne, he] at h
      · by_cases he' : Rule.exceeds none (items ++ [x]) = true
        · simp [addOne, he'] at h'
        · simp only [addOne, if_true, he, he', if_false] at h h'
          exact foldlM_same h h'

theorem kept_of_new {rc : Rule × Rule.Cache} (h : rc.2 = {}) : Kept env K s0 off rc := by
  obtain ⟨r, c⟩ := rc
  simp only at h
  subst h
  exact ⟨fun _ => .new, fun _ => .new⟩

/-- After queries the set has the same content, and its rules have what the queries left. -/
theorem asked_kept {o : SetOrder} {s s1 : RecurrenceSet} (hn : ∀ rc ∈ s.rrules ++ s.exrules, rc.2 = {})
    (h : Asked env o K s0 off s s1) :
    s1.rrules.map Prod.fst = s.rrules.map Prod.fst ∧ s1.exrules.map Prod.fst = s.exrules.map Prod.fst ∧
    s1.rdates = s.rdates ∧ s1.exdates = s.exdates ∧ s1.rperiods = s.rperiods ∧ s1.experiods = s.experiods ∧
    ∀ rc ∈ s1.rrules ++ s1.exrules, Kept env K s0 off rc := by
  induction h with
  | new => exact ⟨rfl, rfl, rfl, rfl, rfl, rfl, fun rc hrc => kept_of_new (hn rc hrc)⟩
  | @query s1 s2 L lim fuel start range max _ hq he ih =>
    obtain ⟨i1, i2, i3, i4, i5, i6, i7⟩ := ih
    have hm : ∀ {l l' : List (Rule × Rule.Cache)}, l.map Prod.fst = l'.map Prod.fst → ∀ rc ∈ l,
        ∃ rc' ∈ l', rc'.1 = rc.1 := by
      intro l l' hl rc hrc
      have : rc.1 ∈ l'.map Prod.fst := by rw [← hl]; exact List.mem_map_of_mem hrc
      obtain ⟨rc', h1, h2⟩ := List.mem_map.mp this
      exact ⟨rc', h1, h2⟩
    have hr : ∀ rc ∈ s1.rrules, Kept env K s0 off rc ∧ RuleAsk env K s0 off start range rc.1 := by
      intro rc hrc
      obtain ⟨rc', h1, h2⟩ := hm i1 rc hrc
      exact ⟨i7 rc (by simp [hrc]), h2 ▸ hq rc' (by simp [h1])⟩
    have hx : ∀ rc ∈ s1.exrules, Kept env K s0 off rc ∧ RuleAsk env K s0 off start range rc.1 := by
      intro rc hrc
      obtain ⟨rc', h1, h2⟩ := hm i2 rc hrc
      exact ⟨i7 rc (by simp [hrc]), h2 ▸ hq rc' (by simp [h1])⟩
    unfold expand at he
    simp only at he
    split at he
    · simp at he
    · simp at he
    · next its lm rs h1 =>
      split at he
      · simp at he
      · split at he
        · simp at he
        · simp at he
        · next ex lx es h3 =>
          simp only [Option.some.injEq, Result.dates.injEq] at he
          obtain ⟨_, _, rfl⟩ := he
          obtain ⟨a1, a2⟩ := kept_rules hr h1
          obtain ⟨b1, b2⟩ := kept_rules hx h3
          refine ⟨a1.trans i1, b1.trans i2, i3, i4, i5, i6, fun rc hrc => ?_⟩
          rcases List.mem_append.mp hrc with h | h
          · exact a2 rc h
          · exact b2 rc h

end

/-- C30 (partial), recurrence sets: whatever queries were made before on the set, for whatever starts and ranges, the
dates returned are those that a set of new rules returns (C34 says which these are).

Needed: the conditions of `C30_simple_partial` or `C30_complex_partial` for each rule in this query and the earlier
ones, and no `TooManyInstancesError` (`C30_fails_raise`). -/
theorem C30_set_partial (env : TzEnv) (o : SetOrder) (K : DateTime → Prop) (s0 : DateTime) (off : Int)
    (s s1 s2 s3 : RecurrenceSet) (hn : ∀ rc ∈ s.rrules ++ s.exrules, rc.2 = {})
    (hs : Asked env o K s0 off s s1) (fuel fuel' : Nat) (start : DateTime) (range : Period)
    (hq : ∀ rc ∈ s.rrules ++ s.exrules, RuleAsk env K s0 off start range rc.1)
    (max : Option Int) (L L' : List DateTime) (lim lim' : Bool)
    (h : s1.expand env o fuel start range off max = some (.dates L lim s2))
    (h' : s.expand env o fuel' start range off none = some (.dates L' lim' s3)) : L = L' := by
  obtain ⟨i1, i2, i3, i4, i5, i6, i7⟩ := asked_kept hn hs
  have hm : ∀ {l l' : List (Rule × Rule.Cache)}, l.map Prod.fst = l'.map Prod.fst → ∀ rc ∈ l,
      ∃ rc' ∈ l', rc'.1 = rc.1 := by
    intro l l' hl rc hrc
    have : rc.1 ∈ l'.map Prod.fst := by rw [← hl]; exact List.mem_map_of_mem hrc
    obtain ⟨rc', h1, h2⟩ := List.mem_map.mp this
    exact ⟨rc', h1, h2⟩
  have hr : ∀ rc ∈ s1.rrules, Kept env K s0 off rc ∧ RuleAsk env K s0 off start range rc.1 := by
    intro rc hrc
    obtain ⟨rc', h1, h2⟩ := hm i1 rc hrc
    exact ⟨i7 rc (by simp [hrc]), h2 ▸ hq rc' (by simp [h1])⟩
  have hx : ∀ rc ∈ s1.exrules, Kept env K s0 off rc ∧ RuleAsk env K s0 off start range rc.1 := by
    intro rc hrc
    obtain ⟨rc', h1, h2⟩ := hm i2 rc hrc
    exact ⟨i7 rc (by simp [hrc]), h2 ▸ hq rc' (by simp [h1])⟩
  unfold expand at h h'
  simp only at h h'
  split at h
  · simp at h
  · simp at h
  · next its lm rs h1 =>
    split at h'
    · simp at h'
    · simp at h'
    · next its' lm' rs' h1' =>
      have e1 : its = its' := same_rules hr i1.symm (fun rc hrc => hn rc (by simp [hrc])) h1 h1'
      subst e1
      split at h
      · simp at h
      · next its2 lm2 h2 =>
        split at h'
        · simp at h'
        · next its2' lm2' h2' =>
          have e2 : its2 = its2' := by
            unfold rdateTests at h2 h2'
            rw [i3, i5] at h2
            exact foldlM_same h2 h2'
          subst e2
          split at h
          · simp at h
          · simp at h
          · next ex lx es h3 =>
            split at h'
            · simp at h'
            · simp at h'
            · next ex' lx' es' h3' =>
              have e3 : ex = ex' := same_rules hx i2.symm (fun rc hrc => hn rc (by simp [hrc])) h3 h3'
              subst e3
              simp only [Option.some.injEq, Result.dates.injEq] at h h'
              obtain ⟨rfl, _, _⟩ := h
              obtain ⟨rfl, _, _⟩ := h'
              unfold exdateList
              rw [i4, i6]

/-- The conditions are met: a daily rule with an RDATE is asked for ten days and then for five. -/
example : let start : DateTime := ⟨2020, 1, 1, 0, 0, 0, false, true, none⟩
    let s : RecurrenceSet := { rrules := [({ freq := .daily }, {})], rdates := [noon 3] }
    let p : Period := .ofEnd start ⟨2020, 1, 11, 0, 0, 0, false, true, none⟩
    let q : Period := .ofEnd start ⟨2020, 1, 6, 0, 0, 0, false, true, none⟩
    (∀ rc ∈ s.rrules ++ s.exrules, rc.2 = {} ∧
      RuleAsk .empty (DateTime.InZone true none) start 0 start p rc.1 ∧
      RuleAsk .empty (DateTime.InZone true none) start 0 start q rc.1) ∧
    (s.expand .empty inOrder 100 start p).map (fun x => x.list.length) = some 11 ∧
    ((s.expand .empty inOrder 100 start p).bind fun x =>
      match x with
      | .dates _ _ s1 => s1.expand .empty inOrder 100 start q
      | .tooMany _ => none).map (fun x => x.list.length) = some 6 := by
  intro start s p q
  have hs : Rule.Sound .empty (DateTime.InZone true none) { freq := .daily } start
      (Rule.untilLimit { freq := .daily } start 0 (some (.fixed 0))) :=
    ⟨Or.inr (Or.inl ⟨true, none, rfl⟩), by decide +kernel, by unfold DateTime.InZone; decide +kernel,
      fun u h => by simp [Rule.untilLimit] at h, fun h => by simp [start] at h, by decide⟩
  have hp : Rule.Plain { freq := .daily } := by simp [Rule.Plain]
  refine ⟨fun rc hrc => ?_, by decide +kernel, by decide +kernel⟩
  simp only [s, List.append_nil, List.mem_singleton] at hrc
  subst hrc
  exact ⟨rfl,
    ⟨fun _ => ⟨fun h => by simp at h, hs, by unfold DateTime.InZone; decide +kernel, ⟨rfl, rfl, rfl⟩, rfl⟩,
      fun h => absurd hp h⟩,
    ⟨fun _ => ⟨fun h => by simp at h, hs, by unfold DateTime.InZone; decide +kernel, ⟨rfl, rfl, rfl⟩, rfl⟩,
      fun h => absurd hp h⟩⟩

end PyCal.RecurrenceSet
