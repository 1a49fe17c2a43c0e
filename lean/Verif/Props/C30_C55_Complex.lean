import Verif.Props.C54_Exact

/-!
# C30 for rules with BYxxx parts; C55: `maxInstances`

-/

namespace PyCal.Rule
open Spec DateTime Period

section
variable {env : TzEnv} {K : DateTime → Prop} {r : Rule} {start : DateTime}
  {limit : Option DateTime} {range : Period}

/-! ## `maxInstances` -/

/-- What `maxInstances = m` makes of an expansion that would end with `items`. -/
def capped (m : Int) (items : List DateTime) (full : Bool) : Outcome :=
  if m = 0 ∨ (items.length : Int) ≤ m then .done items full
  else .tooMany (items.take (m.toNat + 1))

theorem simpleLoop_capped {m : Int} (hm : 0 ≤ m) {items' : List DateTime} {full : Bool} :
    ∀ (fuel : Nat) (t : DateTime) (ctr : Int) (items : List DateTime),
      (m = 0 ∨ (items.length : Int) ≤ m) →
      simpleLoop env r limit range none fuel t ctr items = some (.done items' full) →
      items <+: items' ∧
      simpleLoop env r limit range (some m) fuel t ctr items = some (capped m items' full) := by
  intro fuel
  induction fuel with
  | zero => intro t ctr items _ h; simp [simpleLoop] at h
  | succ n ih =>
    intro t ctr items hle h
    rw [simpleLoop] at h ⊢
    by_cases h1 : range.isDateAfter env t = true
    · rw [if_pos h1] at h ⊢
      simp only [Option.some.injEq, Outcome.done.injEq] at h
      obtain ⟨rfl, rfl⟩ := h
      refine ⟨List.prefix_refl _, ?_⟩
      unfold capped; rw [if_pos hle]
    · rw [if_neg h1] at h ⊢
      have hex : exceeds none (items ++ [t]) = false := rfl
      rw [hex, if_neg (by simp)] at h
      -- whatever comes next extends `items ++ [t]`
      have key : (items ++ [t]) <+: items' ∧ ((m = 0 ∨ ((items ++ [t]).length : Int) ≤ m) →
          (match r.nextValid n t with
          | none => none
          | some t' =>
            if r.useCount then
              if ctr + 1 ≥ r.count then some (.done (items ++ [t]) true)
              else simpleLoop env r limit range (some m) n t' (ctr + 1) (items ++ [t])
            else if pastUntil env limit t' then some (.done (items ++ [t]) true)
            else simpleLoop env r limit range (some m) n t' ctr (items ++ [t]))
            = some (capped m items' full)) := by
        have ih' : ∀ t' ctr', simpleLoop env r limit range none n t' ctr' (items ++ [t])
              = some (.done items' full) → (items ++ [t]) <+: items' ∧
            ((m = 0 ∨ ((items ++ [t]).length : Int) ≤ m) →
            simpleLoop env r limit range (some m) n t' ctr' (items ++ [t])
              = some (capped m items' full)) := by
          intro t' ctr' h'
          by_cases hle' : m = 0 ∨ ((items ++ [t]).length : Int) ≤ m
          · have := ih t' ctr' (items ++ [t]) hle' h'
            exact ⟨this.1, fun _ => this.2⟩
          · refine ⟨?_, fun h => absurd h hle'⟩
            exact simpleLoop_prefix n t' ctr' (items ++ [t]) h'
        cases hnv : r.nextValid n t with
        | none => rw [hnv] at h; simp at h
        | some t' =>
          rw [hnv] at h
          simp only at h ⊢
          split at h
          · next hu =>
            split at h
            · next hc =>
              simp only [Option.some.injEq, Outcome.done.injEq] at h
              obtain ⟨rfl, rfl⟩ := h
              refine ⟨List.prefix_refl _, fun hle' => ?_⟩
              rw [if_pos hu, if_pos hc]
              unfold capped; rw [if_pos hle']
            · next hc =>
              rw [if_pos hu, if_neg hc]
              exact ih' _ _ h
          · next hu =>
            split at h
            · next hc =>
              simp only [Option.some.injEq, Outcome.done.injEq] at h
              obtain ⟨rfl, rfl⟩ := h
              refine ⟨List.prefix_refl _, fun hle' => ?_⟩
              rw [if_neg hu, if_pos hc]
              unfold capped; rw [if_pos hle']
            · next hc =>
              rw [if_neg hu, if_neg hc]
              exact ih' _ _ h
      refine ⟨(List.prefix_append _ _).trans key.1, ?_⟩
      by_cases hle' : m = 0 ∨ ((items ++ [t]).length : Int) ≤ m
      · have hex' : exceeds (some m) (items ++ [t]) = false := by
          unfold exceeds
          rw [Bool.and_eq_false_iff]
          rcases hle' with h | h
          · left; simp [h]
          · right; simp only [decide_eq_false_iff_not]; omega
        rw [hex', if_neg (by simp)]
        exact key.2 hle'
      · rw [not_or] at hle'
        have hex' : exceeds (some m) (items ++ [t]) = true := by
          unfold exceeds
          simp only [Bool.and_eq_true, decide_eq_true_eq]
          exact ⟨hle'.1, by omega⟩
        rw [hex', if_pos rfl]
        have hlen : (items.length : Int) = m := by
          have := hle'.2
          rw [List.length_append, List.length_singleton] at this
          push_cast at this
          rcases hle with h | h
          · exact absurd h hle'.1
          · omega
        obtain ⟨rest, hrest⟩ := key.1
        unfold capped
        rw [← hrest, if_neg (by
          rw [not_or]
          refine ⟨hle'.1, ?_⟩
          rw [List.length_append]
          push_cast at *
          omega)]
        rw [List.take_append_of_le_length (by simp; omega),
          List.take_of_length_le (by simp; omega)]
where
  simpleLoop_prefix {items' : List DateTime} {full : Bool} :
    ∀ (fuel : Nat) (t : DateTime) (ctr : Int) (items : List DateTime),
      simpleLoop env r limit range none fuel t ctr items = some (.done items' full) →
      items <+: items' := by
    intro fuel
    induction fuel with
    | zero => intro t ctr items h; simp [simpleLoop] at h
    | succ n ih =>
      intro t ctr items h
      rw [simpleLoop] at h
      split at h
      · simp only [Option.some.injEq, Outcome.done.injEq] at h
        obtain ⟨rfl, rfl⟩ := h
        exact List.prefix_refl _
      · rw [if_neg (by simp [exceeds])] at h
        refine (List.prefix_append items [t]).trans ?_
        split at h
        · simp at h
        · repeat' split at h
          all_goals first
            | exact ih _ _ _ h
            | (simp only [Option.some.injEq, Outcome.done.injEq] at h
               obtain ⟨rfl, rfl⟩ := h
               exact List.prefix_refl _)

/-- The same for the inner loop of a complex expansion. -/
def cappedSet (m : Int) : SetResult → SetResult
  | .next ctr items => if m = 0 ∨ (items.length : Int) ≤ m then .next ctr items
      else .stop (.tooMany (items.take (m.toNat + 1)))
  | .stop (.done items full) => .stop (capped m items full)
  | .stop (.tooMany items) => .stop (.tooMany items)

/-- The items a loop result starts with. -/
def SetResult.Extends (items : List DateTime) : SetResult → Prop
  | .next _ items' => items <+: items'
  | .stop (.done items' _) => items <+: items'
  | .stop (.tooMany _) => False

theorem SetResult.Extends.mono {a b : List DateTime} (h : a <+: b) {s : SetResult}
    (hs : s.Extends b) : s.Extends a := by
  cases s with
  | next _ _ => exact h.trans hs
  | stop o => cases o with
    | done _ _ => exact h.trans hs
    | tooMany _ => exact hs

theorem setLoop_extends : ∀ (l : List DateTime) (ctr : Int) (items : List DateTime),
    (setLoop env r limit start range none l ctr items).Extends items := by
  intro l
  induction l with
  | nil => intro ctr items; exact List.prefix_refl _
  | cons t l ih =>
    intro ctr items
    rw [setLoop, show exceeds none (items ++ [t]) = false from rfl]
    have hp : items <+: items ++ [t] := List.prefix_append _ _
    repeat' split
    all_goals first
      | exact ih _ _
      | exact (ih _ _).mono hp
      | exact hp
      | exact List.prefix_refl _
      | (next h => simp at h)

theorem capped_of_prefix {m : Int} (hm : 0 ≤ m) {a : List DateTime} (h0 : m ≠ 0)
    (hlen : (a.length : Int) = m + 1) :
    ∀ s : SetResult, s.Extends a → cappedSet m s = .stop (.tooMany a) := by
  have key : ∀ items : List DateTime, a <+: items →
      ¬ (m = 0 ∨ (items.length : Int) ≤ m) ∧ items.take (m.toNat + 1) = a := by
    rintro items ⟨rest, rfl⟩
    refine ⟨?_, ?_⟩
    · rw [not_or]; refine ⟨h0, ?_⟩
      rw [List.length_append]; push_cast; omega
    · rw [List.take_append_of_le_length (by omega), List.take_of_length_le (by omega)]
  intro s hs
  cases s with
  | next c i =>
    obtain ⟨h1, h2⟩ := key i hs
    simp only [cappedSet, if_neg h1, h2]
  | stop o => cases o with
    | done i f =>
      obtain ⟨h1, h2⟩ := key i hs
      simp only [cappedSet, capped, if_neg h1, h2]
    | tooMany i => exact absurd hs (by simp [SetResult.Extends])

theorem setLoop_capped {m : Int} (hm : 0 ≤ m) :
    ∀ (l : List DateTime) (ctr : Int) (items : List DateTime),
      (m = 0 ∨ (items.length : Int) ≤ m) →
      setLoop env r limit start range (some m) l ctr items =
        cappedSet m (setLoop env r limit start range none l ctr items) := by
  intro l
  induction l with
  | nil => intro ctr items hle; simp only [setLoop, cappedSet, if_pos hle]
  | cons t l ih =>
    intro ctr items hle
    rw [setLoop, setLoop, show exceeds none (items ++ [t]) = false from rfl]
    by_cases h1 : t.lt env start = true
    · rw [if_pos h1, if_pos h1]; exact ih ctr items hle
    rw [if_neg h1, if_neg h1]
    by_cases h2 : range.isDateAfter env t = true
    · rw [if_pos h2, if_pos h2]; simp only [cappedSet, capped, if_pos hle]
    rw [if_neg h2, if_neg h2]
    by_cases h3 : pastUntil env limit t = true
    · rw [if_pos h3, if_pos h3]; simp only [cappedSet, capped, if_pos hle]
    rw [if_neg h3, if_neg h3]
    by_cases h4 : (decide (ctr = 1) && start.eq env t) = true
    · rw [if_pos h4, if_pos h4]; exact ih ctr items hle
    rw [if_neg h4, if_neg h4, if_neg (by simp : ¬ (false = true))]
    by_cases hle' : m = 0 ∨ ((items ++ [t]).length : Int) ≤ m
    · have hex' : exceeds (some m) (items ++ [t]) = false := by
        unfold exceeds
        rw [Bool.and_eq_false_iff]
        rcases hle' with h | h
        · left; simp [h]
        · right; simp only [decide_eq_false_iff_not]; omega
      rw [hex', if_neg (by simp : ¬ (false = true))]
      repeat' split
      all_goals first
        | exact ih _ _ hle'
        | simp only [cappedSet, capped, if_pos hle']
    · have hle'' := hle'
      rw [not_or] at hle'
      have hex' : exceeds (some m) (items ++ [t]) = true := by
        unfold exceeds
        simp only [Bool.and_eq_true, decide_eq_true_eq]
        exact ⟨hle'.1, by omega⟩
      have hlen : ((items ++ [t]).length : Int) = m + 1 := by
        have := hle'.2
        rw [List.length_append, List.length_singleton] at this ⊢
        push_cast at this ⊢
        rcases hle with h | h
        · exact absurd h hle'.1
        · omega
      rw [hex', if_pos rfl]
      refine (capped_of_prefix hm hle'.1 hlen _ ?_).symm
      repeat' split
      all_goals first
        | exact setLoop_extends _ _ _
        | exact List.prefix_refl _

theorem complexLoop_capped {m : Int} (hm : 0 ≤ m) {items' : List DateTime} {full : Bool} :
    ∀ (fuel : Nat) (t : DateTime) (ctr : Int) (items : List DateTime),
      (m = 0 ∨ (items.length : Int) ≤ m) →
      complexLoop env r limit start range none fuel t ctr items = some (.done items' full) →
      complexLoop env r limit start range (some m) fuel t ctr items
        = some (capped m items' full) := by
  -- the final list extends every intermediate one
  have ext : ∀ (fuel : Nat) (t : DateTime) (ctr : Int) (items : List DateTime),
      complexLoop env r limit start range none fuel t ctr items = some (.done items' full) →
      items <+: items' := by
    intro fuel
    induction fuel with
    | zero => intro t ctr items h; simp [complexLoop] at h
    | succ n ih =>
      intro t ctr items h
      rw [complexLoop] at h
      have he := setLoop_extends (env := env) (r := r) (limit := limit) (start := start)
        (range := range) (sortByPosix env (r.candidates env t)) ctr items
      revert h he
      cases setLoop env r limit start range none (sortByPosix env (r.candidates env t)) ctr items with
      | stop o =>
        intro h he
        simp only [Option.some.injEq] at h
        rw [h] at he; exact he
      | next c i =>
        intro h he
        simp only at h
        refine List.IsPrefix.trans he ?_
        split at h
        · simp only [Option.some.injEq, Outcome.done.injEq] at h
          obtain ⟨rfl, rfl⟩ := h
          exact List.prefix_refl _
        · exact ih _ _ _ h
  intro fuel
  induction fuel with
  | zero => intro t ctr items _ h; simp [complexLoop] at h
  | succ n ih =>
    intro t ctr items hle h
    rw [complexLoop] at h ⊢
    rw [setLoop_capped hm _ _ _ hle]
    revert h
    cases setLoop env r limit start range none (sortByPosix env (r.candidates env t)) ctr items with
    | stop o =>
      intro h
      simp only [Option.some.injEq] at h
      rw [h]; rfl
    | next c i =>
      intro h
      simp only at h
      by_cases hle' : m = 0 ∨ (i.length : Int) ≤ m
      · simp only [cappedSet, if_pos hle']
        split at h
        · next ha =>
          simp only [Option.some.injEq, Outcome.done.injEq] at h
          obtain ⟨rfl, rfl⟩ := h
          rw [if_pos ha, capped, if_pos hle']
        · next ha => rw [if_neg ha]; exact ih _ _ _ hle' h
      · simp only [cappedSet, if_neg hle']
        have hp : i <+: items' := by
          split at h
          · simp only [Option.some.injEq, Outcome.done.injEq] at h
            obtain ⟨rfl, rfl⟩ := h
            exact List.prefix_refl _
          · exact ext _ _ _ _ h
        obtain ⟨rest, rfl⟩ := hp
        rw [not_or] at hle'
        unfold capped
        rw [if_neg (by
          rw [not_or, List.length_append]; push_cast; exact ⟨hle'.1, by omega⟩),
          List.take_append_of_le_length (by omega)]

theorem expandRaw_capped {m : Int} (hm : 0 ≤ m) {fuel : Nat} {off : Int} {items : List DateTime}
    {full : Bool} (h : r.expandRaw env fuel start range off none = some (.done items full)) :
    r.expandRaw env fuel start range off (some m) = some (capped m items full) := by
  unfold expandRaw at h ⊢
  split
  · next hb =>
    rw [if_pos hb] at h
    exact (simpleLoop_capped hm fuel start 0 [] (by simp; omega) h).2
  · next hb =>
    rw [if_neg hb] at h
    unfold complexExpand at h ⊢
    split
    · next hc =>
      rw [if_pos hc] at h
      simp only [Option.some.injEq, Outcome.done.injEq] at h
      obtain ⟨rfl, rfl⟩ := h
      unfold capped
      rw [if_pos (by right; simp; omega)]
    · next hc =>
      rw [if_neg hc] at h
      exact complexLoop_capped hm fuel start _ [] (by simp; omega) h

theorem complexLoop_none {items : List DateTime} :
    ∀ (fuel : Nat) (t : DateTime) (ctr : Int) (its : List DateTime),
      complexLoop env r limit start range none fuel t ctr its ≠ some (.tooMany items) := by
  intro fuel
  induction fuel with
  | zero => intro t ctr its h; simp [complexLoop] at h
  | succ n ih =>
    intro t ctr its h
    rw [complexLoop] at h
    have he := setLoop_extends (env := env) (r := r) (limit := limit)
      (start := start) (range := range) (sortByPosix env (r.candidates env t)) ctr its
    revert h he
    cases setLoop env r limit start range none (sortByPosix env (r.candidates env t)) ctr its with
    | stop o =>
      intro h he
      simp only [Option.some.injEq] at h
      rw [h] at he; exact he
    | next c i =>
      intro h he
      simp only at h
      split at h
      · simp at h
      · exact ih _ _ _ h

theorem expandRaw_none_done {fuel : Nat} {off : Int} {items : List DateTime} :
    r.expandRaw env fuel start range off none ≠ some (.tooMany items) := by
  intro h
  unfold expandRaw at h
  split at h
  · exact simpleLoop_none _ _ _ _ _ h
  · unfold complexExpand at h
    split at h
    · simp at h
    · exact complexLoop_none _ _ _ _ h

/-- C55: on a new rule object, a call with `maxInstances = m > 0` raises exactly when the dates
found up to the end of the range (`cacheItems`: also those before the range) are more than `m`;
otherwise the answer is the one without `maxInstances`. -/
theorem C55_max (env : TzEnv) (r : Rule) (fuel : Nat) (start : DateTime) (range : Period)
    (off m : Int) (a : Answer) (c : Cache) (hm : 0 < m)
    (h : r.expand env fuel {} start range off none = some (a, c)) :
    (r.expand env fuel {} start range off (some m)).map (·.1) =
      some (if (c.items.length : Int) ≤ m then a else .tooMany) := by
  have e : ∀ max, r.expand env fuel {} start range off max =
      match r.expandRaw env fuel start.normalise range off max with
      | none => none
      | some (.tooMany items) => some (.tooMany, { ({} : Cache) with items := items })
      | some (.done items full) =>
        some (answer env range
          { cached := true, start := some start.normalise, upto := some range.stop, full := full,
            items := items },
          { cached := true, start := some start.normalise, upto := some range.stop, full := full,
            items := items }) := by
    intro max
    unfold expand
    simp only [Bool.false_and, Bool.false_eq_true, if_false, Bool.not_false, Bool.true_or, if_true]
    rcases r.expandRaw env fuel start.normalise range off max with _ | (_ | _) <;> rfl
  rw [e] at h ⊢
  cases hx : r.expandRaw env fuel start.normalise range off none with
  | none => rw [hx] at h; simp at h
  | some o =>
    cases o with
    | tooMany items => exact absurd hx expandRaw_none_done
    | done items full =>
      rw [hx] at h
      simp only [Option.some.injEq, Prod.mk.injEq] at h
      obtain ⟨rfl, rfl⟩ := h
      rw [expandRaw_capped (by omega) hx]
      unfold capped
      by_cases hc : (items.length : Int) ≤ m
      · rw [if_pos (Or.inr hc)]
        simp [hc]
      · rw [if_neg (by rw [not_or]; exact ⟨by omega, hc⟩)]
        simp [hc]

/-! ## The cache -/

theorem setLoop_max {max : Option Int} : ∀ (l : List DateTime) (ctr : Int) (items : List DateTime),
    (∃ its, setLoop env r limit start range max l ctr items = .stop (.tooMany its)) ∨
    setLoop env r limit start range none l ctr items =
      setLoop env r limit start range max l ctr items := by
  intro l
  induction l with
  | nil => intro ctr items; exact Or.inr rfl
  | cons t l ih =>
    intro ctr items
    simp only [setLoop]
    rw [show exceeds none (items ++ [t]) = false from rfl]
    by_cases h : exceeds max (items ++ [t]) = true
    · simp only [h, if_true, Bool.false_eq_true, if_false]
      repeat' split
      all_goals first
        | exact ih _ _
        | exact Or.inr rfl
        | exact Or.inl ⟨_, rfl⟩
    · simp only [h, Bool.false_eq_true, if_false]
      repeat' split
      all_goals first
        | exact ih _ _
        | exact Or.inr rfl

theorem complexLoop_max {max : Option Int} {items' : List DateTime} {full : Bool} :
    ∀ (fuel : Nat) (t : DateTime) (ctr : Int) (items : List DateTime),
      complexLoop env r limit start range max fuel t ctr items = some (.done items' full) →
      complexLoop env r limit start range none fuel t ctr items = some (.done items' full) := by
  intro fuel
  induction fuel with
  | zero => intro t ctr items h; simp [complexLoop] at h
  | succ n ih =>
    intro t ctr items h
    rw [complexLoop] at h ⊢
    rcases setLoop_max (env := env) (r := r) (limit := limit) (start := start) (range := range)
      (max := max) (sortByPosix env (r.candidates env t)) ctr items with ⟨its, he⟩ | he
    · rw [he] at h; simp at h
    · rw [he]
      revert h
      cases setLoop env r limit start range max (sortByPosix env (r.candidates env t)) ctr items with
      | stop o => exact id
      | next c i =>
        simp only
        split
        · exact id
        · exact ih _ _ _

theorem expandRaw_complex (h : Good env K r start limit range) {fuel : Nat} {off : Int}
    {max : Option Int} {items : List DateTime} {full : Bool}
    (hl : limit = r.untilLimit start off none) (hb : r.hasBy = true)
    (hx : r.expandRaw env fuel start range off max = some (.done items full)) :
    ComplexResult env r limit start range items full := by
  have hn : r.complexExpand env fuel start range off none = some (.done items full) := by
    unfold expandRaw at hx
    simp only [hb, Bool.not_true, Bool.false_eq_true, if_false] at hx
    unfold complexExpand at hx ⊢
    split at hx
    · next hc => rw [if_pos hc]; exact hx
    · next hc => rw [if_neg hc]; exact complexLoop_max _ _ _ _ hx
  obtain ⟨i, f, e, hr⟩ := complexExpand_result h hl hn
  simp only [Outcome.done.injEq] at e
  obtain ⟨rfl, rfl⟩ := e
  exact hr

theorem ComplexResult.sub (h : Good env K r start limit range) {items : List DateTime} {full : Bool}
    (hx : ComplexResult env r limit start range items full) : ∀ t ∈ items, K t := by
  have hocc : ∀ N, ∀ t ∈ r.occ env start N, K t := by
    intro N t ht
    obtain ⟨k, _, hc⟩ := mem_occ.mp ht
    exact h.ordered.cand k t hc
  rcases hx with ⟨_, _, rfl, _⟩ | ⟨N, ⟨l1, x, l2, e, _, _, h1⟩ | ⟨_, rfl, _⟩⟩
  · simp
  · intro t ht
    apply hocc N
    rw [e]
    rcases h1 with ⟨_, _, rfl⟩ | ⟨_, _, _, rfl⟩ | ⟨_, _, _, _, _, rfl, _⟩
    · simp [List.mem_filter.mp ht |>.1]
    · simp [List.mem_filter.mp ht |>.1]
    · rw [List.mem_append, List.mem_singleton] at ht
      rcases ht with ht | rfl
      · simp [List.mem_filter.mp ht |>.1]
      · simp
  · intro t ht
    exact hocc N t (List.mem_filter.mp ht).1

/-- A complete expansion, or one that reaches as far as the range `q`, has the same dates in `q`
as an expansion made for `q`. -/
theorem ComplexResult.agree {p q : Period} (hp : Good env K r start limit p)
    (hq : Good env K r start limit q) {I J : List DateTime} {f g : Bool}
    (hI : ComplexResult env r limit start p I f) (hJ : ComplexResult env r limit start q J g)
    (hfar : f = true ∨ ¬ p.stop.lt env q.stop = true) :
    I.filter (fun t => q.isDateWithin env t) = J.filter (fun t => q.isDateWithin env t) := by
  classical
  have hwK : ∀ L : List DateTime, (∀ t ∈ L, K t) → L.filter (fun t => q.isDateWithin env t) =
      L.filter (fun t => q.isDateWithin env t && decide (K t)) := by
    intro L hL
    refine List.filter_congr fun t ht => ?_
    simp [hL t ht]
  rw [hwK I (hI.sub hp), hwK J (hJ.sub hq)]
  have hlt : ∀ t, (q.isDateWithin env t && decide (K t)) = true →
      t.lt env q.stop = true ∧ K t := by
    intro t ht
    rw [Bool.and_eq_true, within_iff, decide_eq_true_eq] at ht
    exact ⟨ht.1.2, ht.2⟩
  have hnear : ∀ t, (q.isDateWithin env t && decide (K t)) = true → ¬ (FarOff r t ∧ K t) := by
    intro t ht hf
    have h1 := hq.farAfter t hf
    have := (after_iff env q t).mpr (hlt t ht).1
    rw [h1] at this; simp at this
  obtain ⟨M, hM⟩ := result_filter hp hI (fun t => q.isDateWithin env t && decide (K t)) hnear (by
    intro hf t ht
    obtain ⟨h1, h2⟩ := hlt t ht
    rw [after_iff]
    exact lt_of_lt_not_lt hp.kind.transitive h2 hq.stopK hp.stopK h1
      (hfar.resolve_left (by simp [hf])))
  obtain ⟨N, hN⟩ := result_filter hq hJ (fun t => q.isDateWithin env t && decide (K t)) hnear (by
    intro _ t ht
    exact (after_iff env q t).mpr (hlt t ht).1)
  rw [hM (Max.max M N) (by omega), hN (Max.max M N) (by omega)]

/-- The dates of an answer. -/
def Answer.list : Answer → List DateTime
  | .dates l _ => l
  | .tooMany => []

/-- The queries for which the cache of a rule with BYxxx parts is transparent. -/
structure AskBy (env : TzEnv) (K : DateTime → Prop) (r : Rule) (s0 : DateTime) (off : Int)
    (start : DateTime) (range : Period) (off' : Int) : Prop where
  good : Good env K r start (r.untilLimit start off none) range
  same : SameKind start s0
  offset : off' = off

theorem reachable_complex {s0 : DateTime} {off : Int} (hb : r.hasBy = true) {c : Cache}
    (h : Reachable env r (fun s p o _ a => AskBy env K r s0 off s p o ∧ a ≠ .tooMany) c) :
    c.cached = true → ∃ s p, c.start = some s ∧ c.upto = some p.stop ∧
      AskBy env K r s0 off s p off ∧
      ComplexResult env r (r.untilLimit s off none) s p c.items c.full := by
  induction h with
  | new => intro h; simp at h
  | clear _ _ => intro h; simp [Cache.clear] at h
  | query fuel start range off' max _ hQ he ih =>
    obtain ⟨⟨hg, hs, rfl⟩, ha⟩ := hQ
    rcases expand_cases he with ⟨_, _, hx, _⟩ | ⟨items, full, ho, rfl, _⟩ | ⟨_, _, _, rfl, _⟩
    · exact absurd hx ha
    · intro _
      rw [normalise_of_valid hg.tame.valid] at ho ⊢
      exact ⟨start, range, rfl, rfl, ⟨hg, hs, rfl⟩, expandRaw_complex hg rfl hb ho⟩
    · exact ih

theorem transparent_complex (env : TzEnv) (K : DateTime → Prop) (r : Rule) (s0 : DateTime)
    (off : Int) (c c' : Cache) (fuel fuel' : Nat) (start : DateTime) (range : Period)
    (max : Option Int) (a a' : Answer) (hb : r.hasBy = true)
    (hr : c.cached = true → ∃ s p, c.start = some s ∧ c.upto = some p.stop ∧
      AskBy env K r s0 off s p off ∧
      ComplexResult env r (r.untilLimit s off none) s p c.items c.full)
    (hA : AskBy env K r s0 off start range off)
    (h : r.expand env fuel c start range off max = some (a, c')) (ha : a ≠ .tooMany)
    (h' : r.expandFresh env fuel' start range off = some a') : a.list = a'.list := by
  have hv := hA.good.tame.valid
  unfold expandFresh at h'
  simp only [Option.map_eq_some_iff] at h'
  obtain ⟨⟨a'', c''⟩, he, rfl⟩ := h'
  obtain ⟨J, g, hJ, hans⟩ : ∃ J g, ComplexResult env r (r.untilLimit start off none)
      start range J g ∧ a''.list = J.filter fun t => range.isDateWithin env t := by
    rcases expand_cases he with ⟨_, ho, _, _⟩ | ⟨items, full, ho, rfl, h1⟩ | ⟨hf, _⟩
    · exact absurd ho expandRaw_none_done
    · rw [normalise_of_valid hv] at ho
      exact ⟨items, full, expandRaw_complex hA.good rfl hb ho, by rw [h1]; rfl⟩
    · simp at hf
  rw [hans]
  rcases expand_cases h with ⟨_, _, hx, _⟩ | ⟨items, full, ho, rfl, h1⟩ | ⟨h1, h2, h3, rfl, h4⟩
  · exact absurd hx ha
  · rw [normalise_of_valid hv] at ho
    rw [h1]
    exact (expandRaw_complex hA.good rfl hb ho).agree hA.good hA.good hJ
      (Or.inr (not_lt_self _ _))
  · obtain ⟨s, p, hs, hp, hAs, hI⟩ := hr h1
    rw [hs, normalise_of_valid hv] at h2
    have heq : start.eq env s = true := by simpa [startDiffers] using h2
    have hk : SameKind start s := ⟨hA.same.1.trans hAs.same.1.symm,
      hA.same.2.1.trans hAs.same.2.1.symm, hA.same.2.2.trans hAs.same.2.2.symm⟩
    obtain rfl := eq_of_eq hk hv hAs.good.tame.valid heq
    rw [h4]
    refine hI.agree hAs.good hA.good hJ ?_
    rcases h3 with h3 | h3
    · exact Or.inl h3
    · rw [hp] at h3
      exact Or.inr (by simpa [tooShort] using h3)

/-- C30 (partial), rules with BYxxx parts: whatever queries were made before on the rule object,
for whatever starts and ranges, the dates returned are those a new object returns.

Needed: the conditions of `C54_exact_partial` for this query and the earlier ones, starts of one
kind and the same float offset, and no `TooManyInstancesError` before.  The `limited` flag, unlike
that of rules without BYxxx parts, can depend on the earlier queries: `C30_fails_limited`. -/
theorem C30_complex_partial (env : TzEnv) (K : DateTime → Prop) (r : Rule) (s0 : DateTime)
    (off : Int) (c c' : Cache) (fuel fuel' : Nat) (start : DateTime) (range : Period)
    (max : Option Int) (a a' : Answer) (hb : r.hasBy = true)
    (hr : Reachable env r (fun s p o _ a => AskBy env K r s0 off s p o ∧ a ≠ .tooMany) c)
    (hA : AskBy env K r s0 off start range off)
    (h : r.expand env fuel c start range off max = some (a, c')) (ha : a ≠ .tooMany)
    (h' : r.expandFresh env fuel' start range off = some a') : a.list = a'.list :=
  transparent_complex env K r s0 off c c' fuel fuel' start range max a a' hb (reachable_complex hb hr) hA h ha h'

/-- C30 fails: "on the first of the month until 15 February" is asked until April and then until
10 February: the second answer is marked as complete, while a new object marks it as limited. -/
theorem C30_fails_limited :
    ∃ (r : Rule) (start : DateTime) (p q : Period) (c : Cache) (L : List DateTime),
      r.expand .empty 100 {} start p = some (.dates L false, c) ∧
      r.expand .empty 100 c start q = some (.dates L false, c) ∧
      r.expandFresh .empty 100 start q 0 = some (.dates L true) ∧ L.length = 2 := by
  refine ⟨{ freq := .monthly, byMonthDay := [1], useUntil := true,
            untilDate := some (ofDate 2020 2 15) },
    ofDate 2020 1 1, .ofEnd (ofDate 2020 1 1) (ofDate 2020 4 1),
    .ofEnd (ofDate 2020 1 1) (ofDate 2020 2 10),
    { cached := true, start := some (ofDate 2020 1 1), upto := some (ofDate 2020 4 1), full := true,
      items := [ofDate 2020 1 1, ofDate 2020 2 1] }, [ofDate 2020 1 1, ofDate 2020 2 1], ?_⟩
  decide +kernel

/-! ## The conditions are met -/

/-- For date-only values, and in one zone, ranges that end before 2100 are near enough. -/
theorem far_of_year (hK : K = IsDate ∨ ∃ u z, K = InZone u z) (he : K range.stop)
    (hy : range.stop.year < 2100) (t : DateTime) (ht : K t) (h : 2100 ≤ t.year) :
    range.isDateAfter env t = true := by
  by_contra hc
  have hlt : t.lt env range.stop = true := (after_iff env range t).mp (by simpa using hc)
  have hdate : ¬ t.date.lt range.stop.date ∧ t.date ≠ range.stop.date := by
    constructor
    · unfold Date.lt date; simp only; omega
    · intro he
      have := congrArg Date.y he
      simp only [date] at this; omega
  unfold DateTime.lt at hlt
  rw [decide_eq_true_eq] at hlt
  rcases hK with rfl | ⟨u, z, rfl⟩
  · rw [show compare env t range.stop = cmpDate t range.stop by
      unfold IsDate at ht; simp [DateTime.compare, ht], cmpDate_lt] at hlt
    exact hdate.1 hlt
  · rw [show compare env t range.stop = cmpFields t range.stop by
      simp [DateTime.compare, ht.1, he.1, inZone_same ht he], cmpFields_lt] at hlt
    rcases hlt with h | ⟨h, _⟩
    · exact hdate.1 h
    · exact hdate.2 h

end

/-- The conditions of `C54_exact_partial` and `C30_complex_partial` are met: "every other week on
Monday and Thursday at nine and half past nine, until July" in UTC, asked for the year 2020. -/
example : let r : Rule := { freq := .weekly, interval := 2, byDay := [(0, 1), (0, 4)],
                            byMinutes := [0, 30], useUntil := true,
                            untilDate := some ⟨2020, 7, 1, 0, 0, 0, false, true, none⟩ }
    let start : DateTime := ⟨2020, 1, 6, 9, 0, 0, false, true, none⟩
    let range := Period.ofEnd ⟨2020, 1, 1, 0, 0, 0, false, true, none⟩
      ⟨2021, 1, 1, 0, 0, 0, false, true, none⟩
    AskBy .empty (InZone true none) r start 0 start range 0 ∧ r.hasBy = true ∧
    ∃ L, r.expandFresh .empty 100 start range 0 = some (.dates L false) ∧ L.length = 52 := by
  intro r start range
  have ht : Tame r start := by constructor <;> decide +kernel
  have hz : Kind .empty (InZone true none) := Or.inr (Or.inl ⟨true, none, rfl⟩)
  have he : InZone true none range.stop := by unfold InZone; decide +kernel
  refine ⟨⟨⟨ht, hz, by unfold InZone; decide +kernel, ?_, he, fun h => by simp [r] at h,
    steady_of_fixed ht (Or.inl rfl),
    fun _ t h1 h2 => far_of_year (Or.inr ⟨_, _, rfl⟩) he (by decide +kernel) t h1 h2⟩,
    ⟨rfl, rfl, rfl⟩, rfl⟩, by decide +kernel, ?_⟩
  · intro u hu
    have : u = ⟨2020, 7, 1, 0, 0, 0, false, true, none⟩ := by
      simpa [untilLimit, r, start, floating, tzIsFloat] using hu.symm
    rw [this]; unfold InZone; decide +kernel
  · have h2 : (r.expandFresh .empty 100 start range 0).map (fun a => (a.list.length,
        decide (a = .dates a.list false))) = some (52, true) := by decide +kernel
    simp only [Option.map_eq_some_iff, Prod.mk.injEq, decide_eq_true_eq] at h2
    obtain ⟨a, h3, h4, h5⟩ := h2
    exact ⟨a.list, by rw [h3, ← h5], h4⟩

end PyCal.Rule
