import Verif.Lemmas.Recurrence
import Mathlib.Tactic.Ring

/-!
# C28: expansion of recurrence rules without BYxxx parts

-/

namespace PyCal.Rule
open Spec DateTime Period

/-! ## The loop of `simpleExpand` -/

/-- Step `j` is within COUNT and UNTIL; the step `k` the loop started with is not tested. -/
def InLimits (env : TzEnv) (r : Rule) (limit : Option DateTime) (start : DateTime)
    (k j : Nat) : Prop :=
  (r.useCount = true → j = k ∨ ((r.existing start j).length : Int) < r.count) ∧
  (r.useCount = false → j = k ∨ pastUntil env limit (r.raw start j) = false)

/-- Why the loop, entered at step `k`, stopped before step `N`: the range is exhausted, COUNT is
reached, or UNTIL is passed. -/
def Stopped (env : TzEnv) (r : Rule) (limit : Option DateTime) (range : Period) (start : DateTime)
    (k N : Nat) (full : Bool) : Prop :=
  (full = false ∧ (r.raw start N).invalid = false ∧
    range.isDateAfter env (r.raw start N) = true ∧ InLimits env r limit start k N) ∨
  (full = true ∧ r.useCount = true ∧ r.count ≤ (r.existing start N).length) ∨
  (full = true ∧ r.useCount = false ∧ 0 < N ∧ (r.raw start N).invalid = false ∧
    pastUntil env limit (r.raw start N) = true)

/-- What holds for a step the loop took. -/
def Taken (env : TzEnv) (r : Rule) (limit : Option DateTime) (range : Period) (start : DateTime)
    (k j : Nat) : Prop :=
  range.isDateAfter env (r.raw start j) = false ∧ InLimits env r limit start k j

theorem InLimits.refl {env : TzEnv} {r : Rule} {limit : Option DateTime} {start : DateTime}
    {k : Nat} : InLimits env r limit start k k := ⟨fun _ => Or.inl rfl, fun _ => Or.inl rfl⟩

/-- Limits relative to a later entry point, which was tested. -/
theorem InLimits.shift {env : TzEnv} {r : Rule} {limit : Option DateTime} {start : DateTime}
    {k k' j : Nat} (h : InLimits env r limit start k' j)
    (hc : r.useCount = true → ((r.existing start k').length : Int) < r.count)
    (hu : r.useCount = false → pastUntil env limit (r.raw start k') = false) :
    InLimits env r limit start k j := by
  refine ⟨fun h1 => Or.inr ?_, fun h1 => Or.inr ?_⟩
  · rcases h.1 h1 with rfl | h2
    · exact hc h1
    · exact h2
  · rcases h.2 h1 with rfl | h2
    · exact hu h1
    · exact h2

theorem Stopped.shift {env : TzEnv} {r : Rule} {limit : Option DateTime} {range : Period}
    {start : DateTime} {k k' N : Nat} {full : Bool}
    (h : Stopped env r limit range start k' N full)
    (hc : r.useCount = true → ((r.existing start k').length : Int) < r.count)
    (hu : r.useCount = false → pastUntil env limit (r.raw start k') = false) :
    Stopped env r limit range start k N full := by
  rcases h with ⟨h1, h2, h3, h4⟩ | h | h
  · exact Or.inl ⟨h1, h2, h3, h4.shift hc hu⟩
  · exact Or.inr (Or.inl h)
  · exact Or.inr (Or.inr h)

theorem simpleLoop_spec {env : TzEnv} {r : Rule} {limit : Option DateTime} {range : Period}
    {start : DateTime} :
    ∀ (fuel k : Nat) (ctr : Int) (items : List DateTime) (full : Bool) (items' : List DateTime),
      (r.raw start k).invalid = false → items = r.existing start k →
      (r.useCount = true → ctr = items.length) →
      simpleLoop env r limit range none fuel (r.raw start k) ctr items
        = some (.done items' full) →
      ∃ N, k ≤ N ∧ items' = r.existing start N ∧ Stopped env r limit range start k N full ∧
        ∀ j, k ≤ j → j < N → (r.raw start j).invalid = false →
          Taken env r limit range start k j := by
  intro fuel
  induction fuel with
  | zero => intro k ctr items full items' _ _ _ h; simp [simpleLoop] at h
  | succ n ih =>
    intro k ctr items full items' hk hitems hctr h
    rw [simpleLoop] at h
    split at h
    · next hafter =>
      simp only [Option.some.injEq, Outcome.done.injEq] at h
      obtain ⟨rfl, rfl⟩ := h
      exact ⟨k, Nat.le_refl _, hitems, Or.inl ⟨rfl, hk, hafter, .refl⟩, fun j h1 h2 => by omega⟩
    next hafter =>
    simp only [Bool.not_eq_true] at hafter
    simp only [exceeds, Bool.false_eq_true, if_false] at h
    cases hn : r.nextValid n (r.raw start k) with
    | none => rw [hn] at h; simp at h
    | some t' =>
      rw [hn] at h
      simp only at h
      obtain ⟨k', hkk, rfl, hv', hgap⟩ := nextValid_spec n k t' hn
      have hex : r.existing start k' = items ++ [r.raw start k] := by
        rw [hitems]; exact existing_gap hkk hk hgap
      have hlen : ((items ++ [r.raw start k]).length : Int) = items.length + 1 := by simp
      -- what is known about the steps before `k'`
      have htaken : ∀ j, k ≤ j → j < k' → (r.raw start j).invalid = false → j = k := by
        intro j h1 h2 h3
        rcases (by omega : j = k ∨ k < j) with rfl | hlt
        · rfl
        · rw [hgap j hlt h2] at h3; simp at h3
      have hfirst : Taken env r limit range start k k := ⟨hafter, .refl⟩
      -- going on from `k'`
      have hgo : (r.useCount = true → ((r.existing start k').length : Int) < r.count) →
          (r.useCount = false → pastUntil env limit (r.raw start k') = false) →
          ∀ ctr', (r.useCount = true → ctr' = ((items ++ [r.raw start k]).length : Int)) →
          simpleLoop env r limit range none n (r.raw start k') ctr' (items ++ [r.raw start k])
            = some (.done items' full) →
          ∃ N, k ≤ N ∧ items' = r.existing start N ∧ Stopped env r limit range start k N full ∧
            ∀ j, k ≤ j → j < N → (r.raw start j).invalid = false →
              Taken env r limit range start k j := by
        intro hc hu ctr' hctr' h
        obtain ⟨N, hN, h1, h2, h3⟩ := ih k' ctr' _ full items' hv' hex.symm hctr' h
        refine ⟨N, by omega, h1, h2.shift hc hu, fun j hj hj' hji => ?_⟩
        rcases (by omega : j < k' ∨ k' ≤ j) with hl | hl
        · rw [htaken j hj hl hji]; exact hfirst
        · obtain ⟨a, b⟩ := h3 j hl hj' hji
          exact ⟨a, b.shift hc hu⟩
      split at h
      · next hc =>
        split at h
        · next hge =>
          simp only [Option.some.injEq, Outcome.done.injEq] at h
          obtain ⟨rfl, rfl⟩ := h
          refine ⟨k', by omega, hex.symm, Or.inr (Or.inl ⟨rfl, hc, ?_⟩), fun j h1 h2 h3 => ?_⟩
          · rw [hex, hlen, ← hctr hc]; exact hge
          · rw [htaken j h1 h2 h3]; exact hfirst
        · next hlt =>
          refine hgo (fun _ => ?_) (fun hc' => ?_) _ (fun _ => ?_) h
          · rw [hex, hlen, ← hctr hc]; omega
          · rw [hc] at hc'; simp at hc'
          · rw [hlen, hctr hc]
      · next hc =>
        simp only [Bool.not_eq_true] at hc
        split at h
        · next hu =>
          simp only [Option.some.injEq, Outcome.done.injEq] at h
          obtain ⟨rfl, rfl⟩ := h
          refine ⟨k', by omega, hex.symm, Or.inr (Or.inr ⟨rfl, hc, by omega, hv', hu⟩),
            fun j h1 h2 h3 => ?_⟩
          rw [htaken j h1 h2 h3]; exact hfirst
        · next hu =>
          simp only [Bool.not_eq_true] at hu
          exact hgo (fun hc' => by rw [hc] at hc'; simp at hc') (fun _ => hu) _
            (fun hc' => by rw [hc] at hc'; simp at hc') h

/-- Without `maxInstances` the loop does not raise. -/
theorem simpleLoop_none {env : TzEnv} {r : Rule} {limit : Option DateTime} {range : Period} :
    ∀ (fuel : Nat) (t : DateTime) (ctr : Int) (items items' : List DateTime),
      simpleLoop env r limit range none fuel t ctr items ≠ some (.tooMany items') := by
  intro fuel
  induction fuel with
  | zero => intro t ctr items items'; simp [simpleLoop]
  | succ n ih =>
    intro t ctr items items'
    rw [simpleLoop]
    simp only [exceeds, Bool.false_eq_true, if_false]
    repeat' split
    all_goals first | exact ih _ _ _ _ | simp

/-- The conditions under which everything is comparable: the start is a real date-time, it, the
range and the UNTIL limit are of one kind (`Period.Kind`), a date-only start is not stepped by
clock units, and the interval is positive. -/
structure Sound (env : TzEnv) (K : DateTime → Prop) (r : Rule) (start : DateTime)
    (limit : Option DateTime) : Prop where
  kind : Kind env K
  valid : start.Valid
  startK : K start
  limitK : ∀ u, limit = some u → K u
  dates : start.dateOnly = true → subDaily r.freq = false
  interval : 1 ≤ r.interval

theorem Sound.raw_K {env : TzEnv} {K : DateTime → Prop} {r : Rule} {start : DateTime}
    {limit : Option DateTime} (h : Sound env K r start limit) {k : Nat}
    (hk : (r.raw start k).invalid = false) : K (r.raw start k) :=
  kind_of_same h.kind (r.raw_kind start k) ((raw_valid_iff h.valid k).mp hk) h.startK

theorem Sound.raw_lt {env : TzEnv} {K : DateTime → Prop} {r : Rule} {start : DateTime}
    {limit : Option DateTime} (h : Sound env K r start limit) {i j : Nat} (hij : i < j)
    (hi : (r.raw start i).invalid = false) (hj : (r.raw start j).invalid = false) :
    (r.raw start i).lt env (r.raw start j) = true :=
  Rule.raw_lt h.valid h.dates h.interval hij ((raw_valid_iff h.valid i).mp hi)
    ((raw_valid_iff h.valid j).mp hj)

theorem Sound.after_mono {env : TzEnv} {K : DateTime → Prop} {r : Rule} {start : DateTime}
    {limit : Option DateTime} (h : Sound env K r start limit) {range : Period} (he : K range.stop)
    {i j : Nat} (hij : i ≤ j) (hi : (r.raw start i).invalid = false)
    (hj : (r.raw start j).invalid = false) (ha : range.isDateAfter env (r.raw start i) = true) :
    range.isDateAfter env (r.raw start j) = true := by
  rcases (by omega : i = j ∨ i < j) with rfl | hlt
  · exact ha
  · unfold isDateAfter at *
    rw [ge_iff] at *
    exact fun hc => ha (h.kind.transitive.lt_lt _ _ _ (h.raw_K hi) (h.raw_K hj) he
      (h.raw_lt hlt hi hj) hc)

theorem gt_iff (env : TzEnv) (a b : DateTime) : a.gt env b = true ↔ b.lt env a = true := by
  simp only [DateTime.gt, DateTime.lt, decide_eq_true_eq, compare_neg env a b]; omega

theorem Sound.until_mono {env : TzEnv} {K : DateTime → Prop} {r : Rule} {start : DateTime}
    {limit : Option DateTime} (h : Sound env K r start limit)
    {i j : Nat} (hij : i ≤ j) (hi : (r.raw start i).invalid = false)
    (hj : (r.raw start j).invalid = false) (ha : pastUntil env limit (r.raw start i) = true) :
    pastUntil env limit (r.raw start j) = true := by
  rcases (by omega : i = j ∨ i < j) with rfl | hlt
  · exact ha
  · cases hl : limit with
    | none => rw [hl] at ha; simp [pastUntil] at ha
    | some u =>
      rw [hl] at ha
      simp only [pastUntil, gt_iff] at *
      exact h.kind.transitive.lt_lt _ _ _ (h.limitK u hl) (h.raw_K hi) (h.raw_K hj) ha
        (h.raw_lt hlt hi hj)

/-- Steps within the limits, with a COUNT of at least one. -/
def Allowed (env : TzEnv) (r : Rule) (limit : Option DateTime) (start : DateTime) (k : Nat) :
    Prop :=
  (r.useCount = true → ((r.existing start k).length : Int) < r.count) ∧
  (r.useCount = false → k = 0 ∨ pastUntil env limit (r.raw start k) = false)

theorem InLimits.allowed {env : TzEnv} {r : Rule} {limit : Option DateTime} {start : DateTime}
    (hc : r.useCount = true → 1 ≤ r.count) {k : Nat} (h : InLimits env r limit start 0 k) :
    Allowed env r limit start k := by
  refine ⟨fun hu => ?_, h.2⟩
  rcases h.1 hu with rfl | hb
  · have := hc hu
    simp only [existing, List.range_zero, List.map_nil, List.filter_nil, List.length_nil]
    omega
  · exact hb

/-- Past COUNT or UNTIL there is nothing more. -/
theorem Sound.lt_of_allowed {env : TzEnv} {K : DateTime → Prop} {r : Rule} {start : DateTime}
    {limit : Option DateTime} (h : Sound env K r start limit) {k N : Nat}
    (hi : (r.raw start k).invalid = false) (ha : Allowed env r limit start k)
    (hstop : (r.useCount = true ∧ r.count ≤ (r.existing start N).length) ∨
      (r.useCount = false ∧ 0 < N ∧ (r.raw start N).invalid = false ∧
        pastUntil env limit (r.raw start N) = true)) : k < N := by
  rcases (by omega : k < N ∨ N ≤ k) with hlt | hle
  · exact hlt
  exfalso
  rcases hstop with ⟨h1, h2⟩ | ⟨h1, h0, h2, h3⟩
  · have h3 := ha.1 h1
    have h4 := existing_length_mono r start hle
    omega
  · rcases ha.2 h1 with rfl | hu
    · omega
    · rw [h.until_mono hle h2 hi h3] at hu; simp at hu

/-- Exactly the steps within the limits are taken. -/
theorem simple_mem {env : TzEnv} {K : DateTime → Prop} {r : Rule} {start : DateTime}
    {limit : Option DateTime} (h : Sound env K r start limit) {range : Period} (he : K range.stop)
    (hc : r.useCount = true → 1 ≤ r.count)
    {items : List DateTime} {full : Bool} {N : Nat} (hitems : items = r.existing start N)
    (hstop : Stopped env r limit range start 0 N full)
    (htake : ∀ j, 0 ≤ j → j < N → (r.raw start j).invalid = false →
      Taken env r limit range start 0 j) (t : DateTime) :
    t ∈ items ↔ ∃ k, t = r.raw start k ∧ t.invalid = false ∧
      (full = true ∨ range.isDateAfter env t = false) ∧ Allowed env r limit start k := by
  rw [hitems, mem_existing]
  constructor
  · rintro ⟨j, hj, rfl, hi⟩
    obtain ⟨a, b⟩ := htake j (by omega) hj hi
    exact ⟨j, rfl, hi, Or.inr a, b.allowed hc⟩
  · rintro ⟨k, rfl, hi, ha, hall⟩
    refine ⟨k, ?_, rfl, hi⟩
    rcases hstop with ⟨h0, h1, h2, _⟩ | ⟨_, h1⟩ | ⟨_, h1⟩
    · rcases (by omega : k < N ∨ N ≤ k) with hlt | hle
      · exact hlt
      · rcases ha with ha | ha
        · rw [h0] at ha; simp at ha
        · rw [h.after_mono he hle h1 hi h2] at ha; simp at ha
    · exact h.lt_of_allowed hi hall (Or.inl h1)
    · exact h.lt_of_allowed hi hall (Or.inr h1)

/-! ## C28 -/

/-- The UNTIL bound of a rule for a start: the UNTIL value itself, or for a floating start that
clock time moved by the float offset. -/
def UntilBound (r : Rule) (start : DateTime) (off : Int) (u : DateTime) : Prop :=
  r.useUntil = true ∧ ∃ w, r.untilDate = some w ∧
    (start.floating = false ∧ u = w ∨
     start.floating = true ∧ u.floating = true ∧ u.dateOnly = w.dateOnly ∧
       u.civil = (w.offsetSeconds off).civil)

theorem compare_floating {env : TzEnv} {t u v : DateTime} (hu : u.floating = true)
    (hv : v.floating = true) (hd : u.dateOnly = v.dateOnly) (hc : u.civil = v.civil) :
    DateTime.compare env t u = DateTime.compare env t v := by
  have e1 : ∀ w : DateTime, w.floating = true → tzSame t.utc t.tzid w.utc w.tzid = true := by
    intro w hw
    unfold tzSame
    have : tzIsFloat w.utc w.tzid = true := hw
    rw [this]; simp
  unfold DateTime.compare
  rw [e1 u hu, e1 v hv, hd]
  simp only [civil, DateTime.date, Time.mk.injEq, Date.mk.injEq] at hc
  obtain ⟨⟨h1, h2, h3⟩, h4, h5, h6⟩ := hc
  simp only [cmpDate, cmpFields, h1, h2, h3, h4, h5, h6, if_true]

theorem civil_normalise_congr {a b : DateTime} (h : a.civil = b.civil)
    (hd : a.dateOnly = b.dateOnly) : a.normalise.civil = b.normalise.civil := by
  simp only [civil, DateTime.date, Time.mk.injEq, Date.mk.injEq] at h
  obtain ⟨⟨h1, h2, h3⟩, h4, h5, h6⟩ := h
  simp only [civil, DateTime.date, normalise, h1, h2, h3, h4, h5, h6, hd]

theorem pastUntil_iff {env : TzEnv} {r : Rule} {start : DateTime} {off : Int} {z : Option TzId}
    (hz : tzTruthy z = false) (hu : r.useUntil = true → r.untilDate ≠ none) (t : DateTime) :
    pastUntil env (r.untilLimit start off z) t = false ↔
      ∀ u, UntilBound r start off u → t.gt env u = false := by
  unfold untilLimit
  by_cases huu : r.useUntil = true
  · simp only [huu, if_true]
    obtain ⟨w, hw⟩ : ∃ w, r.untilDate = some w := by
      have := hu huu
      cases h : r.untilDate with
      | none => exact absurd h this
      | some w => exact ⟨w, rfl⟩
    rw [hw]
    simp only [Option.map_some]
    by_cases hf : start.floating = true
    · simp only [hf, if_true, pastUntil]
      have hfl : (({ w with utc := false, tzid := z } : DateTime).offsetSeconds off).floating
          = true := by
        simp [floating, offsetSeconds, hz]
      have hcv : (({ w with utc := false, tzid := z } : DateTime).offsetSeconds off).civil
          = (w.offsetSeconds off).civil := by
        unfold offsetSeconds
        exact civil_normalise_congr rfl rfl
      constructor
      · rintro h u ⟨_, w', hw', ⟨h1, _⟩ | ⟨_, h2, h3, h4⟩⟩
        · rw [hf] at h1; simp at h1
        · rw [hw] at hw'
          simp only [Option.some.injEq] at hw'
          subst hw'
          unfold DateTime.gt at *
          rw [← h]
          rw [compare_floating h2 hfl h3 (h4.trans hcv.symm)]
      · intro h
        exact h _ ⟨huu, w, hw, Or.inr ⟨hf, hfl, rfl, hcv⟩⟩
    · simp only [hf, Bool.false_eq_true, if_false, pastUntil]
      simp only [Bool.not_eq_true] at hf
      constructor
      · rintro h u ⟨_, w', hw', ⟨_, h1⟩ | ⟨h1, _⟩⟩
        · rw [hw] at hw'
          simp only [Option.some.injEq] at hw'
          rw [h1, ← hw']; exact h
        · rw [hf] at h1; simp at h1
      · intro h
        exact h w ⟨huu, w, hw, Or.inl ⟨hf, rfl⟩⟩
  · simp only [huu, Bool.false_eq_true, if_false, pastUntil, true_iff]
    rintro u ⟨h, _⟩
    exact absurd h huu

/-- The fresh expansion of a rule: no earlier query on the object. -/
def expandFresh (env : TzEnv) (r : Rule) (fuel : Nat) (start : DateTime) (range : Period)
    (off : Int) : Option Answer :=
  (r.expand env fuel {} start range off none).map (·.1)

theorem expandFresh_simple {env : TzEnv} {r : Rule} {fuel : Nat} {start : DateTime} {range : Period}
    {off : Int} {L : List DateTime} {lim : Bool} (hv : start.Valid) (hb : r.hasBy = false)
    (h : r.expandFresh env fuel start range off = some (.dates L lim)) :
    ∃ items full N, L = items.filter (fun t => range.isDateWithin env t) ∧
      items = r.existing start N ∧
      Stopped env r (r.untilLimit start off (some (.fixed 0))) range start 0 N full ∧
      (∀ j, 0 ≤ j → j < N → (r.raw start j).invalid = false →
        Taken env r (r.untilLimit start off (some (.fixed 0))) range start 0 j) ∧
      lim = (!full || items.any fun t => !range.isDateWithin env t) := by
  unfold expandFresh expand at h
  simp only [normalise_of_valid hv, Bool.false_and, Bool.false_eq_true, if_false, Bool.not_false,
    Bool.true_or, if_true, expandRaw, hb, simpleExpand] at h
  cases hx : simpleLoop env r (r.untilLimit start off (some (.fixed 0))) range none fuel start 0 []
    with
  | none => rw [hx] at h; simp at h
  | some o =>
    rw [hx] at h
    cases o with
    | tooMany items => exact absurd hx (simpleLoop_none _ _ _ _ _)
    | done items full =>
      simp only [Option.map_some, Option.some.injEq, answer, Answer.dates.injEq] at h
      obtain ⟨h1, h2⟩ := h
      obtain ⟨N, _, h3, h4, h5⟩ := simpleLoop_spec (start := start) fuel 0 0 [] full items
        ((raw_valid_iff (r := r) hv 0).mpr hv) rfl (fun _ => rfl) hx
      exact ⟨items, full, N, h1.symm, h3, h4, h5, h2.symm⟩

/-- C28 (partial): the expansion over a range of a rule without BYxxx parts consists of exactly
those repetitions of the start that exist, lie in the range, are not after UNTIL and are among the
first COUNT existing ones; they come in strictly increasing order.

Needed: everything is of one kind (`Sound`), in particular a date-only start is not repeated
hourly, minutely or secondly; COUNT is at least 1; COUNT and UNTIL are not both given; the start is
not after UNTIL.  The claim fails without these, see `C28_fails_dates`, `C28_fails_until`; the
expansion may also not end, see `C28_fails_endless`. -/
theorem C28_exact_partial (env : TzEnv) (K : DateTime → Prop) (r : Rule) (fuel : Nat)
    (start : DateTime) (range : Period) (off : Int) (n : Nat) (L : List DateTime) (lim : Bool)
    (hb : r.Plain)
    (hs : Sound env K r start (r.untilLimit start off (some (.fixed 0)))) (he : K range.stop)
    (hn : r.interval = n) (hc : r.useCount = true → 1 ≤ r.count ∧ r.useUntil = false)
    (hu : r.useUntil = true → r.untilDate ≠ none)
    (hsu : ∀ u, UntilBound r start off u → start.gt env u = false)
    (h : r.expandFresh env fuel start range off = some (.dates L lim)) :
    (∀ t, t ∈ L ↔ ∃ k, t.SameKind start ∧ t.civil = repetition r.freq n start.civil k ∧
      t.civil.Valid ∧ range.isDateWithin env t = true ∧
      (∀ u, UntilBound r start off u → t.gt env u = false) ∧
      (r.useCount = true → (repetitionsBefore r.freq n start.civil k : Int) < r.count)) ∧
    L.Pairwise (fun a b => a.lt env b = true) := by
  obtain ⟨items, full, N, rfl, hitems, hstop, htake, _⟩ := expandFresh_simple hs.valid (hasBy_false_iff.mpr hb) h
  have hmem := simple_mem hs he (fun h => (hc h).1) hitems hstop htake
  refine ⟨fun t => ?_, ?_⟩
  · rw [List.mem_filter, hmem]
    simp only [← pastUntil_iff (r := r) (start := start) (off := off) (z := some (.fixed 0))
      (env := env) (by decide) hu] at hsu ⊢
    constructor
    · rintro ⟨⟨k, rfl, h1, h2, h3, h4⟩, h5⟩
      have hval := (raw_valid_iff (r := r) hs.valid k).mp h1
      refine ⟨k, r.raw_kind start k, raw_civil hs.valid hs.dates hn k, hval.1, h5, ?_, ?_⟩
      · by_cases hcu : r.useCount = true
        · simp [untilLimit, (hc hcu).2, pastUntil]
        · rcases h4 (by simpa using hcu) with rfl | h4
          · exact hsu
          · exact h4
      · intro hcu
        rw [← existing_length hs.valid hs.dates hn k]; exact h3 hcu
    · rintro ⟨k, h1, h2, h3, h4, h5, h6⟩
      have ht : t = r.raw start k := by
        refine eq_of_civil ?_ (h2.trans (raw_civil hs.valid hs.dates hn k).symm)
        have h7 := r.raw_kind start k
        exact ⟨h1.1.trans h7.1.symm, h1.2.1.trans h7.2.1.symm, h1.2.2.trans h7.2.2.symm⟩
      subst ht
      have hnear := raw_near (r := r) hs.valid k
      refine ⟨⟨k, rfl, (raw_valid_iff hs.valid k).mpr (hnear.2.2 h3.1), Or.inr ?_, fun hcu => ?_,
        fun _ => Or.inr h5⟩, h4⟩
      · unfold isDateWithin at h4
        unfold isDateAfter
        rw [Bool.and_eq_true] at h4
        rw [← Bool.not_eq_true, ge_iff, not_not]
        exact h4.2
      · rw [existing_length hs.valid hs.dates hn k]; exact h6 hcu
  · refine List.Pairwise.filter _ ?_
    rw [hitems]
    unfold existing
    rw [List.filter_map, List.pairwise_map]
    have hp : (List.range N).Pairwise (· < ·) := List.pairwise_lt_range
    refine List.Pairwise.imp_of_mem ?_ (hp.filter _)
    intro a b ha hb' hab
    rw [List.mem_filter] at ha hb'
    exact hs.raw_lt hab (by simpa using ha.2) (by simpa using hb'.2)

/-- Existing repetitions go on forever, unless the start is a 29 February of a year that is no
Gregorian leap year (1700, 1500, ...). -/
theorem exists_valid {r : Rule} {start : DateTime} (hv : start.Valid)
    (hleap : start.month = 2 → start.day = 29 → GregorianLeap start.year) (k : Nat) :
    ∃ k', k ≤ k' ∧ (r.raw start k').invalid = false := by
  have all : (∀ t, ∃ t', r.step t = normalise t') →
      ∃ k', k ≤ k' ∧ (r.raw start k').invalid = false := by
    intro h
    refine ⟨k + 1, by omega, (raw_valid_iff hv (k + 1)).mpr ?_⟩
    obtain ⟨t', h'⟩ := h (r.raw start k)
    rw [raw, h']
    exact normalise_valid _
  -- the same month and day, a multiple of 400 years away
  have far : ∀ (t : DateTime) (c : Int), t.year = start.year + 400 * c → t.month = start.month →
      t.day = start.day → t.date.Valid := by
    intro t c h1 h2 h3
    obtain ⟨h4, h5, h6, h7⟩ := hv.1.1
    simp only [civil, DateTime.date] at h4 h5 h6 h7
    refine ⟨by simpa [DateTime.date, h2] using h4, by simpa [DateTime.date, h2] using h5,
      by simpa [DateTime.date, h3] using h6, ?_⟩
    simp only [DateTime.date]
    rw [h1, h2, h3]
    unfold monthLen at *
    by_cases hm : start.month = 2
    · simp only [hm, if_true] at *
      by_cases hday : start.day = 29
      · have := hleap trivial hday
        have hl : Leap (start.year + 400 * c) := by
          unfold GregorianLeap at this; unfold Leap; omega
        rw [if_pos hl]; omega
      · split at h7 <;> split <;> omega
    · simp only [hm, if_false] at *
      exact h7
  cases hf : r.freq with
  | secondly => exact all fun t => ⟨_, by simp only [step, hf, recur]; rfl⟩
  | minutely => exact all fun t => ⟨_, by simp only [step, hf, recur]; rfl⟩
  | hourly => exact all fun t => ⟨_, by simp only [step, hf, recur]; rfl⟩
  | daily => exact all fun t => ⟨_, by simp only [step, hf, recur]; rfl⟩
  | weekly => exact all fun t => ⟨_, by simp only [step, hf, recur]; rfl⟩
  | monthly =>
    refine ⟨4800 * k, by omega, ?_⟩
    have hm := hv.month
    have e := raw_month (start := start) hf hm.1 hm.2 (4800 * k)
    have e' : ((4800 * k : Nat) : Int) * r.interval = 12 * (400 * (k * r.interval)) := by
      rw [show ((4800 * k : Nat) : Int) = 4800 * (k : Int) by omega]; ring
    rw [e'] at e
    have h1 := raw_near (r := r) hv (4800 * k)
    rw [invalid_iff h1.1 h1.2.1]
    refine far _ (k * r.interval) ?_ ?_ ?_
    · rw [e]; simp only; generalize (k : Int) * r.interval = a; omega
    · rw [e]; simp only; generalize (k : Int) * r.interval = a; omega
    · rw [e]
  | yearly =>
    refine ⟨4800 * k, by omega, ?_⟩
    have e := raw_year (start := start) hf (4800 * k)
    have e' : ((4800 * k : Nat) : Int) * r.interval = 400 * (12 * (k * r.interval)) := by
      rw [show ((4800 * k : Nat) : Int) = 4800 * (k : Int) by omega]; ring
    rw [e'] at e
    have h1 := raw_near (r := r) hv (4800 * k)
    rw [invalid_iff h1.1 h1.2.1]
    exact far _ (12 * (k * r.interval)) (by rw [e]) (by rw [e]) (by rw [e])

theorem exists_many {r : Rule} {start : DateTime} (hv : start.Valid)
    (hleap : start.month = 2 → start.day = 29 → GregorianLeap start.year) (m : Nat) :
    ∃ k, (r.raw start k).invalid = false ∧ m ≤ (r.existing start k).length := by
  induction m with
  | zero => exact ⟨0, (raw_valid_iff (r := r) hv 0).mpr hv, Nat.zero_le _⟩
  | succ m ih =>
    obtain ⟨k, h1, h2⟩ := ih
    obtain ⟨k', h3, h4⟩ := exists_valid (r := r) hv hleap (k + 1)
    refine ⟨k', h4, ?_⟩
    have h5 := existing_length_mono r start h3
    rw [existing_succ, h1, List.length_append] at h5
    simp at h5
    omega

/-- An integer measure that grows along the existing repetitions is unbounded. -/
theorem exists_above {r : Rule} {start : DateTime} (hv : start.Valid)
    (hleap : start.month = 2 → start.day = 29 → GregorianLeap start.year) (f : DateTime → Int)
    (hf : ∀ i j, i < j → (r.raw start i).invalid = false → (r.raw start j).invalid = false →
      f (r.raw start i) < f (r.raw start j)) (b : Int) :
    ∃ k, (r.raw start k).invalid = false ∧ b ≤ f (r.raw start k) := by
  have key : ∀ k, (r.raw start k).invalid = false →
      f start + (r.existing start k).length ≤ f (r.raw start k) := by
    intro k
    induction k using Nat.strong_induction_on with
    | _ k ih =>
      intro hk
      by_cases hex : ∃ j, j < k ∧ (r.raw start j).invalid = false ∧
          ∀ i, j < i → i < k → (r.raw start i).invalid = true
      · obtain ⟨j, hj, hjv, hg⟩ := hex
        have h1 := ih j hj hjv
        have h2 := hf j k hj hjv hk
        rw [existing_gap hj hjv hg, List.length_append]
        simp; omega
      · -- only `k = 0` has no existing predecessor
        have h0 : k = 0 := by
          by_contra hne
          have hall : ∀ m, m ≤ k → m ≠ 0 →
              ∀ i, k - m ≤ i → i < k → (r.raw start i).invalid = true := by
            intro m
            induction m with
            | zero => intro _ h; exact absurd rfl h
            | succ m ihm =>
              intro hm _ i hi hik
              rcases (by omega : i = k - (m + 1) ∨ k - m ≤ i) with rfl | hi'
              · by_contra hc
                simp only [Bool.not_eq_true] at hc
                refine hex ⟨k - (m + 1), by omega, hc, fun i hi1 hi2 => ?_⟩
                exact ihm (by omega) (by omega) i (by omega) hi2
              · exact ihm (by omega) (by omega) i hi' hik
          have := hall k (Nat.le_refl _) hne 0 (by omega) (by omega)
          rw [(raw_valid_iff (r := r) hv 0).mpr hv] at this
          simp at this
        subst h0
        simp [existing, raw]
  obtain ⟨k, h1, h2⟩ := exists_many (r := r) hv hleap (b - f start).toNat
  exact ⟨k, h1, by have := key k h1; omega⟩

/-- Some repetition is at or after the end of the range. -/
theorem Sound.exists_after {env : TzEnv} {K : DateTime → Prop} {r : Rule} {start : DateTime}
    {limit : Option DateTime} (h : Sound env K r start limit)
    (hleap : start.month = 2 → start.day = 29 → GregorianLeap start.year) {range : Period}
    (he : K range.stop) :
    ∃ k, (r.raw start k).invalid = false ∧ range.isDateAfter env (r.raw start k) = true := by
  -- a year beyond that of the end of the range
  have year : ∃ k, (r.raw start k).invalid = false ∧ range.stop.year < (r.raw start k).year := by
    obtain ⟨k, h1, h2⟩ := exists_above (r := r) h.valid hleap (fun t => timeNum t.civil)
      (fun i j hij hi hj => raw_mono h.valid h.dates h.interval hij
        ((raw_valid_iff h.valid i).mp hi) ((raw_valid_iff h.valid j).mp hj))
      ((365 * (range.stop.year + 1) + leapsBefore (range.stop.year + 1) + 2) * 86400)
    refine ⟨k, h1, ?_⟩
    have hval := (raw_valid_iff h.valid k).mp h1
    by_contra hc
    have hb := (dayNum_bounds hval.ymd).2
    have hm := yearStart_mono (y := (r.raw start k).year) (y' := range.stop.year + 1) (by omega)
    obtain ⟨⟨_, _⟩, _⟩ := hval
    simp only [timeNum, civil, DateTime.date] at *
    omega
  have fields : (∀ t, K t → t.year > range.stop.year → ¬ t.lt env range.stop = true) →
      ∃ k, (r.raw start k).invalid = false ∧ range.isDateAfter env (r.raw start k) = true := by
    intro hlt
    obtain ⟨k, h1, h2⟩ := year
    exact ⟨k, h1, by unfold isDateAfter; rw [ge_iff]; exact hlt _ (h.raw_K h1) h2⟩
  rcases h.kind with hK | ⟨u, z, hK⟩ | ⟨hK, hr⟩
  · refine fields fun t ht hy => ?_
    rw [hK] at ht he
    rw [(C17_dates_partial env).2 _ _ ht he |>.1]
    unfold Date.lt; simp only [DateTime.date]; omega
  · refine fields fun t ht hy => ?_
    rw [hK] at ht he
    have hc : DateTime.compare env t range.stop = cmpFields t range.stop := by
      unfold DateTime.compare
      rw [ht.1, he.1, inZone_same ht he]; rfl
    unfold DateTime.lt
    rw [hc, decide_eq_true_eq, cmpFields_lt]
    unfold FieldsLt Date.lt
    simp only [DateTime.date, Date.mk.injEq]; omega
  · rw [hK] at he
    have hmono : ∀ i j, i < j → (r.raw start i).invalid = false →
        (r.raw start j).invalid = false →
        (r.raw start i).posix env < (r.raw start j).posix env := by
      intro i j hij hi hj
      have h1 := h.raw_K hi
      have h2 := h.raw_K hj
      rw [hK] at h1 h2
      exact ((C17_instants_partial env hr).2 _ _ h1 h2).1.mp (h.raw_lt hij hi hj)
    obtain ⟨k, h1, h2⟩ := exists_above (r := r) h.valid hleap (DateTime.posix env) hmono
      (range.stop.posix env)
    refine ⟨k, h1, ?_⟩
    have h3 := h.raw_K h1
    rw [hK] at h3
    unfold isDateAfter
    rw [ge_iff, ((C17_instants_partial env hr).2 _ _ h3 he).1]
    omega

theorem nextValid_ends {r : Rule} {start : DateTime} {M : Nat}
    (hM : (r.raw start M).invalid = false) :
    ∀ (fuel k : Nat), k < M → M - k ≤ fuel →
      ∃ t, r.nextValid fuel (r.raw start k) = some t := by
  intro fuel
  induction fuel with
  | zero => intro k h1 h2; omega
  | succ n ih =>
    intro k h1 h2
    rw [nextValid]
    split
    · next hi =>
      rcases (by omega : k + 1 = M ∨ k + 1 < M) with rfl | hlt
      · rw [raw] at hM; rw [hM] at hi; simp at hi
      · exact ih (k + 1) hlt (by omega)
    · exact ⟨_, rfl⟩

theorem simpleLoop_ends {env : TzEnv} {r : Rule} {limit : Option DateTime} {range : Period}
    {start : DateTime} {M : Nat} (hM : (r.raw start M).invalid = false)
    (ha : range.isDateAfter env (r.raw start M) = true) :
    ∀ (fuel k : Nat) (ctr : Int) (items : List DateTime), k ≤ M → M - k + 1 ≤ fuel →
      ∃ o, simpleLoop env r limit range none fuel (r.raw start k) ctr items = some o := by
  intro fuel
  induction fuel with
  | zero => intro k ctr items h1 h2; omega
  | succ n ih =>
    intro k ctr items h1 h2
    rw [simpleLoop]
    split
    · exact ⟨_, rfl⟩
    · next hna =>
      have hlt : k < M := by
        rcases (by omega : k = M ∨ k < M) with rfl | hlt
        · exact absurd ha hna
        · exact hlt
      simp only [exceeds, Bool.false_eq_true, if_false]
      obtain ⟨t, ht⟩ := nextValid_ends hM n k hlt (by omega)
      obtain ⟨k', h3, rfl, _, h4⟩ := nextValid_spec n k t ht
      have hk' : k' ≤ M := by
        by_contra hc
        have := h4 M hlt (by omega)
        rw [hM] at this; simp at this
      rw [ht]
      simp only
      repeat' split
      all_goals first | exact ⟨_, rfl⟩ | exact ih k' _ _ hk' (by omega)

/-- C28 (partial): under the same conditions the expansion ends, provided a start on 29 February
is in a Gregorian leap year (see `C28_fails_endless`). -/
theorem C28_ends_partial (env : TzEnv) (K : DateTime → Prop) (r : Rule)
    (start : DateTime) (range : Period) (off : Int) (hb : r.hasBy = false)
    (hs : Sound env K r start (r.untilLimit start off (some (.fixed 0)))) (he : K range.stop)
    (hleap : start.month = 2 → start.day = 29 → GregorianLeap start.year) :
    ∃ fuel L lim, r.expandFresh env fuel start range off = some (.dates L lim) := by
  obtain ⟨M, hM, ha⟩ := hs.exists_after hleap he
  obtain ⟨o, ho⟩ := simpleLoop_ends (limit := r.untilLimit start off (some (.fixed 0))) hM ha
    (M + 1) 0 0 [] (by omega) (by omega)
  rw [raw] at ho
  refine ⟨M + 1, ?_⟩
  unfold expandFresh expand
  simp only [normalise_of_valid hs.valid, Bool.false_and, Bool.false_eq_true, if_false,
    Bool.not_false, Bool.true_or, if_true, expandRaw, hb, simpleExpand, ho]
  cases o with
  | tooMany items => exact absurd ho (simpleLoop_none _ _ _ _ _)
  | done items full => exact ⟨_, _, rfl⟩

/-- C28 fails: a start after UNTIL is returned all the same. -/
theorem C28_fails_until :
    ∃ (r : Rule) (start u : DateTime) (range : Period), r.hasBy = false ∧ start.Valid ∧
      r.useUntil = true ∧ r.untilDate = some u ∧ u.lt .empty start = true ∧
      r.expandFresh .empty 2 start range 0 = some (.dates [start] false) :=
  ⟨{ freq := .daily, useUntil := true, untilDate := some ⟨2020, 1, 1, 0, 0, 0, false, true, none⟩ },
    ⟨2020, 1, 2, 0, 0, 0, false, true, none⟩, ⟨2020, 1, 1, 0, 0, 0, false, true, none⟩,
    .ofEnd ⟨2020, 1, 1, 0, 0, 0, false, true, none⟩ ⟨2021, 1, 1, 0, 0, 0, false, true, none⟩,
    by decide +kernel⟩

/-- C28 fails: a date-only start repeated hourly stays on its date, which is returned again and
again. -/
theorem C28_fails_dates :
    ∃ (r : Rule) (start : DateTime) (range : Period), r.hasBy = false ∧ start.Valid ∧
      r.freq = .hourly ∧ r.interval = 1 ∧ r.count = 3 ∧
      r.expandFresh .empty 4 start range 0 = some (.dates [start, start, start] false) :=
  ⟨{ freq := .hourly, useCount := true, count := 3 }, ofDate 2020 1 2,
    .ofEnd (ofDate 2020 1 1) (ofDate 2021 1 1), by decide +kernel⟩

/-- C28 fails: a yearly repetition every 400 years of 29 February 1700 (a leap day under the
Julian rule the library uses up to 1752) never finds another leap day and does not end. -/
theorem C28_fails_endless :
    ∃ (r : Rule) (start : DateTime) (range : Period), r.hasBy = false ∧ start.Valid ∧
      r.freq = .yearly ∧ r.interval = 400 ∧ start.date = ⟨1700, 2, 29⟩ ∧
      ∀ fuel, r.expandFresh .empty fuel start range 0 = none := by
  refine ⟨{ freq := .yearly, interval := 400 }, ofDate 1700 2 29,
    .ofEnd (ofDate 1700 1 1) (ofDate 1701 1 1), by decide +kernel, by decide +kernel, rfl, rfl, rfl,
    fun fuel => ?_⟩
  have hv : (ofDate 1700 2 29).Valid := by decide +kernel
  have hinv : ∀ k, 1 ≤ k →
      (raw { freq := .yearly, interval := 400 } (ofDate 1700 2 29) k).invalid = true := by
    intro k hk
    have hnear := raw_near (r := { freq := .yearly, interval := 400 }) hv k
    rw [← Bool.not_eq_false, invalid_iff hnear.1 hnear.2.1]
    rw [raw_year rfl]
    have hl : ¬ Leap (1700 + (k : Int) * 400) := by unfold Leap; omega
    rintro ⟨_, _, _, h4⟩
    change 29 ≤ monthLen (1700 + (k : Int) * 400) 2 at h4
    rw [monthLen, if_pos rfl, if_neg hl] at h4
    omega
  have hnv : ∀ n k, nextValid { freq := .yearly, interval := 400 } n
      (raw { freq := .yearly, interval := 400 } (ofDate 1700 2 29) k) = none := by
    intro n k
    cases h : nextValid { freq := .yearly, interval := 400 } n
      (raw { freq := .yearly, interval := 400 } (ofDate 1700 2 29) k) with
    | none => rfl
    | some t =>
      obtain ⟨k', h1, h2, h3, _⟩ := nextValid_spec n k t h
      rw [h2, hinv k' (by omega)] at h3; simp at h3
  have hloop : ∀ n, simpleLoop .empty { freq := .yearly, interval := 400 } none
      (.ofEnd (ofDate 1700 1 1) (ofDate 1701 1 1)) none n (ofDate 1700 2 29) 0 [] = none := by
    intro n
    cases n with
    | zero => rfl
    | succ n =>
      rw [simpleLoop]
      have h0 := hnv n 0
      rw [raw] at h0
      rw [h0, if_neg (by decide +kernel)]
      rfl
  unfold expandFresh expand
  simp only [normalise_of_valid hv, Bool.false_and, Bool.false_eq_true, if_false, Bool.not_false,
    Bool.true_or, if_true, expandRaw]
  rw [show hasBy { freq := .yearly, interval := 400 } = false by decide]
  simp only [Bool.not_false, if_true, simpleExpand]
  rw [show untilLimit { freq := .yearly, interval := 400 } (ofDate 1700 2 29) 0 (some (.fixed 0))
    = none from rfl, hloop]
  rfl

/-- The conditions of `C28_exact_partial` are met: monthly on the 31st, three times, in UTC.
February, April and June are skipped. -/
example : let r : Rule := { freq := .monthly, useCount := true, count := 4 }
    let start : DateTime := ⟨2020, 1, 31, 9, 0, 0, false, true, none⟩
    let range : Period := .ofEnd ⟨2020, 2, 1, 0, 0, 0, false, true, none⟩
      ⟨2022, 1, 1, 0, 0, 0, false, true, none⟩
    Sound .empty (InZone true none) r start (r.untilLimit start 0 (some (.fixed 0))) ∧
    r.Plain ∧
    r.expandFresh .empty 20 start range 0 = some (.dates
      [⟨2020, 3, 31, 9, 0, 0, false, true, none⟩, ⟨2020, 5, 31, 9, 0, 0, false, true, none⟩,
       ⟨2020, 7, 31, 9, 0, 0, false, true, none⟩] true) :=
  ⟨⟨Or.inr (Or.inl ⟨true, none, rfl⟩), by decide +kernel, by unfold InZone; decide +kernel,
    fun u h => by simp [untilLimit] at h, fun h => by simp at h, by decide⟩, by simp [Plain],
    by decide +kernel⟩

end PyCal.Rule
