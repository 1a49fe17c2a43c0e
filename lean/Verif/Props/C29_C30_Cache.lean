import Verif.Props.C28_Expansion

/-!
# C29, C30: limits of an expansion, and the cache

* C29 COUNT and UNTIL bound what is returned, whatever was asked before.
* C30 the answer does not depend on earlier questions.
-/

namespace PyCal.Rule
open Spec DateTime Period

/-- The caches a rule can have after queries (each with some amount of fuel) that, with
their answers, satisfy `Q`, and `clear`s, starting with a new object. -/
inductive Reachable (env : TzEnv) (r : Rule)
    (Q : DateTime → Period → Int → Option Int → Answer → Prop) : Cache → Prop
  | new : Reachable env r Q {}
  | query {c c' : Cache} {a : Answer} (fuel : Nat) (start : DateTime) (range : Period) (off : Int)
      (max : Option Int) : Reachable env r Q c → Q start range off max a →
      r.expand env fuel c start range off max = some (a, c') → Reachable env r Q c'
  | clear {c : Cache} : Reachable env r Q c → Reachable env r Q c.clear

/-- The cases of `expand`. -/
theorem expand_cases {env : TzEnv} {r : Rule} {fuel : Nat} {c c' : Cache} {start : DateTime}
    {range : Period} {off : Int} {max : Option Int} {a : Answer}
    (h : r.expand env fuel c start range off max = some (a, c')) :
    (∃ items, r.expandRaw env fuel start.normalise range off max = some (.tooMany items) ∧
      a = .tooMany ∧ c'.items = items ∧ c'.start = c.start ∧ c'.upto = c.upto ∧
      (c'.cached = true → c.cached = true)) ∨
    (∃ items full, r.expandRaw env fuel start.normalise range off max = some (.done items full) ∧
      c' = { cached := true, start := some start.normalise, upto := some range.stop, full := full,
             items := items } ∧ a = answer env range c') ∨
    (c.cached = true ∧ startDiffers env start.normalise c.start = false ∧
      (c.full = true ∨ tooShort env range c.upto = false) ∧ c' = c ∧ a = answer env range c) := by
  unfold expand at h
  simp only at h
  generalize hc0 : (if (c.cached && startDiffers env start.normalise c.start) = true then
    { c with cached := false, full := false } else c) = c0 at h
  have h0 : c0.start = c.start ∧ c0.upto = c.upto ∧ (c0.cached = true → c.cached = true) ∧
      (c0.cached = true → startDiffers env start.normalise c.start = false ∧ c0 = c) := by
    subst hc0
    split
    · simp
    · next hn =>
      refine ⟨rfl, rfl, id, fun hc => ⟨?_, rfl⟩⟩
      simpa [hc] using hn
  split at h
  · next hfresh =>
    split at h
    · simp at h
    · next items ho =>
      simp only [Option.some.injEq, Prod.mk.injEq] at h
      obtain ⟨rfl, rfl⟩ := h
      exact Or.inl ⟨items, ho, rfl, rfl, h0.1, h0.2.1, h0.2.2.1⟩
    · next items full ho =>
      simp only [Option.some.injEq, Prod.mk.injEq] at h
      obtain ⟨rfl, rfl⟩ := h
      exact Or.inr (Or.inl ⟨items, full, ho, rfl, rfl⟩)
  · next hold =>
    simp only [Option.some.injEq, Prod.mk.injEq] at h
    obtain ⟨rfl, rfl⟩ := h
    refine Or.inr (Or.inr ?_)
    rw [Bool.or_eq_true, not_or] at hold
    have hc : c0.cached = true := by simpa using hold.1
    obtain ⟨h1, rfl⟩ := h0.2.2.2 hc
    refine ⟨hc, h1, ?_, rfl, rfl⟩
    have := hold.2
    cases hf : c0.full with
    | true => exact Or.inl rfl
    | false => exact Or.inr (by simpa [hf] using this)

/-! ## C29 -/

/-- The list a loop ends with. -/
def Outcome.list : Outcome → List DateTime
  | .done items _ => items
  | .tooMany items => items

theorem simpleLoop_count {env : TzEnv} {r : Rule} {limit : Option DateTime} {range : Period}
    {max : Option Int} (hc : r.useCount = true) :
    ∀ (fuel : Nat) (t : DateTime) (ctr : Int) (items : List DateTime) (o : Outcome),
      ctr = items.length → ctr < r.count →
      simpleLoop env r limit range max fuel t ctr items = some o →
      (o.list.length : Int) ≤ r.count := by
  intro fuel
  induction fuel with
  | zero => intro t ctr items o _ _ h; simp [simpleLoop] at h
  | succ n ih =>
    intro t ctr items o h1 h2 h
    have hlen : ((items ++ [t]).length : Int) = items.length + 1 := by simp
    rw [simpleLoop] at h
    split at h
    · cases h; simp only [Outcome.list]; omega
    · split at h
      · cases h; simp only [Outcome.list]; omega
      · split at h
        · simp at h
        · try simp only [hc, if_true] at h
          split at h
          · cases h; simp only [Outcome.list]; omega
          · exact ih _ _ _ o (by omega) (by omega) h

theorem setLoop_count {env : TzEnv} {r : Rule} {limit : Option DateTime} {start : DateTime}
    {range : Period} {max : Option Int} (hc : r.useCount = true) :
    ∀ (ts : List DateTime) (ctr : Int) (items : List DateTime),
      ctr = items.length + 1 → ctr < r.count →
      (∀ o, setLoop env r limit start range max ts ctr items = .stop o →
        (o.list.length : Int) < r.count) ∧
      (∀ ctr' items', setLoop env r limit start range max ts ctr items = .next ctr' items' →
        ctr' = items'.length + 1 ∧ ctr' < r.count) := by
  intro ts
  induction ts with
  | nil =>
    intro ctr items h1 h2
    refine ⟨fun o h => by simp [setLoop] at h, fun ctr' items' h => ?_⟩
    simp only [setLoop, SetResult.next.injEq] at h
    rw [← h.1, ← h.2]; exact ⟨h1, h2⟩
  | cons t ts ih =>
    intro ctr items h1 h2
    have hlen : ((items ++ [t]).length : Int) = items.length + 1 := by simp
    rw [setLoop]
    split
    · exact ih _ _ h1 h2
    · split
      · refine ⟨fun o h => ?_, fun _ _ h => by simp at h⟩
        cases h; simp only [Outcome.list]; omega
      · split
        · refine ⟨fun o h => ?_, fun _ _ h => by simp at h⟩
          cases h; simp only [Outcome.list]; omega
        · split
          · exact ih _ _ h1 h2
          · split
            · refine ⟨fun o h => ?_, fun _ _ h => by simp at h⟩
              cases h; simp only [Outcome.list]; omega
            · try simp only [hc, if_true]
              split
              · refine ⟨fun o h => ?_, fun _ _ h => by simp at h⟩
                cases h; simp only [Outcome.list]; omega
              · exact ih _ _ (by omega) (by omega)

theorem complexLoop_count {env : TzEnv} {r : Rule} {limit : Option DateTime} {start : DateTime}
    {range : Period} {max : Option Int} (hc : r.useCount = true) :
    ∀ (fuel : Nat) (t : DateTime) (ctr : Int) (items : List DateTime) (o : Outcome),
      ctr = items.length + 1 → ctr < r.count →
      complexLoop env r limit start range max fuel t ctr items = some o →
      (o.list.length : Int) < r.count := by
  intro fuel
  induction fuel with
  | zero => intro t ctr items o _ _ h; simp [complexLoop] at h
  | succ n ih =>
    intro t ctr items o h1 h2 h
    rw [complexLoop] at h
    have hs := setLoop_count (env := env) (limit := limit) (start := start) (range := range)
      (max := max) hc (sortByPosix env (r.candidates env t)) ctr items h1 h2
    split at h
    · next o' ho =>
      cases h
      exact hs.1 _ ho
    · next ctr' items' ho =>
      have := hs.2 _ _ ho
      split at h
      · cases h; simp only [Outcome.list]; omega
      · exact ih _ _ _ o this.1 this.2 h

theorem expandRaw_count {env : TzEnv} {r : Rule} {fuel : Nat} {start : DateTime} {range : Period}
    {off : Int} {max : Option Int} {o : Outcome} (hc : r.useCount = true) (h1 : 1 ≤ r.count)
    (h : r.expandRaw env fuel start range off max = some o) : (o.list.length : Int) ≤ r.count := by
  unfold expandRaw at h
  split at h
  · exact simpleLoop_count hc fuel start 0 [] o (by simp) (by omega) h
  · unfold complexExpand at h
    split at h
    · cases h; simp only [Outcome.list, List.length_nil]; omega
    · next hn =>
      have hlt : ¬ (1 ≥ r.count) := by simpa [hc] using hn
      try simp only [hc, if_true] at h
      have := complexLoop_count hc fuel start 1 [] o (by simp) (by omega) h
      omega

theorem reachable_count {env : TzEnv} {r : Rule}
    {Q : DateTime → Period → Int → Option Int → Answer → Prop} (hc : r.useCount = true) (h1 : 1 ≤ r.count)
    {c : Cache} (h : Reachable env r Q c) : (c.items.length : Int) ≤ r.count := by
  induction h with
  | new => simp only [List.length_nil]; omega
  | clear _ _ => simp only [Cache.clear, List.length_nil]; omega
  | query fuel start range off max _ _ he ih =>
    rcases expand_cases he with ⟨items, ho, _, hi, _⟩ | ⟨items, full, ho, rfl, _⟩ | ⟨_, _, _, rfl, _⟩
    · rw [hi]; exact expandRaw_count hc h1 ho
    · exact expandRaw_count hc h1 ho
    · exact ih

/-- C29, COUNT: however often and with whatever starts, ranges, offsets and instance limits a rule
with `COUNT = n ≥ 1` has been expanded before, an expansion returns at most `n` dates. -/
theorem C29_count (env : TzEnv) (r : Rule) (c c' : Cache) (fuel : Nat) (start : DateTime)
    (range : Period) (off : Int) (max : Option Int) (L : List DateTime) (lim : Bool)
    (hc : r.useCount = true) (h1 : 1 ≤ r.count) (hr : Reachable env r (fun _ _ _ _ _ => True) c)
    (h : r.expand env fuel c start range off max = some (.dates L lim, c')) :
    (L.length : Int) ≤ r.count := by
  have hr' : Reachable env r (fun _ _ _ _ _ => True) c' := .query _ _ _ _ _ hr trivial h
  have hlen := reachable_count hc h1 hr'
  have hle : L.length ≤ c'.items.length := by
    rcases expand_cases h with ⟨_, _, ha, _⟩ | ⟨items, full, _, rfl, ha⟩ | ⟨_, _, _, rfl, ha⟩
    · simp at ha
    · simp only [answer, Answer.dates.injEq] at ha
      rw [ha.1]; exact List.length_filter_le _ _
    · simp only [answer, Answer.dates.injEq] at ha
      rw [ha.1]; exact List.length_filter_le _ _
  omega

/-- C29, BYxxx parts: a rule with BYxxx parts and `COUNT = n` generates at most `n - 1` dates
besides the start. -/
theorem C29_count_by (env : TzEnv) (r : Rule) (fuel : Nat) (start : DateTime)
    (range : Period) (off : Int) (L : List DateTime) (lim : Bool) (hb : r.hasBy = true)
    (hc : r.useCount = true) (h1 : 1 ≤ r.count)
    (h : r.expandFresh env fuel start range off = some (.dates L lim)) :
    (L.length : Int) < r.count := by
  unfold expandFresh at h
  simp only [Option.map_eq_some_iff] at h
  obtain ⟨⟨a, c'⟩, he, rfl⟩ := h
  rcases expand_cases he with ⟨_, _, ha, _⟩ | ⟨items, full, ho, rfl, ha⟩ | ⟨hf, _⟩
  · simp at ha
  · simp only [answer, Answer.dates.injEq] at ha
    have hle : L.length ≤ items.length := by rw [ha.1]; exact List.length_filter_le _ _
    unfold expandRaw at ho
    simp only [hb, Bool.not_true, Bool.false_eq_true, if_false] at ho
    unfold complexExpand at ho
    split at ho
    · cases ho; simp at hle; rw [hle]; simp; omega
    · next hn =>
      have hlt : ¬ (1 ≥ r.count) := by simpa [hc] using hn
      try simp only [hc, if_true] at ho
      have := complexLoop_count hc fuel _ 1 [] _ (by simp) (by omega) ho
      simp only [Outcome.list] at this
      omega
  · simp at hf

theorem simpleLoop_until {env : TzEnv} {r : Rule} {limit : Option DateTime} {range : Period}
    {max : Option Int} (hc : r.useCount = false) :
    ∀ (fuel : Nat) (t : DateTime) (ctr : Int) (items : List DateTime) (o : Outcome),
      (∀ x ∈ items, pastUntil env limit x = false) → pastUntil env limit t = false →
      simpleLoop env r limit range max fuel t ctr items = some o →
      ∀ x ∈ o.list, pastUntil env limit x = false := by
  intro fuel
  induction fuel with
  | zero => intro t ctr items o _ _ h; simp [simpleLoop] at h
  | succ n ih =>
    intro t ctr items o h1 h2 h
    have hall : ∀ x ∈ items ++ [t], pastUntil env limit x = false := by
      intro x hx
      rcases List.mem_append.mp hx with hx | hx
      · exact h1 x hx
      · rw [List.mem_singleton.mp hx]; exact h2
    rw [simpleLoop] at h
    split at h
    · cases h; exact h1
    · split at h
      · cases h; exact hall
      · split at h
        · simp at h
        · simp only [hc, Bool.false_eq_true, if_false] at h
          split at h
          · cases h; exact hall
          · next hp => exact ih _ _ _ o hall (by simpa using hp) h

theorem setLoop_until {env : TzEnv} {r : Rule} {limit : Option DateTime} {start : DateTime}
    {range : Period} {max : Option Int} :
    ∀ (ts : List DateTime) (ctr : Int) (items : List DateTime),
      (∀ x ∈ items, pastUntil env limit x = false) →
      (∀ o, setLoop env r limit start range max ts ctr items = .stop o →
        ∀ x ∈ o.list, pastUntil env limit x = false) ∧
      (∀ ctr' items', setLoop env r limit start range max ts ctr items = .next ctr' items' →
        ∀ x ∈ items', pastUntil env limit x = false) := by
  intro ts
  induction ts with
  | nil =>
    intro ctr items h1
    refine ⟨fun o h => by simp [setLoop] at h, fun ctr' items' h => ?_⟩
    simp only [setLoop, SetResult.next.injEq] at h
    rw [← h.2]; exact h1
  | cons t ts ih =>
    intro ctr items h1
    rw [setLoop]
    split
    · exact ih _ _ h1
    · split
      · refine ⟨fun o h => ?_, fun _ _ h => by simp at h⟩
        cases h; exact h1
      · split
        · refine ⟨fun o h => ?_, fun _ _ h => by simp at h⟩
          cases h; exact h1
        · next hp =>
          have hall : ∀ x ∈ items ++ [t], pastUntil env limit x = false := by
            intro x hx
            rcases List.mem_append.mp hx with hx | hx
            · exact h1 x hx
            · rw [List.mem_singleton.mp hx]; simpa using hp
          split
          · exact ih _ _ h1
          · split
            · refine ⟨fun o h => ?_, fun _ _ h => by simp at h⟩
              cases h; exact hall
            · split
              · split
                · refine ⟨fun o h => ?_, fun _ _ h => by simp at h⟩
                  cases h; exact hall
                · exact ih _ _ hall
              · exact ih _ _ hall

theorem complexLoop_until {env : TzEnv} {r : Rule} {limit : Option DateTime} {start : DateTime}
    {range : Period} {max : Option Int} :
    ∀ (fuel : Nat) (t : DateTime) (ctr : Int) (items : List DateTime) (o : Outcome),
      (∀ x ∈ items, pastUntil env limit x = false) →
      complexLoop env r limit start range max fuel t ctr items = some o →
      ∀ x ∈ o.list, pastUntil env limit x = false := by
  intro fuel
  induction fuel with
  | zero => intro t ctr items o _ h; simp [complexLoop] at h
  | succ n ih =>
    intro t ctr items o h1 h
    rw [complexLoop] at h
    have hs := setLoop_until (env := env) (r := r) (limit := limit) (start := start)
      (range := range) (max := max) (sortByPosix env (r.candidates env t)) ctr items h1
    split at h
    · next o' ho => cases h; exact hs.1 _ ho
    · next ctr' items' ho =>
      split at h
      · cases h; exact hs.2 _ _ ho
      · exact ih _ _ _ o (hs.2 _ _ ho) h

theorem floating_normalise (t : DateTime) : t.normalise.floating = t.floating := rfl

theorem expandRaw_until {env : TzEnv} {r : Rule} {fuel : Nat} {start : DateTime} {range : Period}
    {off : Int} {max : Option Int} {o : Outcome} (hc : r.hasBy = false → r.useCount = false)
    (hu : r.useUntil = true → r.untilDate ≠ none) {B : DateTime} (hB : UntilBound r start off B)
    (hs : r.hasBy = false → start.gt env B = false)
    (h : r.expandRaw env fuel start range off max = some o) :
    ∀ x ∈ o.list, x.gt env B = false := by
  -- all bounds are alike
  have hone : ∀ (x u : DateTime), UntilBound r start off u → x.gt env B = false → x.gt env u = false := by
    rintro x u ⟨_, w, hw, h1⟩ hx
    obtain ⟨_, w', hw', h2⟩ := hB
    rw [hw] at hw'; cases hw'
    rcases h1 with ⟨a, rfl⟩ | ⟨a, b, c, d⟩ <;> rcases h2 with ⟨a', rfl⟩ | ⟨a', b', c', d'⟩
    · exact hx
    · rw [a] at a'; simp at a'
    · rw [a] at a'; simp at a'
    · unfold DateTime.gt at *
      rw [compare_floating b b' (c.trans c'.symm) (d.trans d'.symm)]; exact hx
  unfold expandRaw at h
  split at h
  · next hb =>
    have hb : r.hasBy = false := by simpa using hb
    intro x hx
    refine (pastUntil_iff (z := some (.fixed 0)) (by decide) hu x).mp ?_ B hB
    refine simpleLoop_until (hc hb) fuel start 0 [] o (by simp) ?_ h x hx
    exact (pastUntil_iff (z := some (.fixed 0)) (by decide) hu start).mpr
      fun u hu' => hone start u hu' (hs hb)
  · unfold complexExpand at h
    split at h
    · cases h; intro x hx; simp [Outcome.list] at hx
    · intro x hx
      refine (pastUntil_iff (z := none) (by decide) hu x).mp ?_ B hB
      exact complexLoop_until fuel start _ [] o (by simp) h x hx

/-- C29 (partial), UNTIL: whatever queries with the bound `B` were made before, no date an
expansion returns is after `B`.  The bound is the UNTIL value itself, or for floating starts its
clock time moved by the float offset.

For rules without BYxxx parts the start must not be after the bound, otherwise it is returned all
the same (`C28_fails_until`), and COUNT must not be given as well, for then UNTIL is ignored
(`C29_fails_both`). -/
theorem C29_until_partial (env : TzEnv) (r : Rule) (B : DateTime) (c c' : Cache) (fuel : Nat)
    (start : DateTime) (range : Period) (off : Int) (max : Option Int) (L : List DateTime)
    (lim : Bool) (hc : r.hasBy = false → r.useCount = false)
    (hr : Reachable env r (fun s _ off _ _ => UntilBound r s off B ∧
      (r.hasBy = false → s.normalise.gt env B = false)) c)
    (hB : UntilBound r start off B) (hs : r.hasBy = false → start.normalise.gt env B = false)
    (h : r.expand env fuel c start range off max = some (.dates L lim, c')) :
    ∀ t ∈ L, t.gt env B = false := by
  have hu : r.useUntil = true → r.untilDate ≠ none := by
    obtain ⟨_, w, hw, _⟩ := hB
    rw [hw]; simp
  have raw : ∀ {fuel start range off max o}, UntilBound r start off B →
      (r.hasBy = false → start.normalise.gt env B = false) →
      r.expandRaw env fuel start.normalise range off max = some o →
      ∀ x ∈ o.list, x.gt env B = false := by
    intro fuel start range off max o h1 h2 h3
    exact expandRaw_until hc hu (start := start.normalise) h1 h2 h3
  have inv : ∀ x ∈ c.items, x.gt env B = false := by
    clear h
    induction hr with
    | new => simp
    | clear _ _ => simp [Cache.clear]
    | query fuel start range off max _ hQ he ih =>
      rcases expand_cases he with ⟨items, ho, _, hi, _⟩ | ⟨items, full, ho, rfl, _⟩ |
        ⟨_, _, _, rfl, _⟩
      · rw [hi]; exact raw hQ.1 hQ.2 ho
      · exact raw hQ.1 hQ.2 ho
      · exact ih
  intro t ht
  rcases expand_cases h with ⟨_, _, ha, _⟩ | ⟨items, full, ho, rfl, ha⟩ | ⟨_, _, _, rfl, ha⟩
  · simp at ha
  · simp only [answer, Answer.dates.injEq] at ha
    rw [ha.1] at ht
    exact raw hB hs ho t (List.mem_filter.mp ht).1
  · simp only [answer, Answer.dates.injEq] at ha
    rw [ha.1] at ht
    exact inv t (List.mem_filter.mp ht).1

/-- C29 fails: a rule without BYxxx parts and with both COUNT and UNTIL (RFC 5545 and
the parser forbid it, the setters do not) goes on after UNTIL. -/
theorem C29_fails_both :
    ∃ (r : Rule) (start u t : DateTime) (range : Period), start.Valid ∧
      r.useCount = true ∧ r.useUntil = true ∧ r.untilDate = some u ∧
      start.lt .empty u = true ∧ u.lt .empty t = true ∧
      r.expandFresh .empty 5 start range 0 = some (.dates [start, u, t] false) :=
  ⟨{ freq := .daily, useUntil := true, untilDate := some ⟨2020, 1, 2, 0, 0, 0, false, true, none⟩,
     useCount := true, count := 3 },
    ⟨2020, 1, 1, 0, 0, 0, false, true, none⟩, ⟨2020, 1, 2, 0, 0, 0, false, true, none⟩,
    ⟨2020, 1, 3, 0, 0, 0, false, true, none⟩,
    .ofEnd ⟨2020, 1, 1, 0, 0, 0, false, true, none⟩ ⟨2021, 1, 1, 0, 0, 0, false, true, none⟩,
    by decide +kernel⟩

/-- C29 fails: COUNT=0 (set through `setCount`; the parser rejects it) still gives one date. -/
theorem C29_fails_zero :
    ∃ (r : Rule) (start : DateTime) (range : Period), start.Valid ∧
      r.useCount = true ∧ r.count = 0 ∧
      r.expandFresh .empty 5 start range 0 = some (.dates [start] false) :=
  ⟨{ freq := .daily, useCount := true, count := 0 },
    ⟨2020, 1, 1, 0, 0, 0, false, true, none⟩,
    .ofEnd ⟨2020, 1, 1, 0, 0, 0, false, true, none⟩ ⟨2021, 1, 1, 0, 0, 0, false, true, none⟩,
    by decide +kernel⟩

/-! ## C30 -/

/-- Within a kind, dates that compare equal are equal. -/
theorem eq_of_eq {env : TzEnv} {a b : DateTime} (hk : SameKind a b) (ha : a.Valid) (hb : b.Valid)
    (h : a.eq env b = true) : a = b := by
  refine eq_of_civil hk ?_
  unfold DateTime.eq DateTime.compare at h
  rw [decide_eq_true_eq] at h
  by_cases hd : a.dateOnly = true
  · simp only [hd, Bool.true_or, if_true] at h
    rw [cmpDate_eq] at h
    have h1 := ha.2 hd
    have h2 := hb.2 (hk.1.symm.trans hd)
    simp only [civil, h, Time.mk.injEq, true_and]
    omega
  · have hd' : b.dateOnly ≠ true := by rw [← hk.1]; exact hd
    simp only [hd, hd', Bool.or_self, Bool.false_eq_true, if_false, hk.2.1, hk.2.2, tzSame_self,
      if_true] at h
    exact (cmpFields_eq a b).mp h

/-- An instance limit that is not exceeded makes no difference. -/
theorem simpleLoop_max {env : TzEnv} {r : Rule} {limit : Option DateTime} {range : Period}
    {max : Option Int} {items' : List DateTime} {full : Bool} :
    ∀ (fuel : Nat) (t : DateTime) (ctr : Int) (items : List DateTime),
      simpleLoop env r limit range max fuel t ctr items = some (.done items' full) →
      simpleLoop env r limit range none fuel t ctr items = some (.done items' full) := by
  intro fuel
  induction fuel with
  | zero => intro t ctr items h; simp [simpleLoop] at h
  | succ n ih =>
    intro t ctr items h
    rw [simpleLoop] at h ⊢
    simp only [exceeds, Bool.false_eq_true, if_false]
    split at h
    · next ha => rw [if_pos ha]; exact h
    · next ha =>
      rw [if_neg ha]
      split at h
      · simp at h
      · split at h
        · simp at h
        · next t' ht =>
          split at h
          · next hc =>
            simp only [hc, if_true]
            split at h
            · next hg => rw [if_pos hg]; exact h
            · next hg => rw [if_neg hg]; exact ih _ _ _ h
          · next hc =>
            simp only [hc, if_false]
            split at h
            · next hg => rw [if_pos hg]; exact h
            · next hg => rw [if_neg hg]; exact ih _ _ _ h

/-- What a completed expansion of a rule without BYxxx parts up to the end of `range` is. -/
def SimpleResult (env : TzEnv) (r : Rule) (limit : Option DateTime) (start : DateTime)
    (range : Period) (items : List DateTime) (full : Bool) : Prop :=
  ∃ N, items = r.existing start N ∧ Stopped env r limit range start 0 N full ∧
    ∀ j, 0 ≤ j → j < N → (r.raw start j).invalid = false → Taken env r limit range start 0 j

theorem expandRaw_simple {env : TzEnv} {r : Rule} {fuel : Nat} {start : DateTime} {range : Period}
    {off : Int} {max : Option Int} {items : List DateTime} {full : Bool} (hv : start.Valid)
    (hb : r.hasBy = false)
    (h : r.expandRaw env fuel start range off max = some (.done items full)) :
    SimpleResult env r (r.untilLimit start off (some (.fixed 0))) start range items full := by
  unfold expandRaw at h
  simp only [hb, Bool.not_false, if_true, simpleExpand] at h
  obtain ⟨N, _, h3, h4, h5⟩ := simpleLoop_spec (start := start) fuel 0 0 [] full items
    ((raw_valid_iff (r := r) hv 0).mpr hv) rfl (fun _ => rfl) (simpleLoop_max _ _ _ _ h)
  exact ⟨N, h3, h4, h5⟩

/-- Two initial parts of the repetitions that agree on what satisfies `f`. -/
theorem filter_existing {env : TzEnv} {K : DateTime → Prop} {r : Rule} {start : DateTime}
    {limit : Option DateTime} (h : Sound env K r start limit) (f : DateTime → Bool) {M N : Nat}
    (hMN : ∀ t, f t = true → (t ∈ r.existing start M ↔ t ∈ r.existing start N)) :
    (r.existing start M).filter f = (r.existing start N).filter f := by
  have key : ∀ M N, M ≤ N →
      (∀ t, f t = true → (t ∈ r.existing start M ↔ t ∈ r.existing start N)) →
      (r.existing start M).filter f = (r.existing start N).filter f := by
    intro M N hle hmem
    have hstep : ∀ d, M + d ≤ N →
        (r.existing start (M + d)).filter f = (r.existing start M).filter f := by
      intro d
      induction d with
      | zero => intro _; rfl
      | succ d ih =>
        intro hd
        rw [← Nat.add_assoc, existing_succ, List.filter_append, ih (by omega)]
        cases hi : (r.raw start (M + d)).invalid with
        | true => simp
        | false =>
          simp only [Bool.false_eq_true, if_false]
          cases hf : f (r.raw start (M + d)) with
          | false => simp [hf]
          | true =>
            have := (hmem _ hf).mpr (mem_existing.mpr ⟨M + d, by omega, rfl, hi⟩)
            obtain ⟨j, hj, he, hji⟩ := mem_existing.mp this
            have hlt := h.raw_lt (show j < M + d by omega) (he ▸ hji) hi
            rw [← he] at hlt
            exact absurd hlt (not_lt_self _ _)
    have := hstep (N - M) (by omega)
    rw [show M + (N - M) = N by omega] at this
    exact this.symm
  rcases (by omega : M ≤ N ∨ N ≤ M) with hle | hle
  · exact key M N hle hMN
  · exact (key N M hle fun t ht => (hMN t ht).symm).symm

theorem within_iff (env : TzEnv) (p : Period) (t : DateTime) :
    p.isDateWithin env t = true ↔ ¬ t.lt env p.start = true ∧ t.lt env p.stop = true := by
  unfold isDateWithin
  rw [Bool.and_eq_true, ge_iff]

theorem after_iff (env : TzEnv) (p : Period) (t : DateTime) :
    p.isDateAfter env t = false ↔ t.lt env p.stop = true := by
  unfold isDateAfter
  rw [← Bool.not_eq_true, ge_iff, not_not]

/-- A complete expansion, or one that reaches as far as the range `q`, answers a query for `q`
as an expansion made for `q` does. -/
theorem SimpleResult.agree {env : TzEnv} {K : DateTime → Prop} {r : Rule} {start : DateTime}
    {limit : Option DateTime} (h : Sound env K r start limit)
    (hc : r.useCount = true → 1 ≤ r.count) {p q : Period} (hp : K p.stop) (hq : K q.stop)
    {I J : List DateTime} {f g : Bool} (hI : SimpleResult env r limit start p I f)
    (hJ : SimpleResult env r limit start q J g)
    (hfar : f = true ∨ ¬ p.stop.lt env q.stop = true) :
    I.filter (fun t => q.isDateWithin env t) = J.filter (fun t => q.isDateWithin env t) ∧
    (!f || I.any fun t => !q.isDateWithin env t) = (!g || J.any fun t => !q.isDateWithin env t) := by
  obtain ⟨M, hIM, hMs, hMt⟩ := hI
  obtain ⟨N, hJN, hNs, hNt⟩ := hJ
  have hImem := simple_mem h hp hc hIM hMs hMt
  have hJmem := simple_mem h hq hc hJN hNs hNt
  have htrans := h.kind.transitive
  -- what lies before the end of `q` lies before the end of `p`, if that matters
  have hend : ∀ t, K t → t.lt env q.stop = true → f = true ∨ p.isDateAfter env t = false := by
    intro t ht hlt
    rcases hfar with hf | hf
    · exact Or.inl hf
    · refine Or.inr ?_
      rw [after_iff]
      exact lt_of_lt_not_lt htrans ht hq hp hlt hf
  have hagree : ∀ t, q.isDateWithin env t = true → (t ∈ I ↔ t ∈ J) := by
    intro t hw
    rw [within_iff] at hw
    rw [hImem, hJmem]
    constructor
    · rintro ⟨k, rfl, h1, _, h3⟩
      exact ⟨k, rfl, h1, Or.inr ((after_iff env q _).mpr hw.2), h3⟩
    · rintro ⟨k, rfl, h1, _, h3⟩
      exact ⟨k, rfl, h1, hend _ (h.raw_K h1) hw.2, h3⟩
  refine ⟨?_, ?_⟩
  · rw [hIM, hJN]
    rw [hIM, hJN] at hagree
    exact filter_existing h _ hagree
  · -- `limited` is false exactly if all that is allowed lies in `q`
    have hI' : (!f || I.any fun t => !q.isDateWithin env t) = false ↔
        ∀ k, (r.raw start k).invalid = false → Allowed env r limit start k →
          q.isDateWithin env (r.raw start k) = true := by
      simp only [Bool.or_eq_false_iff, Bool.not_eq_false', List.any_eq_false, Bool.not_eq_true',
        Bool.not_eq_false]
      constructor
      · rintro ⟨hf, hall⟩ k hi ha
        exact hall _ ((hImem _).mpr ⟨k, rfl, hi, Or.inl hf, ha⟩)
      · intro hall
        refine ⟨?_, fun t ht => ?_⟩
        · rcases hMs with ⟨h1, h2, h3, h4⟩ | ⟨h1, _⟩ | ⟨h1, _⟩
          · have hw := hall M h2 (h4.allowed hc)
            rw [within_iff] at hw
            rcases hend _ (h.raw_K h2) hw.2 with hf | hf
            · exact hf
            · rw [h3] at hf; simp at hf
          · exact h1
          · exact h1
        · obtain ⟨k, rfl, hi, _, ha⟩ := (hImem t).mp ht
          exact hall k hi ha
    have hJ' : (!g || J.any fun t => !q.isDateWithin env t) = false ↔
        ∀ k, (r.raw start k).invalid = false → Allowed env r limit start k →
          q.isDateWithin env (r.raw start k) = true := by
      simp only [Bool.or_eq_false_iff, Bool.not_eq_false', List.any_eq_false, Bool.not_eq_true',
        Bool.not_eq_false]
      constructor
      · rintro ⟨hf, hall⟩ k hi ha
        exact hall _ ((hJmem _).mpr ⟨k, rfl, hi, Or.inl hf, ha⟩)
      · intro hall
        refine ⟨?_, fun t ht => ?_⟩
        · rcases hNs with ⟨h1, h2, h3, h4⟩ | ⟨h1, _⟩ | ⟨h1, _⟩
          · have hw := hall N h2 (h4.allowed hc)
            rw [within_iff] at hw
            rw [← after_iff, h3] at hw
            simp at hw
          · exact h1
          · exact h1
        · obtain ⟨k, rfl, hi, _, ha⟩ := (hJmem t).mp ht
          exact hall k hi ha
    rw [Bool.eq_iff_iff, ← not_iff_not, Bool.not_eq_true, Bool.not_eq_true, hI', hJ']

/-- The queries for which the cache is transparent: starts of one kind (that of `s0`), everything
comparable, always the same float offset. -/
structure Ask (env : TzEnv) (K : DateTime → Prop) (r : Rule) (s0 : DateTime) (off : Int)
    (start : DateTime) (range : Period) (off' : Int) : Prop where
  sound : Sound env K r start (r.untilLimit start off (some (.fixed 0)))
  stopK : K range.stop
  same : SameKind start s0
  offset : off' = off

theorem reachable_simple {env : TzEnv} {K : DateTime → Prop} {r : Rule} {s0 : DateTime} {off : Int}
    (hb : r.hasBy = false) {c : Cache}
    (h : Reachable env r (fun s p o _ a => Ask env K r s0 off s p o ∧ a ≠ .tooMany) c) :
    c.cached = true → ∃ s p, c.start = some s ∧ c.upto = some p.stop ∧ Ask env K r s0 off s p off ∧
      SimpleResult env r (r.untilLimit s off (some (.fixed 0))) s p c.items c.full := by
  induction h with
  | new => intro h; simp at h
  | clear _ _ => intro h; simp [Cache.clear] at h
  | query fuel start range off' max _ hQ he ih =>
    obtain ⟨hA, ha⟩ := hQ
    obtain ⟨hA1, hA2, hA3, rfl⟩ := hA
    rcases expand_cases he with ⟨_, _, hx, _⟩ | ⟨items, full, ho, rfl, _⟩ | ⟨_, _, _, rfl, _⟩
    · exact absurd hx ha
    · intro _
      rw [normalise_of_valid hA1.valid] at ho ⊢
      exact ⟨start, range, rfl, rfl, ⟨hA1, hA2, hA3, rfl⟩, expandRaw_simple hA1.valid hb ho⟩
    · exact ih

theorem transparent_simple (env : TzEnv) (K : DateTime → Prop) (r : Rule) (s0 : DateTime)
    (off : Int) (c c' : Cache) (fuel fuel' : Nat) (start : DateTime) (range : Period)
    (max : Option Int) (a a' : Answer) (hb : r.hasBy = false)
    (hc : r.useCount = true → 1 ≤ r.count)
    (hr : c.cached = true → ∃ s p, c.start = some s ∧ c.upto = some p.stop ∧
      Ask env K r s0 off s p off ∧
      SimpleResult env r (r.untilLimit s off (some (.fixed 0))) s p c.items c.full)
    (hA : Ask env K r s0 off start range off)
    (h : r.expand env fuel c start range off max = some (a, c')) (ha : a ≠ .tooMany)
    (h' : r.expandFresh env fuel' start range off = some a') : a = a' := by
  have hv := hA.sound.valid
  -- the fresh answer
  unfold expandFresh at h'
  simp only [Option.map_eq_some_iff] at h'
  obtain ⟨⟨a'', c''⟩, he, rfl⟩ := h'
  obtain ⟨J, g, hJ, hans⟩ : ∃ J g, SimpleResult env r (r.untilLimit start off (some (.fixed 0)))
      start range J g ∧ a'' = .dates (J.filter fun t => range.isDateWithin env t)
        (!g || J.any fun t => !range.isDateWithin env t) := by
    rcases expand_cases he with ⟨_, ho, _, _⟩ | ⟨items, full, ho, rfl, h1⟩ | ⟨hf, _⟩
    · rw [normalise_of_valid hv] at ho
      unfold expandRaw at ho
      simp only [hb, Bool.not_false, if_true, simpleExpand] at ho
      exact absurd ho (simpleLoop_none _ _ _ _ _)
    · rw [normalise_of_valid hv] at ho
      exact ⟨items, full, expandRaw_simple hv hb ho, h1⟩
    · simp at hf
  rw [hans]
  have fin : ∀ s p I f, Ask env K r s0 off s p off →
      SimpleResult env r (r.untilLimit s off (some (.fixed 0))) s p I f → s = start →
      (f = true ∨ ¬ p.stop.lt env range.stop = true) →
      a = .dates (I.filter fun t => range.isDateWithin env t)
        (!f || I.any fun t => !range.isDateWithin env t) →
      a = .dates (J.filter fun t => range.isDateWithin env t)
        (!g || J.any fun t => !range.isDateWithin env t) := by
    rintro s p I f hAs hI rfl hfar rfl
    have := SimpleResult.agree hA.sound hc hAs.stopK hA.stopK hI hJ hfar
    rw [this.1, this.2]
  rcases expand_cases h with ⟨_, _, hx, _⟩ | ⟨items, full, ho, rfl, h1⟩ | ⟨h1, h2, h3, rfl, h4⟩
  · exact absurd hx ha
  · rw [normalise_of_valid hv] at ho
    exact fin start range items full hA (expandRaw_simple hv hb ho) rfl
      (Or.inr (not_lt_self _ _)) h1
  · obtain ⟨s, p, hs, hp, hAs, hI⟩ := hr h1
    rw [hs, normalise_of_valid hv] at h2
    have heq : start.eq env s = true := by simpa [startDiffers] using h2
    have hk : SameKind start s := ⟨hA.same.1.trans hAs.same.1.symm,
      hA.same.2.1.trans hAs.same.2.1.symm, hA.same.2.2.trans hAs.same.2.2.symm⟩
    refine fin s p _ _ hAs hI (eq_of_eq hk hv hAs.sound.valid heq).symm ?_ h4
    rcases h3 with h3 | h3
    · exact Or.inl h3
    · rw [hp] at h3
      exact Or.inr (by simpa [tooShort] using h3)

/-- C30 (partial), rules without BYxxx parts: whatever queries were made before on the rule
object, for whatever starts and ranges, the answer (dates and `limited` flag) is the one a new
object gives.

Needed: the earlier queries and this one have starts of one kind and the same float offset, and
none of them raised `TooManyInstancesError`.  Without that the claim fails: `C30_fails_raise`,
`C30_fails_offset`, `C30_fails_kind`. -/
theorem C30_simple_partial (env : TzEnv) (K : DateTime → Prop) (r : Rule) (s0 : DateTime)
    (off : Int) (c c' : Cache) (fuel fuel' : Nat) (start : DateTime) (range : Period)
    (max : Option Int) (a a' : Answer) (hb : r.hasBy = false)
    (hc : r.useCount = true → 1 ≤ r.count)
    (hr : Reachable env r (fun s p o _ a => Ask env K r s0 off s p o ∧ a ≠ .tooMany) c)
    (hA : Ask env K r s0 off start range off)
    (h : r.expand env fuel c start range off max = some (a, c')) (ha : a ≠ .tooMany)
    (h' : r.expandFresh env fuel' start range off = some a') : a = a' :=
  transparent_simple env K r s0 off c c' fuel fuel' start range max a a' hb hc (reachable_simple hb hr) hA h ha h'

/-- C30 fails: a query that raises `TooManyInstancesError` leaves its unfinished list in the cache
of an earlier, shorter query.  Here ten days are asked for, then twenty with at most three
instances, then ten again, and only four dates come back. -/
theorem C30_fails_raise :
    ∃ (r : Rule) (start : DateTime) (p q : Period) (c1 c2 c3 : Cache) (L L' : List DateTime),
      r.expand .empty 100 {} start p = some (.dates L true, c1) ∧
      r.expand .empty 100 c1 start q 0 (some 3) = some (.tooMany, c2) ∧
      r.expand .empty 100 c2 start p = some (.dates L' true, c3) ∧
      L.length = 10 ∧ L'.length = 4 := by
  refine ⟨{ freq := .daily }, ⟨2020, 1, 1, 0, 0, 0, false, true, none⟩,
    .ofEnd ⟨2020, 1, 1, 0, 0, 0, false, true, none⟩ ⟨2020, 1, 11, 0, 0, 0, false, true, none⟩,
    .ofEnd ⟨2020, 1, 1, 0, 0, 0, false, true, none⟩ ⟨2020, 1, 21, 0, 0, 0, false, true, none⟩,
    { cached := true, start := some ⟨2020, 1, 1, 0, 0, 0, false, true, none⟩,
      upto := some ⟨2020, 1, 11, 0, 0, 0, false, true, none⟩, full := false,
      items := (List.range 10).map fun k => ⟨2020, 1, 1 + k, 0, 0, 0, false, true, none⟩ },
    { cached := true, start := some ⟨2020, 1, 1, 0, 0, 0, false, true, none⟩,
      upto := some ⟨2020, 1, 11, 0, 0, 0, false, true, none⟩, full := false,
      items := (List.range 4).map fun k => ⟨2020, 1, 1 + k, 0, 0, 0, false, true, none⟩ },
    { cached := true, start := some ⟨2020, 1, 1, 0, 0, 0, false, true, none⟩,
      upto := some ⟨2020, 1, 11, 0, 0, 0, false, true, none⟩, full := false,
      items := (List.range 4).map fun k => ⟨2020, 1, 1 + k, 0, 0, 0, false, true, none⟩ },
    (List.range 10).map fun k => ⟨2020, 1, 1 + k, 0, 0, 0, false, true, none⟩,
    (List.range 4).map fun k => ⟨2020, 1, 1 + k, 0, 0, 0, false, true, none⟩, ?_⟩
  decide +kernel

/-- C30 fails: an instance limit is not applied when the answer comes from the cache. -/
theorem C30_fails_max :
    ∃ (r : Rule) (start : DateTime) (p : Period) (c : Cache) (L : List DateTime),
      r.expand .empty 100 {} start p = some (.dates L true, c) ∧
      r.expand .empty 100 c start p 0 (some 1) = some (.dates L true, c) ∧
      L.length = 3 ∧ (r.expand .empty 100 {} start p 0 (some 1)).map (·.1) = some .tooMany := by
  refine ⟨{ freq := .daily }, ⟨2020, 1, 1, 0, 0, 0, false, true, none⟩,
    .ofEnd ⟨2020, 1, 1, 0, 0, 0, false, true, none⟩ ⟨2020, 1, 4, 0, 0, 0, false, true, none⟩,
    { cached := true, start := some ⟨2020, 1, 1, 0, 0, 0, false, true, none⟩,
      upto := some ⟨2020, 1, 4, 0, 0, 0, false, true, none⟩, full := false,
      items := (List.range 3).map fun k => ⟨2020, 1, 1 + k, 0, 0, 0, false, true, none⟩ },
    (List.range 3).map fun k => ⟨2020, 1, 1 + k, 0, 0, 0, false, true, none⟩, ?_⟩
  decide +kernel

/-- C30 fails: the float offset is not part of the cache key.  An hourly rule with UNTIL one
o'clock UTC and a floating start at midnight is asked first with offset 0, then with one hour: a
new object returns three dates, the used one the two from before. -/
theorem C30_fails_offset :
    ∃ (r : Rule) (start : DateTime) (p : Period) (c : Cache) (L L' : List DateTime),
      r.expand .empty 100 {} start p 0 = some (.dates L false, c) ∧
      r.expand .empty 100 c start p 3600 = some (.dates L false, c) ∧
      r.expandFresh .empty 100 start p 3600 = some (.dates L' false) ∧
      L.length = 2 ∧ L'.length = 3 := by
  refine ⟨{ freq := .hourly, useUntil := true,
            untilDate := some ⟨2020, 1, 1, 1, 0, 0, false, true, none⟩ },
    ⟨2020, 1, 1, 0, 0, 0, false, false, none⟩,
    .ofEnd ⟨2020, 1, 1, 0, 0, 0, false, false, none⟩ ⟨2020, 1, 4, 0, 0, 0, false, false, none⟩,
    { cached := true, start := some ⟨2020, 1, 1, 0, 0, 0, false, false, none⟩,
      upto := some ⟨2020, 1, 4, 0, 0, 0, false, false, none⟩, full := true,
      items := (List.range 2).map fun k => ⟨2020, 1, 1, k, 0, 0, false, false, none⟩ },
    (List.range 2).map fun k => ⟨2020, 1, 1, k, 0, 0, false, false, none⟩,
    (List.range 3).map fun k => ⟨2020, 1, 1, k, 0, 0, false, false, none⟩, ?_⟩
  decide +kernel

/-- C30 fails: a date-only start compares equal to a time on that date, so the dates cached for one
are returned for the other. -/
theorem C30_fails_kind :
    ∃ (r : Rule) (s s' : DateTime) (p : Period) (c : Cache),
      r.expand .empty 100 {} s p = some (.dates [s] false, c) ∧
      r.expand .empty 100 c s' p = some (.dates [s] false, c) ∧
      r.expandFresh .empty 100 s' p 0 = some (.dates [s'] false) ∧ s ≠ s' := by
  refine ⟨{ freq := .daily, useCount := true, count := 1 }, ofDate 2020 1 1,
    ⟨2020, 1, 1, 9, 0, 0, false, true, none⟩,
    .ofEnd ⟨2020, 1, 1, 0, 0, 0, false, true, none⟩ ⟨2020, 1, 4, 0, 0, 0, false, true, none⟩,
    { cached := true, start := some (ofDate 2020 1 1),
      upto := some ⟨2020, 1, 4, 0, 0, 0, false, true, none⟩, full := true,
      items := [ofDate 2020 1 1] }, ?_⟩
  decide +kernel

/-- The conditions of `C30_simple_partial` are met: after a query for ten days, one for five days
is answered from the cache. -/
example : let r : Rule := { freq := .daily }
    let start : DateTime := ⟨2020, 1, 1, 0, 0, 0, false, true, none⟩
    let p : Period := .ofEnd start ⟨2020, 1, 11, 0, 0, 0, false, true, none⟩
    let q : Period := .ofEnd start ⟨2020, 1, 6, 0, 0, 0, false, true, none⟩
    Ask .empty (InZone true none) r start 0 start p 0 ∧
    Ask .empty (InZone true none) r start 0 start q 0 ∧
    (((r.expand .empty 100 {} start p).bind fun x => r.expand .empty 100 x.2 start q).map
      fun x => match x.1 with | .dates L lim => (L.length, lim) | .tooMany => (0, false))
      = some (5, true) := by
  intro r start p q
  have hs : Sound .empty (InZone true none) r start (r.untilLimit start 0 (some (.fixed 0))) :=
    ⟨Or.inr (Or.inl ⟨true, none, rfl⟩), by decide +kernel, by unfold InZone; decide +kernel,
      fun u h => by simp [untilLimit, r] at h, fun h => by simp [start] at h, by decide⟩
  exact ⟨⟨hs, by unfold InZone; decide +kernel, ⟨rfl, rfl, rfl⟩, rfl⟩,
    ⟨hs, by unfold InZone; decide +kernel, ⟨rfl, rfl, rfl⟩, rfl⟩, by decide +kernel⟩

end PyCal.Rule
