import Verif.Model.Period
import Verif.Props.C17_C18_Compare
import Mathlib.Tactic.Tauto

/-!
# C27, C51: periods

* C27: for a period with start < end each instant is exactly one of before, within, after;
  `isPeriodOverlap` is symmetric and says whether some instant is within both.
* C51: periods are ordered by start, then end; `<`, `==`, `>` are consistent.  False because `>`
  always raises; proved for `<` and `==`.

Both are stated for date-times of one kind: all dates, all floating or in one zone, or all
instants of (gap free) zones.
-/

namespace PyCal.Period
open DateTime Spec

/-- The families of date-times of one kind. -/
def Kind (env : TzEnv) (K : DateTime → Prop) : Prop :=
  K = IsDate ∨ (∃ u z, K = InZone u z) ∨ (K = IsInstant ∧ Regular env)

theorem Kind.transitive {env : TzEnv} {K : DateTime → Prop} (h : Kind env K) : Transitive env K := by
  rcases h with rfl | ⟨u, z, rfl⟩ | ⟨rfl, hr⟩
  · exact (C17_dates_partial env).1
  · exact (C17_one_zone_partial env u z).1
  · exact (C17_instants_partial env hr).1

/-- Moving by a duration keeps the kind. -/
theorem Kind.add {env : TzEnv} {K : DateTime → Prop} (h : Kind env K) {t : DateTime} (ht : K t)
    (d : Duration) : K (t.add d) := by
  rcases h with rfl | ⟨u, z, rfl⟩ | ⟨rfl, hr⟩
  · exact ht
  · exact ht
  · exact ⟨add_valid t d, ht.2⟩

theorem ge_iff (env : TzEnv) (a b : DateTime) : a.ge env b = true ↔ ¬ a.lt env b = true := by
  simp only [DateTime.ge, DateTime.lt, decide_eq_true_eq]; omega

theorem le_iff (env : TzEnv) (a b : DateTime) : a.le env b = true ↔ ¬ b.lt env a = true := by
  simp only [DateTime.le, DateTime.lt, decide_eq_true_eq, compare_neg env a b]; omega

theorem eq_iff (env : TzEnv) (a b : DateTime) :
    a.eq env b = true ↔ ¬ a.lt env b = true ∧ ¬ b.lt env a = true := by
  simp only [DateTime.eq, DateTime.lt, decide_eq_true_eq, compare_neg env a b]; omega

section
variable {env : TzEnv} {K : DateTime → Prop}

theorem lt_of_lt_not_lt (h : Transitive env K) {a b c : DateTime} (ha : K a) (hb : K b) (hc : K c)
    (h1 : a.lt env b = true) (h2 : ¬ c.lt env b = true) : a.lt env c = true := by
  by_cases he : b.lt env c = true
  · exact h.lt_lt a b c ha hb hc h1 he
  · exact h.lt_eq a b c ha hb hc h1 ((eq_iff env b c).mpr ⟨he, h2⟩)

theorem lt_of_not_lt_lt (h : Transitive env K) {a b c : DateTime} (ha : K a) (hb : K b) (hc : K c)
    (h1 : ¬ b.lt env a = true) (h2 : b.lt env c = true) : a.lt env c = true := by
  by_cases he : a.lt env b = true
  · exact h.lt_lt a b c ha hb hc he h2
  · exact h.eq_lt a b c ha hb hc ((eq_iff env a b).mpr ⟨he, h1⟩) h2

theorem not_lt_self (env : TzEnv) (a : DateTime) : ¬ a.lt env a = true := by
  have := (C17_antisymm env a a).2.2.1
  rw [eq_iff] at this
  exact this.1

/-- C27: for a period whose start is before its end, each date-time of the same kind is exactly
one of before, within and after the period. -/
theorem C27_partition (hK : Kind env K) (p : Period) (t : DateTime) (hs : K p.start)
    (he : K p.stop) (ht : K t) (hp : p.start.lt env p.stop = true) :
    (p.isDateBefore env t = true ∧ p.isDateWithin env t = false ∧ p.isDateAfter env t = false) ∨
    (p.isDateBefore env t = false ∧ p.isDateWithin env t = true ∧ p.isDateAfter env t = false) ∨
    (p.isDateBefore env t = false ∧ p.isDateWithin env t = false ∧ p.isDateAfter env t = true) := by
  have h := hK.transitive
  simp only [isDateBefore, isDateWithin, isDateAfter, Bool.and_eq_true, ← Bool.not_eq_true,
    ge_iff]
  by_cases h1 : t.lt env p.start = true
  · have := h.lt_lt t _ _ ht hs he h1 hp
    simp [h1, this]
  · by_cases h2 : t.lt env p.stop = true <;> simp [h1, h2]

/-- C27: the ends of the interval: the start is within, the end is after. -/
theorem C27_half_open (p : Period) (hp : p.start.lt env p.stop = true) :
    p.isDateWithin env p.start = true ∧ p.isDateAfter env p.stop = true ∧
      p.isDateWithin env p.stop = false := by
  simp only [isDateWithin, isDateAfter, Bool.and_eq_true, ← Bool.not_eq_true, ge_iff]
  exact ⟨⟨not_lt_self env _, hp⟩, not_lt_self env _, fun hc => not_lt_self env _ hc.2⟩

theorem overlap_iff (env : TzEnv) (p q : Period) :
    p.isOverlap env q = true ↔
      p.start.lt env q.stop = true ∧ q.start.lt env p.stop = true := by
  rw [isOverlap, Bool.not_eq_true', ← Bool.not_eq_true, Bool.or_eq_true, ge_iff, le_iff]
  tauto

/-- C27: overlap is symmetric (for all periods). -/
theorem C27_overlap_symm (env : TzEnv) (p q : Period) : p.isOverlap env q = q.isOverlap env p := by
  rw [Bool.eq_iff_iff, overlap_iff, overlap_iff]
  exact and_comm

/-- C27: two non-empty periods overlap exactly when some date-time of their kind is within
both. -/
theorem C27_overlap (hK : Kind env K) (p q : Period) (hps : K p.start) (hpe : K p.stop)
    (hqs : K q.start) (hqe : K q.stop) (hp : p.start.lt env p.stop = true)
    (hq : q.start.lt env q.stop = true) :
    p.isOverlap env q = true ↔
      ∃ t, K t ∧ p.isDateWithin env t = true ∧ q.isDateWithin env t = true := by
  have h := hK.transitive
  simp only [overlap_iff, isDateWithin, Bool.and_eq_true, ge_iff]
  constructor
  · rintro ⟨h1, h2⟩
    by_cases hl : p.start.lt env q.start = true
    · exact ⟨q.start, hqs, ⟨fun hc => not_lt_self env _ (h.lt_lt _ _ _ hqs hps hqs hc hl), h2⟩,
        not_lt_self env _, hq⟩
    · exact ⟨p.start, hps, ⟨not_lt_self env _, hp⟩, hl, h1⟩
  · rintro ⟨t, ht, ⟨h1, h2⟩, h3, h4⟩
    exact ⟨lt_of_not_lt_lt h hps ht hqe h1 h4, lt_of_not_lt_lt h hqs ht hpe h3 h2⟩

/-- C27: the ends are the ones given; a duration of `n` seconds ends `n` ticks of the clock after the start. -/
theorem C27_ends (s e : DateTime) (d : Duration) (n : Nat) (hs : s.Valid) (hd : s.dateOnly = false)
    (hn : d.totalSeconds = n) :
    (ofEnd s e).start = s ∧ (ofEnd s e).stop = e ∧ (ofDuration s d).start = s ∧
    (ofDuration s d).stop.civil = iter tick n s.civil ∧ SameKind (ofDuration s d).stop s :=
  ⟨rfl, rfl, rfl, C03_add_forward s hs hd d n hn⟩

/-- C27 (partial): the duration of a period is the time from its start to its end: adding it to the
start gives the end, which is of the same kind, and a period given by its duration has that one.

Missing: values between which the end of a skipped century year lies, `C03_posix_fails`, dates, and time
zones whose offset changes, `C27_fails_duration`. -/
theorem C27_duration_partial (env : TzEnv) (s e : DateTime) (d : Duration) (hs : s.Valid) (he : e.Valid)
    (hd : s.dateOnly = false) (hk : SameKind e s) (hz : FixedOffset env s) (hns : NoSkip s.year e.year) :
    s.add ((ofEnd s e).duration env) = e ∧ (ofDuration s d).duration env = d := by
  refine ⟨?_, rfl⟩
  -- the duration with which the end is reached
  obtain ⟨d', hd'⟩ : ∃ d' : Duration, d'.totalSeconds = e.secNum - s.secNum :=
    ⟨Duration.ofSeconds _, Duration.C14_total_ofSeconds _⟩
  have hadd : s.add d' = e := by
    refine eq_of_secNum ⟨hk.1.symm, hk.2.1.symm, hk.2.2.symm⟩ (add_valid _ _) he ?_
    rw [add_secNum hd, hd']
    omega
  have hdiff := C04_diff_partial env s hs hd hz d' (by rw [hadd]; exact hns)
  rw [hadd] at hdiff
  show s.add (e.subDateTime env s) = e
  refine eq_of_secNum ⟨hk.1.symm, hk.2.1.symm, hk.2.2.symm⟩ (add_valid _ _) he ?_
  rw [add_secNum hd, hdiff, hd']
  omega

/-- C27 fails: in a time zone whose offset grows by an hour at 02:00, a period from 01:00 to 04:00 is
two hours long, and two hours after its start by the clock is 03:00. -/
theorem C27_fails_duration : ∃ (env : TzEnv) (s e : DateTime), s.Valid ∧ e.Valid ∧ SameKind e s ∧
    ((ofEnd s e).duration env).totalSeconds = 7200 ∧
    s.add ((ofEnd s e).duration env) = { e with hours := 3 } ∧ e.hours = 4 :=
  ⟨fun _ t _ => if t.hours ≥ 2 then 3600 else 0,
    ⟨2024, 3, 31, 1, 0, 0, false, false, some (.name "X")⟩,
    ⟨2024, 3, 31, 4, 0, 0, false, false, some (.name "X")⟩,
    by decide +kernel, by decide +kernel, ⟨rfl, rfl, rfl⟩, by decide +kernel, by decide +kernel, rfl⟩

/-- An hour and a half over midnight at the end of a leap February. -/
example : let s : DateTime := ⟨2024, 2, 29, 23, 0, 0, false, true, none⟩
    let e : DateTime := ⟨2024, 3, 1, 0, 30, 0, false, true, none⟩
    s.Valid ∧ e.Valid ∧ ((ofEnd s e).duration .empty).totalSeconds = 5400 ∧
      ((ofEnd e s).duration .empty).totalSeconds = -5400 := by decide +kernel

/-- C27 is about real periods: two overlapping periods in a zone, one given by its duration, and
their ends are of the same kind. -/
example : let p := ofDuration ⟨2020, 1, 31, 23, 0, 0, false, true, none⟩ (Duration.ofSeconds 7200)
    let q := ofEnd ⟨2020, 2, 1, 0, 0, 0, false, true, none⟩ ⟨2020, 2, 1, 1, 30, 0, false, true, none⟩
    Kind .empty (InZone true none) ∧ InZone true none p.start ∧ InZone true none p.stop ∧
    p.start.lt .empty p.stop = true ∧ q.start.lt .empty q.stop = true ∧ p.isOverlap .empty q = true :=
  ⟨Or.inr (Or.inl ⟨true, none, rfl⟩), by unfold InZone; decide +kernel,
    by unfold InZone; decide +kernel, by decide +kernel, by decide +kernel, by decide +kernel⟩

/-! ## C51 -/

/-- C51 fails: `>` on periods raises `AttributeError` for all arguments, although `<` is fine. -/
theorem C51_gt_fails (env : TzEnv) (p q : Period) : p.gt env q = none := by
  unfold Period.gt compareArg
  split <;> rfl

/-- C51 (partial): on periods of one kind `<` is a strict order by start, then end, and `==` is
"neither before the other"; missing is `>` (`C51_gt_fails`). -/
theorem C51_order_partial (hK : Kind env K) (p q r : Period)
    (hps : K p.start) (hpe : K p.stop) (hqs : K q.start) (hqe : K q.stop) (hrs : K r.start)
    (hre : K r.stop) :
    p.lt env p = false ∧
    (p.lt env q = true → q.lt env p = false) ∧
    (p.lt env q = true → q.lt env r = true → p.lt env r = true) ∧
    (p.eq env q = true ↔ p.lt env q = false ∧ q.lt env p = false) := by
  have h := hK.transitive
  have irr := not_lt_self env
  have asymm : ∀ a b, K a → K b → a.lt env b = true → ¬ b.lt env a = true :=
    fun a b ha hb h1 h2 => irr a (h.lt_lt a b a ha hb ha h1 h2)
  simp only [Period.lt, Period.eq, Bool.or_eq_true, Bool.and_eq_true,
    ← Bool.not_eq_true, eq_iff]
  refine ⟨fun hc => hc.elim (irr _) (fun hc => irr _ hc.2), ?_, ?_, ?_⟩
  · rintro (h1 | ⟨⟨h1, h2⟩, h3⟩) (h4 | ⟨⟨h4, h5⟩, h6⟩)
    · exact asymm _ _ hps hqs h1 h4
    · exact h5 h1
    · exact h2 h4
    · exact asymm _ _ hpe hqe h3 h6
  · rintro (h1 | ⟨⟨h1, h2⟩, h3⟩) (h4 | ⟨⟨h4, h5⟩, h6⟩)
    · exact Or.inl (h.lt_lt _ _ _ hps hqs hrs h1 h4)
    · exact Or.inl (lt_of_lt_not_lt h hps hqs hrs h1 h5)
    · exact Or.inl (lt_of_not_lt_lt h hps hqs hrs h2 h4)
    · refine Or.inr ⟨⟨fun hc => h4 ?_, fun hc => h5 ?_⟩, h.lt_lt _ _ _ hpe hqe hre h3 h6⟩
      · exact lt_of_not_lt_lt h hqs hps hrs h1 hc
      · exact lt_of_lt_not_lt h hrs hps hqs hc h2
  · tauto

/-- The hypotheses are met by three different periods. -/
example : let t := fun d : Int => (⟨2020, 1, d, 0, 0, 0, true, false, none⟩ : DateTime)
    Kind .empty IsDate ∧ IsDate (t 1) ∧
    (ofEnd (t 1) (t 2)).lt .empty (ofEnd (t 1) (t 3)) = true ∧
    (ofEnd (t 1) (t 3)).lt .empty (ofEnd (t 2) (t 3)) = true :=
  ⟨Or.inl rfl, rfl, by decide +kernel, by decide +kernel⟩

end
end PyCal.Period
