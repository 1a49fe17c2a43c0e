import Verif.Model.Recurrence
import Verif.Spec.Recurrence
import Verif.Props.C27_Period

/-! Lemmas about the iteration of `Recurrence`: the sequence of dates stepped through. -/

namespace PyCal
open Spec DateTime Period

namespace Rule

/-- The rule has none of the parts BYSECOND, ..., BYSETPOS. -/
def Plain (r : Rule) : Prop :=
  r.bySeconds = [] ∧ r.byMinutes = [] ∧ r.byHours = [] ∧ r.byDay = [] ∧ r.byMonthDay = [] ∧
  r.byYearDay = [] ∧ r.byWeekNo = [] ∧ r.byMonth = [] ∧ r.bySetPos = []

theorem hasBy_false_iff {r : Rule} : r.hasBy = false ↔ r.Plain := by
  simp [hasBy, Plain, and_assoc]

theorem hasBy_iff {r : Rule} : r.hasBy = true ↔ ¬ r.Plain := by
  rw [← hasBy_false_iff]; simp

/-- The sequence of dates stepped through. -/
def raw (r : Rule) (start : DateTime) : Nat → DateTime
  | 0 => start
  | k + 1 => r.step (r.raw start k)

/-- Frequencies that work on clock times. -/
def subDaily : Freq → Bool
  | .secondly | .minutely | .hourly => true
  | _ => false

theorem step_kind (r : Rule) (t : DateTime) : SameKind (r.step t) t := by
  unfold step recur
  cases r.freq <;> exact ⟨rfl, rfl, rfl⟩

theorem raw_kind (r : Rule) (start : DateTime) (k : Nat) : SameKind (r.raw start k) start := by
  induction k with
  | zero => exact ⟨rfl, rfl, rfl⟩
  | succ k ih =>
    have := r.step_kind (r.raw start k)
    exact ⟨this.1.trans ih.1, this.2.1.trans ih.2.1, this.2.2.trans ih.2.2⟩

theorem normalise_addDay {t : DateTime} (h : t.Valid) (n : Int) :
    ({ t with day := t.day + n } : DateTime).normalise.hours = t.hours ∧
    ({ t with day := t.day + n } : DateTime).normalise.minutes = t.minutes ∧
    ({ t with day := t.day + n } : DateTime).normalise.seconds = t.seconds := by
  obtain ⟨⟨_, h1, h2, h3, h4, h5, h6⟩, h7⟩ := h
  simp only [civil] at *
  simp only [normalise]
  cases hd : t.dateOnly with
  | true => have := h7 hd; simp [this]
  | false =>
    simp only [Bool.false_eq_true, if_false]
    omega

theorem normalise_addDay_dayNum {t : DateTime} (h : t.Valid) (n : Int) :
    dayNum ({ t with day := t.day + n } : DateTime).normalise.year
      ({ t with day := t.day + n } : DateTime).normalise.month
      ({ t with day := t.day + n } : DateTime).normalise.day
      = dayNum t.year t.month t.day + n := by
  have hm := h.month
  rw [normalise_dayNum, dayNumOf_of_month (by simpa using hm.1) (by simpa using hm.2)]
  have hs : ({ t with day := t.day + n } : DateTime).secondsOfDay / 86400 = 0 := by
    obtain ⟨⟨_, _⟩, _⟩ := h
    simp only [civil, secondsOfDay] at *
    omega
  rw [hs]
  simp [dayNum_add]

/-- Stepping by clock units. -/
theorem raw_tick {r : Rule} {start : DateTime} (hv : start.Valid) (hd : start.dateOnly = false)
    (u : Int) (hs : ∀ t : DateTime, t.dateOnly = false → t.Valid →
      (r.step t).Valid ∧ (r.step t).secNum = t.secNum + u) (k : Nat) :
    (r.raw start k).Valid ∧ timeNum (r.raw start k).civil = timeNum start.civil + k * u := by
  induction k with
  | zero => exact ⟨hv, by simp [raw]⟩
  | succ k ih =>
    obtain ⟨h1, h2⟩ := ih
    obtain ⟨h3, h4⟩ := hs _ ((r.raw_kind start k).1.trans hd) h1
    refine ⟨h3, ?_⟩
    rw [raw, ← h3.secNum, h4, h1.secNum, h2]
    push_cast
    rw [Int.add_mul]; omega

/-- Stepping by days. -/
theorem raw_day {r : Rule} {start : DateTime} (hv : start.Valid) (u : Int)
    (hs : ∀ t : DateTime, r.step t = ({ t with day := t.day + u } : DateTime).normalise) (k : Nat) :
    (r.raw start k).Valid ∧
    dayNum (r.raw start k).year (r.raw start k).month (r.raw start k).day
      = dayNum start.year start.month start.day + k * u ∧
    (r.raw start k).hours = start.hours ∧ (r.raw start k).minutes = start.minutes ∧
    (r.raw start k).seconds = start.seconds := by
  induction k with
  | zero => exact ⟨hv, by simp [raw], rfl, rfl, rfl⟩
  | succ k ih =>
    obtain ⟨h1, h2, h3, h4, h5⟩ := ih
    have e1 := normalise_addDay h1 u
    have e2 := normalise_addDay_dayNum h1 u
    rw [raw, hs]
    refine ⟨normalise_valid _, ?_, e1.1.trans h3, e1.2.1.trans h4, e1.2.2.trans h5⟩
    rw [e2, h2]
    push_cast
    rw [Int.add_mul]; omega

/-- Stepping by months. -/
theorem raw_month {r : Rule} {start : DateTime} (hf : r.freq = .monthly)
    (h1 : 1 ≤ start.month) (h2 : start.month ≤ 12) (k : Nat) :
    r.raw start k = { start with
      year := start.year + (start.month - 1 + k * r.interval) / 12
      month := (start.month - 1 + k * r.interval) % 12 + 1 } := by
  induction k with
  | zero =>
    have e1 : start.year + (start.month - 1) / 12 = start.year := by omega
    have e2 : (start.month - 1) % 12 + 1 = start.month := by omega
    simp [raw, e1, e2]
  | succ k ih =>
    rw [raw, ih]
    simp only [step, hf, recur, if_true, addMonths]
    have e : ((k + 1 : Nat) : Int) * r.interval = k * r.interval + r.interval := by
      push_cast; rw [Int.add_mul]; omega
    rw [e]
    congr 1 <;> omega

/-- Stepping by years. -/
theorem raw_year {r : Rule} {start : DateTime} (hf : r.freq = .yearly) (k : Nat) :
    r.raw start k = { start with year := start.year + k * r.interval } := by
  induction k with
  | zero => simp [raw]
  | succ k ih =>
    rw [raw, ih]
    simp only [step, hf, recur, if_true]
    have e : ((k + 1 : Nat) : Int) * r.interval = k * r.interval + r.interval := by
      push_cast; rw [Int.add_mul]; omega
    rw [e]
    congr 1; omega

/-- The dates stepped through are the repetitions of the specification, provided a date-only start
is not stepped by clock units. -/
theorem raw_civil {r : Rule} {start : DateTime} (hv : start.Valid)
    (hsd : start.dateOnly = true → subDaily r.freq = false) {n : Nat} (hn : r.interval = n)
    (k : Nat) : (r.raw start k).civil = repetition r.freq n start.civil k := by
  have tick : ∀ u : Nat, (∀ t : DateTime, t.dateOnly = false → t.Valid →
      (r.step t).Valid ∧ (r.step t).secNum = t.secNum + u) → start.dateOnly = false →
      (r.raw start k).civil = iter tick (k * u) start.civil := by
    intro u hs hd
    have h := raw_tick hv hd u hs k
    have h' := iter_tick hv.1 (k * u)
    exact timeNum_inj h.1.1 h'.1 (by rw [h.2, h'.2]; push_cast; rfl)
  have day : ∀ u : Nat, (∀ t : DateTime,
      r.step t = ({ t with day := t.day + u } : DateTime).normalise) →
      (r.raw start k).civil = { start.civil with date := iter nextDay (k * u) start.date } := by
    intro u hs
    have h := raw_day hv u hs k
    have h' := iter_nextDay (x := start.date) hv.1.1 (k * u)
    have hd : (r.raw start k).date = iter nextDay (k * u) start.date :=
      date_inj h.1.1.1 h'.1 (by
        rw [h'.2]; simp only [DateTime.date]; rw [h.2.1]; push_cast; rfl)
    simp only [civil, hd, h.2.2]
  have nd : subDaily r.freq = true → start.dateOnly = false := by
    intro h
    cases hd : start.dateOnly with
    | false => rfl
    | true => rw [hsd hd] at h; simp at h
  unfold repetition
  cases hf : r.freq with
  | secondly =>
    simp only
    refine tick n (fun t hd ht => ?_) (nd (by rw [hf]; rfl))
    simp only [step, hf, recur, hn]
    exact ⟨normalise_valid _, addSeconds_secNum hd n⟩
  | minutely =>
    simp only
    rw [Nat.mul_assoc]
    refine tick (n * 60) (fun t hd ht => ?_) (nd (by rw [hf]; rfl))
    simp only [step, hf, recur, hn]
    refine ⟨normalise_valid _, ?_⟩
    rw [normalise_secNum { t with minutes := t.minutes + n } hd]
    simp only [secNum, dayNumOf, secondsOfDay]; omega
  | hourly =>
    simp only
    rw [Nat.mul_assoc]
    refine tick (n * 3600) (fun t hd ht => ?_) (nd (by rw [hf]; rfl))
    simp only [step, hf, recur, hn]
    refine ⟨normalise_valid _, ?_⟩
    rw [normalise_secNum { t with hours := t.hours + n } hd]
    simp only [secNum, dayNumOf, secondsOfDay]; omega
  | daily =>
    simp only
    exact day n fun t => by simp only [step, hf, recur, hn]
  | weekly =>
    simp only
    rw [Nat.mul_assoc]
    refine day (n * 7) fun t => by
      simp only [step, hf, recur, hn]; push_cast
      rw [Int.mul_comm 7]
  | monthly =>
    rw [raw_month hf hv.month.1 hv.month.2, hn]
    rfl
  | yearly =>
    rw [raw_year hf, hn]
    rfl

/-- The part of validity the stepping always keeps. -/
theorem raw_near {r : Rule} {start : DateTime} (hv : start.Valid) (k : Nat) :
    1 ≤ (r.raw start k).month ∧ (r.raw start k).month ≤ 12 ∧
    ((r.raw start k).date.Valid → (r.raw start k).Valid) := by
  have key : (r.raw start k).Valid → 1 ≤ (r.raw start k).month ∧ (r.raw start k).month ≤ 12 ∧
    ((r.raw start k).date.Valid → (r.raw start k).Valid) :=
    fun h => ⟨h.month.1, h.month.2, fun _ => h⟩
  have all : (∀ t, ∃ t', r.step t = normalise t') → (r.raw start k).Valid := by
    intro h
    cases k with
    | zero => exact hv
    | succ k =>
      obtain ⟨t', h'⟩ := h (r.raw start k)
      rw [raw, h']
      exact normalise_valid _
  cases hf : r.freq with
  | secondly => exact key (all fun t => ⟨_, by simp only [step, hf, recur]; rfl⟩)
  | minutely => exact key (all fun t => ⟨_, by simp only [step, hf, recur]; rfl⟩)
  | hourly => exact key (all fun t => ⟨_, by simp only [step, hf, recur]; rfl⟩)
  | daily => exact key (all fun t => ⟨_, by simp only [step, hf, recur]; rfl⟩)
  | weekly => exact key (all fun t => ⟨_, by simp only [step, hf, recur]; rfl⟩)
  | monthly =>
    rw [raw_month hf hv.month.1 hv.month.2]
    exact ⟨by simp only; omega, by simp only; omega, fun h => ⟨⟨h, hv.1.2⟩, hv.2⟩⟩
  | yearly =>
    rw [raw_year hf]
    exact ⟨hv.month.1, hv.month.2, fun h => ⟨⟨h, hv.1.2⟩, hv.2⟩⟩

theorem invalid_iff {t : DateTime} (h1 : 1 ≤ t.month) (h2 : t.month ≤ 12) :
    t.invalid = false ↔ t.date.Valid := by
  unfold invalid Date.Valid DateTime.date
  rw [daysInMonth_eq _ h1 h2]
  simp only [Bool.or_eq_false_iff, decide_eq_false_iff_not]
  omega

theorem raw_valid_iff {r : Rule} {start : DateTime} (hv : start.Valid) (k : Nat) :
    (r.raw start k).invalid = false ↔ (r.raw start k).Valid := by
  obtain ⟨h1, h2, h3⟩ := raw_near (r := r) hv k
  rw [invalid_iff h1 h2]
  exact ⟨h3, fun h => h.1.1⟩

/-- Later repetitions are later times (when both exist). -/
theorem raw_mono {r : Rule} {start : DateTime} (hv : start.Valid)
    (hsd : start.dateOnly = true → subDaily r.freq = false) (hn : 1 ≤ r.interval) {i j : Nat}
    (hij : i < j) (hi : (r.raw start i).Valid) (hj : (r.raw start j).Valid) :
    timeNum (r.raw start i).civil < timeNum (r.raw start j).civil := by
  obtain ⟨n, hn'⟩ : ∃ n : Nat, r.interval = n := ⟨r.interval.toNat, by omega⟩
  have hnp : 1 ≤ n := by omega
  have hkl : i * n < j * n := Nat.mul_lt_mul_of_pos_right hij hnp
  have c1 := raw_civil hv hsd hn' i
  have c2 := raw_civil hv hsd hn' j
  cases hf : r.freq with
  | secondly =>
    rw [c1, c2]; simp only [repetition, hf]
    rw [(iter_tick hv.1 _).2, (iter_tick hv.1 _).2]; omega
  | minutely =>
    rw [c1, c2]; simp only [repetition, hf]
    rw [(iter_tick hv.1 _).2, (iter_tick hv.1 _).2]; omega
  | hourly =>
    rw [c1, c2]; simp only [repetition, hf]
    rw [(iter_tick hv.1 _).2, (iter_tick hv.1 _).2]; omega
  | daily =>
    rw [c1, c2]; simp only [repetition, hf, timeNum]
    rw [(iter_nextDay hv.1.1 _).2, (iter_nextDay hv.1.1 _).2]; omega
  | weekly =>
    rw [c1, c2]; simp only [repetition, hf, timeNum]
    rw [(iter_nextDay hv.1.1 _).2, (iter_nextDay hv.1.1 _).2]; omega
  | monthly =>
    rw [← fieldsLt_iff_timeNum hi.1 hj.1]
    left
    rw [raw_month hf hv.month.1 hv.month.2, raw_month hf hv.month.1 hv.month.2, hn']
    unfold Date.lt
    simp only [DateTime.date]
    have : (i : Int) * n < j * n := by exact_mod_cast hkl
    generalize (i : Int) * n = a at *
    generalize (j : Int) * n = b at *
    omega
  | yearly =>
    rw [← fieldsLt_iff_timeNum hi.1 hj.1]
    left
    rw [raw_year hf, raw_year hf, hn']
    unfold Date.lt
    simp only [DateTime.date]
    have : (i : Int) * n < j * n := by exact_mod_cast hkl
    omega

/-- Membership in a kind depends on the kind and validity only. -/
theorem kind_of_same {env : TzEnv} {K : DateTime → Prop} (hK : Kind env K) {a b : DateTime}
    (hk : SameKind b a) (hb : b.Valid) (ha : K a) : K b := by
  rcases hK with rfl | ⟨u, z, rfl⟩ | ⟨rfl, hr⟩
  · exact hk.1.trans ha
  · obtain ⟨h1, h2⟩ := ha
    refine ⟨hk.1.trans h1, ?_⟩
    simp only [floating] at *
    rw [hk.2.1, hk.2.2]; exact h2
  · obtain ⟨_, h2, h3⟩ := ha
    refine ⟨hb, hk.1.trans h2, ?_⟩
    simp only [floating] at *
    rw [hk.2.1, hk.2.2]; exact h3

theorem tzSame_self (u : Bool) (z : Option TzId) : tzSame u z u z = true := by
  unfold tzSame compareTzSafe
  split
  · rfl
  · cases u <;> simp

/-- Within a kind, later times compare later. -/
theorem lt_of_timeNum {env : TzEnv} {a b : DateTime} (hk : SameKind b a)
    (ha : a.Valid) (hb : b.Valid) (h : timeNum a.civil < timeNum b.civil) :
    a.lt env b = true := by
  unfold DateTime.lt DateTime.compare
  rw [decide_eq_true_eq]
  by_cases hd : a.dateOnly = true
  · rw [hd]
    simp only [Bool.true_or, if_true, cmpDate_lt]
    have h1 := ha.2 hd
    have h2 := hb.2 (hk.1.trans hd)
    rw [← fieldsLt_iff_timeNum ha.1 hb.1] at h
    rcases h with h | ⟨_, h⟩
    · exact h
    · omega
  · have hd' : b.dateOnly ≠ true := by rw [hk.1]; exact hd
    simp only [hd, hd', Bool.or_self, Bool.false_eq_true, if_false, hk.2.1, hk.2.2, tzSame_self,
      if_true]
    rw [cmpFields_lt, fieldsLt_iff_timeNum ha.1 hb.1]
    exact h

theorem raw_lt {env : TzEnv} {r : Rule} {start : DateTime} (hv : start.Valid)
    (hsd : start.dateOnly = true → subDaily r.freq = false) (hn : 1 ≤ r.interval) {i j : Nat}
    (hij : i < j) (hi : (r.raw start i).Valid) (hj : (r.raw start j).Valid) :
    (r.raw start i).lt env (r.raw start j) = true := by
  have h1 := r.raw_kind start i
  have h2 := r.raw_kind start j
  exact lt_of_timeNum ⟨h2.1.trans h1.1.symm, h2.2.1.trans h1.2.1.symm, h2.2.2.trans h1.2.2.symm⟩
    hi hj (raw_mono hv hsd hn hij hi hj)

/-- The existing dates among the first `k` steps. -/
def existing (r : Rule) (start : DateTime) (k : Nat) : List DateTime :=
  ((List.range k).map (r.raw start)).filter fun t => !t.invalid

theorem existing_succ (r : Rule) (start : DateTime) (k : Nat) :
    r.existing start (k + 1) = r.existing start k ++
      (if (r.raw start k).invalid then [] else [r.raw start k]) := by
  unfold existing
  rw [List.range_succ, List.map_append, List.filter_append]
  congr 1
  cases h : (r.raw start k).invalid <;> simp [h]

theorem mem_existing {r : Rule} {start t : DateTime} {k : Nat} :
    t ∈ r.existing start k ↔ ∃ j, j < k ∧ r.raw start j = t ∧ t.invalid = false := by
  simp only [existing, List.mem_filter, List.mem_map, List.mem_range, Bool.not_eq_true']
  constructor
  · rintro ⟨⟨j, h1, h2⟩, h3⟩; exact ⟨j, h1, h2, h3⟩
  · rintro ⟨j, h1, h2, h3⟩; exact ⟨⟨j, h1, h2⟩, h3⟩

theorem existing_length_mono (r : Rule) (start : DateTime) {i j : Nat} (h : i ≤ j) :
    (r.existing start i).length ≤ (r.existing start j).length := by
  induction h with
  | refl => exact Nat.le_refl _
  | step _ ih => rw [existing_succ, List.length_append]; omega

theorem existing_length {r : Rule} {start : DateTime} (hv : start.Valid)
    (hsd : start.dateOnly = true → subDaily r.freq = false) {n : Nat} (hn : r.interval = n)
    (k : Nat) :
    (r.existing start k).length = repetitionsBefore r.freq n start.civil k := by
  induction k with
  | zero => rfl
  | succ k ih =>
    rw [existing_succ, List.length_append, ih]
    unfold repetitionsBefore
    rw [Spec.count]
    congr 1
    rw [← raw_civil hv hsd hn k]
    have hnear := raw_near (r := r) hv k
    have hiff := raw_valid_iff (r := r) hv k
    by_cases h : (r.raw start k).Valid
    · rw [hiff.mpr h]; simp [h.1]
    · have : (r.raw start k).invalid = true := by
        rw [← Bool.not_eq_false]; exact fun hc => h (hiff.mp hc)
      rw [this]
      have h' : ¬ (r.raw start k).civil.Valid := fun hc => h (hnear.2.2 hc.1)
      simp [h']

theorem nextValid_spec {r : Rule} {start : DateTime} :
    ∀ (fuel k : Nat) (t : DateTime), r.nextValid fuel (r.raw start k) = some t →
      ∃ k', k < k' ∧ t = r.raw start k' ∧ t.invalid = false ∧
        ∀ j, k < j → j < k' → (r.raw start j).invalid = true := by
  intro fuel
  induction fuel with
  | zero => intro k t h; simp [nextValid] at h
  | succ n ih =>
    intro k t h
    rw [nextValid] at h
    split at h
    · next hi =>
      obtain ⟨k', h1, h2, h3, h4⟩ := ih (k + 1) t h
      refine ⟨k', by omega, h2, h3, fun j hj hj' => ?_⟩
      rcases (by omega : j = k + 1 ∨ k + 1 < j) with rfl | hlt
      · exact hi
      · exact h4 j hlt hj'
    · next hi =>
      simp only [Option.some.injEq] at h
      exact ⟨k + 1, by omega, h.symm, by rw [← h]; simpa using hi, fun j hj hj' => by omega⟩

theorem existing_gap {r : Rule} {start : DateTime} {k k' : Nat} (h : k < k')
    (hk : (r.raw start k).invalid = false)
    (hg : ∀ j, k < j → j < k' → (r.raw start j).invalid = true) :
    r.existing start k' = r.existing start k ++ [r.raw start k] := by
  obtain ⟨d, rfl⟩ : ∃ d, k' = k + 1 + d := ⟨k' - k - 1, by omega⟩
  clear h
  induction d with
  | zero => rw [Nat.add_zero, existing_succ, hk]; rfl
  | succ d ih =>
    rw [show k + 1 + (d + 1) = (k + 1 + d) + 1 by omega, existing_succ,
      ih fun j h1 h2 => hg j h1 (by omega), hg (k + 1 + d) (by omega) (by omega)]
    simp

end Rule
end PyCal
