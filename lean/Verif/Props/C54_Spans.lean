import Verif.Props.C54_Complex
import Mathlib.Tactic.Ring
import Mathlib.Tactic.Positivity

/-!
# C54: the candidates of later intervals are later

-/

namespace PyCal.Rule
open Spec DateTime Period

/-- Rules whose intervals do not overlap: all values in the ranges of RFC 5545 (seconds below 60),
and none of the parts that are known to leave their interval or to be ignored: BYYEARDAY (C52),
BYWEEKNO in a YEARLY rule, BYDAY=53xx in a YEARLY rule (`C32_fails_yearly`). -/
structure Tame (r : Rule) (start : DateTime) : Prop where
  valid : start.Valid
  interval : 1 ≤ r.interval
  weekStart : 0 ≤ r.weekStart ∧ r.weekStart < 7
  byDay : ∀ v ∈ r.byDay, 0 ≤ v.2 ∧ v.2 < 7
  byMonthDay : (0 : Int) ∉ r.byMonthDay
  byMonth : ∀ m ∈ r.byMonth, 1 ≤ m ∧ m ≤ 12
  byHours : ∀ v ∈ r.byHours, 0 ≤ v ∧ v < 24
  byMinutes : ∀ v ∈ r.byMinutes, 0 ≤ v ∧ v < 60
  bySeconds : ∀ v ∈ r.bySeconds, 0 ≤ v ∧ v < 60
  dates : start.dateOnly = true →
    subDaily r.freq = false ∧ r.byHours = [] ∧ r.byMinutes = [] ∧ r.bySeconds = []
  monthly : r.freq = .monthly → r.byYearDay = []
  yearly : r.freq = .yearly → r.byYearDay = [] ∧ r.byWeekNo = [] ∧
    (r.byMonth = [] → r.byMonthDay = [] → ∀ v ∈ r.byDay, -52 ≤ v.1 ∧ v.1 ≤ 52)
  weekly : r.freq = .weekly → 1902 ≤ start.year

/-- Dates for which weekdays are not reliable any more (C05); only WEEKLY rules depend on this. -/
def FarOff (r : Rule) (t : DateTime) : Prop := r.freq = .weekly ∧ 2100 ≤ t.year

/-- `a` is earlier than `b`: by date, or both are valid and `a` is earlier by clock. -/
def Earlier (a b : DateTime) : Prop :=
  a.date.lt b.date ∨ a.Valid ∧ b.Valid ∧ timeNum a.civil < timeNum b.civil

theorem lt_of_earlier {env : TzEnv} {a b : DateTime} (hk : SameKind b a) (h : Earlier a b) :
    a.lt env b = true := by
  rcases h with h | ⟨ha, hb, h⟩
  · unfold DateTime.lt DateTime.compare
    rw [decide_eq_true_eq]
    by_cases hd : a.dateOnly = true
    · simp only [hd, Bool.true_or, if_true, cmpDate_lt]; exact h
    · have hd' : b.dateOnly ≠ true := by rw [hk.1]; exact hd
      simp only [hd, hd', Bool.or_self, Bool.false_eq_true, if_false, hk.2.1, hk.2.2, tzSame_self,
        if_true]
      rw [cmpFields_lt]; exact Or.inl h
  · exact lt_of_timeNum hk ha hb h

theorem cand_sub {env : TzEnv} {r : Rule} {t x : DateTime} (h : x ∈ r.candidates env t) :
    x ∈ ({ r with bySetPos := [] } : Rule).candidates env t := by
  have key : ∀ items, x ∈ r.finishSet env items →
      x ∈ ({ r with bySetPos := [] } : Rule).finishSet env items := by
    intro items hx
    unfold finishSet at hx ⊢
    rw [part_nil]
    by_cases hp : r.bySetPos = []
    · rw [hp, part_nil] at hx; exact hx
    · rw [part_ne hp] at hx
      exact (C33_mem env r _ x).1 hx
  unfold candidates at h ⊢
  cases hf : r.freq <;> simp only [hf] at h ⊢
  all_goals exact key _ h

theorem oneOf_range {vals : List Int} {old new lo hi : Int} (hv : ∀ v ∈ vals, lo ≤ v ∧ v < hi)
    (ho : lo ≤ old ∧ old < hi) (h : OneOf vals old new) : lo ≤ new ∧ new < hi := by
  rcases h with ⟨_, rfl⟩ | h
  · exact ho
  · exact hv _ h

theorem oneOf_nil {old new : Int} (h : OneOf [] old new) : new = old := by
  rcases h with ⟨_, h⟩ | h
  · exact h
  · simp at h

/-- The time of day of a candidate is in range. -/
theorem times_ok {r : Rule} {t x : DateTime} {hs ms ss : List Int} (ht : t.TimeOK)
    (h : TimesFrom hs ms ss t x) (hk : x.dateOnly = t.dateOnly)
    (h1 : ∀ v ∈ hs, 0 ≤ v ∧ v < 24) (h2 : ∀ v ∈ ms, 0 ≤ v ∧ v < 60) (h3 : ∀ v ∈ ss, 0 ≤ v ∧ v < 60)
    (hd : t.dateOnly = true → hs = [] ∧ ms = [] ∧ ss = []) : x.TimeOK := by
  obtain ⟨a, b, c⟩ := h
  obtain ⟨t1, t2, t3, t4, t5, t6, t7⟩ := ht
  have a' := oneOf_range h1 ⟨t1, t2⟩ a
  have b' := oneOf_range h2 ⟨t3, t4⟩ b
  have c' := oneOf_range h3 ⟨t5, t6⟩ c
  refine ⟨a'.1, a'.2, b'.1, b'.2, c'.1, c'.2, fun h => ?_⟩
  rw [hk] at h
  obtain ⟨rfl, rfl, rfl⟩ := hd h
  obtain ⟨z1, z2, z3⟩ := t7 h
  rw [oneOf_nil a, oneOf_nil b, oneOf_nil c]
  exact ⟨z1, z2, z3⟩

/-! ## WEEKLY -/

/-- How far back the week starts. -/
def weekBack (r : Rule) (t : DateTime) : Int := (t.dayOfWeek - r.weekStart) % 7

theorem weekly_mem {env : TzEnv} {r : Rule} {t x : DateTime} (hf : r.freq = .weekly)
    (hp : r.bySetPos = []) (h : t.Valid) (hd : ∀ v ∈ r.byDay, 0 ≤ v.2 ∧ v.2 < 7)
    (hws : 0 ≤ r.weekStart ∧ r.weekStart < 7) (hx : x ∈ r.candidates env t) :
    x.date.Valid ∧ SameKind x t ∧ TimesFrom r.byHours r.byMinutes r.bySeconds t x ∧
    ∃ e, dayNum x.year x.month x.day = dayNum t.year t.month t.day + e ∧
      -r.weekBack t ≤ e ∧ e ≤ -r.weekBack t + 6 := by
  unfold candidates weeklySet at hx
  simp only [hf] at hx
  rw [mem_finish hp, mem_times] at hx
  obtain ⟨⟨d, hm, hs, ht⟩, _⟩ := hx
  have hlim : ∀ y, y ∈ part r.byWeekNo r.byWeekNoLimit (part r.byMonth r.byMonthLimit [t]) →
      y = t := by
    intro y hy
    unfold byMonthLimit byWeekNoLimit at hy
    simp only [mem_part_limit, List.mem_singleton] at hy
    exact hy.1.1
  have hr := dayOfWeek_range t
  have hd' : d.Valid ∧ d = { t with year := d.year, month := d.month, day := d.day } ∧
      ∃ e, dayNum d.year d.month d.day = dayNum t.year t.month t.day + e ∧
        -r.weekBack t ≤ e ∧ e ≤ -r.weekBack t + 6 := by
    unfold weekBack
    by_cases hb : r.byDay = []
    · rw [hb, part_nil] at hm
      rw [hlim d hm]
      exact ⟨h, rfl, 0, by omega, by omega, by omega⟩
    · rw [part_ne hb] at hm
      unfold byDayExpandWeekly at hm
      rw [mem_expandWith] at hm
      obtain ⟨t', hm', ⟨n, wd⟩, hv, he⟩ := hm
      rw [hlim t' hm'] at he
      have h7 := hd _ hv
      simp only at he h7
      split at he
      · rw [List.mem_singleton] at he
        generalize hw' : (if r.weekStart - t.dayOfWeek > 0 then r.weekStart - t.dayOfWeek - 7
          else r.weekStart - t.dayOfWeek) = w at he
        generalize ho' : (if wd - r.weekStart < 0 then wd - r.weekStart + 7 else wd - r.weekStart)
          = o at he
        have hw : w = -((t.dayOfWeek - r.weekStart) % 7) := by
          rw [← hw']; split <;> omega
        have ho : o = (wd - r.weekStart) % 7 := by
          rw [← ho']; split <;> omega
        clear hw' ho'
        have he' : d = t.offsetDay (w + o) := he
        obtain ⟨x1, x2, x3⟩ := offsetDay_num h (w + o)
        rw [← he'] at x1 x2 x3
        exact ⟨x1, x3, w + o, x2, by omega, by omega⟩
      · simp at he
  obtain ⟨h1, h2, e, h3, h4, h5⟩ := hd'
  have hxd := hs.date
  refine ⟨by rw [hxd]; exact h1.onDate, ?_, ?_, e, ?_, h4, h5⟩
  · rw [show x = _ from hs, h2]; exact ⟨rfl, rfl, rfl⟩
  · rw [h2] at ht; exact ht
  · simp only [date, Date.mk.injEq] at hxd
    rw [hxd.1, hxd.2.1, hxd.2.2]; exact h3

/-! ## All frequencies -/

theorem SameKind.trans' {a b c : DateTime} (h : SameKind a b) (h' : SameKind b c) : SameKind a c :=
  ⟨h.1.trans h'.1, h.2.1.trans h'.2.1, h.2.2.trans h'.2.2⟩

theorem raw_timeOK {r : Rule} {start : DateTime} (hv : start.Valid) (k : Nat) :
    (r.raw start k).TimeOK := by
  by_cases hf : r.freq = .monthly
  · rw [raw_month hf hv.month.1 hv.month.2]; exact hv.timeOK
  by_cases hy : r.freq = .yearly
  · rw [raw_year hy]; exact hv.timeOK
  cases k with
  | zero => exact hv.timeOK
  | succ k =>
    have : ∃ t', r.raw start (k + 1) = normalise t' := by
      rw [raw]
      revert hf hy
      cases hf : r.freq <;> intro h1 h2 <;> first
        | exact absurd rfl h1
        | exact absurd rfl h2
        | exact ⟨_, by simp only [step, hf, recur]; rfl⟩
    obtain ⟨t', h'⟩ := this
    rw [h']; exact (normalise_valid _).timeOK

theorem raw_valid {r : Rule} {start : DateTime} (hv : start.Valid) (hf : r.freq ≠ .monthly)
    (hy : r.freq ≠ .yearly) (k : Nat) : (r.raw start k).Valid := by
  cases k with
  | zero => exact hv
  | succ k =>
    have : ∃ t', r.raw start (k + 1) = normalise t' := by
      rw [raw]
      revert hf hy
      cases hf : r.freq <;> intro h1 h2 <;> first
        | exact absurd rfl h1
        | exact absurd rfl h2
        | exact ⟨_, by simp only [step, hf, recur]; rfl⟩
    obtain ⟨t', h'⟩ := this
    rw [h']; exact normalise_valid _

/-- What is common to all candidates: they are valid, of the kind of the start, and in the same
second, minute, hour, day, week, month or year as the iterated date. -/
def InInterval (r : Rule) (t x : DateTime) : Prop :=
  match r.freq with
  | .secondly => timeNum x.civil = timeNum t.civil
  | .minutely => timeNum x.civil / 60 = timeNum t.civil / 60
  | .hourly => timeNum x.civil / 3600 = timeNum t.civil / 3600
  | .daily => x.date = t.date
  | .weekly => ∃ e, dayNum x.year x.month x.day = dayNum t.year t.month t.day + e ∧
      -r.weekBack t ≤ e ∧ e ≤ -r.weekBack t + 6
  | .monthly => x.year = t.year ∧ x.month = t.month
  | .yearly => x.year = t.year

theorem InInterval.refl (r : Rule) (t : DateTime) : r.InInterval t t := by
  unfold InInterval weekBack
  split <;> try simp
  omega

theorem sameDay_kind {t x : DateTime} (h : SameDay t x) : SameKind x t := by
  rw [show x = _ from h]; exact ⟨rfl, rfl, rfl⟩

theorem valid_of_date {x : DateTime} (h : x.date.Valid) (ht : x.TimeOK) : x.Valid :=
  valid_of_parts ((validYMD_iff _ _ _).2 h) ht

theorem cand_spec {env : TzEnv} {r : Rule} {start : DateTime} (h : Tame r start) {k : Nat}
    {x : DateTime} (hx : x ∈ r.candidates env (r.raw start k)) :
    x.Valid ∧ SameKind x start ∧ r.InInterval (r.raw start k) x := by
  have hx := cand_sub hx
  have hrk := r.raw_kind start k
  have hto := raw_timeOK (r := r) h.valid k
  have hnear := raw_near (r := r) h.valid k
  have hvr : r.freq ≠ .monthly → r.freq ≠ .yearly → (r.raw start k).Valid :=
    fun h1 h2 => raw_valid h.valid h1 h2 k
  generalize r.raw start k = t at *
  have hd : t.dateOnly = true →
      subDaily r.freq = false ∧ r.byHours = [] ∧ r.byMinutes = [] ∧ r.bySeconds = [] := by
    rw [hrk.1]; exact h.dates
  have hd3 : t.dateOnly = true → r.byHours = [] ∧ r.byMinutes = [] ∧ r.bySeconds = [] :=
    fun h => (hd h).2
  have ok : ∀ {hs ms ss : List Int}, TimesFrom hs ms ss t x → x.dateOnly = t.dateOnly →
      (hs = r.byHours ∨ hs = []) → (ms = r.byMinutes ∨ ms = []) → (ss = r.bySeconds ∨ ss = []) →
      x.TimeOK := by
    intro hs ms ss a b c d e
    refine times_ok (r := r) hto a b ?_ ?_ ?_ ?_
    · rcases c with rfl | rfl
      · exact h.byHours
      · simp
    · rcases d with rfl | rfl
      · exact h.byMinutes
      · simp
    · rcases e with rfl | rfl
      · exact h.bySeconds
      · simp
    · intro h
      obtain ⟨h1, h2, h3⟩ := hd3 h
      rw [h1] at c; rw [h2] at d; rw [h3] at e
      exact ⟨by simpa using c, by simpa using d, by simpa using e⟩
  cases hf : r.freq with
  | secondly =>
    rw [C53_secondly env { r with bySetPos := [] } t (hvr (by simp [hf]) (by simp [hf])) hf h.byDay rfl] at hx
    rw [hx.1]
    exact ⟨hvr (by simp [hf]) (by simp [hf]), hrk, InInterval.refl r t⟩
  | minutely =>
    have hv := hvr (by simp [hf]) (by simp [hf])
    rw [C53_minutely env { r with bySetPos := [] } t hv hf h.byDay rfl] at hx
    obtain ⟨_, _, _, hs, ht⟩ := hx
    have hok := ok ht (sameDay_kind hs).1 (Or.inr rfl) (Or.inr rfl) (Or.inl rfl)
    refine ⟨valid_of_date (by rw [hs.date]; exact hv.onDate) hok,
      SameKind.trans' (sameDay_kind hs) hrk, ?_⟩
    have e := hs.date
    simp only [date, Date.mk.injEq] at e
    have e1 := oneOf_nil ht.1
    have e2 := oneOf_nil ht.2.1
    unfold InInterval
    simp only [hf, timeNum, civil, date, e.1, e.2.1, e.2.2, e1, e2]
    obtain ⟨_, _, _, _, _, _, _⟩ := hok
    obtain ⟨_, _, _, _, _, _, _⟩ := hto
    omega
  | hourly =>
    have hv := hvr (by simp [hf]) (by simp [hf])
    rw [C53_hourly env { r with bySetPos := [] } t hv hf h.byDay rfl] at hx
    obtain ⟨_, _, hs, ht⟩ := hx
    have hok := ok ht (sameDay_kind hs).1 (Or.inr rfl) (Or.inl rfl) (Or.inl rfl)
    refine ⟨valid_of_date (by rw [hs.date]; exact hv.onDate) hok,
      SameKind.trans' (sameDay_kind hs) hrk, ?_⟩
    have e := hs.date
    simp only [date, Date.mk.injEq] at e
    have e1 := oneOf_nil ht.1
    unfold InInterval
    simp only [hf, timeNum, civil, date, e.1, e.2.1, e.2.2, e1]
    obtain ⟨_, _, _, _, _, _, _⟩ := hok
    obtain ⟨_, _, _, _, _, _, _⟩ := hto
    omega
  | daily =>
    have hv := hvr (by simp [hf]) (by simp [hf])
    rw [C53_daily env { r with bySetPos := [] } t hv hf h.byDay rfl] at hx
    obtain ⟨_, hs, ht⟩ := hx
    have hok := ok ht (sameDay_kind hs).1 (Or.inl rfl) (Or.inl rfl) (Or.inl rfl)
    refine ⟨valid_of_date (by rw [hs.date]; exact hv.onDate) hok,
      SameKind.trans' (sameDay_kind hs) hrk, ?_⟩
    unfold InInterval
    simp only [hf]
    exact hs.date
  | weekly =>
    have hv := hvr (by simp [hf]) (by simp [hf])
    obtain ⟨h1, h2, ht, h3⟩ :=
      weekly_mem (r := { r with bySetPos := [] }) hf rfl hv h.byDay h.weekStart hx
    have hok := ok ht h2.1 (Or.inl rfl) (Or.inl rfl) (Or.inl rfl)
    refine ⟨valid_of_date h1 hok, SameKind.trans' h2 hrk, ?_⟩
    unfold InInterval
    simp only [hf]
    exact h3
  | monthly =>
    rw [C53_monthly env { r with bySetPos := [] } t ⟨hnear.1, hnear.2.1⟩ hto hf (h.monthly hf) h.byMonthDay h.byDay rfl] at hx
    obtain ⟨h1, _, _, hs, ht⟩ := hx
    have hk : SameKind x t := by rw [show x = _ from hs]; exact ⟨rfl, rfl, rfl⟩
    have hok := ok ht hk.1 (Or.inl rfl) (Or.inl rfl) (Or.inl rfl)
    refine ⟨valid_of_date h1 hok, SameKind.trans' hk hrk, ?_⟩
    unfold InInterval
    simp only [hf]
    rw [show x = _ from hs]; exact ⟨rfl, rfl⟩
  | yearly =>
    obtain ⟨y1, y2, y3⟩ := h.yearly hf
    have hx' : x.date.Valid ∧ SameYear t x ∧ TimesFrom r.byHours r.byMinutes r.bySeconds t x := by
      by_cases hc : r.byMonth ≠ [] ∨ r.byMonthDay ≠ [] ∨ r.byDay = []
      · rw [mem_yearly_month env { r with bySetPos := [] } t ⟨hnear.1, hnear.2.1⟩ hto hf y1 y2 hc h.byMonth h.byMonthDay
          h.byDay rfl] at hx
        obtain ⟨h1, _, _, hs, ht⟩ := hx
        exact ⟨h1, hs, ht⟩
      · simp only [not_or, ne_eq, not_not] at hc
        rw [C53_yearly_day_partial env { r with bySetPos := [] } t hto hf y1 y2 hc.1 hc.2.1 hc.2.2
          (fun v hv => ⟨(h.byDay v hv).1, (h.byDay v hv).2, y3 hc.1 hc.2.1 v hv⟩) rfl] at hx
        obtain ⟨h1, _, hs, ht⟩ := hx
        exact ⟨h1, hs, ht⟩
    obtain ⟨h1, hs, ht⟩ := hx'
    have hk : SameKind x t := by rw [show x = _ from hs]; exact ⟨rfl, rfl, rfl⟩
    have hok := ok ht hk.1 (Or.inl rfl) (Or.inl rfl) (Or.inl rfl)
    refine ⟨valid_of_date h1 hok, SameKind.trans' hk hrk, ?_⟩
    unfold InInterval
    simp only [hf]
    rw [show x = _ from hs]

/-- The iterated dates advance by whole intervals. -/
theorem interval_lt {env : TzEnv} {r : Rule} {start : DateTime} (h : Tame r start) {j k : Nat}
    (hjk : j < k) {a b : DateTime} (ha : a = r.raw start j ∨ a ∈ r.candidates env (r.raw start j))
    (hb : b ∈ r.candidates env (r.raw start k)) : FarOff r b ∨ Earlier a b := by
  obtain ⟨n, hn⟩ : ∃ n : Nat, r.interval = n := ⟨r.interval.toNat, by have := h.interval; omega⟩
  have hn1 : 1 ≤ n := by have := h.interval; omega
  have hmul : (j * n : Int) + 1 ≤ k * n := by
    have : j * n < k * n := Nat.mul_lt_mul_of_pos_right hjk hn1
    exact_mod_cast this
  obtain ⟨hbv, hbk, hbi⟩ := cand_spec h hb
  have hai : r.InInterval (r.raw start j) a := by
    rcases ha with rfl | ha
    · exact InInterval.refl _ _
    · exact (cand_spec h ha).2.2
  have hav : r.freq ≠ .monthly → r.freq ≠ .yearly → a.Valid := by
    intro h1 h2
    rcases ha with rfl | ha
    · exact raw_valid h.valid h1 h2 j
    · exact (cand_spec h ha).1
  clear ha hb
  have hsd : subDaily r.freq = true → start.dateOnly = false := by
    intro hs
    cases hd : start.dateOnly with
    | false => rfl
    | true => have := (h.dates hd).1; rw [hs] at this; simp at this
  cases hf : r.freq with
  | secondly =>
    have ha := hav (by simp [hf]) (by simp [hf])
    refine Or.inr (Or.inr ⟨ha, hbv, ?_⟩)
    unfold InInterval at hai hbi
    simp only [hf] at hai hbi
    rw [hai, hbi]
    exact raw_mono h.valid (fun hd => (h.dates hd).1) h.interval hjk
      (raw_valid h.valid (by simp [hf]) (by simp [hf]) j)
      (raw_valid h.valid (by simp [hf]) (by simp [hf]) k)
  | minutely =>
    have ha := hav (by simp [hf]) (by simp [hf])
    refine Or.inr (Or.inr ⟨ha, hbv, ?_⟩)
    unfold InInterval at hai hbi
    simp only [hf] at hai hbi
    have e : ∀ i, timeNum (r.raw start i).civil = timeNum start.civil + i * (60 * n) := by
      intro i
      exact (raw_tick h.valid (hsd (by rw [hf]; rfl)) (60 * n) (fun t hd ht => by
        simp only [step, hf, recur, hn]
        refine ⟨normalise_valid _, ?_⟩
        rw [normalise_secNum { t with minutes := t.minutes + n } hd]
        simp only [secNum, dayNumOf, secondsOfDay]; omega) i).2
    have e1 := e j
    have e2 := e k
    rw [show (j : Int) * (60 * n) = 60 * (j * n) by ring] at e1
    rw [show (k : Int) * (60 * n) = 60 * (k * n) by ring] at e2
    omega
  | hourly =>
    have ha := hav (by simp [hf]) (by simp [hf])
    refine Or.inr (Or.inr ⟨ha, hbv, ?_⟩)
    unfold InInterval at hai hbi
    simp only [hf] at hai hbi
    have e : ∀ i, timeNum (r.raw start i).civil = timeNum start.civil + i * (3600 * n) := by
      intro i
      exact (raw_tick h.valid (hsd (by rw [hf]; rfl)) (3600 * n) (fun t hd ht => by
        simp only [step, hf, recur, hn]
        refine ⟨normalise_valid _, ?_⟩
        rw [normalise_secNum { t with hours := t.hours + n } hd]
        simp only [secNum, dayNumOf, secondsOfDay]; omega) i).2
    have e1 := e j
    have e2 := e k
    rw [show (j : Int) * (3600 * n) = 3600 * (j * n) by ring] at e1
    rw [show (k : Int) * (3600 * n) = 3600 * (k * n) by ring] at e2
    omega
  | daily =>
    have ha := hav (by simp [hf]) (by simp [hf])
    refine Or.inr (Or.inl ?_)
    unfold InInterval at hai hbi
    simp only [hf] at hai hbi
    rw [hai, hbi]
    have e : ∀ i, _ := fun i => raw_day (r := r) (start := start) h.valid n (fun t => by
      simp only [step, hf, recur, hn]) i
    have e1 := e j
    have e2 := e k
    refine (dayNum_lt_iff e1.1.ymd e2.1.ymd).mp ?_
    have e1' := e1.2.1
    have e2' := e2.2.1
    omega
  | weekly =>
    have ha := hav (by simp [hf]) (by simp [hf])
    unfold InInterval at hai hbi
    simp only [hf] at hai hbi
    obtain ⟨ea, a1, a2, a3⟩ := hai
    obtain ⟨eb, b1, b2, b3⟩ := hbi
    have e : ∀ i, _ := fun i => raw_day (r := r) (start := start) h.valid (7 * n) (fun t => by
      simp only [step, hf, recur, hn]) i
    have e1 := e j
    have e2 := e k
    have e1' := e1.2.1
    have e2' := e2.2.1
    rw [show (j : Int) * (7 * n) = 7 * (j * n) by ring] at e1'
    rw [show (k : Int) * (7 * n) = 7 * (k * n) by ring] at e2'
    have wb : 0 ≤ r.weekBack (r.raw start k) ∧ r.weekBack (r.raw start k) < 7 := by
      unfold weekBack; omega
    by_cases hy : (r.raw start k).year ≤ 2100
    · right
      -- the years involved
      have hle : ∀ {p q : DateTime}, p.Valid → q.Valid →
          dayNum p.year p.month p.day ≤ dayNum q.year q.month q.day → p.year ≤ q.year := by
        intro p q hp hq hpq
        by_contra hc
        have := (dayNum_lt_iff hq.ymd hp.ymd).mpr (Or.inl (show q.year < p.year by omega))
        omega
      have hjy : (r.raw start j).year ≤ (r.raw start k).year := hle e1.1 e2.1 (by omega)
      have hsy : start.year ≤ (r.raw start j).year := hle h.valid e1.1 (by
        have : (0 : Int) ≤ j * n := by positivity
        omega)
      have hs1902 := h.weekly hf
      have hdw := dayOfWeek_shift (a := r.raw start j) (b := r.raw start k)
        (k := 7 * (k * n) - 7 * (j * n)) (by omega) (by omega) (by omega)
      have hr := dayOfWeek_range (r.raw start j)
      have hwk : r.weekBack (r.raw start k) = r.weekBack (r.raw start j) := by
        unfold weekBack
        rw [hdw]
        omega
      refine Or.inl ((dayNum_lt_iff ha.ymd hbv.ymd).mp ?_)
      omega
    · left
      have := year_within (a := r.raw start k) (b := b) e2.1.onDate hbv.onDate b1 (by omega) (by omega)
      exact ⟨hf, by omega⟩
  | monthly =>
    refine Or.inr (Or.inl ?_)
    unfold InInterval at hai hbi
    simp only [hf] at hai hbi
    have hm := h.valid.month
    rw [raw_month hf hm.1 hm.2, hn] at hai hbi
    simp only at hai hbi
    unfold Date.lt
    simp only [date]
    generalize (j : Int) * n = p at *
    generalize (k : Int) * n = q at *
    omega
  | yearly =>
    refine Or.inr (Or.inl ?_)
    unfold InInterval at hai hbi
    simp only [hf] at hai hbi
    rw [raw_year hf, hn] at hai hbi
    simp only at hai hbi
    unfold Date.lt
    simp only [date]
    omega

/-- Within an interval, the candidates come in the same order by instant as by clock.  (True in UTC
and with a fixed offset, `steady_of_fixed`; in zones with daylight saving time unless a clock time
in the hour that is skipped and one after it belong to the same interval.) -/
def Steady (env : TzEnv) (r : Rule) (start : DateTime) : Prop :=
  ∀ k, ∀ a ∈ r.candidates env (r.raw start k), ∀ b ∈ r.candidates env (r.raw start k),
    timeNum a.civil < timeNum b.civil → a.posix env < b.posix env

theorem steady_of_fixed {env : TzEnv} {r : Rule} {start : DateTime} (h : Tame r start)
    (hf : FixedOffset env start) : Steady env r start := by
  intro k a ha b hb hlt
  obtain ⟨a1, a2, _⟩ := cand_spec h ha
  obtain ⟨b1, b2, _⟩ := cand_spec h hb
  have hfa : FixedOffset env a := by
    rcases hf with h | ⟨n, h⟩ | ⟨h, h'⟩
    · exact Or.inl (a2.2.1.trans h)
    · exact Or.inr (Or.inl ⟨n, a2.2.2.trans h⟩)
    · exact Or.inr (Or.inr ⟨a2.2.2.trans h, h'⟩)
  exact posix_strictMono env hfa ⟨b2.1.trans a2.1.symm, b2.2.1.trans a2.2.1.symm,
    b2.2.2.trans a2.2.2.symm⟩ a1 b1 hlt

/-- The iterated dates can be compared with the range: they exist, or comparison is by fields. -/
def Comparable (K : DateTime → Prop) (r : Rule) (start : DateTime) : Prop :=
  r.freq = .monthly ∨ r.freq = .yearly → K = IsDate ∨ (∃ u z, K = InZone u z) ∨ start.day ≤ 28

theorem raw_comparable {env : TzEnv} {K : DateTime → Prop} {r : Rule} {start : DateTime}
    (h : Tame r start) (hK : Kind env K) (hs : K start) (hc : Comparable K r start) (k : Nat) :
    K (r.raw start k) := by
  have hrk := r.raw_kind start k
  have byKind : K = IsDate ∨ (∃ u z, K = InZone u z) → K (r.raw start k) := by
    rintro (rfl | ⟨u, z, rfl⟩)
    · exact hrk.1.trans hs
    · obtain ⟨h1, h2⟩ := hs
      refine ⟨hrk.1.trans h1, ?_⟩
      simp only [floating] at *
      rw [hrk.2.1, hrk.2.2]; exact h2
  have byValid : (r.raw start k).Valid → K (r.raw start k) :=
    fun hv => kind_of_same hK hrk hv hs
  by_cases hf : r.freq = .monthly ∨ r.freq = .yearly
  · rcases hc hf with h1 | h1 | h1
    · exact byKind (Or.inl h1)
    · exact byKind (Or.inr h1)
    · refine byValid ((raw_near (r := r) h.valid k).2.2 ?_)
      have hnear := raw_near (r := r) h.valid k
      have hd1 := h.valid.onDate.2.2.1
      have : (r.raw start k).day = start.day := by
        rcases hf with hf | hf
        · rw [raw_month hf h.valid.month.1 h.valid.month.2]
        · rw [raw_year hf]
      rw [← validYMD_iff]
      refine ⟨hnear.1, hnear.2.1, ?_, ?_⟩
      · show 1 ≤ (r.raw start k).day
        rw [this]; exact hd1
      · have := daysInMonth_pos (y := (r.raw start k).year) hnear.1 hnear.2.1
        show (r.raw start k).day ≤ _
        simp only [date] at *
        omega
  · rw [not_or] at hf
    exact byValid (raw_valid h.valid hf.1 hf.2 k)

theorem tame_ordered {env : TzEnv} {K : DateTime → Prop} {r : Rule} {start : DateTime}
    (h : Tame r start) (hK : Kind env K) (hs : K start) (hc : Comparable K r start)
    (hst : Steady env r start) : Ordered env K (fun t => FarOff r t ∧ K t) r start := by
  have hcand : ∀ k, ∀ t ∈ r.candidates env (r.raw start k), K t := by
    intro k t ht
    obtain ⟨h1, h2, _⟩ := cand_spec h ht
    exact kind_of_same hK h2 h1 hs
  have hsame : ∀ {a b : DateTime}, SameKind a start → SameKind b start → SameKind b a :=
    fun ha hb => ⟨hb.1.trans ha.1.symm, hb.2.1.trans ha.2.1.symm, hb.2.2.trans ha.2.2.symm⟩
  refine ⟨hK, hs, hcand, ?_, ?_, ?_⟩
  · intro k a ha b hb hab
    obtain ⟨a1, a2, _⟩ := cand_spec h ha
    obtain ⟨b1, b2, _⟩ := cand_spec h hb
    rcases (by omega : timeNum b.civil < timeNum a.civil ∨ timeNum b.civil = timeNum a.civil ∨
      timeNum a.civil < timeNum b.civil) with hl | hl | hl
    · have := hst k b hb a ha hl; omega
    · have e : a = b := eq_of_civil (hsame b2 a2) (timeNum_inj a1.1 b1.1 hl.symm)
      rw [e]; simpa using not_lt_self env b
    · exact lt_asymm (lt_of_timeNum (hsame a2 b2) a1 b1 hl)
  · intro j k hjk a ha b hb
    rcases interval_lt h hjk (Or.inr ha) hb with hf | hf
    · exact Or.inl ⟨hf, hcand k b hb⟩
    · exact Or.inr (lt_of_earlier (hsame (cand_spec h ha).2.1 (cand_spec h hb).2.1) hf)
  · intro j k hjk b hb s hsK
    rcases interval_lt (env := env) h hjk (Or.inl rfl) hb with hf | hf
    · exact Or.inl ⟨hf, hcand k b hb⟩
    · refine Or.inr fun hr => ?_
      have hl := lt_of_earlier (env := env) (hsame (r.raw_kind start j) (cand_spec h hb).2.1) hf
      exact not_lt_trans hK (raw_comparable h hK hs hc j) hsK (hcand k b hb) hr (lt_asymm hl)

end PyCal.Rule
