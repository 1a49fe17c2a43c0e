import Verif.Props.C133_Rfc

/-!
# C133: rules with COUNT

-/

namespace PyCal.Rule
open Spec DateTime Period

/-- No date is given by two values of a part. -/
structure Distinct (r : Rule) : Prop where
  months : r.byMonth.Nodup
  monthDays : r.byMonthDay.Nodup
  days : r.byDay.Nodup
  hours : r.byHours.Nodup
  minutes : r.byMinutes.Nodup
  seconds : r.bySeconds.Nodup
  monthDay : ∀ t : DateTime, t.Valid → ∀ a ∈ r.byMonthDay, ∀ b ∈ r.byMonthDay, MonthDayMatch t a → MonthDayMatch t b → a = b
  day : ∀ t : DateTime, t.Valid → ∀ a ∈ r.byDay, ∀ b ∈ r.byDay,
    Rfc.DayMatch (r.freq = .yearly ∧ r.byMonth = []) t a → Rfc.DayMatch (r.freq = .yearly ∧ r.byMonth = []) t b → a = b

namespace L133

theorem nodup_flatMap {α : Type} {g : α → List DateTime} {q : DateTime → Bool} {q0 : α → Bool} : ∀ {l : List α},
    (l.filter q0).Nodup → (∀ a ∈ l, ∀ x ∈ g a, q x = true → q0 a = true) → (∀ a ∈ l, ((g a).filter q).Nodup) →
    (∀ a ∈ l, ∀ b ∈ l, ∀ x, x ∈ g a → x ∈ g b → q x = true → a = b) → ((l.flatMap g).filter q).Nodup
  | [], _, _, _, _ => by simp
  | a :: l, hl, h0, one, inj => by
    rw [List.flatMap_cons, List.filter_append, List.nodup_append]
    have hl' : (l.filter q0).Nodup := by
      rw [List.filter_cons] at hl
      split at hl
      · exact (List.nodup_cons.mp hl).2
      · exact hl
    refine ⟨one a (by simp), nodup_flatMap hl' (fun b hb => h0 b (by simp [hb])) (fun b hb => one b (by simp [hb]))
      (fun b hb c hc => inj b (by simp [hb]) c (by simp [hc])), ?_⟩
    rintro x hx y hy rfl
    simp only [List.mem_filter, List.mem_flatMap] at hx hy
    obtain ⟨⟨b, hb, hxb⟩, _⟩ := hy
    have e := inj a (by simp) b (by simp [hb]) x hx.1 hxb hx.2
    subst e
    have hq := h0 a (by simp) x hx.1 hx.2
    rw [List.filter_cons, if_pos hq] at hl
    exact (List.nodup_cons.mp hl).1 (List.mem_filter.mpr ⟨hb, hq⟩)

/-- The dates that exist and whose weekday is right. -/
def near (x : DateTime) : Bool := decide (x.date.Valid ∧ 1902 ≤ x.year ∧ x.year ≤ 2098)

theorem near_iff {x : DateTime} : near x = true ↔ x.date.Valid ∧ 1902 ≤ x.year ∧ x.year ≤ 2098 := by
  simp [near]

theorem near_date {a b : DateTime} (h : a.date = b.date) : near a = near b := by
  unfold near
  have : a.year = b.year := congrArg Date.y h
  rw [h, this]

theorem expand_nodup {β : Type} {f : DateTime → β → List DateTime} {vals : List β} {items : List DateTime} (hv : vals.Nodup)
    {q0 : DateTime → Bool} (hi : (items.filter q0).Nodup)
    (h0 : ∀ t ∈ items, ∀ v ∈ vals, ∀ x ∈ f t v, near x = true → q0 t = true)
    (one : ∀ t ∈ items, ∀ v ∈ vals, ((f t v).filter near).Nodup)
    (inj : ∀ t ∈ items, ∀ t' ∈ items, ∀ v ∈ vals, ∀ v' ∈ vals, ∀ x, x ∈ f t v → x ∈ f t' v' → near x = true → t = t' ∧ v = v') :
    ((expandWith f vals items).filter near).Nodup := by
  rw [expandWith_eq]
  refine nodup_flatMap hi ?_ ?_ ?_
  · intro t ht x hx hn
    obtain ⟨v, hv', hx⟩ := List.mem_flatMap.mp hx
    exact h0 t ht v hv' x hx hn
  · intro t ht
    exact nodup_flatMap (q0 := fun _ => true) (by simpa using hv) (fun _ _ _ _ _ => rfl) (one t ht)
      fun v hv' v' hv'' x h1 h2 h3 => (inj t ht t ht v hv' v' hv'' x h1 h2 h3).2
  · intro t ht t' ht' x h1 h2 h3
    obtain ⟨v, hv', h1⟩ := List.mem_flatMap.mp h1
    obtain ⟨v', hv'', h2⟩ := List.mem_flatMap.mp h2
    exact (inj t ht t' ht' v hv' v' hv'' x h1 h2 h3).1

theorem single_nodup (q : DateTime → Bool) (x : DateTime) : ([x].filter q).Nodup := by
  rw [List.filter_cons]; split <;> simp

/-! ## Times -/

/-- The dates near the present are without repetition and have the time of `u`. -/
structure Steps (u : DateTime) (items : List DateTime) : Prop where
  nodup : (items.filter near).Nodup
  hours : ∀ x ∈ items, near x = true → x.hours = u.hours
  minutes : ∀ x ∈ items, near x = true → x.minutes = u.minutes
  seconds : ∀ x ∈ items, near x = true → x.seconds = u.seconds

theorem times_nodup {r : Rule} {u : DateTime} {items : List DateTime} (h : Steps u items) (h1 : r.byHours.Nodup)
    (h2 : r.byMinutes.Nodup) (h3 : r.bySeconds.Nodup) :
    ((part r.bySeconds r.bySecondExpand (part r.byMinutes r.byMinuteExpand (part r.byHours r.byHourExpand items))).filter
      near).Nodup := by
  -- hours
  have a1 : ((part r.byHours r.byHourExpand items).filter near).Nodup ∧
      (∀ x ∈ part r.byHours r.byHourExpand items, near x = true → x.minutes = u.minutes) ∧
      ∀ x ∈ part r.byHours r.byHourExpand items, near x = true → x.seconds = u.seconds := by
    by_cases hb : r.byHours = []
    · rw [hb, part_nil]; exact ⟨h.nodup, h.minutes, h.seconds⟩
    · rw [part_ne hb]
      unfold byHourExpand
      have hq : ∀ (t : DateTime) (v : Int), near { t with hours := v } = near t := fun t v => near_date rfl
      refine ⟨expand_nodup h1 h.nodup ?_ (fun _ _ _ _ => single_nodup _ _) ?_, ?_, ?_⟩
      · intro t _ v _ x hx hn
        rw [List.mem_singleton] at hx; rw [hx, hq] at hn; exact hn
      · intro t ht t' ht' v _ v' _ x hx hx' hn
        rw [List.mem_singleton] at hx hx'
        have n1 : near t = true := by rw [hx, hq] at hn; exact hn
        have n2 : near t' = true := by rw [hx', hq] at hn; exact hn
        have e1 := h.hours t ht n1
        have e2 := h.hours t' ht' n2
        rw [hx] at hx'
        obtain ⟨⟩ := t; obtain ⟨⟩ := t'
        simp_all
      · intro x hx hn
        obtain ⟨t, ht, v, _, hx⟩ := mem_expandWith.mp hx
        rw [List.mem_singleton] at hx
        rw [hx, hq] at hn
        rw [hx]; exact h.minutes t ht hn
      · intro x hx hn
        obtain ⟨t, ht, v, _, hx⟩ := mem_expandWith.mp hx
        rw [List.mem_singleton] at hx
        rw [hx, hq] at hn
        rw [hx]; exact h.seconds t ht hn
  generalize part r.byHours r.byHourExpand items = i1 at a1
  -- minutes
  have a2 : ((part r.byMinutes r.byMinuteExpand i1).filter near).Nodup ∧
      ∀ x ∈ part r.byMinutes r.byMinuteExpand i1, near x = true → x.seconds = u.seconds := by
    by_cases hb : r.byMinutes = []
    · rw [hb, part_nil]; exact ⟨a1.1, a1.2.2⟩
    · rw [part_ne hb]
      unfold byMinuteExpand
      have hq : ∀ (t : DateTime) (v : Int), near { t with minutes := v } = near t := fun t v => near_date rfl
      refine ⟨expand_nodup h2 a1.1 ?_ (fun _ _ _ _ => single_nodup _ _) ?_, ?_⟩
      · intro t _ v _ x hx hn
        rw [List.mem_singleton] at hx; rw [hx, hq] at hn; exact hn
      · intro t ht t' ht' v _ v' _ x hx hx' hn
        rw [List.mem_singleton] at hx hx'
        have n1 : near t = true := by rw [hx, hq] at hn; exact hn
        have n2 : near t' = true := by rw [hx', hq] at hn; exact hn
        have e1 := a1.2.1 t ht n1
        have e2 := a1.2.1 t' ht' n2
        rw [hx] at hx'
        obtain ⟨⟩ := t; obtain ⟨⟩ := t'
        simp_all
      · intro x hx hn
        obtain ⟨t, ht, v, _, hx⟩ := mem_expandWith.mp hx
        rw [List.mem_singleton] at hx
        rw [hx, hq] at hn
        rw [hx]; exact a1.2.2 t ht hn
  generalize part r.byMinutes r.byMinuteExpand i1 = i2 at a2
  by_cases hb : r.bySeconds = []
  · rw [hb, part_nil]; exact a2.1
  · rw [part_ne hb]
    unfold bySecondExpand
    have hq : ∀ (t : DateTime) (v : Int), near { t with seconds := v } = near t := fun t v => near_date rfl
    refine expand_nodup h3 a2.1 ?_ (fun _ _ _ _ => single_nodup _ _) ?_
    · intro t _ v _ x hx hn
      rw [List.mem_singleton] at hx; rw [hx, hq] at hn; exact hn
    · intro t ht t' ht' v _ v' _ x hx hx' hn
      rw [List.mem_singleton] at hx hx'
      have n1 : near t = true := by rw [hx, hq] at hn; exact hn
      have n2 : near t' = true := by rw [hx', hq] at hn; exact hn
      have e1 := a2.2 t ht n1
      have e2 := a2.2 t' ht' n2
      rw [hx] at hx'
      obtain ⟨⟩ := t; obtain ⟨⟩ := t'
      simp_all

theorem finish_nodup {env : TzEnv} {r : Rule} (hp : r.bySetPos = []) {items : List DateTime} (h : (items.filter near).Nodup) :
    ((r.finishSet env items).filter near).Nodup := by
  unfold finishSet
  rw [hp, part_nil]
  exact h.sublist (List.filter_sublist.filter _)

theorem steps_sub {u : DateTime} {items : List DateTime} (h : items.Sublist [u]) : Steps u items := by
  have hm : ∀ x ∈ items, x = u := fun x hx => List.mem_singleton.mp (h.subset hx)
  refine ⟨(List.nodup_singleton u).sublist (List.filter_sublist.trans h), ?_, ?_, ?_⟩ <;>
    (intro x hx _; rw [hm x hx])

theorem Steps.sublist {u : DateTime} {a b : List DateTime} (h : Steps u b) (hs : a.Sublist b) : Steps u a :=
  ⟨h.nodup.sublist (hs.filter _), fun x hx => h.hours x (hs.subset hx), fun x hx => h.minutes x (hs.subset hx),
    fun x hx => h.seconds x (hs.subset hx)⟩

theorem limit_sub {β : Type} (vals : List β) (test : DateTime → β → Bool) (items : List DateTime) :
    (part vals (limitWith test vals) items).Sublist items := by
  unfold part
  split
  · exact List.Sublist.refl _
  · rw [limitWith_eq]; exact List.filter_sublist

theorem dayLimits_sub (r : Rule) (u : DateTime) : (r.dayLimits u).Sublist [u] := by
  unfold dayLimits
  exact (limit_sub _ _ _).trans ((limit_sub _ _ _).trans ((limit_sub _ _ _).trans (limit_sub _ _ _)))

/-! ## Days -/

/-- Dates with the day and time of `u` in different months of its year. -/
structure Months (u : DateTime) (ds : List DateTime) : Prop where
  nodup : ds.Nodup
  month : ∀ d ∈ ds, 1 ≤ d.month ∧ d.month ≤ 12
  same : ∀ d ∈ ds, d = { u with month := d.month }

theorem Months.inj {u : DateTime} {ds : List DateTime} (h : Months u ds) {d d' : DateTime} (hd : d ∈ ds) (hd' : d' ∈ ds)
    (he : d.month = d'.month) : d = d' := by
  rw [h.same d hd, h.same d' hd', he]

theorem Months.time {u : DateTime} {ds : List DateTime} (h : Months u ds) {d : DateTime} (hd : d ∈ ds) (hu : u.TimeOK) : d.TimeOK := by
  rw [h.same d hd]; exact hu

theorem Months.times {u : DateTime} {ds : List DateTime} (h : Months u ds) {d : DateTime} (hd : d ∈ ds) :
    d.hours = u.hours ∧ d.minutes = u.minutes ∧ d.seconds = u.seconds := by
  have e := h.same d hd
  exact ⟨by rw [e], by rw [e], by rw [e]⟩

theorem valid_day {d x : DateTime} (ht : d.TimeOK) (hv : x.date.Valid) (he : x = { d with day := x.day }) : x.Valid :=
  valid_of_parts ((validYMD_iff _ _ _).2 hv) (by rw [he]; exact ht)

theorem month_eq {d d' x : DateTime} (h : x = { d with day := x.day }) (h' : x = { d' with day := x.day }) : d.month = d'.month := by
  have a : x.month = d.month := by rw [h]
  have b : x.month = d'.month := by rw [h']
  exact a.symm.trans b

theorem near_valid {x : DateTime} (h : near x = true) : x.invalid = false := by
  have hv := (near_iff.mp h).1
  exact (invalid_iff hv.1 hv.2.1).mpr hv

theorem monthDays {r : Rule} {u : DateTime} {ds : List DateTime} (hD : Distinct r) (h0 : (0 : Int) ∉ r.byMonthDay)
    (hu : u.TimeOK) (hds : Months u ds) : Steps u (r.byMonthDayExpand ds) := by
  have key : ∀ d ∈ ds, ∀ n ∈ r.byMonthDay, ∀ x, x ∈ [d.setMonthDay n true] → near x = true →
      x.date.Valid ∧ x = { d with day := x.day } ∧ MonthDayMatch x n := by
    intro d hd n hn x hx hq
    have := (C32_monthDay { r with byMonthDay := [n] } [d] (by simpa using hds.month d hd)
      (by simp only [List.mem_singleton]; intro h; exact h0 (h ▸ hn)) x).mp
      (by
        rw [List.mem_filter]
        exact ⟨by unfold byMonthDayExpand; rw [mem_expandWith]; exact ⟨d, by simp, n, by simp, hx⟩, by simp [near_valid hq]⟩)
    simpa using this
  have hm : ∀ x ∈ r.byMonthDayExpand ds, near x = true → ∃ d ∈ ds, x = { d with day := x.day } := by
    intro x hx hq
    unfold byMonthDayExpand at hx
    obtain ⟨d, hd, n, hn, hx⟩ := mem_expandWith.mp hx
    exact ⟨d, hd, (key d hd n hn x hx hq).2.1⟩
  refine ⟨?_, ?_, ?_, ?_⟩
  · unfold byMonthDayExpand
    refine expand_nodup hD.monthDays (q0 := fun _ => true) (by simpa using hds.nodup) (fun _ _ _ _ _ _ _ => rfl)
      (fun _ _ _ _ => single_nodup _ _) ?_
    intro d hd d' hd' n hn n' hn' x hx hx' hq
    obtain ⟨a, b, c⟩ := key d hd n hn x hx hq
    obtain ⟨_, b', c'⟩ := key d' hd' n' hn' x hx' hq
    exact ⟨hds.inj hd hd' (month_eq b b'),
      hD.monthDay x (valid_day (hds.time hd hu) a b) n hn n' hn' c c'⟩
  all_goals
    intro x hx hq
    obtain ⟨d, hd, e⟩ := hm x hx hq
    rw [e]
  exacts [(hds.times hd).1, (hds.times hd).2.1, (hds.times hd).2.2]

theorem weekdays_month {r : Rule} {u : DateTime} {ds : List DateTime} (hD : Distinct r) (hd7 : ∀ v ∈ r.byDay, 0 ≤ v.2 ∧ v.2 < 7)
    (hy : ¬ (r.freq = .yearly ∧ r.byMonth = [])) (hu : u.TimeOK) (hds : Months u ds) : Steps u (r.byDayExpandMonthly ds) := by
  have num : ∀ d ∈ ds, ∀ n wd : Int, n ≠ 0 → 0 ≤ wd → wd < 7 → ∀ x, x = d.setDayOfWeekInMonth n wd true → near x = true →
      x.date.Valid ∧ x = { d with day := x.day } ∧ WeekdayMatch x (n, wd) := by
    intro d hd n wd hn h0 h1 x hx hq
    have := (C32_day_monthly { r with byDay := [(n, wd)] } [d] (by simpa using hds.month d hd) (by simpa using ⟨h0, h1⟩) x).mp
      (by
        rw [List.mem_filter]
        exact ⟨by unfold byDayExpandMonthly; rw [mem_expandWith]; exact ⟨d, by simp, (n, wd), by simp, by simp [hn, hx]⟩,
          by simp [near_valid hq]⟩)
    simpa using this
  have key : ∀ d ∈ ds, ∀ v ∈ r.byDay, ∀ x, x ∈ (if v.1 ≠ 0 then [d.setDayOfWeekInMonth v.1 v.2 true]
      else ((List.range 6).map fun (i : Nat) => d.setDayOfWeekInMonth (i + 1) v.2 true).filter
        fun t => decide (t.month = d.month)) → near x = true →
      x.date.Valid ∧ x = { d with day := x.day } ∧ WeekdayMatch x v := by
    intro d hd v hv x hx hq
    have := (C32_day_monthly { r with byDay := [v] } [d] (by simpa using hds.month d hd) (by simpa using hd7 v hv) x).mp
      (by
        rw [List.mem_filter]
        exact ⟨by unfold byDayExpandMonthly; rw [mem_expandWith]; exact ⟨d, by simp, v, by simp, hx⟩, by simp [near_valid hq]⟩)
    simpa using this
  have hm : ∀ x ∈ r.byDayExpandMonthly ds, near x = true → ∃ d ∈ ds, x = { d with day := x.day } := by
    intro x hx hq
    unfold byDayExpandMonthly at hx
    obtain ⟨d, hd, n, hn, hx⟩ := mem_expandWith.mp hx
    exact ⟨d, hd, (key d hd n hn x hx hq).2.1⟩
  refine ⟨?_, ?_, ?_, ?_⟩
  · unfold byDayExpandMonthly
    refine expand_nodup hD.days (q0 := fun _ => true) (by simpa using hds.nodup) (fun _ _ _ _ _ _ _ => rfl) ?_ ?_
    · intro d hd v hv
      split
      · exact single_nodup _ _
      · refine List.Nodup.sublist (List.filter_sublist.filter _) ?_
        rw [List.map_eq_flatMap]
        refine nodup_flatMap (q0 := fun _ => true) (by simpa using List.nodup_range) (fun _ _ _ _ _ => rfl)
          (fun _ _ => single_nodup _ _) ?_
        intro i _ j _ x hi hj hq
        rw [List.mem_singleton] at hi hj
        have h7 := hd7 v hv
        obtain ⟨_, _, a⟩ := num d hd (i + 1) v.2 (by omega) h7.1 h7.2 x hi hq
        obtain ⟨_, _, b⟩ := num d hd (j + 1) v.2 (by omega) h7.1 h7.2 x hj hq
        rw [weekdayMatch_iff] at a b
        obtain ⟨_, a⟩ := a
        obtain ⟨_, b⟩ := b
        omega
    · intro d hd d' hd' v hv v' hv' x hx hx' hq
      obtain ⟨a, b, c⟩ := key d hd v hv x hx hq
      obtain ⟨_, b', c'⟩ := key d' hd' v' hv' x hx' hq
      have hxv := valid_day (hds.time hd hu) a b
      have hn := near_iff.mp hq
      refine ⟨hds.inj hd hd' (month_eq b b'), hD.day x hxv v hv v' hv' ?_ ?_⟩
      · exact (dayMatch_month hxv (by omega) (by omega) (hd7 v hv) hy).mp c
      · exact (dayMatch_month hxv (by omega) (by omega) (hd7 v' hv') hy).mp c'
  all_goals
    intro x hx hq
    obtain ⟨d, hd, e⟩ := hm x hx hq
    rw [e]
  exacts [(hds.times hd).1, (hds.times hd).2.1, (hds.times hd).2.2]

theorem weekdays_year {r : Rule} {u : DateTime} (hD : Distinct r)
    (hd7 : ∀ v ∈ r.byDay, 0 ≤ v.2 ∧ v.2 < 7 ∧ -52 ≤ v.1 ∧ v.1 ≤ 52)
    (hy : r.freq = .yearly ∧ r.byMonth = []) (hu : u.TimeOK) : Steps u (r.byDayExpandYearly [u]) := by
  have key : ∀ v ∈ r.byDay, ∀ x, x ∈ (if v.1 ≠ 0 then [u.setDayOfWeekInYear v.1 v.2]
      else ((List.range 53).map fun (i : Nat) => u.setDayOfWeekInYear (i + 1) v.2).filter
        fun t => decide (t.year = u.year)) →
      x.date.Valid ∧ x = { u with month := x.month, day := x.day } ∧ YearWeekdayMatch x v := by
    intro v hv x hx
    have := (C32_day_yearly_partial { r with byDay := [v] } [u] (by simpa using hu) (by simpa using hd7 v hv) x).mp
      (by unfold byDayExpandYearly; rw [mem_expandWith]; exact ⟨u, by simp, v, by simp, hx⟩)
    simpa using this
  have hm : ∀ x ∈ r.byDayExpandYearly [u], x = { u with month := x.month, day := x.day } := by
    intro x hx
    unfold byDayExpandYearly at hx
    obtain ⟨d, hd, v, hv, hx'⟩ := mem_expandWith.mp hx
    rw [List.mem_singleton] at hd; subst hd
    exact (key v hv x hx').2.1
  refine ⟨?_, ?_, ?_, ?_⟩
  · unfold byDayExpandYearly
    refine expand_nodup hD.days (q0 := fun _ => true) (by simp) (fun _ _ _ _ _ _ _ => rfl) ?_ ?_
    · intro d hd v hv
      rw [List.mem_singleton] at hd; subst hd
      split
      · exact single_nodup _ _
      · have h7 := hd7 v hv
        rw [List.map_eq_flatMap, List.filter_filter]
        refine nodup_flatMap (q0 := fun _ => true) (by simpa using List.nodup_range) (fun _ _ _ _ _ => rfl)
          (fun _ _ => single_nodup _ _) ?_
        intro i _ j _ x hi hj hq
        rw [List.mem_singleton] at hi hj
        simp only [Bool.and_eq_true, decide_eq_true_eq] at hq
        obtain ⟨_, _, _, a⟩ := (setDayOfWeekInYear_iff hu (i + 1) v.2 h7.1 h7.2.1 (by omega) hq.2).mp hi
        obtain ⟨_, _, _, b⟩ := (setDayOfWeekInYear_iff hu (j + 1) v.2 h7.1 h7.2.1 (by omega) hq.2).mp hj
        simp only at a b
        omega
    · intro d hd d' hd' v hv v' hv' x hx hx' hq
      rw [List.mem_singleton] at hd hd'; subst hd; subst hd'
      obtain ⟨a, b, c⟩ := key v hv x hx
      obtain ⟨_, b', c'⟩ := key v' hv' x hx'
      have hxv : x.Valid := valid_of_parts ((validYMD_iff _ _ _).2 a) (by rw [b]; exact hu)
      have hn := near_iff.mp hq
      refine ⟨rfl, hD.day x hxv v hv v' hv' ?_ ?_⟩
      · exact (dayMatch_year hxv (by omega) (by omega) ⟨(hd7 v hv).1, (hd7 v hv).2.1⟩ hy).mp c
      · exact (dayMatch_year hxv (by omega) (by omega) ⟨(hd7 v' hv').1, (hd7 v' hv').2.1⟩ hy).mp c'
  all_goals
    intro x hx hq
    rw [hm x hx]

theorem weekdays_week {r : Rule} {u : DateTime} (hD : Distinct r) (hd7 : ∀ v ∈ r.byDay, 0 ≤ v.2 ∧ v.2 < 7)
    (hws : 0 ≤ r.weekStart ∧ r.weekStart < 7) (hu : u.Valid) {ds : List DateTime} (hds : ds.Sublist [u]) :
    Steps u (r.byDayExpandWeekly ds) := by
  have hmem : ∀ x ∈ ds, x = u := fun x hx => List.mem_singleton.mp (hds.subset hx)
  have hm : ∀ x ∈ r.byDayExpandWeekly ds, x.hours = u.hours ∧ x.minutes = u.minutes ∧ x.seconds = u.seconds := by
    intro x hx
    unfold byDayExpandWeekly at hx
    obtain ⟨d, hd, v, hv, hx⟩ := mem_expandWith.mp hx
    have hd := hmem d hd; subst hd
    dsimp only at hx
    split at hx
    · rw [List.mem_singleton] at hx
      obtain ⟨_, _, e⟩ := offsetDay_num hu ((if r.weekStart - d.dayOfWeek > 0 then r.weekStart - d.dayOfWeek - 7
        else r.weekStart - d.dayOfWeek) + if v.2 - r.weekStart < 0 then v.2 - r.weekStart + 7 else v.2 - r.weekStart)
      rw [← hx] at e
      exact ⟨by rw [e], by rw [e], by rw [e]⟩
    · simp at hx
  refine ⟨?_, fun x hx _ => (hm x hx).1, fun x hx _ => (hm x hx).2.1, fun x hx _ => (hm x hx).2.2⟩
  unfold byDayExpandWeekly
  refine expand_nodup hD.days (q0 := fun _ => true) (by simpa using (List.nodup_singleton u).sublist hds)
    (fun _ _ _ _ _ _ _ => rfl) ?_ ?_
  · intro d hd v hv
    dsimp only
    split
    · exact single_nodup _ _
    · simp
  · intro d hd d' hd' v hv v' hv' x hx hx' _
    have e := hmem d hd; subst e
    have e := hmem d' hd'; subst e
    refine ⟨rfl, ?_⟩
    dsimp only at hx hx'
    split at hx
    · next h0 =>
      split at hx'
      · next h0' =>
        rw [List.mem_singleton] at hx hx'
        obtain ⟨_, e, _⟩ := offsetDay_num hu ((if r.weekStart - d'.dayOfWeek > 0 then r.weekStart - d'.dayOfWeek - 7
          else r.weekStart - d'.dayOfWeek) + if v.2 - r.weekStart < 0 then v.2 - r.weekStart + 7 else v.2 - r.weekStart)
        obtain ⟨_, e', _⟩ := offsetDay_num hu ((if r.weekStart - d'.dayOfWeek > 0 then r.weekStart - d'.dayOfWeek - 7
          else r.weekStart - d'.dayOfWeek) + if v'.2 - r.weekStart < 0 then v'.2 - r.weekStart + 7 else v'.2 - r.weekStart)
        rw [← hx] at e
        rw [← hx', e] at e'
        have h7 := hd7 v hv
        have h7' := hd7 v' hv'
        refine Prod.ext (h0.trans h0'.symm) ?_
        split at e' <;> split at e' <;> omega
      · simp at hx'
    · simp at hx

/-! ## The candidates -/

theorem candidates_nodup {env : TzEnv} {r : Rule} {s u : DateTime} (hT : Tame r s) (hS : Standard r) (hD : Distinct r)
    (hu : u.TimeOK) (hum : 1 ≤ u.month ∧ u.month ≤ 12) (huv : r.freq = .weekly → u.Valid) :
    ((r.candidates env u).filter near).Nodup := by
  have one : Months u [u] := ⟨List.nodup_singleton u, by simpa using hum, by simp⟩
  have sub : ∀ {l : List DateTime}, l.Sublist [u] → Months u l := fun h =>
    ⟨one.nodup.sublist h, fun d hd => one.month d (h.subset hd), fun d hd => one.same d (h.subset hd)⟩
  have fin : ∀ {l : List DateTime}, Steps u l → ((r.finishSet env (part r.bySeconds r.bySecondExpand
      (part r.byMinutes r.byMinuteExpand (part r.byHours r.byHourExpand l)))).filter near).Nodup := fun h =>
    finish_nodup hS.setPos (times_nodup h hD.hours hD.minutes hD.seconds)
  unfold candidates
  split
  · exact finish_nodup hS.setPos (steps_sub ((limit_sub _ _ _).trans ((limit_sub _ _ _).trans
      ((limit_sub _ _ _).trans (dayLimits_sub r u))))).nodup
  · exact finish_nodup hS.setPos (times_nodup (r := { r with byHours := [], byMinutes := [] }) (steps_sub
      ((limit_sub _ _ _).trans ((limit_sub _ _ _).trans (dayLimits_sub r u)))) (by simp) (by simp) hD.seconds)
  · exact finish_nodup hS.setPos (times_nodup (r := { r with byHours := [] }) (steps_sub
      ((limit_sub _ _ _).trans (dayLimits_sub r u))) (by simp) hD.minutes hD.seconds)
  · exact fin (steps_sub (dayLimits_sub r u))
  · next hf =>
    unfold weeklySet
    refine fin ?_
    have hs : (part r.byWeekNo r.byWeekNoLimit (part r.byMonth r.byMonthLimit [u])).Sublist [u] :=
      (limit_sub _ _ _).trans (limit_sub _ _ _)
    by_cases hb : r.byDay = []
    · rw [hb, part_nil]; exact steps_sub hs
    · rw [part_ne hb]; exact weekdays_week hD hT.byDay hT.weekStart (huv hf) hs
  · next hf =>
    unfold monthlySet
    refine fin ?_
    have hs : (part r.byMonth r.byMonthLimit [u]).Sublist [u] := limit_sub _ _ _
    by_cases hm : r.byMonthDay = []
    · rw [hm, part_nil]
      by_cases hb : r.byDay = []
      · rw [hb, part_nil]; exact steps_sub hs
      · rw [part_ne hb, hS.yearDay]
        exact weekdays_month hD hT.byDay (by simp [hf]) hu (sub hs)
    · rw [part_ne hm]
      have h1 := monthDays hD hT.byMonthDay hu (sub hs)
      by_cases hb : r.byDay = []
      · rw [hb, part_nil]; exact h1
      · rw [part_ne hb]
        have : (!r.byYearDay.isEmpty || !r.byMonthDay.isEmpty) = true := by simp [hm]
        rw [if_pos this]
        have e := limit_sub r.byDay (fun d v => d.isDayOfWeekInMonth v.1 v.2) (r.byMonthDayExpand (part r.byMonth r.byMonthLimit [u]))
        rw [part_ne hb] at e
        exact h1.sublist e
  · next hf =>
    unfold yearlySet
    refine fin ?_
    rw [hS.weekNo, hS.yearDay, part_nil, part_nil]
    have hs : Months u (part r.byMonth r.byMonthExpand [u]) := by
      by_cases hb : r.byMonth = []
      · rw [hb, part_nil]; exact one
      · rw [part_ne hb]
        have e : r.byMonthExpand [u] = r.byMonth.map fun m => { u with month := m } := by
          unfold byMonthExpand; rw [expandWith_eq]; rw [List.map_eq_flatMap]; simp
        rw [e]
        refine ⟨?_, ?_, ?_⟩
        · exact hD.months.map_on (f := fun m => ({ u with month := m } : DateTime)) fun a _ b _ h => congrArg DateTime.month h
        · intro d hd
          obtain ⟨m, hm, rfl⟩ := List.mem_map.mp hd
          exact hT.byMonth m hm
        · intro d hd
          obtain ⟨m, hm, rfl⟩ := List.mem_map.mp hd
          rfl
    by_cases hm : r.byMonthDay = []
    · rw [hm, part_nil]
      by_cases hb : r.byDay = []
      · rw [hb, part_nil]
        refine ⟨hs.nodup.filter _, ?_, ?_, ?_⟩ <;> intro x hx _
        exacts [(hs.times hx).1, (hs.times hx).2.1, (hs.times hx).2.2]
      · rw [part_ne hb]
        by_cases hmo : r.byMonth = []
        · rw [hmo, part_nil]
          have h52 := (hT.yearly hf).2.2 hmo hm
          simp only [List.isEmpty_nil, Bool.not_true, Bool.or_self, Bool.false_eq_true, if_false]
          exact weekdays_year hD (fun v hv => ⟨(hT.byDay v hv).1, (hT.byDay v hv).2, h52 v hv⟩) ⟨hf, hmo⟩ hu
        · have : (!r.byMonth.isEmpty) = true := by simp [hmo]
          simp only [List.isEmpty_nil, Bool.not_true, Bool.or_self, Bool.false_eq_true, if_false, this, if_true]
          exact weekdays_month hD hT.byDay (by simp [hmo]) hu hs
    · rw [part_ne hm]
      have h1 := monthDays hD hT.byMonthDay hu hs
      by_cases hb : r.byDay = []
      · rw [hb, part_nil]; exact h1
      · rw [part_ne hb]
        have : (!([] : List Int).isEmpty || !r.byMonthDay.isEmpty) = true := by simp [hm]
        rw [if_pos this]
        have e := limit_sub r.byDay (fun d v => d.isDayOfWeekInMonth v.1 v.2) (r.byMonthDayExpand (part r.byMonth r.byMonthExpand [u]))
        rw [part_ne hb] at e
        exact h1.sublist e

/-! ## Intervals -/

theorem num_civil {a b : DateTime} (ha : a.Valid) (hb : b.Valid) (h : timeNum a.civil ≤ timeNum b.civil) : num a.date ≤ num b.date := by
  obtain ⟨_, a1, a2, a3, a4, a5, a6⟩ := ha.1
  obtain ⟨_, b1, b2, b3, b4, b5, b6⟩ := hb.1
  unfold timeNum at h
  have e1 : dayNum a.civil.date.y a.civil.date.m a.civil.date.d = num a.date := rfl
  have e2 : dayNum b.civil.date.y b.civil.date.m b.civil.date.d = num b.date := rfl
  rw [e1, e2] at h
  omega

/-- Later intervals have later dates. -/
theorem step_mono {f : Freq} {n : Nat} {ws : Int} {s x t : DateTime} (hn : 1 ≤ n) (hs : s.Valid) (h1 : 1902 ≤ s.year)
    (h2 : s.year ≤ 2098) (hx : x.Valid) (ht : t.Valid) (hl : timeNum x.civil ≤ timeNum t.civil) {i k : Nat}
    (hi : Rfc.InStep f n ws s x i) (hk : Rfc.InStep f n ws s t k) : i ≤ k := by
  by_contra hc
  have hlt : k * n < i * n := Nat.mul_lt_mul_of_pos_right (by omega) (by omega)
  have hlt' : (k : Int) * n < i * n := by exact_mod_cast hlt
  have hsd : s.date.Valid := hs.1.1
  have hxd : x.date.Valid := hx.1.1
  have htd : t.date.Valid := ht.1.1
  have hnum := num_civil hx ht hl
  unfold Rfc.InStep at hi hk
  cases f with
  | secondly =>
    simp only at hi hk
    have a := (iter_tick hs.1 (i * n)).2
    have b := (iter_tick hs.1 (k * n)).2
    rw [← hi] at a; rw [← hk] at b
    omega
  | minutely =>
    simp only at hi hk
    have h0 : ({ s.civil with s := 0 } : Time).Valid := by
      obtain ⟨a, b, d, e, f, _, _⟩ := hs.1; exact ⟨a, b, d, e, f, by simp, by simp⟩
    have a := (iter_tick h0 (i * n * 60)).2
    have b := (iter_tick h0 (k * n * 60)).2
    rw [← hi] at a; rw [← hk] at b
    obtain ⟨_, _, _, _, _, _, _⟩ := hx.1
    obtain ⟨_, _, _, _, _, _, _⟩ := ht.1
    unfold timeNum at a b hl
    simp only at a b hl
    push_cast at a b
    omega
  | hourly =>
    simp only at hi hk
    have h0 : ({ s.civil with mi := 0, s := 0 } : Time).Valid := by
      obtain ⟨a, b, d, e, f, _, _⟩ := hs.1; exact ⟨a, b, d, by simp, by simp, by simp, by simp⟩
    have a := (iter_tick h0 (i * n * 3600)).2
    have b := (iter_tick h0 (k * n * 3600)).2
    rw [← hi] at a; rw [← hk] at b
    obtain ⟨_, _, _, _, _, _, _⟩ := hx.1
    obtain ⟨_, _, _, _, _, _, _⟩ := ht.1
    unfold timeNum at a b hl
    simp only at a b hl
    push_cast at a b
    omega
  | daily =>
    simp only at hi hk
    rw [iter_num hsd hxd] at hi
    rw [iter_num hsd htd] at hk
    omega
  | weekly =>
    obtain ⟨f, ⟨vf, wf, p, hp, ef⟩, vf', wf', p', hp', ef'⟩ := hi
    obtain ⟨g, ⟨vg, wg, q, hq, eg⟩, vg', wg', q', hq', eg'⟩ := hk
    rw [iter_num vf hsd] at ef
    rw [iter_num vg hsd] at eg
    rw [iter_num vf' hxd] at ef'
    rw [iter_num vg' htd] at eg'
    rw [(iter_num vf vf' (i * n * 7)).mp rfl] at ef'
    rw [(iter_num vg vg' (k * n * 7)).mp rfl] at eg'
    have y1 := year_near' hsd vf (by omega) (by omega)
    have y2 := year_near' hsd vg (by omega) (by omega)
    have hsy : s.date.y = s.year := rfl
    rw [onWeekday_num vf (by omega) (by omega)] at wf
    rw [onWeekday_num vg (by omega) (by omega)] at wg
    have : num f = num g := by omega
    push_cast at ef' eg'
    omega
  | monthly =>
    simp only at hi hk
    have hxm : 1 ≤ x.month ∧ x.month ≤ 12 := ⟨hxd.1, hxd.2.1⟩
    have htm : 1 ≤ t.month ∧ t.month ≤ 12 := ⟨htd.1, htd.2.1⟩
    have : num t.date < num x.date := dayNum_lt ((validYMD_iff _ _ _).2 htd) ((validYMD_iff _ _ _).2 hxd) (by
      show t.year < x.year ∨ t.year = x.year ∧ (t.month < x.month ∨ t.month = x.month ∧ t.day < x.day)
      omega)
    omega
  | yearly =>
    simp only at hi hk
    have := year_of_time hx ht hl
    omega

/-! ## Counting -/

section
variable {env : TzEnv} {K : DateTime → Prop} {r : Rule} {start t : DateTime} {range : Period} {off : Int} {n : Nat}

theorem in_interval (hT : Tame r start) (hn : r.interval = n) {x : DateTime} {k : Nat} (hx : x ∈ r.occursIn env n start k) :
    x.Valid ∧ SameKind x start := by
  unfold occursIn at hx
  rw [← raw_atTime hT.valid (fun h => (hT.dates h).1) hn k] at hx
  obtain ⟨b, c, _⟩ := cand_spec hT hx
  exact ⟨b, c⟩

theorem between_list (hT : Tame r start) (hS : Standard r) (hD : Distinct r) (hy : 1902 ≤ start.year) (hn : r.interval = n) {k : Nat}
    (ht : t ∈ r.occursIn env n start k) (ht2 : t.year ≤ 2098) (hb : Rfc.Before start t) :
    (((List.range (k + 1)).flatMap (r.occursIn env n start)).filter fun x => start.lt env x && x.lt env t).Nodup ∧
      ∀ x, x ∈ ((List.range (k + 1)).flatMap (r.occursIn env n start)).filter (fun x => start.lt env x && x.lt env t) ↔
        Rfc.Occurs r start x ∧ Rfc.Before start x ∧ Rfc.Before x t := by
  obtain ⟨htv, htk⟩ := in_interval hT hn ht
  have hsv := hT.valid
  have hn1 : 1 ≤ n := by have := hT.interval; omega
  -- what lies between is near
  have hq : ∀ x : DateTime, x.Valid → SameKind x start →
      ((start.lt env x && x.lt env t) = true ↔ Rfc.Before start x ∧ Rfc.Before x t) := by
    intro x hv hk
    rw [Bool.and_eq_true, lt_iff_before hsv hv hk, lt_iff_before hv htv (kind_to htk hk)]
  have hyr : ∀ x : DateTime, x.Valid → Rfc.Before start x → Rfc.Before x t → 1902 ≤ x.year ∧ x.year ≤ 2098 := by
    intro x hv h1 h2
    rw [before_iff hsv hv] at h1
    rw [before_iff hv htv] at h2
    have := year_of_time hsv hv (by omega)
    have := year_of_time hv htv (by omega)
    omega
  have hs2 : start.year ≤ 2098 := by
    rw [before_iff hsv htv] at hb
    have := year_of_time hsv htv (by omega)
    omega
  have hyt : 1902 ≤ t.year := by
    rw [before_iff hsv htv] at hb
    have := year_of_time hsv htv (by omega)
    omega
  have hnear : ∀ i, ∀ x ∈ r.occursIn env n start i, (start.lt env x && x.lt env t) = true → near x = true := by
    intro i x hx h
    obtain ⟨hv, hk⟩ := in_interval hT hn hx
    obtain ⟨a, b⟩ := (hq x hv hk).mp h
    exact near_iff.mpr ⟨hv.1.1, hyr x hv a b⟩
  have hstep : ∀ i, ∀ x ∈ r.occursIn env n start i, (start.lt env x && x.lt env t) = true →
      Rfc.InStep r.freq n r.weekStart start x i ∧ Rfc.Matches r start x := by
    intro i x hx h
    obtain ⟨_, a, b⟩ := near_iff.mp (hnear i x hx h)
    exact (step_iff hT hS hn a b i).mp hx
  refine ⟨?_, ?_⟩
  · refine nodup_flatMap (q0 := fun _ => true) (by simpa using List.nodup_range) (fun _ _ _ _ _ => rfl) ?_ ?_
    · intro i _
      have e : (r.occursIn env n start i).filter (fun x => start.lt env x && x.lt env t) =
          ((r.occursIn env n start i).filter near).filter fun x => start.lt env x && x.lt env t := by
        rw [List.filter_filter]
        refine List.filter_congr fun x hx => ?_
        by_cases h : (start.lt env x && x.lt env t) = true
        · rw [h, hnear i x hx h]; rfl
        · simp only [Bool.not_eq_true] at h; rw [h]; rfl
      rw [e]
      refine List.Nodup.filter _ ?_
      unfold occursIn
      rw [← raw_atTime hsv (fun h => (hT.dates h).1) hn i]
      have hr := raw_near (r := r) hsv i
      exact candidates_nodup hT hS hD (raw_timeOK hsv i) ⟨hr.1, hr.2.1⟩
        fun hf => raw_valid hsv (by simp [hf]) (by simp [hf]) i
    · intro i _ j _ x hi hj h
      obtain ⟨hv, _⟩ := in_interval hT hn hi
      have a := (hstep i x hi h).1
      have b := (hstep j x hj h).1
      have := step_mono hn1 hsv hy hs2 hv hv le_rfl a b
      have := step_mono hn1 hsv hy hs2 hv hv le_rfl b a
      omega
  · intro x
    rw [List.mem_filter, List.mem_flatMap]
    constructor
    · rintro ⟨⟨i, _, hx⟩, h⟩
      obtain ⟨hv, hk⟩ := in_interval hT hn hx
      obtain ⟨a, b⟩ := hstep i x hx h
      refine ⟨⟨⟨i, ?_⟩, b⟩, (hq x hv hk).mp h⟩
      rw [show r.interval.toNat = n by omega]; exact a
    · rintro ⟨⟨⟨i, hi⟩, hm⟩, h⟩
      have hv := hm.valid
      obtain ⟨y1, y2⟩ := hyr x hv h.1 h.2
      rw [show r.interval.toNat = n by omega] at hi
      have ht' := ((step_iff hT hS hn hyt ht2 k).mp ht).1
      have h2 := h.2
      rw [before_iff hv htv] at h2
      have := step_mono hn1 hsv hy hs2 hv htv (by omega) hi ht'
      exact ⟨⟨i, by rw [List.mem_range]; omega, (step_iff hT hS hn y1 y2 i).mpr ⟨hi, hm⟩⟩, (hq x hv hm.kind).mpr h⟩

/-- The number that the code compares with COUNT. -/
theorem fewer_iff (hT : Tame r start) (hS : Standard r) (hD : Distinct r) (hy : 1902 ≤ start.year) (hn : r.interval = n) {k : Nat}
    (ht : t ∈ r.occursIn env n start k) (ht2 : t.year ≤ 2098) (hb : Rfc.Before start t) (c : Int) :
    (r.occurrencesBefore env n start k t : Int) < c ↔ Rfc.FewerBetween r start t c := by
  obtain ⟨h1, h2⟩ := between_list hT hS hD hy hn ht ht2 hb
  unfold occurrencesBefore
  rw [List.countP_eq_length_filter]
  constructor
  · intro h; exact ⟨_, h1, h2, h⟩
  · rintro ⟨l, h3, h4, h5⟩
    have : l.Perm _ := (List.perm_ext_iff_of_nodup h3 h1).mpr fun x => (h4 x).trans (h2 x).symm
    rw [← this.length_eq]; exact h5

/-- The number that the code compares with COUNT in rules without parts. -/
theorem plain_count (hs : Sound env K r start none) (hT : Tame r start) (hb : r.Plain) (hn : r.interval = n) {k : Nat}
    (hk : 1 ≤ k) (hv : (r.raw start k).invalid = false) :
    repetitionsBefore r.freq n start.civil k = r.occurrencesBefore env n start k (r.raw start k) + 1 := by
  have hd := fun h => (hT.dates h).1
  have hV : ∀ j, (repetition r.freq n start.civil j).Valid ↔ (r.raw start j).invalid = false := by
    intro j
    rw [raw_valid_iff hT.valid, ← raw_civil hT.valid hd hn j]
    exact ⟨fun h => (raw_near (r := r) hT.valid j).2.2 h.1, fun h => h.1⟩
  have hocc : ∀ j, r.occursIn env n start j = [r.raw start j].filter fun x => !x.invalid := by
    intro j
    unfold occursIn
    rw [← raw_atTime hT.valid hd hn j, plain_candidates hb]
  have h0 : (r.raw start 0).invalid = false := (raw_valid_iff hT.valid 0).mpr hT.valid
  have e0 : r.raw start 0 = start := rfl
  have key : ∀ m, 1 ≤ m → m ≤ k → Spec.count (fun j => decide (repetition r.freq n start.civil j).Valid) m =
      ((List.range m).flatMap (r.occursIn env n start)).countP
        (fun x => start.lt env x && x.lt env (r.raw start k)) + 1 := by
    intro m
    induction m with
    | zero => intro h; omega
    | succ m ih =>
      intro _ hm
      rw [Spec.count, List.range_succ, List.flatMap_append, List.countP_append]
      simp only [List.flatMap_cons, List.flatMap_nil, List.append_nil]
      rw [hocc m]
      by_cases hi : (r.raw start m).invalid = false
      · rw [if_pos (by simpa using (hV m).mpr hi)]
        have e : [r.raw start m].filter (fun x => !x.invalid) = [r.raw start m] := by simp [hi]
        rw [e]
        rcases Nat.eq_zero_or_pos m with rfl | hp
        · have : (start.lt env start && start.lt env (r.raw start k)) = false := by
            rw [show start.lt env start = false by simpa using not_lt_self env start]; rfl
          simp [e0, this, Spec.count]
        · have a := hs.raw_lt hp h0 hi
          have b := hs.raw_lt (by omega : m < k) hi hv
          rw [e0] at a
          rw [ih hp (by omega)]
          simp [a, b]
      · rw [if_neg (by simpa using fun h => hi ((hV m).mp h))]
        have e : [r.raw start m].filter (fun x => !x.invalid) = [] := by simp [hi]
        rw [e]
        rcases Nat.eq_zero_or_pos m with rfl | hp
        · exact absurd h0 hi
        · rw [ih hp (by omega)]; simp
  unfold repetitionsBefore occurrencesBefore
  rw [key k hk le_rfl, List.range_succ, List.flatMap_append, List.countP_append]
  simp only [List.flatMap_cons, List.flatMap_nil, List.append_nil]
  rw [hocc k]
  have e : [r.raw start k].filter (fun x => !x.invalid) = [r.raw start k] := by simp [hv]
  rw [e]
  have : (start.lt env (r.raw start k) && (r.raw start k).lt env (r.raw start k)) = false := by
    rw [show (r.raw start k).lt env (r.raw start k) = false by simpa using not_lt_self env _]; simp
  simp [this]

end
end L133

section
open L133
variable {env : TzEnv} {K : DateTime → Prop} {r : Rule} {start : DateTime} {range : Period} {off : Int}

/-- C133 (partial), rules with COUNT: of the date-times after the start, the expansion over a range has exactly those that RFC 5545
describes and that have fewer than COUNT - 1 others between the start and themselves; the start is the first.

Missing: as for `C133_rule_partial`; parts of which two values can give the same date, as the code then counts it twice
(`C54_fails_duplicates`). -/
theorem C133_count_partial (h : Asked env K r start range off) (hp : r.bySetPos = []) (hD : Distinct r) (hc : r.useCount = true ∧ 1 ≤ r.count)
    (hu : r.useUntil = false) {fuel : Nat} {L : List DateTime} {lim : Bool}
    (hx : r.expandFresh env fuel start range off = some (.dates L lim)) (t : DateTime) (hy : t.year ≤ 2098) :
    t ∈ L ∧ t ≠ start ↔ Rfc.Occurs r start t ∧ Rfc.Before start t ∧ range.isDateWithin env t = true ∧
      Rfc.FewerBetween r start t (r.count - 1) := by
  have hT := h.good.tame
  have hsv := hT.valid
  have hn : r.interval = r.interval.toNat := by have := hT.interval; omega
  generalize r.interval.toNat = n at hn
  have hub : ∀ u, ¬ UntilBound r start off u := fun u hu' => by simp [UntilBound, hu] at hu'
  -- the expansion
  have hL : t ∈ L ∧ t ≠ start ↔ ∃ k, t ∈ r.occursIn env n start k ∧ range.isDateWithin env t = true ∧ Rfc.Before start t ∧
      (r.occurrencesBefore env n start k t : Int) < r.count - 1 := by
    by_cases hb : r.Plain
    · have hs := h.sound (z := some (.fixed 0)) (by decide)
      have hs0 : Sound env K r start none := { hs with limitK := by simp }
      rw [(C28_exact_partial env K r fuel start range off n L lim hb hs h.good.stopK hn (fun _ => ⟨hc.2, hu⟩) h.untilDate
        h.untilStart hx).1 t]
      simp only [plain_occurs hT hb hn]
      have hkey : ∀ k, t.SameKind start → t.civil = repetition r.freq n start.civil k → t.civil.Valid →
          t = r.raw start k ∧ (r.raw start k).invalid = false := by
        intro k a b c
        have he : t = r.raw start k := eq_of_civil (kind_to a (r.raw_kind start k))
          (by rw [b, raw_civil hsv hs.dates hn])
        exact ⟨he, (raw_valid_iff hs.valid k).mpr ((raw_near (r := r) hs.valid k).2.2 (by rw [← he]; exact c.1))⟩
      have h0 : (r.raw start 0).invalid = false := (raw_valid_iff hsv 0).mpr hsv
      constructor
      · rintro ⟨⟨k, a, b, c, d, _, g⟩, hne⟩
        obtain ⟨he, hi⟩ := hkey k a b c
        have hk : 1 ≤ k := by
          rcases Nat.eq_zero_or_pos k with rfl | hp
          · exact absurd he hne
          · exact hp
        have hlt := hs.raw_lt hk h0 hi
        rw [show r.raw start 0 = start from rfl, ← he,
          lt_iff_before hsv (by rw [he]; exact (raw_valid_iff hsv k).mp hi) a] at hlt
        have hcnt := plain_count hs0 hT hb hn hk hi
        rw [← he] at hcnt
        have := g hc.1
        exact ⟨k, ⟨a, b, c⟩, d, hlt, by rw [hcnt] at this; push_cast at this; omega⟩
      · rintro ⟨k, ⟨a, b, c⟩, d, e, g⟩
        obtain ⟨he, hi⟩ := hkey k a b c
        have htv : t.Valid := by rw [he]; exact (raw_valid_iff hsv k).mp hi
        have hne : t ≠ start := by
          rintro rfl
          rw [before_iff htv htv] at e; omega
        have hk : 1 ≤ k := by
          rcases Nat.eq_zero_or_pos k with rfl | hp
          · exact absurd he hne
          · exact hp
        have hcnt := plain_count hs0 hT hb hn hk hi
        rw [← he] at hcnt
        exact ⟨⟨k, a, b, c, d, fun u hu' => absurd hu' (hub u), fun _ => by rw [hcnt]; push_cast; omega⟩, hne⟩
    · rw [(C54_exact_partial (h.limited (z := none) (by decide)) rfl hn h.untilDate hb hx).1 t]
      constructor
      · rintro ⟨⟨k, a, b, c, d, e⟩, hne⟩
        obtain ⟨htv, htk⟩ := in_interval hT hn a
        obtain ⟨e1, e2⟩ := e hc.1
        exact ⟨k, a, b, (lt_iff_before hsv htv htk).mp e1, by omega⟩
      · rintro ⟨k, a, b, c, d⟩
        obtain ⟨htv, htk⟩ := in_interval hT hn a
        have hlt := (lt_iff_before (env := env) hsv htv htk).mpr c
        refine ⟨⟨k, a, b, lt_asymm hlt, fun u hu' => absurd hu' (hub u), fun _ => ⟨hlt, by omega⟩⟩, ?_⟩
        rintro rfl
        rw [before_iff htv htv] at c; omega
  rw [hL]
  constructor
  · rintro ⟨k, a, b, c, d⟩
    have hyt : 1902 ≤ t.year := by
      obtain ⟨htv, _⟩ := in_interval hT hn a
      have c' := c
      rw [before_iff hsv htv] at c'
      have := year_of_time hsv htv (by omega)
      have := h.year
      omega
    exact ⟨(occurs_iff hT (standard_of h.standard hp) hn hyt hy).mp ⟨k, a⟩, c, b, (fewer_iff hT (standard_of h.standard hp) hD h.year hn a hy c _).mp d⟩
  · rintro ⟨a, c, b, d⟩
    have hyt : 1902 ≤ t.year := by
      have c' := c
      rw [before_iff hsv a.2.valid] at c'
      have := year_of_time hsv a.2.valid (by omega)
      have := h.year
      omega
    obtain ⟨k, a⟩ := (occurs_iff hT (standard_of h.standard hp) hn hyt hy).mpr a
    exact ⟨k, a, b, c, (fewer_iff hT (standard_of h.standard hp) hD h.year hn a hy c _).mpr d⟩

end

/-- The conditions of `C133_count_partial` are met: "the first and the last day of every month at nine and at ten, seven times" in
UTC, asked for the year 2020. -/
example : let r : Rule := { freq := .monthly, byMonthDay := [1, -1], byHours := [9, 10], useCount := true, count := 7 }
    let start : DateTime := ⟨2020, 1, 1, 9, 0, 0, false, true, none⟩
    let range := Period.ofEnd ⟨2020, 1, 1, 0, 0, 0, false, true, none⟩ ⟨2021, 1, 1, 0, 0, 0, false, true, none⟩
    Asked .empty (InZone true none) r start range 0 ∧ r.bySetPos = [] ∧ Distinct r ∧ (r.useCount = true ∧ 1 ≤ r.count) ∧ r.useUntil = false ∧
    ∃ L, r.expandFresh .empty 100 start range 0 = some (.dates L false) ∧ L.length = 6 := by
  intro r start range
  have ht : Tame r start := by constructor <;> decide +kernel
  have hz : Kind .empty (InZone true none) := Or.inr (Or.inl ⟨true, none, rfl⟩)
  have he : InZone true none range.stop := by unfold InZone; decide +kernel
  refine ⟨⟨⟨ht, hz, by unfold InZone; decide +kernel, by simp, he, fun _ => Or.inr (Or.inl ⟨_, _, rfl⟩),
    steady_of_fixed ht (Or.inl rfl),
    fun _ t h1 h2 => far_of_year (Or.inr ⟨_, _, rfl⟩) he (by decide +kernel) t h1 h2⟩,
    ⟨rfl, rfl, rfl, fun h => by simp [r, unpicked] at h, fun h => by simp [r, unpicked] at h⟩, by decide +kernel, ?_, by simp [r], ?_⟩, rfl,
    ⟨by decide, by decide, by decide, by decide, by decide, by decide, ?_, ?_⟩, by decide, rfl, ?_⟩
  · intro z _ u h
    simp [untilLimit, r] at h
  · intro u h
    simp [UntilBound, r] at h
  · intro t hv a ha b hb h1 h2
    have h28 : 2 ≤ monthLen t.year t.month := by unfold monthLen; split <;> (try split) <;> omega
    simp only [r, List.mem_cons, List.not_mem_nil, or_false] at ha hb
    unfold MonthDayMatch at h1 h2
    rcases ha with rfl | rfl <;> rcases hb with rfl | rfl <;> omega
  · intro t _ a ha
    simp [r] at ha
  · have h2 : (r.expandFresh .empty 100 start range 0).map (fun a => (a.list.length,
        decide (a = .dates a.list false))) = some (6, true) := by decide +kernel
    simp only [Option.map_eq_some_iff, Prod.mk.injEq, decide_eq_true_eq] at h2
    obtain ⟨a, h3, h4, h5⟩ := h2
    exact ⟨a.list, by rw [h3, ← h5], h4⟩

end PyCal.Rule
