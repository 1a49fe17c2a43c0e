import Verif.Model.FreeBusyRead
import Verif.Spec.FreeBusyText
import Verif.Props.C87_FreeBusy
import Verif.Props.C79_C80_PeriodObject
import Verif.Props.C137_Calendar

/-!
# C147: from the text of a calendar to the busy time of its free-busy components
-/

namespace PyCal
open DateTime Spec Spec.EventText Spec.CalendarText Spec.FreeBusyText EventRead FreeBusyRead

namespace L147
open L132 L137 ValueType PropText

/-! ## Periods -/

theorem digits_comma {s : List Char} {n : Nat} (h : Dur.Digits s n) : ',' ∉ s := by
  have hd : ∀ k, k < 10 → ',' ≠ Char.ofNat (48 + k) := by decide
  induction h with
  | one k h => simpa using hd k h
  | snoc k n h s _ ih => simp only [List.mem_append, List.mem_singleton, not_or]; exact ⟨ih, hd k h⟩

theorem body_comma {s : List Char} {n : Nat} (h : Dur.Body s n) : ',' ∉ s := by
  have hs : ∀ {s n}, Dur.Second s n → ',' ∉ s := by
    intro s n h; cases h with | mk h => have := digits_comma h; simp [this]
  have hm : ∀ {s n}, Dur.Minute s n → ',' ∉ s := by
    intro s n h
    cases h with
    | bare h => have := digits_comma h; simp [this]
    | more h k => have := digits_comma h; have := hs k; simp [*]
  have hh : ∀ {s n}, Dur.Hour s n → ',' ∉ s := by
    intro s n h
    cases h with
    | bare h => have := digits_comma h; simp [this]
    | more h k => have := digits_comma h; have := hm k; simp [*]
  have ht : ∀ {s n}, Dur.Time s n → ',' ∉ s := by
    intro s n h
    cases h with
    | hour h => have := hh h; simp [this]
    | minute h => have := hm h; simp [this]
    | second h => have := hs h; simp [this]
  cases h with
  | week h => have := digits_comma h; simp [this]
  | day h => have := digits_comma h; simp [this]
  | dayTime h k => have := digits_comma h; have := ht k; simp [*]
  | time k => exact ht k

theorem period_comma {s : List Char} {p : DateTime × DateTime} (h : PeriodText s p) : ',' ∉ s := by
  cases h with
  | ends h1 h2 =>
    have := text_comma h1; have := text_comma h2
    simp [*]
  | lasts h1 _ h2 =>
    have := text_comma h1
    have : ∀ {b k}, Dur.Value b k → ',' ∉ b := by
      intro b k h
      cases h with
      | plain h => have := body_comma h; simp [this]
      | plus h => have := body_comma h; simp [this]
      | minus h => have := body_comma h; simp [this]
    have := this h2
    simp [*]

theorem text_valid {s : List Char} {t : DateTime} (h : DateTimeText s t) : t.Valid := (dateTimeText_until h).2.1

theorem text_zone {s : List Char} {t : DateTime} (h : DateTimeText s t) : t.tzid = none := (dateTimeText_until h).2.2.2.2

/-- The times of one entry. -/
def Good (p : DateTime × DateTime) : Prop :=
  (p.1.Valid ∧ InUTC p.1 ∧ p.1.tzid = none) ∧ p.2.Valid ∧ InUTC p.2 ∧ p.2.tzid = none

theorem period_good {s : List Char} {p : DateTime × DateTime} (h : PeriodText s p) : Good p := by
  cases h with
  | ends h1 h2 h3 h4 => exact ⟨⟨text_valid h1, h3, text_zone h1⟩, text_valid h2, h4, text_zone h2⟩
  | lasts h1 h3 _ _ h5 =>
    exact ⟨⟨text_valid h1, h3, text_zone h1⟩, h5.1, ⟨h5.2.1.1.trans h3.1, h5.2.1.2.1.trans h3.2⟩, h5.2.1.2.2.trans (text_zone h1)⟩

theorem item_period {e : Env} {s : List Char} {p : DateTime × DateTime} (h : PeriodText s p) (hp : '+' ∉ s) :
    parseItem e .period s = some (.period (.ofEnd p.1 p.2)) := by
  have hgo : ∃ q, PeriodObj.parseText e.sr e.strict s = .ok q ∧ q.start = p.1 ∧ q.getEnd.1 = some p.2 := by
    cases h with
    | @ends a b s u h1 h2 =>
      refine ⟨.ofEnd s u, (PeriodObj.C79_accepts _ _ _ _ _).mpr ⟨a, b, s, rfl, ?_, text_parse h1 e.sr, .inr ⟨?_, u, text_parse h2 e.sr, rfl⟩⟩,
        rfl, rfl⟩
      · rw [(dateTimeText_until h1).1]; exact PeriodObj.textForm_slash false s
      · rw [(dateTimeText_until h2).1]; exact PeriodObj.textForm_head false u
    | @lasts a b s k u h1 _ h2 h3 h4 =>
      obtain ⟨D, d1, d2⟩ := Duration.C15_parse_grammar _ _ h2 e.strict
      refine ⟨.ofDuration s D, (PeriodObj.C79_accepts _ _ _ _ _).mpr ⟨a, b, s, rfl, ?_, text_parse h1 e.sr, .inl ⟨?_, D, d1, rfl⟩⟩,
        rfl, ?_⟩
      · rw [(dateTimeText_until h1).1]; exact PeriodObj.textForm_slash false s
      · cases h2 with
        | plain => rfl
        | plus => simp at hp
        | minus => omega
      · show some (s.add D) = some u
        rw [later_unique h4 (d2 ▸ add_later (text_valid h1) (fun hd => by simp_all [InUTC]))]
  obtain ⟨q, q1, q2, q3⟩ := hgo
  unfold parseItem
  rw [if_neg (by simp), if_pos rfl, q1]
  simp only [q2, q3, Option.getD_some]

/-! ## Lines -/

theorem sep_plain {α : Type} {c x : Char} {P : List Char → α → Prop} {s : List Char} {l : List α} (h : Recur.Sep c P s l) (hx : x ∉ s) :
    Recur.Sep c (fun s a => P s a ∧ x ∉ s) s l := by
  induction h with
  | one h => exact .one ⟨h, hx⟩
  | more h _ ih =>
    simp only [List.mem_append, List.mem_cons, not_or] at hx
    exact .more ⟨h, hx.1⟩ (ih hx.2.2)

/-- What is read from the line. -/
theorem busy_line {e : Env} (hT : Program ical e.tables) {l : ContentLine} (ha : l.Allowed false)
    (hr : ∀ p ∈ l.params, ∀ v ∈ p.values, v.Readable) (hn : upper l.name = "FREEBUSY".toList)
    (hv : ∃ v, HasParam l "VALUE".toList v ∧ (v = none ∨ v = some "PERIOD".toList)) {ps : List (DateTime × DateTime)}
    (hs : Recur.Sep ',' PeriodText l.value ps) (hp : '+' ∉ l.value) :
    readLine e l.text = some ⟨l.name, l.params.map ShownParam.meaning, .multi (ps.map fun p => .period (.ofEnd p.1 p.2))⟩ := by
  rw [line_value ha hr]
  have hmulti := (program_keeps hT).2.2.1
  obtain ⟨v, hv, hvv⟩ := hv
  have hkey : String.ofList (upper l.name) = "FREEBUSY" := by rw [hn]; rfl
  have hdet : determine e.tables "FREEBUSY" ((paramValue (l.params.map ShownParam.meaning) "VALUE").map String.ofList) = .period := by
    rw [paramValue_of hv, determine_keeps hT (by decide +kernel)]
    rcases hvv with rfl | rfl <;> decide +kernel
  have hsplit := (sep_plain hs hp).split (fun _ _ h => period_comma h.1)
  have hmap : (splitOn ',' l.value).mapM (parseItem e .period) = some (ps.map fun p => RecurLoad.Item.period (.ofEnd p.1 p.2)) := by
    generalize splitOn ',' l.value = ss at hsplit
    clear hs
    induction hsplit with
    | nil => rfl
    | @cons s t ss ts h1 _ ih =>
      rw [List.mapM_cons, item_period h1.1 h1.2, ih]
      rfl
  unfold createValue
  dsimp only
  rw [hkey, hdet, hmulti, if_pos (by decide +kernel), hmap]
  simp only [reduceCtorEq, or_self, if_false, Option.map_some, List.map_map]
  rfl

/-- The line of a time. -/
theorem time_line {e : Env} (hT : Program ical e.tables) {l : ContentLine} (ha : l.Allowed false)
    (hr : ∀ p ∈ l.params, ∀ v ∈ p.values, v.Readable) {key : String} (hk : key ∈ ["DTSTART", "DTEND"])
    (hn : upper l.name = key.toList) {t : DateTime} (h : DateLine l t) :
    readLine e l.text = some ⟨l.name, l.params.map ShownParam.meaning, .date t⟩ := by
  simp only [List.mem_cons, List.not_mem_nil, or_false] at hk
  rcases hk with rfl | rfl
  · obtain ⟨d, z, t', hd, ht, hdo, hz, rfl⟩ := h
    exact line_says hT ha hr (.start hn hd ht hdo hz) (by simp)
  · exact date_line hT ha hr (key := "DTEND") (by simp) hn h

theorem line_name {e : Env} {l : ContentLine} (ha : l.Allowed false) (hr : ∀ p ∈ l.params, ∀ v ∈ p.values, v.Readable) {p : RProp}
    (h : readLine e l.text = some p) : p.name = l.name ∧ p.params = l.params.map ShownParam.meaning := by
  rw [line_value ha hr, Option.map_eq_some_iff] at h
  obtain ⟨v, _, rfl⟩ := h
  exact ⟨rfl, rfl⟩

/-- The types that the standard knows, and no sign of plus. -/
def Fits (ls : List ContentLine) : Prop :=
  ∀ l ∈ ls, upper l.name = "FREEBUSY".toList → '+' ∉ l.value ∧ ∀ v, HasParam l "FBTYPE".toList v → FB87.Standard v

/-- An entry of the component. -/
def entry (b : FBType × DateTime × DateTime) : Busy := ⟨b.1, .ofEnd b.2.1 b.2.2⟩

theorem busy_lists {e : Env} (hT : Program ical e.tables) {ls : List ContentLine} (hf : Fits ls) (ha : ∀ l ∈ ls, l.Allowed false)
    (hr : ∀ l ∈ ls, ∀ p ∈ l.params, ∀ v ∈ p.values, v.Readable) {ps : List RProp}
    (hps : (ls.map ContentLine.text).mapM (readLine e) = some ps) {parts : List (List (FBType × DateTime × DateTime))}
    (h : List.Forall₂ BusyLine (ls.filter fun l => decide (upper l.name = "FREEBUSY".toList)) parts) :
    FB87.Lists ((ps.filter fun p => decide (upper p.name = "FREEBUSY".toList)).map fbProperty) (parts.flatten.map entry) ∧
    (∀ q ∈ (ps.filter fun p => decide (upper p.name = "FREEBUSY".toList)).map fbProperty, FB87.Standard q.fbtype) ∧
    ∀ b ∈ parts.flatten, Good b.2 := by
  induction ls generalizing ps parts with
  | nil => cases hps; cases h; exact ⟨.nil, by simp, by simp⟩
  | cons l ls ih =>
    rw [List.map_cons, List.mapM_cons] at hps
    cases h1 : readLine e l.text with
    | none => rw [h1] at hps; cases hps
    | some p =>
      cases h2 : (ls.map ContentLine.text).mapM (readLine e) with
      | none => rw [h1, h2] at hps; cases hps
      | some qs =>
        rw [h1, h2] at hps
        cases hps
        have ih := @ih (fun m hm => hf m (by simp [hm])) (fun m hm => ha m (by simp [hm])) (fun m hm => hr m (by simp [hm])) qs h2
        obtain ⟨hname, hpar⟩ := line_name (ha l (by simp)) (hr l (by simp)) h1
        by_cases hk : upper l.name = "FREEBUSY".toList
        · rw [List.filter_cons_of_pos (p := fun l : ContentLine => decide (upper l.name = "FREEBUSY".toList)) (a := l) (decide_eq_true hk)] at h
          cases h with
          | @cons _ bs _ parts hl hrest =>
            obtain ⟨i1, i2, i3⟩ := ih hrest
            obtain ⟨hv, v, t, rs, k1, k2, k3, rfl⟩ := hl
            obtain ⟨f1, f2⟩ := hf l (by simp) hk
            rw [busy_line hT (ha l (by simp)) (hr l (by simp)) hk hv k3 f1] at h1
            cases h1
            have hprop : fbProperty ⟨l.name, l.params.map ShownParam.meaning, .multi (rs.map fun p => .period (.ofEnd p.1 p.2))⟩ =
                ⟨v, rs.map fun p => .ofEnd p.1 p.2⟩ := by
              unfold fbProperty
              rw [FBProperty.mk.injEq]
              refine ⟨paramValue_of k1, ?_⟩
              dsimp only
              rw [List.filterMap_map]
              exact congrFun (List.filterMap_eq_map (f := fun p : DateTime × DateTime => Period.ofEnd p.1 p.2)) rs
            show FB87.Lists ((List.filter _ (_ :: qs)).map fbProperty) _ ∧ (∀ q ∈ (List.filter _ (_ :: qs)).map fbProperty, _) ∧ _
            rw [List.filter_cons_of_pos (by exact decide_eq_true hk), List.map_cons, hprop]
            refine ⟨?_, ?_, ?_⟩
            · rw [List.flatten_cons, List.map_append]
              by_cases ht : t = .free
              · subst ht
                exact .free k2 i1
              · rw [if_neg ht]
                have := FB87.Lists.busy (p := ⟨v, rs.map fun p => .ofEnd p.1 p.2⟩) t k2 ht i1
                simpa only [List.map_map, Function.comp_def, entry] using this
            · intro q hq
              rcases List.mem_cons.mp hq with rfl | hq
              · exact f2 v k1
              · exact i2 q hq
            · intro b hb
              rw [List.flatten_cons, List.mem_append] at hb
              rcases hb with hb | hb
              · by_cases ht : t = .free
                · rw [if_pos ht] at hb; cases hb
                · rw [if_neg ht, List.mem_map] at hb
                  obtain ⟨q, hq, rfl⟩ := hb
                  have : ∀ {s l}, Recur.Sep ',' PeriodText s l → ∀ q ∈ l, Good q := by
                    intro s l h
                    induction h with
                    | one h => intro q hq; rw [List.mem_singleton] at hq; subst hq; exact period_good h
                    | more h _ ih =>
                      intro q hq
                      rcases List.mem_cons.mp hq with rfl | hq
                      · exact period_good h
                      · exact ih q hq
                  exact this k3 q hq
              · exact i3 b hb
        · rw [List.filter_cons_of_neg (p := fun l : ContentLine => decide (upper l.name = "FREEBUSY".toList)) (a := l)
            (fun h => hk (of_decide_eq_true h))] at h
          show FB87.Lists ((List.filter _ (p :: qs)).map fbProperty) _ ∧ (∀ q ∈ (List.filter _ (p :: qs)).map fbProperty, _) ∧ _
          rw [List.filter_cons_of_neg (by rw [hname]; exact fun h => hk (of_decide_eq_true h))]
          exact ih h

theorem before_iff (env : TzEnv) {a b : DateTime} (ha : a.Valid ∧ InUTC a ∧ a.tzid = none) (hb : b.Valid ∧ InUTC b ∧ b.tzid = none) :
    a.lt env b = true ↔ timeNum a.civil < timeNum b.civil := by
  have hk : SameKind b a := ⟨hb.2.1.1.trans ha.2.1.1.symm, hb.2.1.2.trans ha.2.1.2.symm, hb.2.2.trans ha.2.2.symm⟩
  refine ⟨fun h => ?_, fun h => Rule.lt_of_timeNum hk ha.1 hb.1 h⟩
  by_contra hc
  rcases (show timeNum b.civil ≤ timeNum a.civil by omega).lt_or_eq with h1 | h1
  · have := Rule.lt_of_timeNum (env := env) ⟨hk.1.symm, hk.2.1.symm, hk.2.2.symm⟩ hb.1 ha.1 h1
    exact Period.not_lt_self env a (((Period.Kind.transitive (K := InZone true none) (.inr (.inl ⟨_, _, rfl⟩))).lt_lt a b a
      ⟨ha.2.1.1, .inr ⟨ha.2.1.2, .inl rfl⟩⟩ ⟨hb.2.1.1, .inr ⟨hb.2.1.2, .inl rfl⟩⟩ ⟨ha.2.1.1, .inr ⟨ha.2.1.2, .inl rfl⟩⟩ h this))
  · have : a = b := eq_of_secNum ⟨hk.1.symm, hk.2.1.symm, hk.2.2.symm⟩ ha.1 hb.1 (by rw [ha.1.secNum, hb.1.secNum, h1])
    subst this
    exact Period.not_lt_self env a h

theorem utc_good {l : ContentLine} {t : DateTime} (h : UTCLine l t) : t.Valid ∧ InUTC t ∧ t.tzid = none := by
  obtain ⟨⟨d, z, t', -, ht, -, hz, rfl⟩, hu⟩ := h
  cases z with
  | none => exact ⟨text_valid ht, hu, text_zone ht⟩
  | some z =>
    have h1 : t'.utc = true := hu.2
    rw [hz (by simp)] at h1
    cases h1

theorem load_time {e : Env} (hT : Program ical e.tables) {ls : List ContentLine} (ha : ∀ l ∈ ls, l.Allowed false)
    (hr : ∀ l ∈ ls, ∀ p ∈ l.params, ∀ v ∈ p.values, v.Readable) {ps : List RProp}
    (hps : (ls.map ContentLine.text).mapM (readLine e) = some ps) {key : String} (hk : key ∈ ["DTSTART", "DTEND"]) {a : Option DateTime}
    (h : HasLine ls key.toList UTCLine a) : loadDate ps key = a ∧ ∀ t, a = some t → t.Valid ∧ InUTC t ∧ t.tzid = none := by
  obtain ⟨h1, h2⟩ := L137.has_line ha hr hps h (P := fun t p => p.value = .date t) fun l hl hn t ht =>
    ⟨_, time_line hT (ha l hl) (hr l hl) hk hn ht.1, rfl⟩
  refine ⟨?_, ?_⟩
  · unfold loadDate
    cases a with
    | none => rw [(h1 rfl).1]; rfl
    | some t =>
      obtain ⟨p, p1, p2, -⟩ := h2 t rfl
      rw [p2, p1]
  · rintro t rfl
    cases h with
    | some l _ _ _ _ h => exact utc_good h

/-- The component is read as what it says. -/
theorem reads_busy {e : Env} (hT : Program ical e.tables) {ls : List ContentLine} (hf : Fits ls) (ha : ∀ l ∈ ls, l.Allowed false)
    (hr : ∀ l ∈ ls, ∀ p ∈ l.params, ∀ v ∈ p.values, v.Readable) {ps : List RProp}
    (hps : (ls.map ContentLine.text).mapM (readLine e) = some ps) {d : BusyDesc} (h : Spec.FreeBusyText.Describes ls d) :
    (busy ps).start = d.start ∧ (busy ps).stop = d.stop ∧ (busy ps).cached = none ∧
    FB87.Lists (busy ps).freebusy (d.busy.map entry) ∧ (∀ q ∈ (busy ps).freebusy, FB87.Standard q.fbtype) ∧
    (∀ b ∈ d.busy, Good b.2) ∧ (∀ t, d.start = some t → t.Valid ∧ InUTC t ∧ t.tzid = none) ∧
    ∀ t, d.stop = some t → t.Valid ∧ InUTC t ∧ t.tzid = none := by
  obtain ⟨s1, s2⟩ := load_time hT ha hr hps (key := "DTSTART") (by simp) h.start
  obtain ⟨e1, e2⟩ := load_time hT ha hr hps (key := "DTEND") (by simp) h.stop
  obtain ⟨parts, hp, hflat⟩ := h.busy
  obtain ⟨l1, l2, l3⟩ := busy_lists hT hf ha hr hps hp
  rw [hflat] at l1 l3
  have hb : (busy ps).start = d.start ∧ (busy ps).stop = d.stop ∧ (busy ps).cached = none ∧
      (busy ps).freebusy = (ps.filter fun p => decide (upper p.name = "FREEBUSY".toList)).map fbProperty := by
    unfold busy VFreeBusy.finalise
    rw [s1, e1]
    cases d.stop <;> exact ⟨rfl, rfl, rfl, rfl⟩
  obtain ⟨b1, b2, b3, b4⟩ := hb
  rw [b4]
  exact ⟨b1, b2, b3, l1, l2, l3, s2, e2⟩

/-- The busy time and the answers of a component that says this. -/
theorem busy_time (env : TzEnv) {v : VFreeBusy} {d : BusyDesc} (h1 : v.start = d.start) (h2 : v.stop = d.stop) (h3 : v.cached = none)
    (h4 : FB87.Lists v.freebusy (d.busy.map entry)) (h5 : ∀ q ∈ v.freebusy, FB87.Standard q.fbtype) (h6 : ∀ b ∈ d.busy, Good b.2)
    (h7 : ∀ t, d.start = some t → t.Valid ∧ InUTC t ∧ t.tzid = none) (h8 : ∀ t, d.stop = some t → t.Valid ∧ InUTC t ∧ t.tzid = none) :
    (d.busy = [] → v.busyTime env = none) ∧
    (d.busy ≠ [] → ∃ l lo hi, v.busyTime env = some (l, .ofEnd lo hi) ∧ l.Perm (d.busy.map entry) ∧
      l.Pairwise (fun x y => timeNum x.period.start.civil ≤ timeNum y.period.start.civil) ∧
      (∀ x y, [x, y].Sublist (d.busy.map entry) → timeNum x.period.start.civil ≤ timeNum y.period.start.civil → [x, y].Sublist l) ∧
      Spec.FreeBusyText.Begins d lo ∧ Stops d hi) ∧
    ∀ range : Period, (range.start.Valid ∧ InUTC range.start ∧ range.start.tzid = none) →
      (range.stop.Valid ∧ InUTC range.stop ∧ range.stop.tzid = none) →
      ((v.expandPeriodComp env range).1 = true ↔ d.busy ≠ [] ∧ ∃ lo hi, Spec.FreeBusyText.Begins d lo ∧ Stops d hi ∧
        timeNum range.start.civil < timeNum hi.civil ∧ timeNum lo.civil < timeNum range.stop.civil) := by
  have hK : Period.Kind env (InZone true none) := .inr (.inl ⟨_, _, rfl⟩)
  have hmem : ∀ b ∈ d.busy.map entry, Good (b.period.start, b.period.stop) := by
    intro b hb
    rw [List.mem_map] at hb
    obtain ⟨x, hx, rfl⟩ := hb
    exact h6 x hx
  have hin : ∀ {t : DateTime}, t.Valid ∧ InUTC t ∧ t.tzid = none → InZone true none t :=
    fun h => ⟨h.2.1.1, .inr ⟨h.2.1.2, .inl rfl⟩⟩
  obtain ⟨hnone, hsome⟩ := FB87.C87_busy_partial hK v _ h4 h5 fun b hb => ⟨hin (hmem b hb).1, hin (hmem b hb).2⟩
  have hmain : d.busy ≠ [] → ∃ l lo hi, v.busyTime env = some (l, .ofEnd lo hi) ∧ l.Perm (d.busy.map entry) ∧
      l.Pairwise (fun x y => timeNum x.period.start.civil ≤ timeNum y.period.start.civil) ∧
      (∀ x y, [x, y].Sublist (d.busy.map entry) → timeNum x.period.start.civil ≤ timeNum y.period.start.civil → [x, y].Sublist l) ∧
      Spec.FreeBusyText.Begins d lo ∧ Stops d hi ∧ (lo.Valid ∧ InUTC lo ∧ lo.tzid = none) ∧ (hi.Valid ∧ InUTC hi ∧ hi.tzid = none) := by
    intro hne
    cases hbt : v.busyTime env with
    | none => exact absurd (List.map_eq_nil_iff.mp (hnone.mp hbt)) hne
    | some r =>
      obtain ⟨l, span⟩ := r
      obtain ⟨p1, p2, p3, lo, hi, ⟨⟨bl, hbl, el⟩, ⟨bh, hbh, eh⟩, hall⟩, rfl⟩ := hsome l span hbt
      have glo : lo.Valid ∧ InUTC lo ∧ lo.tzid = none := el ▸ (hmem bl hbl).1
      have ghi : hi.Valid ∧ InUTC hi ∧ hi.tzid = none := eh ▸ (hmem bh hbh).2
      refine ⟨l, v.start.getD lo, v.stop.getD hi, rfl, p1, ?_, ?_, ?_, ?_, ?_, ?_⟩
      · refine p2.imp_of_mem fun {x y} hx hy hxy => ?_
        rw [before_iff env (hmem y (p1.mem_iff.mp hy)).1 (hmem x (p1.mem_iff.mp hx)).1] at hxy
        exact not_lt.mp hxy
      · intro x y hxy hle
        refine p3 x y hxy ?_
        rw [before_iff env (hmem y (hxy.subset (by simp))).1 (hmem x (hxy.subset (by simp))).1]
        exact not_lt.mpr hle
      · rw [h1]
        cases hs : d.start with
        | some t => exact .inl hs
        | none =>
          refine .inr ⟨hs, ?_, fun b hb => ?_⟩
          · rw [List.mem_map] at hbl
            obtain ⟨x, hx, rfl⟩ := hbl
            exact ⟨x, hx, el⟩
          · have hb' : entry b ∈ d.busy.map entry := List.mem_map_of_mem hb
            have := (hall _ hb').1
            rw [before_iff env (hmem _ hb').1 glo] at this
            exact not_lt.mp this
      · rw [h2]
        cases hs : d.stop with
        | some t => exact .inl hs
        | none =>
          refine .inr ⟨hs, ?_, fun b hb => ?_⟩
          · rw [List.mem_map] at hbh
            obtain ⟨x, hx, rfl⟩ := hbh
            exact ⟨x, hx, eh⟩
          · have hb' : entry b ∈ d.busy.map entry := List.mem_map_of_mem hb
            have := (hall _ hb').2
            rw [before_iff env ghi (hmem _ hb').2] at this
            exact not_lt.mp this
      · rw [h1]
        cases hs : d.start with
        | some t => exact h7 t hs
        | none => exact glo
      · rw [h2]
        cases hs : d.stop with
        | some t => exact h8 t hs
        | none => exact ghi
  have hempty : d.busy = [] → v.busyTime env = none := fun h => hnone.mpr (by rw [h]; rfl)
  refine ⟨hempty, fun hne => ?_, fun range r1 r2 => ?_⟩
  · obtain ⟨l, lo, hi, a1, a2, a3, a4, a5, a6, -⟩ := hmain hne
    exact ⟨l, lo, hi, a1, a2, a3, a4, a5, a6⟩
  · have hcache : (v.withCache env).cachedTime = v.busyTime env := by
      unfold VFreeBusy.withCache VFreeBusy.cachedTime
      rw [h3]; rfl
    have huniq : ∀ {a b}, Spec.FreeBusyText.Begins d a → Spec.FreeBusyText.Begins d b → timeNum a.civil = timeNum b.civil := by
      rintro a b (ha | ⟨ha, ⟨x, hx, rfl⟩, ha'⟩) (hb | ⟨hb, ⟨y, hy, rfl⟩, hb'⟩)
      · rw [Option.some.inj (ha.symm.trans hb)]
      · rw [ha] at hb; cases hb
      · rw [ha] at hb; cases hb
      · have := ha' y hy; have := hb' x hx; omega
    have huniq' : ∀ {a b}, Stops d a → Stops d b → timeNum a.civil = timeNum b.civil := by
      rintro a b (ha | ⟨ha, ⟨x, hx, rfl⟩, ha'⟩) (hb | ⟨hb, ⟨y, hy, rfl⟩, hb'⟩)
      · rw [Option.some.inj (ha.symm.trans hb)]
      · rw [ha] at hb; cases hb
      · rw [ha] at hb; cases hb
      · have := ha' y hy; have := hb' x hx; omega
    unfold VFreeBusy.expandPeriodComp
    rw [hcache]
    by_cases hne : d.busy = []
    · rw [hempty hne]
      simp [hne]
    · obtain ⟨l, lo, hi, a1, -, -, -, a5, a6, a7, a8⟩ := hmain hne
      rw [a1]
      show range.isOverlap env (.ofEnd lo hi) = true ↔ _
      rw [Period.overlap_iff]
      show range.start.lt env hi = true ∧ lo.lt env range.stop = true ↔ _
      rw [before_iff env r1 a8, before_iff env a7 r2]
      refine ⟨fun hx => ⟨hne, lo, hi, a5, a6, hx⟩, ?_⟩
      rintro ⟨-, lo', hi', b1, b2, b3, b4⟩
      rw [huniq' a6 b2, huniq a5 b1]
      exact ⟨b3, b4⟩

end L147
open L147

/-- The lines of a component that is a VFREEBUSY say this. -/
structure FreeBusyIn (c : Cont.Component) (d : BusyDesc) : Prop where
  type : c.type = "VFREEBUSY".toList
  lines : ∃ ls : List ContentLine, c.props.map (·.text) = ls.map ContentLine.text ∧ (∀ l ∈ ls, l.Allowed false) ∧
    (∀ l ∈ ls, ∀ p ∈ l.params, ∀ v ∈ p.values, v.Readable) ∧ Fits ls ∧ Spec.FreeBusyText.Describes ls d

/-- C147 (partial), from the text of a calendar to its busy time: a VFREEBUSY of a calendar whose text is well-formed has the busy periods
that its FREEBUSY lines list, each with its type and the earliest first; those that start together are in the order of the lines.  It is found
for a period exactly if that overlaps the time from DTSTART, or else the first start, to DTEND, or else the last end.

Missing: types that the standard does not define (`C87_fails_type`), durations with a plus sign (`C79_fails_plus`). -/
theorem C147_busy_partial (s : CalendarRead.Settings) (hT : Program ValueType.ical s.tables) (b1 b2 body : List (List Char))
    (ps : List Cont.CProp) (ss : List Cont.Component) (h1 : Blank b1) (h2 : Blank b2)
    (hb : s.blankRaise = false ∨ b1 = [] ∧ b2 = []) (h : Spec.Body (CalendarRead.container s) true "VCALENDAR".toList body ps ss)
    (hv : ∃ p ∈ ps, p.key = "VERSION".toList)
    (hzone : ∀ d ∈ ss, PropText.upper d.type = "VTIMEZONE".toList → d.type = "VTIMEZONE".toList) :
    ∃ cal, CalendarRead.read s (b1 ++ "BEGIN:VCALENDAR".toList :: (body ++ "END:VCALENDAR".toList :: b2)) = .ok (some cal) ∧ cal.subs = ss ∧
      ∀ c ∈ ss, ∀ d, FreeBusyIn c d → ∃ v, busyIn s.toEnv c = some v ∧ ∀ env : TzEnv,
        (d.busy = [] → v.busyTime env = none) ∧
        (d.busy ≠ [] → ∃ l lo hi, v.busyTime env = some (l, .ofEnd lo hi) ∧ l.Perm (d.busy.map entry) ∧
          l.Pairwise (fun x y => timeNum x.period.start.civil ≤ timeNum y.period.start.civil) ∧
          (∀ x y, [x, y].Sublist (d.busy.map entry) → timeNum x.period.start.civil ≤ timeNum y.period.start.civil → [x, y].Sublist l) ∧
          Spec.FreeBusyText.Begins d lo ∧ Stops d hi) ∧
        ∀ range : Period, (range.start.Valid ∧ InUTC range.start ∧ range.start.tzid = none) →
          (range.stop.Valid ∧ InUTC range.stop ∧ range.stop.tzid = none) →
          ((v.expandPeriodComp env range).1 = true ↔ d.busy ≠ [] ∧ ∃ lo hi, Spec.FreeBusyText.Begins d lo ∧ Stops d hi ∧
            timeNum range.start.civil < timeNum hi.civil ∧ timeNum lo.civil < timeNum range.stop.civil) := by
  refine ⟨.mk "VCALENDAR".toList ps ss, (C40_calendar (CalendarRead.container s) _ _).mpr
    ⟨C40_complete (CalendarRead.container s) rfl b1 b2 body ps ss h1 h2 hb h hv, hzone⟩, rfl, ?_⟩
  intro c hc d hd
  obtain ⟨ls, l1, l2, l3, l4, l5⟩ := hd.lines
  have hs := (L137.body_sound h).2 c hc
  obtain ⟨qs, hq⟩ := L137.mapM_some (f := fun p : Cont.CProp => readLine s.toEnv p.text) (l := c.props) fun p hp =>
    (hs.1 p hp).imp fun _ h => h.1
  have hq' : (ls.map ContentLine.text).mapM (readLine s.toEnv) = some qs := by
    rw [← l1, List.mapM_map]; exact hq
  obtain ⟨r1, r2, r3, r4, r5, r6, r7, r8⟩ := reads_busy hT l4 l2 l3 hq' l5
  exact ⟨busy qs, by unfold busyIn; rw [hq]; rfl, fun env => busy_time env r1 r2 r3 r4 r5 r6 r7 r8⟩

/-! ## A case -/

namespace L147
open L132 L137 ValueType PropText

/-- Busy from ten to eleven and, perhaps, for an hour from eight. -/
def morning : List ContentLine :=
  [line "UID" "1", line "FREEBUSY" "20240101T100000Z/20240101T110000Z",
    ⟨none, "FREEBUSY".toList, [⟨"FBTYPE".toList, .plain "busy-tentative".toList, []⟩], "20240101T080000Z/PT1H".toList⟩]

def new (h : Int) : DateTime := ⟨2024, 1, 1, h, 0, 0, false, true, none⟩

def morningDesc : BusyDesc := ⟨none, none, [(.busy, new 10, new 11), (.tentative, new 8, new 9)]⟩

theorem new_text (h : String) (n : Nat) (hn : Fixed 2 h.toList n ∧ n < 24) :
    DateTimeText ("2024".toList ++ "01".toList ++ "01".toList ++ 'T' :: (h.toList ++ "00".toList ++ "00".toList ++ ['Z'])) (new n) :=
  DateTimeText.time (y := 2024) (m := 1) (d := 1) (hh := n) (mm := 0) (ss := 0) true (fixed 4 _ _ (by decide +kernel))
    (fixed 2 _ _ (by decide +kernel)) (fixed 2 _ _ (by decide +kernel)) hn.1 (fixed 2 _ _ (by decide +kernel))
    (fixed 2 _ _ (by decide +kernel)) ⟨(by decide : (⟨2024, 1, 1⟩ : Date).Valid), by
      have := hn.2
      simp only
      omega⟩

theorem morning_describes : Spec.FreeBusyText.Describes morning morningDesc where
  start := .none (by simp only [morning]; decide +kernel)
  stop := .none (by simp only [morning]; decide +kernel)
  busy := by
    refine ⟨[[(.busy, new 10, new 11)], [(.tentative, new 8, new 9)]], ?_, rfl⟩
    rw [show (morning.filter fun l => decide (upper l.name = "FREEBUSY".toList)) = [line "FREEBUSY" "20240101T100000Z/20240101T110000Z",
      ⟨none, "FREEBUSY".toList, [⟨"FBTYPE".toList, .plain "busy-tentative".toList, []⟩], "20240101T080000Z/PT1H".toList⟩] from
      by
        unfold morning
        rw [List.filter_cons_of_neg (by decide +kernel), List.filter_cons_of_pos (by decide +kernel),
          List.filter_cons_of_pos (by decide +kernel)]
        rfl]
    have hu : ∀ h, InUTC (new h) := fun h => ⟨rfl, rfl⟩
    refine .cons ⟨⟨none, noParam _ _ _, .inl rfl⟩, none, .busy, [(new 10, new 11)], noParam _ _ _, rfl, ?_, rfl⟩ (.cons ⟨⟨none, ?_, .inl rfl⟩,
      some (rfc6868Decode "busy-tentative".toList), .tentative, [(new 8, new 9)], ?_, ?_, ?_, rfl⟩ .nil)
    · refine .one ?_
      rw [show (line "FREEBUSY" "20240101T100000Z/20240101T110000Z").value =
        ("2024".toList ++ "01".toList ++ "01".toList ++ 'T' :: ("10".toList ++ "00".toList ++ "00".toList ++ ['Z'])) ++ '/' ::
        ("2024".toList ++ "01".toList ++ "01".toList ++ 'T' :: ("11".toList ++ "00".toList ++ "00".toList ++ ['Z'])) by decide +kernel]
      exact .ends (new_text "10" 10 ⟨fixed 2 _ _ (by decide +kernel), by decide⟩)
        (new_text "11" 11 ⟨fixed 2 _ _ (by decide +kernel), by decide⟩) (hu _) (hu _)
    · exact .none (by simp only [List.mem_singleton, forall_eq]; decide +kernel)
    · exact HasParam.some (l := ⟨none, "FREEBUSY".toList, [⟨"FBTYPE".toList, .plain "busy-tentative".toList, []⟩], "20240101T080000Z/PT1H".toList⟩)
        (key := "FBTYPE".toList) ⟨"FBTYPE".toList, .plain "busy-tentative".toList, []⟩ (by simp) (by decide +kernel) (by simp)
    · exact .inr (.inr (.inl ⟨rfl, by decide +kernel⟩))
    · refine .one ?_
      dsimp only
      rw [show "20240101T080000Z/PT1H".toList =
        ("2024".toList ++ "01".toList ++ "01".toList ++ 'T' :: ("08".toList ++ "00".toList ++ "00".toList ++ ['Z'])) ++ '/' ::
        ('P' :: 'T' :: (['1'] ++ ['H'])) by decide +kernel]
      exact .lasts (k := 3600) (new_text "08" 8 ⟨fixed 2 _ _ (by decide +kernel), by decide⟩) (hu _)
        (.plain (.time (.hour (.bare (digits ['1'] 1 (by decide +kernel)))))) (by decide)
        ⟨by decide, ⟨rfl, rfl, rfl⟩, by decide +kernel⟩

theorem morning_fits : Fits morning := by
  intro l hl hn
  simp only [morning, List.mem_cons, List.not_mem_nil, or_false] at hl
  rcases hl with rfl | rfl | rfl
  · exact absurd hn (by decide +kernel)
  · refine ⟨by decide +kernel, fun v hv => ?_⟩
    cases hv with
    | none => exact fun s hs => by cases hs
    | some p hp => cases hp
  · refine ⟨by decide +kernel, fun v hv => ?_⟩
    cases hv with
    | none => exact fun s hs => by cases hs
    | some p hp =>
      rw [List.mem_singleton] at hp
      subst hp
      rintro s hs
      cases hs
      decide +kernel

def morningIn : Cont.Component := .mk "VFREEBUSY".toList (morning.map fun l => ⟨l.name, l.text⟩) []

end L147

/-- The conditions of C147 are met; the query finds the component from eight on. -/
example : FreeBusyIn L147.morningIn L147.morningDesc ∧
    ∃ v, busyIn L137.plain.toEnv L147.morningIn = some v ∧
      ((v.expandPeriodComp .empty (.ofEnd (L147.new 7) (L147.new 8))).1 = false ∧
        (v.expandPeriodComp .empty (.ofEnd (L147.new 8) (L147.new 9))).1 = true) := by
  refine ⟨⟨rfl, L147.morning, (by show List.map _ (List.map _ _) = _; rw [List.map_map]; rfl), ?_, ?_, L147.morning_fits, L147.morning_describes⟩, ?_⟩
  · intro l hl
    simp only [L147.morning, List.mem_cons, List.not_mem_nil, or_false] at hl
    rcases hl with rfl | rfl | rfl
    · exact L137.allowed_name (by decide +kernel) rfl (by simp [L132.line])
    · exact L137.allowed_name (by decide +kernel) rfl (by simp [L132.line])
    · refine ⟨⟨by decide +kernel, by decide +kernel⟩, by simp, ?_⟩
      intro p hp
      rw [List.mem_singleton] at hp
      subst hp
      refine ⟨⟨by decide +kernel, by decide +kernel⟩, fun v hv => ?_⟩
      simp only [ShownParam.values, List.mem_singleton] at hv
      subst hv
      show ∀ c ∈ "busy-tentative".toList, _
      decide +kernel
  · simp only [L147.morning]; decide +kernel
  · have h : ((busyIn L137.plain.toEnv L147.morningIn).map fun v =>
        ((v.expandPeriodComp .empty (.ofEnd (L147.new 7) (L147.new 8))).1, (v.expandPeriodComp .empty (.ofEnd (L147.new 8) (L147.new 9))).1)) =
        some (false, true) := by decide +kernel
    rw [Option.map_eq_some_iff] at h
    obtain ⟨v, hv, h⟩ := h
    exact ⟨v, hv, Prod.mk.inj h⟩

end PyCal
