import Verif.Spec.XCal
import Verif.Props.C83_RuleJSON
import Verif.Props.C85_PropertyJSON

/-!
# C89: properties in xCal
-/

namespace PyCal
open Spec Spec.Recur Spec.XCal ValueType PropText
open XCal

namespace X89

theorem four_d4 {n : Nat} (h : n < 10000) : d4 n = four n := by
  have : ∀ k < 10, digitChar k = Char.ofNat (48 + k) := by decide
  rw [d4, four, PropJSON.two, PropJSON.two, this _ (by omega), this _ (by omega), this _ (by omega),
    this _ (by omega)]
  have h1 : n / 100 / 10 = n / 1000 := by omega
  have h2 : n % 100 / 10 = n / 10 % 10 := by omega
  have h3 : n % 100 % 10 = n % 10 := by omega
  rw [h1, h2, h3]
  rfl

theorem pad2 {n : Int} (h0 : 0 ≤ n) (h : n < 100) : padInt 2 n = PropJSON.two n.toNat := by
  rw [padInt2 h0 h]; exact PJ.two_d2 (by omega)

theorem pad4 {n : Int} (h0 : 0 ≤ n) (h : n < 10000) : padInt 4 n = four n.toNat := by
  rw [padInt4 h0 h]; exact four_d4 (by omega)

/-- The dates that can be written: no year beyond four digits, no zone that is an offset. -/
def Plain (t : DateTime) : Prop :=
  t.Valid ∧ 0 ≤ t.year ∧ t.year ≤ 9999 ∧ ∀ n, t.tzid ≠ some (.fixed n)

theorem date_text {t : DateTime} (h : Plain t) : DateText t.getXMLText t := by
  obtain ⟨hv, h0, h1, hz⟩ := h
  obtain ⟨r1, r2, r3, r4, r5⟩ := hv.ranges
  refine ⟨t.year.toNat, t.month.toNat, t.day.toNat, t.hours.toNat, t.minutes.toNat, t.seconds.toNat,
    by omega, by omega, by omega, by omega, by omega, by omega, ?_⟩
  have hzone : DateTime.zoneText [':'] t = if t.utc then ['Z'] else [] := by
    unfold DateTime.zoneText
    split
    · rfl
    · split
      · rename_i n hn; exact absurd hn (hz n)
      · rfl
  unfold DateTime.getXMLText DateTime.dateText DateTime.timeText
  rw [hzone, pad4 h0 (by omega), pad2 (n := t.month) (by omega) (by omega),
    pad2 (n := t.day) (by omega) (by omega), pad2 (n := t.hours) (by omega) (by omega),
    pad2 (n := t.minutes) (by omega) (by omega), pad2 (n := t.seconds) (by omega) (by omega)]
  by_cases hd : t.dateOnly = true <;> by_cases hu : t.utc = true <;> simp [hd, hu]

theorem date_form {t : DateTime} (h : Plain t) : DateForm t (dateElem t) := by
  by_cases hd : t.dateOnly = true
  · exact .date hd (date_text h) (by rw [dateElem, if_pos hd]; rfl)
  · exact .dateTime (by simpa using hd) (date_text h) (by rw [dateElem, if_neg hd]; rfl)

/-! ### Rules -/

theorem until_plain {s : List Char} {t : DateTime} (h : UntilText s t) : Plain t :=
  ⟨h.2.1, h.2.2.1.1, h.2.2.1.2, fun n => by rw [h.2.2.2.2]; simp⟩

theorem num_form {k : By} {vals : List Int} (h : ∀ v ∈ vals, k.Allows v) :
    ∃ xss, List.Forall₂ PartForm (optNum k vals) xss ∧ numElems (byTag k) vals = xss.flatten := by
  unfold optNum
  split
  · rename_i h0
    exact ⟨[], .nil, by rw [h0]; rfl⟩
  · refine ⟨[numElems (byTag k) vals], .cons (.num h ?_) .nil, by simp⟩
    clear h
    induction vals with
    | nil => exact .nil
    | cons v vals ih =>
      by_cases hn : vals = []
      · subst hn; exact .cons ⟨_, number_decInt v, rfl⟩ .nil
      · exact .cons ⟨_, number_decInt v, rfl⟩ (ih hn)

theorem opt_form {c : Prop} [Decidable c] {x : Xml} {p : Part} (h : c → PartForm p [x]) :
    ∃ xss, List.Forall₂ PartForm (if c then [p] else []) xss ∧
      (if c then [x] else []) = xss.flatten := by
  split
  · rename_i hc; exact ⟨[[x]], .cons (h hc) .nil, rfl⟩
  · exact ⟨[], .nil, rfl⟩

theorem limit_form {r : Rule} (hw : Writable r) :
    ∃ limit xss, limitElems r = some limit ∧ List.Forall₂ PartForm (limitParts r) xss ∧
      limit = xss.flatten := by
  unfold limitElems limitParts
  by_cases hc : r.useCount = true
  · have := hw.count
    rw [if_pos hc] at this
    rw [if_pos hc, if_pos hc]
    exact ⟨_, [_], rfl, .cons (.count (number_decInt _) this.1 rfl) .nil, rfl⟩
  · rw [if_neg hc, if_neg hc]
    have := hw.until_
    by_cases hu : r.useUntil = true
    · rw [if_pos hu] at this ⊢
      obtain ⟨t, ht, hT⟩ := this
      rw [ht]
      exact ⟨_, [_], rfl, .cons (.upto (date_form (until_plain hT))) .nil, by simp⟩
    · rw [if_neg hu] at this ⊢
      rw [this]
      exact ⟨[], [], rfl, .nil, rfl⟩

theorem day_form {l : List (Int × Int)} (h : ∀ v ∈ l, 0 ≤ v.2 ∧ v.2 < 7) :
    ∃ xss, List.Forall₂ PartForm (if l = [] then [] else [.byDay l]) xss ∧
      (l.map fun v => leaf "byday" (Rule.dayText v)) = xss.flatten := by
  split
  · rename_i h0; exact ⟨[], .nil, by rw [h0]; rfl⟩
  · refine ⟨[_], .cons (.byDay (xs := l.map fun v => leaf "byday" (Rule.dayText v)) ?_) .nil, by simp⟩
    clear * - h
    induction l with
    | nil => exact .nil
    | cons v l ih =>
      exact .cons ⟨_, dayNum_text (h v (by simp)), rfl⟩ (ih fun w hw => h w (List.mem_cons_of_mem _ hw))

theorem join_forms {ps qs : List Part} {as bs : List Xml}
    (h1 : ∃ xss, List.Forall₂ PartForm ps xss ∧ as = xss.flatten)
    (h2 : ∃ xss, List.Forall₂ PartForm qs xss ∧ bs = xss.flatten) :
    ∃ xss, List.Forall₂ PartForm (ps ++ qs) xss ∧ as ++ bs = xss.flatten := by
  obtain ⟨x1, a1, rfl⟩ := h1
  obtain ⟨x2, a2, rfl⟩ := h2
  exact ⟨x1 ++ x2, List.rel_append a1 a2, by simp⟩

theorem parts_order (r : Rule) : ((partsOf r).map place).Pairwise (· < ·) := by
  have hsub : ∀ k v, List.Sublist (optNum k v) [.num k v] := by
    intro k v; unfold optNum; split <;> simp
  have key : ∀ x : List Part, (x = [.count r.count] ∨ ∃ t, x = [.upto t]) →
      List.Pairwise (· < ·) (([.freq r.freq] ++ x ++ [.interval r.interval] ++
        [.num .second r.bySeconds] ++ [.num .minute r.byMinutes] ++ [.num .hour r.byHours] ++
        [.byDay r.byDay] ++ [.num .monthDay r.byMonthDay] ++ [.num .yearDay r.byYearDay] ++
        [.num .weekNo r.byWeekNo] ++ [.num .month r.byMonth] ++ [.num .setPos r.bySetPos] ++
        [.wkst r.weekStart] : List Part).map place) := by
    rintro x (rfl | ⟨t, rfl⟩) <;> simp [place]
  have hlim : ∃ x : List Part, (x = [.count r.count] ∨ ∃ t, x = [.upto t]) ∧
      List.Sublist (limitParts r) x := by
    unfold limitParts
    split
    · exact ⟨_, Or.inl rfl, List.Sublist.refl _⟩
    · split
      · exact ⟨_, Or.inr ⟨_, rfl⟩, List.Sublist.refl _⟩
      · exact ⟨_, Or.inl rfl, by simp⟩
  obtain ⟨x, hx, hs⟩ := hlim
  refine (key x hx).sublist (List.Sublist.map _ ?_)
  unfold partsOf
  refine ((((((((((((List.Sublist.refl _).append hs).append ?_).append (hsub _ _)).append
    (hsub _ _)).append (hsub _ _)).append ?_).append (hsub _ _)).append (hsub _ _)).append
    (hsub _ _)).append (hsub _ _)).append (hsub _ _)).append ?_
  all_goals split <;> simp

theorem recur_form {r : Rule} (hw : Writable r) :
    ∃ xs, recurElem r = some (.elem "recur".toList .none xs) ∧ RecurForm r xs := by
  obtain ⟨limit, lss, h1, h2, h3⟩ := limit_form hw
  refine ⟨_, by rw [recurElem, h1]; rfl, ?_⟩
  have h : ∃ xss, List.Forall₂ PartForm (partsOf r) xss ∧ _ = xss.flatten :=
    join_forms (join_forms (join_forms (join_forms (join_forms (join_forms (join_forms (join_forms
      (join_forms (join_forms (join_forms (join_forms
        ⟨[[leaf "freq" (Rule.freqText r.freq)]], .cons (.freq (freqWord_text r.freq) rfl) .nil, rfl⟩
        ⟨lss, h2, h3⟩)
        (opt_form (x := leaf "interval" (decInt r.interval))
          fun hc => .interval (number_decInt _) (by omega) rfl))
        (num_form (k := .second) hw.bySeconds)) (num_form (k := .minute) hw.byMinutes))
        (num_form (k := .hour) hw.byHours)) (day_form fun v hv => (hw.byDay v hv).1))
        (num_form (k := .monthDay) hw.byMonthDay)) (num_form (k := .yearDay) hw.byYearDay))
        (num_form (k := .weekNo) hw.byWeekNo)) (num_form (k := .month) hw.byMonth))
        (num_form (k := .setPos) hw.bySetPos))
      (opt_form (x := leaf "wkst" (if Rule.weekdayText r.weekStart = [] then ['M','O']
        else Rule.weekdayText r.weekStart)) fun hc => .wkst (s := Rule.weekdayText r.weekStart)
          (dayWord_text hw.weekStart) (by
            have : Rule.weekdayText r.weekStart ≠ [] := by
              have := dayWord_text hw.weekStart
              intro h0
              rw [h0] at this
              generalize r.weekStart = d at this
              generalize hs : ([] : List Char) = s at this
              cases this <;> simp at hs
            rw [if_neg this]; rfl))
  obtain ⟨xss, h4, h5⟩ := h
  refine ⟨partsOf r, xss, h4, ?_, parts_order r, partsOf_rule hw⟩
  rw [← h5]
  simp [byTag]

/-! ### Values -/

theorem offset_text {n : Int} (h : n.natAbs < 360000) (hm : n % 60 = 0) :
    PropJSON.OffsetText (colonBefore2 (utcOffsetGenerate false n)) n := by
  have hs : n.natAbs % 60 = 0 := by omega
  refine ⟨n.natAbs / 3600, n.natAbs / 60 % 60, 0, by omega, by omega, by omega, by omega, ?_⟩
  have e1 : padInt 2 (n.natAbs / 3600 : Nat) = PropJSON.two (n.natAbs / 3600) := by
    rw [padInt2 (by omega) (by omega)]; exact PJ.two_d2 (by omega)
  have e2 : padInt 2 (n.natAbs / 60 % 60 : Nat) = PropJSON.two (n.natAbs / 60 % 60) := by
    rw [padInt2 (by omega) (by omega)]; exact PJ.two_d2 (by omega)
  unfold utcOffsetGenerate colonBefore2
  simp only [e1, e2]
  by_cases hn : n < 0 <;> simp [hn, hs, PropJSON.two]

/-- The values that are written as they should be. -/
inductive Good : XVal → Prop
  | plain {t s n} : TextType t n → Good (.plain t s)
  | int (n) : Good (.int n)
  | float (s) : Good (.float s)
  | offset {n : Int} : n.natAbs < 360000 → n % 60 = 0 → Good (.offset n)
  | recur {r} : Writable r → Good (.recur r)
  | date {t} : Plain t → Good (.date t)

theorem value_form {v : XVal} (h : Good v) : ∃ x, valueElem v = some x ∧ ValueForm v [x] := by
  cases h with
  | plain h => cases h <;> exact ⟨_, rfl, .plain (by constructor) rfl⟩
  | int n => exact ⟨_, rfl, .int (number_decInt n) rfl⟩
  | float s => exact ⟨_, rfl, .float rfl⟩
  | offset h hm => exact ⟨_, rfl, .offset (offset_text h hm) rfl⟩
  | recur hw =>
    obtain ⟨xs, h1, h2⟩ := recur_form hw
    exact ⟨_, h1, .recur h2⟩
  | date h => exact ⟨_, rfl, .date (date_form h)⟩

theorem values_form {vs : List XVal} (h : ∀ v ∈ vs, Good v) :
    ∃ xs, vs.mapM valueElem = some xs ∧ List.Forall₂ ValueForm vs (xs.map fun x => [x]) := by
  induction vs with
  | nil => exact ⟨[], rfl, .nil⟩
  | cons v vs ih =>
    obtain ⟨x, h1, h2⟩ := value_form (h v (by simp))
    obtain ⟨xs, h3, h4⟩ := ih fun w hw => h w (by simp [hw])
    exact ⟨x :: xs, by rw [List.mapM_cons, h1, h3]; rfl, .cons h2 h4⟩

/-! ### Parameters -/

theorem text_type {key : List Char} (h : key ∈ textParams) : paramType key = "text" := if_pos h

theorem params_form {ps : List Param} (h : ∀ p ∈ ps, upper p.name ≠ "VALUE".toList →
    upper p.name ∈ textParams) :
    ∃ qs ys hd, (qs.Perm (ps.filter fun q => decide (upper q.name ≠ "VALUE".toList))) ∧
      List.Forall₂ ParamForm qs ys ∧ (hd = [.elem "parameters".toList .none ys] ∨ hd = [] ∧ ys = []) ∧
      paramsElem ps = hd := by
  by_cases h0 : ps = []
  · subst h0
    exact ⟨[], [], [], by simp, .nil, .inr ⟨rfl, rfl⟩, rfl⟩
  · refine ⟨(ps.insertionSort fun a b => a.key ≤ b.key).filter fun p =>
      PropJSON.lower p.name ≠ "value".toList, ((ps.insertionSort fun a b => a.key ≤ b.key).filter fun p =>
      PropJSON.lower p.name ≠ "value".toList).map paramElem, _, ?_, ?_, .inl rfl, ?_⟩
    rotate_left 2
    · rw [paramsElem, if_neg (by simpa using h0)]
    · have : (fun p : Param => decide (PropJSON.lower p.name ≠ "value".toList)) =
          fun q => decide (upper q.name ≠ "VALUE".toList) := by
        funext q; exact decide_eq_decide.2 (not_congr (PJ.value_iff q.name))
      rw [this]
      exact (List.perm_insertionSort _ ps).filter _
    · have : ∀ p ∈ (ps.insertionSort fun a b => a.key ≤ b.key).filter fun p =>
          PropJSON.lower p.name ≠ "value".toList, ParamForm p (paramElem p) := by
        intro p hp
        rw [List.mem_filter, List.mem_insertionSort] at hp
        have hk := h p hp.1 fun he => by simpa [(PJ.value_iff p.name).2 he] using hp.2
        refine ⟨p.values.map (leaf "text"), rfl, ?_⟩
        rw [text_type hk]
        generalize p.values = vs
        induction vs with
        | nil => exact .nil
        | cons v vs ih => exact .cons rfl ih
      generalize (ps.insertionSort fun a b => a.key ≤ b.key).filter (fun p =>
        PropJSON.lower p.name ≠ "value".toList) = l at this
      induction l with
      | nil => exact .nil
      | cons p l ih => exact .cons (this p (by simp)) (ih fun q hq => this q (List.mem_cons_of_mem _ hq))

end X89
open X89

/-- C89 (partial): a property is written as RFC 6321 says, if its values are texts, numbers, dates, rules
or offsets in whole minutes and its parameters are among those whose values are texts.  Missing: durations,
periods and request statuses (`C89_fails_raises`), GEO (`C89_fails_geo`), offsets with seconds
(`C89_fails_offset`) and the other parameters (`C89_fails_parameter`). -/
theorem C89_written_partial (p : XProp) (hp : ∀ q ∈ p.params, upper q.name ≠ "VALUE".toList →
    upper q.name ∈ textParams) (hv : ∀ v ∈ p.values, Good v) :
    ∃ x, propElem false p = some x ∧ PropertyForm p x := by
  obtain ⟨xs, h1, h2⟩ := values_form hv
  obtain ⟨qs, ys, hd, h3, h4, h5, h6⟩ := params_form hp
  refine ⟨.elem (makeTag p.name) .none (hd ++ xs), ?_, qs, ys, hd, _, h3, h4, h5, h2, ?_⟩
  · rw [propElem, if_neg (by simp), h1, ← h6]; rfl
  · have : (xs.map fun x => [x]).flatten = xs := by
      clear * -
      induction xs with
      | nil => rfl
      | cons x xs ih => simp [ih]
    rw [this]; rfl

/-- C89 fails: a property with a duration, a period or a request status is not written at all, whatever
else it has. -/
theorem C89_fails_raises (p : XProp) (v : XVal) (hv : v ∈ p.values)
    (h : (∃ d, v = .duration d) ∨ (∃ q, v = .period q) ∨ ∃ l, v = .status l) :
    propElem false p = none := by
  have hn : valueElem v = none := by
    rcases h with ⟨d, rfl⟩ | ⟨q, rfl⟩ | ⟨l, rfl⟩
    · rfl
    · rfl
    · match l with
      | [] => rfl
      | [a] => rfl
      | a :: b :: l => rfl
  have : p.values.mapM valueElem = none := by
    generalize p.values = vs at hv
    induction vs with
    | nil => cases hv
    | cons w vs ih =>
      rw [List.mapM_cons]
      rcases List.mem_cons.1 hv with rfl | hv
      · rw [hn]; rfl
      · rw [ih hv]
        cases valueElem w <;> rfl
  rw [propElem, if_neg (by simp), this]
  rfl

/-- C89 fails: GEO is written with an element `geo` inside that of the property, and the texts are numbers,
not strings. -/
theorem C89_fails_geo (lat lon : List Char) (x : Xml)
    (h : propElem false ⟨"GEO".toList, [], [.geo lat lon]⟩ = some x) :
    x = .elem "geo".toList .none [.elem "geo".toList .none
      [.elem "latitude".toList (.float lat) [], .elem "longitude".toList (.float lon) []]] ∧
    ¬ PropertyForm ⟨"GEO".toList, [], [.geo lat lon]⟩ x := by
  have hx := (Option.some.inj h).symm
  refine ⟨hx, ?_⟩
  rintro ⟨qs, ys, hd, vss, h1, h2, h3, h4, h5⟩
  rw [h5] at hx
  have hq : qs = [] := by simpa using h1
  subst hq
  cases h2
  cases h4 with
  | cons h4 h6 =>
    cases h6
    cases h4 with
    | geo ha hb =>
      rcases h3 with rfl | ⟨rfl, -⟩ <;> injection hx with e1 e2 e3 <;>
        replace e3 := congrArg List.length e3 <;> simp [paramsElem] at e3

/-- C89 fails: an offset with seconds is written as "+0123:45". -/
theorem C89_fails_offset : propElem false ⟨"TZOFFSETTO".toList, [], [.offset 5025]⟩ =
    some (.elem "tzoffsetto".toList .none [leaf "utc-offset" "+0123:45".toList]) ∧
    ¬ PropJSON.OffsetText "+0123:45".toList 5025 := by
  constructor
  · have : colonBefore2 (utcOffsetGenerate false 5025) = "+0123:45".toList := by decide +kernel
    show some (Xml.elem _ .none [leaf "utc-offset" (colonBefore2 (utcOffsetGenerate false 5025))]) = _
    rw [this]
    rfl
  · rintro ⟨h, m, s, h1, h2, h3, h4, h5⟩
    have e : (5025 : Int).natAbs = 5025 := rfl
    rw [e] at h4
    have : h = 1 ∧ m = 23 ∧ s = 45 := by omega
    obtain ⟨rfl, rfl, rfl⟩ := this
    revert h5
    decide

/-- C89 fails: the values of a parameter are always written as texts, also addresses, for example. -/
theorem C89_fails_parameter (p : Param) (h : upper p.name ∉ textParams) (hv : p.values ≠ []) :
    ¬ ParamForm p (paramElem p) := by
  rintro ⟨xs, h1, h2⟩
  unfold paramElem at h1
  injection h1 with e1 e2 e3
  subst e3
  cases hp : p.values with
  | nil => exact hv hp
  | cons v vs =>
    rw [hp] at h2
    cases h2 with
    | cons h2 _ =>
      have ht : paramType (upper p.name) = "text" := by
        have h2 : leaf "text" v = .elem (paramType (upper p.name)).toList (.str v) [] := h2
        unfold leaf at h2
        injection h2 with e _ _
        exact (String.toList_inj.1 e).symm
      unfold paramType at ht
      rw [if_neg h] at ht
      cases hl : otherParams.lookup (upper p.name) with
      | none => rw [hl] at ht; simp at ht
      | some y =>
        rw [hl] at ht
        have := lookup_mem hl
        simp only [Option.getD_some] at ht
        subst ht
        simp [otherParams] at this

/-- An attendee with two parameters, and the end of a rule: the conditions are met. -/
example : ∃ x, propElem false ⟨"ATTENDEE".toList, [⟨"CN".toList, ["A".toList]⟩,
      ⟨"ROLE".toList, ["CHAIR".toList]⟩], [.plain .calAddress "mailto:a@b".toList]⟩ = some x ∧
    PropertyForm ⟨"ATTENDEE".toList, [⟨"CN".toList, ["A".toList]⟩, ⟨"ROLE".toList, ["CHAIR".toList]⟩],
      [.plain .calAddress "mailto:a@b".toList]⟩ x :=
  C89_written_partial _ (by
    intro q hq _
    simp only [List.mem_cons, List.not_mem_nil, or_false] at hq
    rcases hq with rfl | rfl <;> decide) (by
    intro v hv
    simp only [List.mem_cons, List.not_mem_nil, or_false] at hv
    subst hv
    exact .plain .calAddress)

/-- What is written for it. -/
example : propElem false ⟨"ATTENDEE".toList, [⟨"ROLE".toList, ["CHAIR".toList]⟩,
      ⟨"CN".toList, ["A".toList]⟩], [.plain .calAddress "mailto:a@b".toList]⟩ =
    some (.elem "attendee".toList .none [.elem "parameters".toList .none
      [.elem "cn".toList .none [leaf "text" "A".toList],
       .elem "role".toList .none [leaf "text" "CHAIR".toList]],
      leaf "cal-address" "mailto:a@b".toList]) := rfl

end PyCal
