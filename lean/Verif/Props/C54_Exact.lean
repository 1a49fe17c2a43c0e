import Verif.Props.C54_Spans

/-!
# C54: what the expansion of a rule with BYxxx parts consists of; C30 for such rules

-/

namespace PyCal.Rule
open Spec DateTime Period

/-- `t` moved to the civil time `c`. -/
def atTime (t : DateTime) (c : Time) : DateTime :=
  { t with year := c.date.y, month := c.date.m, day := c.date.d, hours := c.h, minutes := c.mi,
           seconds := c.s }

/-- The dates the BYxxx parts give (C53) for the `k`-th repetition of the start. -/
def occursIn (env : TzEnv) (r : Rule) (n : Nat) (start : DateTime) (k : Nat) : List DateTime :=
  r.candidates env (atTime start (repetition r.freq n start.civil k))

/-- How many dates of the repetitions `0 .. k` are after the start and before `t`. -/
def occurrencesBefore (env : TzEnv) (r : Rule) (n : Nat) (start : DateTime) (k : Nat)
    (t : DateTime) : Nat :=
  ((List.range (k + 1)).flatMap (r.occursIn env n start)).countP
    fun x => start.lt env x && x.lt env t

theorem raw_atTime {r : Rule} {start : DateTime} (hv : start.Valid)
    (hsd : start.dateOnly = true → subDaily r.freq = false) {n : Nat} (hn : r.interval = n)
    (k : Nat) : r.raw start k = atTime start (repetition r.freq n start.civil k) := by
  rw [← raw_civil hv hsd hn k]
  exact eq_of_civil (r.raw_kind start k) rfl

/-! ## The loop -/

/-- What a complex expansion without `maxInstances` ends with. -/
def ComplexResult (env : TzEnv) (r : Rule) (limit : Option DateTime) (start : DateTime)
    (range : Period) (items : List DateTime) (full : Bool) : Prop :=
  (r.useCount = true ∧ r.count ≤ 1 ∧ items = [] ∧ full = true) ∨
  ∃ N, Ends env r limit start range items full N

/-- What is asked of a rule, its start and the range, see the parts. -/
structure Good (env : TzEnv) (K : DateTime → Prop) (r : Rule) (start : DateTime)
    (limit : Option DateTime) (range : Period) : Prop where
  tame : Tame r start
  kind : Kind env K
  startK : K start
  limitK : ∀ u, limit = some u → K u
  stopK : K range.stop
  comparable : Comparable K r start
  steady : Steady env r start
  /-- weekdays are right up to the year 2099 (C05) -/
  far : r.freq = .weekly → ∀ t, K t → 2100 ≤ t.year → range.isDateAfter env t = true

section
variable {env : TzEnv} {K : DateTime → Prop} {r : Rule} {start : DateTime}
  {limit : Option DateTime} {range : Period}

theorem Good.ordered (h : Good env K r start limit range) :
    Ordered env K (fun t => FarOff r t ∧ K t) r start :=
  tame_ordered h.tame h.kind h.startK h.comparable h.steady

theorem Good.farAfter (h : Good env K r start limit range) (t : DateTime)
    (ht : FarOff r t ∧ K t) : range.isDateAfter env t = true :=
  h.far ht.1.1 t ht.2 ht.1.2

theorem complexExpand_result (h : Good env K r start limit range) {fuel : Nat} {o : Outcome}
    {off : Int} (hl : limit = r.untilLimit start off none)
    (hx : r.complexExpand env fuel start range off none = some o) :
    ∃ items full, o = .done items full ∧ ComplexResult env r limit start range items full := by
  unfold complexExpand at hx
  split at hx
  · next hc =>
    simp only [Option.some.injEq] at hx
    rw [Bool.and_eq_true, decide_eq_true_eq] at hc
    exact ⟨[], true, hx.symm, Or.inl ⟨hc.1, by omega, rfl, rfl⟩⟩
  · next hc =>
    rw [← hl] at hx
    have := complexLoop_spec h.ordered h.farAfter fuel 0 (if r.useCount then 1 else 0) [] o (by simp [occ])
      ⟨fun hu => by simp [hu], fun hu => by simp [hu]⟩
      ⟨by simp [occ], fun hu => by
        simp only [hu, Bool.true_and, decide_eq_true_eq] at hc
        simp only [occ, List.range_zero, List.flatMap_nil, List.filter_nil, List.length_nil]
        push_cast
        omega⟩ hx
    obtain ⟨N, items, full, h1, h2⟩ := this
    exact ⟨items, full, h1, Or.inr ⟨N, h2⟩⟩

theorem result_filter (h : Good env K r start limit range) {items : List DateTime} {full : Bool}
    (hx : ComplexResult env r limit start range items full) (w : DateTime → Bool)
    (hw : ∀ t, w t = true → ¬ (FarOff r t ∧ K t))
    (hw' : full = false → ∀ t, w t = true → range.isDateAfter env t = false) :
    ∃ N, ∀ M, N ≤ M → items.filter w =
      (r.cut ((r.occ env start M).filter (r.keep env start))).filter
        (fun t => w t && !pastUntil env limit t) := by
  rcases hx with ⟨hu, hc, rfl, rfl⟩ | ⟨N, hN⟩
  · refine ⟨0, fun M _ => ?_⟩
    unfold cut
    rw [if_pos hu, show (r.count - 1).toNat = 0 by omega]
    simp
  · exact ⟨N, ends_filter h.ordered h.limitK h.stopK hN w hw hw'⟩

theorem expandFresh_complex (h : Good env K r start limit range) {fuel : Nat} {off : Int}
    {L : List DateTime} {lim : Bool} (hl : limit = r.untilLimit start off none)
    (hb : r.hasBy = true)
    (hx : r.expandFresh env fuel start range off = some (.dates L lim)) :
    ∃ items full, ComplexResult env r limit start range items full ∧
      L = items.filter (fun t => range.isDateWithin env t) ∧
      lim = (!full || items.any fun t => !range.isDateWithin env t) := by
  unfold expandFresh expand at hx
  simp only [normalise_of_valid h.tame.valid, Bool.false_and, Bool.false_eq_true, if_false,
    Bool.not_false, Bool.true_or, if_true, expandRaw, hb, Bool.not_true] at hx
  cases hc : r.complexExpand env fuel start range off none with
  | none => rw [hc] at hx; simp at hx
  | some o =>
    obtain ⟨items, full, rfl, hres⟩ := complexExpand_result h hl hc
    rw [hc] at hx
    simp only [Option.map_some, Option.some.injEq, answer, Answer.dates.injEq] at hx
    exact ⟨items, full, hres, hx.1.symm, hx.2.symm⟩

/-- C54 (partial), as a list: for all sufficiently large `N`, the expansion over a range is the
concatenation of the sorted candidate sets of the first `N` repetitions of the start, without what
is before the start, cut off after COUNT - 1 dates after the start if there is a COUNT, restricted
to the range and to what is not past UNTIL.

Missing: as for the theorem about the elements; `C54_fails_posix`, `C54_fails_duplicates`. -/
theorem C54_list_partial (h : Good env K r start limit range) {fuel : Nat} {off : Int}
    {L : List DateTime} {lim : Bool} (hl : limit = r.untilLimit start off none)
    (hb : r.hasBy = true)
    (hx : r.expandFresh env fuel start range off = some (.dates L lim)) :
    ∃ N, ∀ M, N ≤ M → L = (r.cut ((r.occ env start M).filter (r.keep env start))).filter
        (fun t => range.isDateWithin env t && !pastUntil env limit t) := by
  obtain ⟨items, full, hres, rfl, _⟩ := expandFresh_complex h hl hb hx
  refine result_filter h hres (fun t => range.isDateWithin env t) ?_ ?_
  · intro t ht hf
    have h1 := h.farAfter t hf
    rw [within_iff] at ht
    have := (after_iff env range t).mpr ht.2
    rw [h1] at this; simp at this
  · intro _ t ht
    rw [within_iff] at ht
    exact (after_iff env range t).mpr ht.2

/-! ## Membership -/

theorem mem_take_sorted {l : List DateTime} {t : DateTime} {m : Nat}
    (hs : l.Pairwise fun a b => b = t → t.lt env a = false)
    (ha : l.Pairwise fun a b => a = t → b.lt env t = false)
    (he : ∀ x ∈ l, x.eq env t = true → x = t) (ht : t ∈ l) :
    t ∈ l.take m ↔ l.countP (fun x => x.lt env t) < m := by
  induction l generalizing m with
  | nil => simp at ht
  | cons y l ih =>
    rw [List.pairwise_cons] at hs ha
    cases m with
    | zero => simp
    | succ m =>
      rw [List.take_succ_cons, List.mem_cons, List.countP_cons]
      by_cases hy : t = y
      · subst hy
        have h0 : l.countP (fun x => x.lt env t) = 0 := by
          rw [List.countP_eq_zero]
          intro x hx
          rw [ha.1 x hx rfl]; simp
        have h1 : t.lt env t = false := by simpa using not_lt_self env t
        simp [h0, h1]
      · have htl : t ∈ l := by
          rcases List.mem_cons.mp ht with h | h
          · exact absurd h hy
          · exact h
        have hlt : y.lt env t = true := by
          have h1 := hs.1 t htl rfl
          refine lt_or h1 ?_
          cases h2 : t.eq env y with
          | false => rfl
          | true => exact absurd (he y (by simp) (eq_symm h2)).symm hy
        have := ih (m := m) hs.2 ha.2 (fun x hx => he x (by simp [hx])) htl
        simp only [hy, false_or, this, hlt, if_true]
        omega

theorem countP_occ (p : DateTime → Bool) (N : Nat) :
    (r.occ env start N).countP p =
      ((List.range N).flatMap fun k => r.candidates env (r.raw start k)).countP p := by
  induction N with
  | zero => rfl
  | succ N ih =>
    rw [occ_succ, List.countP_append, ih, List.range_succ, List.flatMap_append,
      List.countP_append]
    congr 1
    simp only [List.flatMap_cons, List.flatMap_nil, List.append_nil]
    unfold slot sortByPosix
    exact (List.perm_insertionSort _ _).countP_eq p

/-- C54 (partial): the expansion over a range of a rule with BYxxx parts consists of exactly those
dates that the BYxxx parts give (C53) for some repetition of the start, that are in the range, not
before the start and not after UNTIL; with COUNT, additionally, they are after the start and fewer
than COUNT - 1 such dates come before (the start itself counts, but is left to the caller to add).
They come in increasing order.

Needed (`Good`): values in their ranges, none of the parts that do not work (C52, C53); everything
of one kind; a MONTHLY or YEARLY start on a day up to the 28th if the range is given in another
time zone (`C54_fails_posix`); WEEKLY up to 2099.  Dates given twice by the parts also count twice
for COUNT (`C54_fails_duplicates`). -/
theorem C54_exact_partial (h : Good env K r start limit range) {fuel n : Nat} {off : Int}
    {L : List DateTime} {lim : Bool} (hl : limit = r.untilLimit start off none)
    (hn : r.interval = n) (hu : r.useUntil = true → r.untilDate ≠ none) (hb : ¬ r.Plain)
    (hx : r.expandFresh env fuel start range off = some (.dates L lim)) :
    (∀ t, t ∈ L ↔ ∃ k, t ∈ r.occursIn env n start k ∧ range.isDateWithin env t = true ∧
      t.lt env start = false ∧ (∀ u, UntilBound r start off u → t.gt env u = false) ∧
      (r.useCount = true → start.lt env t = true ∧
        (r.occurrencesBefore env n start k t : Int) + 1 < r.count)) ∧
    L.Pairwise (fun a b => b.lt env a = false) := by
  obtain ⟨N, hN⟩ := C54_list_partial h hl (hasBy_iff.mpr hb) hx
  have ho := h.ordered
  have hcand : ∀ k, r.occursIn env n start k = r.candidates env (r.raw start k) := by
    intro k
    unfold occursIn
    rw [raw_atTime h.tame.valid (fun hd => (h.tame.dates hd).1) hn]
  have hbefore : ∀ k t, r.occurrencesBefore env n start k t =
      (r.occ env start (k + 1)).countP fun x => start.lt env x && x.lt env t := by
    intro k t
    unfold occurrencesBefore
    rw [countP_occ, show r.occursIn env n start = fun k => r.candidates env (r.raw start k) from
      funext hcand]
  -- dates in the range are near
  have hnear : ∀ t, range.isDateWithin env t = true → ¬ (FarOff r t ∧ K t) := by
    intro t ht hf
    have h1 := h.farAfter t hf
    rw [within_iff] at ht
    have := (after_iff env range t).mpr ht.2
    rw [h1] at this; simp at this
  -- far dates are not before a date in the range
  have hfar : ∀ x t, FarOff r x ∧ K x → K t → range.isDateWithin env t = true →
      x.lt env t = false := by
    intro x t hf ht hw
    by_contra hc
    have hc : x.lt env t = true := by simpa using hc
    have h1 := h.farAfter x hf
    rw [within_iff] at hw
    have := h.kind.transitive.lt_lt _ _ _ hf.2 ht h.stopK hc hw.2
    rw [← after_iff, h1] at this; simp at this
  have hpast : ∀ t, pastUntil env limit t = false ↔
      ∀ u, UntilBound r start off u → t.gt env u = false := by
    intro t
    rw [hl]
    exact pastUntil_iff (by decide) hu t
  have hkeepS : ∀ t, r.keep env start t = true ↔
      t.lt env start = false ∧ (r.useCount = true → start.lt env t = true) := by
    intro t
    unfold keep
    split
    · next hu =>
      constructor
      · intro h; exact ⟨lt_asymm h, fun _ => h⟩
      · intro h; exact h.2 hu
    · next hu => simp [hu]
  -- membership after the cut
  have hcut : ∀ M k t, k < M → t ∈ r.candidates env (r.raw start k) →
      range.isDateWithin env t = true → r.keep env start t = true →
      (t ∈ r.cut ((r.occ env start M).filter (r.keep env start)) ↔
        (r.useCount = true → (r.occurrencesBefore env n start k t : Int) + 1 < r.count)) := by
    intro M k t hkM htc hw hk
    have htK : K t := ho.cand k t htc
    have htm : t ∈ (r.occ env start M).filter (r.keep env start) :=
      List.mem_filter.mpr ⟨mem_occ.mpr ⟨k, hkM, htc⟩, hk⟩
    unfold cut
    split
    · next hu =>
      simp only [hu, true_implies]
      have hpw := (occ_pairwise ho M).filter (r.keep env start)
      rw [mem_take_sorted (env := env) ?_ ?_ ?_ htm]
      · rw [List.countP_filter, hbefore]
        obtain ⟨rest, e, hrest⟩ := occ_append (env := env) (r := r) (start := start)
          (show k + 1 ≤ M by omega)
        rw [e, List.countP_append]
        have h0 : rest.countP (fun a => a.lt env t && r.keep env start a) = 0 := by
          rw [List.countP_eq_zero]
          intro x hx'
          obtain ⟨j, hj, hm⟩ := hrest x hx'
          have : x.lt env t = false := by
            rcases ho.later k j (by omega) t htc x hm with hf | hf
            · exact hfar x t hf htK hw
            · exact lt_asymm hf
          simp [this]
        rw [h0, Nat.add_zero]
        have : (fun a => a.lt env t && r.keep env start a) =
            fun x => start.lt env x && x.lt env t := by
          funext x
          unfold keep
          rw [if_pos hu, Bool.and_comm]
        rw [this]
        omega
      · refine hpw.imp ?_
        rintro a b hab rfl
        exact hab.resolve_left (hnear b hw)
      · refine List.Pairwise.imp_of_mem ?_ hpw
        rintro a b _ _ hab rfl
        rcases hab with hf | hf
        · exact hfar b a hf htK hw
        · exact hf
      · intro x hx' hxe
        obtain ⟨j, _, hm⟩ := mem_occ.mp (List.mem_filter.mp hx').1
        obtain ⟨a1, a2, _⟩ := cand_spec h.tame hm
        obtain ⟨b1, b2, _⟩ := cand_spec h.tame htc
        exact eq_of_eq ⟨a2.1.trans b2.1.symm, a2.2.1.trans b2.2.1.symm, a2.2.2.trans b2.2.2.symm⟩
          a1 b1 hxe
    · next hu => simp [hu, htm]
  refine ⟨fun t => ?_, ?_⟩
  · constructor
    · intro ht
      rw [hN N (Nat.le_refl _), List.mem_filter, Bool.and_eq_true, Bool.not_eq_true'] at ht
      obtain ⟨h1, h2, h3⟩ := ht
      have hm : t ∈ (r.occ env start N).filter (r.keep env start) := by
        unfold cut at h1
        split at h1
        · exact List.mem_of_mem_take h1
        · exact h1
      rw [List.mem_filter] at hm
      obtain ⟨k, hk, hc⟩ := mem_occ.mp hm.1
      have hk' := (hkeepS t).mp hm.2
      refine ⟨k, by rw [hcand]; exact hc, h2, hk'.1, (hpast t).mp h3, fun hu => ⟨hk'.2 hu, ?_⟩⟩
      exact (hcut N k t hk hc h2 hm.2).mp h1 hu
    · rintro ⟨k, hc, h2, h3, h4, h5⟩
      rw [hcand] at hc
      have hk : r.keep env start t = true := (hkeepS t).mpr ⟨h3, fun hu => (h5 hu).1⟩
      rw [hN (max N (k + 1)) (by omega), List.mem_filter, Bool.and_eq_true, Bool.not_eq_true']
      refine ⟨(hcut _ k t (by omega) hc h2 hk).mpr fun hu => (h5 hu).2, h2, (hpast t).mpr h4⟩
  · rw [hN N (Nat.le_refl _)]
    have hsub : List.Sublist (r.cut ((r.occ env start N).filter (r.keep env start)))
        (r.occ env start N) := by
      unfold cut
      split
      · exact (List.take_sublist _ _).trans List.filter_sublist
      · exact List.filter_sublist
    have hp := ((occ_pairwise ho N).sublist hsub).filter
      (fun t => range.isDateWithin env t && !pastUntil env limit t)
    refine List.Pairwise.imp_of_mem ?_ hp
    intro a b _ hb' hab
    rw [List.mem_filter, Bool.and_eq_true] at hb'
    exact hab.resolve_left (hnear b hb'.2.1)

/-! ## The expansion ends -/

theorem complexLoop_ends {max : Option Int} {M : Nat}
    (ha : range.isDateAfter env (r.raw start M) = true) :
    ∀ (fuel k : Nat) (ctr : Int) (items : List DateTime), k ≤ M → M - k + 1 ≤ fuel →
      ∃ o, complexLoop env r limit start range max fuel (r.raw start k) ctr items = some o := by
  intro fuel
  induction fuel with
  | zero => intro k ctr items h1 h2; omega
  | succ n ih =>
    intro k ctr items h1 h2
    rw [complexLoop]
    split
    · exact ⟨_, rfl⟩
    · split
      · exact ⟨_, rfl⟩
      · next hna =>
        have hlt : k < M := by
          rcases (by omega : k = M ∨ k < M) with rfl | hlt
          · exact absurd ha hna
          · exact hlt
        exact ih (k + 1) _ _ hlt (by omega)

/-- C54 (partial): the expansion of a rule with BYxxx parts ends, whatever the parts, if everything
is of one kind and a start on 29 February is in a Gregorian leap year.

Missing: mixtures of dates, floating times and times in zones, where comparison is no order (C17). -/
theorem C54_ends_partial (env : TzEnv) (K : DateTime → Prop) (r : Rule)
    (start : DateTime) (range : Period) (off : Int) (hb : r.hasBy = true)
    (hs : Sound env K r start none) (he : K range.stop)
    (hleap : start.month = 2 → start.day = 29 → GregorianLeap start.year) :
    ∃ fuel a, r.expandFresh env fuel start range off = some a := by
  obtain ⟨M, _, ha⟩ := hs.exists_after hleap he
  obtain ⟨o, ho⟩ := complexLoop_ends (limit := r.untilLimit start off none) (max := none) ha
    (M + 1) 0 (if r.useCount then 1 else 0) [] (by omega) (by omega)
  rw [raw] at ho
  refine ⟨M + 1, ?_⟩
  unfold expandFresh expand
  simp only [normalise_of_valid hs.valid, Bool.false_and, Bool.false_eq_true, if_false,
    Bool.not_false, Bool.true_or, if_true, expandRaw, hb, Bool.not_true, complexExpand, ho]
  split
  · next hx => split at hx <;> simp at hx
  · exact ⟨_, rfl⟩
  · exact ⟨_, rfl⟩


end

/-! ## Where the claim fails -/

/-- C54 fails: "every month on the 1st and 31st" from 31 January, asked for a range that ends on
2 March in a zone one hour ahead.  The 1 March (UTC) is in the range but not returned: the
iteration reaches "31 February", which counts as 3 March in the comparison with the end of the
range, and stops. -/
theorem C54_fails_posix : ∃ (r : Rule) (start x : DateTime) (range : Period), Tame r start ∧
    r.interval = 1 ∧ r.useCount = false ∧ r.useUntil = false ∧
    x ∈ r.occursIn .empty 1 start 2 ∧ start.lt .empty x = true ∧
    range.isDateWithin .empty x = true ∧
    r.expandFresh .empty 10 start range 0 = some (.dates
      [⟨2021, 1, 31, 0, 0, 0, false, true, none⟩, ⟨2021, 2, 1, 0, 0, 0, false, true, none⟩] true) ∧
    x = ⟨2021, 3, 1, 0, 0, 0, false, true, none⟩ := by
  refine ⟨{ freq := .monthly, byMonthDay := [1, 31] }, ⟨2021, 1, 31, 0, 0, 0, false, true, none⟩,
    ⟨2021, 3, 1, 0, 0, 0, false, true, none⟩,
    .ofEnd ⟨2021, 1, 1, 0, 0, 0, false, true, none⟩
      ⟨2021, 3, 2, 0, 0, 0, false, false, some (.fixed 3600)⟩, ?_, rfl, rfl, rfl, by decide +kernel,
    by decide +kernel, by decide +kernel, by decide +kernel, rfl⟩
  constructor <;> decide +kernel

/-- C54 fails: "on the 31st and on the last day of the month, five times".  In months with 31 days
that is the same day, which is returned and counted twice. -/
theorem C54_fails_duplicates : ∃ (r : Rule) (start : DateTime) (range : Period), Tame r start ∧
    r.interval = 1 ∧ r.useCount = true ∧ r.count = 5 ∧ r.byMonthDay = [31, -1] ∧
    r.expandFresh .empty 10 start range 0 = some (.dates
      [ofDate 2021 2 28, ofDate 2021 3 31, ofDate 2021 3 31, ofDate 2021 4 30] false) := by
  refine ⟨{ freq := .monthly, byMonthDay := [31, -1], useCount := true, count := 5 },
    ofDate 2021 1 31, .ofEnd (ofDate 2021 1 1) (ofDate 2022 1 1), ?_, rfl, rfl, rfl, rfl,
    by decide +kernel⟩
  constructor <;> decide +kernel

end PyCal.Rule
