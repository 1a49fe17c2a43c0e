import Verif.Model.FreeBusy
import Verif.Spec.FreeBusy
import Verif.Props.C27_Period

/-!
# C87: the busy time of a free-busy component
-/

namespace PyCal.FB87
open DateTime (TzEnv)
open PropText (upper)
open Period (Kind lt_of_lt_not_lt lt_of_not_lt_lt not_lt_self overlap_iff)

/-! ## Sorting only the elements of one kind -/

theorem insert_sorted {α : Type} (r : α → α → Prop) [DecidableRel r] (P : α → Prop)
    (tot : ∀ a b, P a → P b → ¬ r a b → r b a)
    (tr : ∀ a b c, P a → P b → P c → r a b → r b c → r a c) (a : α) (ha : P a) :
    ∀ l : List α, (∀ b ∈ l, P b) → l.Pairwise r → (l.orderedInsert r a).Pairwise r
  | [], _, _ => by simp
  | b :: l, hP, hl => by
    rw [List.orderedInsert]
    rw [List.pairwise_cons] at hl
    by_cases h : r a b
    · rw [if_pos h]
      refine List.pairwise_cons.mpr ⟨fun c hc => ?_, List.pairwise_cons.mpr hl⟩
      rcases List.mem_cons.mp hc with rfl | hc
      · exact h
      · exact tr a b c ha (hP b (by simp)) (hP c (by simp [hc])) h (hl.1 c hc)
    · rw [if_neg h]
      refine List.pairwise_cons.mpr ⟨fun c hc => ?_,
        insert_sorted r P tot tr a ha l (fun c hc => hP c (by simp [hc])) hl.2⟩
      rw [List.mem_orderedInsert] at hc
      rcases hc with rfl | hc
      · exact tot _ _ ha (hP b (by simp)) h
      · exact hl.1 c hc

theorem sort_sorted {α : Type} (r : α → α → Prop) [DecidableRel r] (P : α → Prop)
    (tot : ∀ a b, P a → P b → ¬ r a b → r b a)
    (tr : ∀ a b c, P a → P b → P c → r a b → r b c → r a c) :
    ∀ l : List α, (∀ b ∈ l, P b) → (l.insertionSort r).Pairwise r
  | [], _ => by simp
  | a :: l, hP => by
    rw [List.insertionSort_cons]
    exact insert_sorted r P tot tr a (hP a (by simp)) _
      (fun b hb => hP b (by rw [List.mem_insertionSort] at hb; simp [hb]))
      (sort_sorted r P tot tr l fun b hb => hP b (by simp [hb]))

/-! ## The entries -/

/-- The type of a property with a value the standard knows. -/
theorem typeOf_says {o : Option (List Char)} (hs : Standard o) :
    ∃ t, Says o t ∧ (VFreeBusy.typeOf o).2 = t ∧ ((VFreeBusy.typeOf o).1 = true ↔ t ≠ .free) := by
  cases o with
  | none => exact ⟨.busy, rfl, rfl, by simp [VFreeBusy.typeOf]⟩
  | some s =>
    have h := hs s rfl
    simp only [List.mem_cons, List.not_mem_nil, or_false] at h
    unfold VFreeBusy.typeOf Says
    rcases h with h | h | h | h <;> simp only [h]
    · exact ⟨.free, by decide, by decide, by decide⟩
    · exact ⟨.busy, by decide, by decide, by decide⟩
    · exact ⟨.unavailable, by decide, by decide, by decide⟩
    · exact ⟨.tentative, by decide, by decide, by decide⟩

/-- `lo` and `hi` are a first start and a last end of the entries. -/
def Ends (env : TzEnv) (l : List Busy) (lo hi : DateTime) : Prop :=
  (∃ b ∈ l, b.period.start = lo) ∧ (∃ b ∈ l, b.period.stop = hi) ∧
    ∀ b ∈ l, ¬ b.period.start.lt env lo = true ∧ ¬ hi.lt env b.period.stop = true

/-- What the loops keep. -/
def Inv (env : TzEnv) (K : DateTime → Prop) (l : List Busy) :
    List Busy × Option (DateTime × DateTime) → Prop
  | (busy, none) => busy = [] ∧ l = []
  | (busy, some (lo, hi)) => busy = l ∧ ((∀ b ∈ l, K b.period.start ∧ K b.period.stop) → Ends env l lo hi)

theorem gt_iff (env : TzEnv) (a b : DateTime) : a.gt env b = true ↔ b.lt env a = true := by
  simp only [DateTime.gt, DateTime.lt, decide_eq_true_eq, DateTime.compare_neg env a b]; omega

theorem inv_add {env : TzEnv} {K : DateTime → Prop} (hK : Kind env K) (t : FBType) (p : Period)
    (l : List Busy) (busy : List Busy) (ends : Option (DateTime × DateTime))
    (h : Inv env K l (busy, ends)) :
    Inv env K (l ++ [⟨t, p⟩]) (busy ++ [⟨t, p⟩], some (VFreeBusy.widen env p ends)) := by
  have T := hK.transitive
  cases ends with
  | none =>
    obtain ⟨rfl, rfl⟩ := h
    refine ⟨rfl, fun _ => ⟨⟨⟨t, p⟩, by simp, rfl⟩, ⟨⟨t, p⟩, by simp, rfl⟩, ?_⟩⟩
    intro b hb
    simp only [List.nil_append, List.mem_singleton] at hb
    subst hb
    exact ⟨not_lt_self env _, not_lt_self env _⟩
  | some e =>
    obtain ⟨lo, hi⟩ := e
    obtain ⟨rfl, h⟩ := h
    refine ⟨rfl, fun hk => ?_⟩
    have hk' : ∀ b ∈ busy, K b.period.start ∧ K b.period.stop := fun b hb => hk b (by simp [hb])
    obtain ⟨⟨b1, hb1, e1⟩, ⟨b2, hb2, e2⟩, hall⟩ := h hk'
    obtain ⟨kps, kpe⟩ := hk ⟨t, p⟩ (by simp)
    have klo : K lo := e1 ▸ (hk' b1 hb1).1
    have khi : K hi := e2 ▸ (hk' b2 hb2).2
    simp only [VFreeBusy.widen, gt_iff]
    refine ⟨?_, ?_, ?_⟩
    · by_cases hc : p.start.lt env lo = true
      · exact ⟨⟨t, p⟩, by simp, by simp [hc]⟩
      · exact ⟨b1, by simp [hb1], by simp [hc, e1]⟩
    · by_cases hc : hi.lt env p.stop = true
      · exact ⟨⟨t, p⟩, by simp, by simp [hc]⟩
      · exact ⟨b2, by simp [hb2], by simp [hc, e2]⟩
    · intro b hb
      rw [List.mem_append, List.mem_singleton] at hb
      rcases hb with hb | rfl
      · obtain ⟨h1, h2⟩ := hall b hb
        obtain ⟨kb1, kb2⟩ := hk' b hb
        constructor
        · by_cases hc : p.start.lt env lo = true
          · simp only [hc, if_true]
            exact fun hx => h1 (T.lt_lt _ _ _ kb1 kps klo hx hc)
          · rwa [if_neg hc]
        · by_cases hc : hi.lt env p.stop = true
          · simp only [hc, if_true]
            exact fun hx => h2 (T.lt_lt _ _ _ khi kpe kb2 hc hx)
          · rwa [if_neg hc]
      · constructor
        · by_cases hc : p.start.lt env lo = true
          · simp only [hc, if_true]; exact not_lt_self env _
          · rwa [if_neg hc]
        · by_cases hc : hi.lt env p.stop = true
          · simp only [hc, if_true]; exact not_lt_self env _
          · rwa [if_neg hc]

theorem inv_periods {env : TzEnv} {K : DateTime → Prop} (hK : Kind env K) (t : FBType) :
    ∀ (ps : List Period) (l : List Busy) (acc : List Busy × Option (DateTime × DateTime)),
      Inv env K l acc →
      Inv env K (l ++ ps.map (Busy.mk t)) (VFreeBusy.addPeriods env t acc ps)
  | [], l, acc, h => by simpa [VFreeBusy.addPeriods] using h
  | p :: ps, l, (busy, ends), h => by
    have := inv_periods hK t ps _ _ (inv_add hK t p l busy ends h)
    rw [List.append_assoc] at this
    exact this

theorem inv_properties {env : TzEnv} {K : DateTime → Prop} (hK : Kind env K) :
    ∀ (ps : List FBProperty) (l0 : List Busy) (acc : List Busy × Option (DateTime × DateTime)),
      (∀ p ∈ ps, Standard p.fbtype) → Inv env K l0 acc →
      ∃ l, Lists ps l ∧ Inv env K (l0 ++ l) (VFreeBusy.addProperties env acc ps)
  | [], l0, acc, _, h => ⟨[], .nil, by simpa [VFreeBusy.addProperties] using h⟩
  | p :: ps, l0, acc, hs, h => by
    obtain ⟨t, h1, h2, h3⟩ := typeOf_says (hs p (by simp))
    rw [VFreeBusy.addProperties]
    by_cases ht : t = .free
    · have hf : (VFreeBusy.typeOf p.fbtype).1 = false := by
        rw [← Bool.not_eq_true]; exact fun hc => h3.mp hc ht
      obtain ⟨l, hl, hi⟩ := inv_properties hK ps l0 acc (fun q hq => hs q (by simp [hq])) h
      exact ⟨l, .free (ht ▸ h1) hl, by simpa [hf] using hi⟩
    · have hf : (VFreeBusy.typeOf p.fbtype).1 = true := h3.mpr ht
      have hp := inv_periods hK (VFreeBusy.typeOf p.fbtype).2 p.periods l0 acc h
      obtain ⟨l, hl, hi⟩ := inv_properties hK ps _ _ (fun q hq => hs q (by simp [hq])) hp
      refine ⟨_, .busy t h1 ht hl, ?_⟩
      rw [hf, if_pos rfl, ← List.append_assoc]
      rw [h2] at hi ⊢
      exact hi

/-- What a property says is one thing only. -/
theorem says_unique {o : Option (List Char)} {t u : FBType} (h : Says o t) (k : Says o u) : t = u := by
  cases o with
  | none => exact h.trans k.symm
  | some s =>
    simp only [Says] at h k
    rcases h with ⟨rfl, h⟩ | ⟨rfl, h⟩ | ⟨rfl, h⟩ | ⟨rfl, h⟩ <;>
      rcases k with ⟨rfl, k⟩ | ⟨rfl, k⟩ | ⟨rfl, k⟩ | ⟨rfl, k⟩ <;>
      first
      | rfl
      | exact absurd h k.1
      | exact absurd h k.2.1
      | exact absurd h k.2.2
      | exact absurd k h.1
      | exact absurd k h.2.1
      | exact absurd k h.2.2
      | exact absurd (h.symm.trans k) (by decide)

theorem lists_unique {ps : List FBProperty} {l m : List Busy} (h : Lists ps l) (k : Lists ps m) :
    l = m := by
  induction h generalizing m with
  | nil => cases k; rfl
  | free h r ih =>
    cases k with
    | free _ r' => exact ih r'
    | busy t h' hf _ => exact absurd (says_unique h' h) hf
  | busy t h hf r ih =>
    cases k with
    | free h' _ => exact absurd (says_unique h h') hf
    | busy u h' _ r' => rw [says_unique h h', ih r']

/-- C87: what `cacheBusyTime` finds, for FBTYPE values of the standard: nothing if the component lists
no busy period; otherwise exactly the busy periods the component lists, each with its type, the
earliest first (those that start together in the order of the component); and a span from DTSTART, or
else the first
start, to DTEND, or else the last end.  (Missing: other FBTYPE values, `C87_fails_type`; DURATION,
`C87_fails_duration`.) -/
theorem C87_busy_partial {env : TzEnv} {K : DateTime → Prop} (hK : Kind env K) (v : VFreeBusy)
    (l : List Busy) (hl : Lists v.freebusy l) (hs : ∀ p ∈ v.freebusy, Standard p.fbtype)
    (hk : ∀ b ∈ l, K b.period.start ∧ K b.period.stop) :
    (v.busyTime env = none ↔ l = []) ∧
    ∀ busy span, v.busyTime env = some (busy, span) →
      busy.Perm l ∧
      busy.Pairwise (fun x y => ¬ y.period.start.lt env x.period.start = true) ∧
      (∀ x y, [x, y].Sublist l → ¬ y.period.start.lt env x.period.start = true →
        [x, y].Sublist busy) ∧
      ∃ lo hi, Ends env l lo hi ∧ span = .ofEnd (v.start.getD lo) (v.stop.getD hi) := by
  have T := hK.transitive
  obtain ⟨l', hl', hi⟩ := inv_properties hK v.freebusy [] ([], none) hs ⟨rfl, rfl⟩
  obtain rfl := lists_unique hl hl'
  rw [List.nil_append] at hi
  unfold VFreeBusy.busyTime
  generalize VFreeBusy.addProperties env ([], none) v.freebusy = r at hi ⊢
  obtain ⟨busy', ends⟩ := r
  cases ends with
  | none => exact ⟨⟨fun _ => hi.2, fun _ => rfl⟩, by simp⟩
  | some e =>
    obtain ⟨lo, hi'⟩ := e
    obtain ⟨rfl, he⟩ := hi
    have he := he hk
    refine ⟨⟨by simp, ?_⟩, ?_⟩
    · intro hn
      obtain ⟨b, hb, _⟩ := he.1
      rw [hn] at hb
      cases hb
    · intro busy span h
      simp only [Option.some.injEq, Prod.mk.injEq] at h
      obtain ⟨rfl, rfl⟩ := h
      have hr : ∀ x y : Busy, (¬ y.period.start.compare env x.period.start < 0) ↔
          ¬ y.period.start.lt env x.period.start = true := by
        intro x y; simp [DateTime.lt]
      refine ⟨List.perm_insertionSort _ _, ?_, ?_, lo, hi', he, rfl⟩
      · refine (sort_sorted _ (fun b : Busy => K b.period.start) ?_ ?_ busy'
          (fun b hb => (hk b hb).1)).imp fun {a b} h => (hr a b).mp h
        · intro a b ha hb h
          rw [hr, not_not] at h
          rw [hr]
          exact fun hc => not_lt_self env _ (T.lt_lt _ _ _ ha hb ha hc h)
        · intro a b c ha hb hc h1 h2
          rw [hr] at h1 h2 ⊢
          exact fun hx => h2 (lt_of_lt_not_lt T hc ha hb hx h1)
      · intro x y hxy hle
        exact List.pair_sublist_insertionSort ((hr x y).mpr hle) hxy

/-- C87: a component is found for a range that overlaps one of its busy periods, provided DTSTART and
DTEND, where given, do not cut the busy period.

Missing: DTSTART with DURATION, `C87_fails_duration`, and types of busy time outside the standard, `C87_fails_type`. -/
theorem C87_found_partial {env : TzEnv} {K : DateTime → Prop} (hK : Kind env K) (v : VFreeBusy)
    (l : List Busy) (hl : Lists v.freebusy l) (hs : ∀ p ∈ v.freebusy, Standard p.fbtype)
    (hk : ∀ b ∈ l, K b.period.start ∧ K b.period.stop) (period : Period) (kp : K period.start)
    (kq : K period.stop) (b : Busy) (hb : b ∈ l)
    (h1 : ∀ s, v.start = some s → K s ∧ ¬ b.period.start.lt env s = true)
    (h2 : ∀ e, v.stop = some e → K e ∧ ¬ e.lt env b.period.stop = true)
    (ho : period.isOverlap env b.period = true) (hn : v.cached = none) :
    (v.expandPeriodComp env period).1 = true := by
  have T := hK.transitive
  obtain ⟨hnone, hsome⟩ := C87_busy_partial hK v l hl hs hk
  unfold VFreeBusy.expandPeriodComp VFreeBusy.withCache
  rw [hn]
  simp only [VFreeBusy.cachedTime, Option.getD_some]
  generalize hbt : v.busyTime env = r at *
  cases r with
  | none => rw [hnone.mp rfl] at hb; cases hb
  | some r =>
    obtain ⟨busy, span⟩ := r
    obtain ⟨-, -, -, lo, hi, ⟨⟨b1, hb1, e1⟩, ⟨b2, hb2, e2⟩, hall⟩, rfl⟩ := hsome busy span rfl
    simp only
    rw [overlap_iff] at ho ⊢
    obtain ⟨o1, o2⟩ := ho
    obtain ⟨kb1, kb2⟩ := hk b hb
    have klo : K lo := e1 ▸ (hk b1 hb1).1
    have khi : K hi := e2 ▸ (hk b2 hb2).2
    simp only [Period.start, Period.stop]
    constructor
    · cases he : v.stop with
      | none => exact lt_of_lt_not_lt T kp kb2 khi o1 (hall b hb).2
      | some e => exact lt_of_lt_not_lt T kp kb2 (h2 e he).1 o1 (h2 e he).2
    · cases he : v.start with
      | none => exact lt_of_not_lt_lt T klo kb1 kq (hall b hb).1 o2
      | some s => exact lt_of_not_lt_lt T (h1 s he).1 kb1 kq (h1 s he).2 o2

/-- C87: a query does not change what a later query gives. -/
theorem C87_queries (env : TzEnv) (v : VFreeBusy) (p q : Period) :
    ((v.expandPeriodComp env p).2.expandPeriodComp env q).1 = (v.expandPeriodComp env q).1 ∧
    ((v.expandPeriodFB env p).2.expandPeriodComp env q).1 = (v.expandPeriodComp env q).1 ∧
    ((v.expandPeriodComp env p).2.expandPeriodFB env q).1 = (v.expandPeriodFB env q).1 ∧
    ((v.expandPeriodFB env p).2.expandPeriodFB env q).1 = (v.expandPeriodFB env q).1 := by
  have hw : ∀ w : VFreeBusy, (w.withCache env).withCache env = w.withCache env := by
    intro w
    obtain ⟨s, e, d, f, c⟩ := w
    cases c <;> rfl
  have h1 : ∀ p, (v.expandPeriodComp env p).2 = v.withCache env := by
    intro p; unfold VFreeBusy.expandPeriodComp; split <;> rfl
  have h2 : ∀ p, (v.expandPeriodFB env p).2 = v.withCache env := by
    intro p; unfold VFreeBusy.expandPeriodFB; split <;> rfl
  have h3 : ∀ p, ((v.withCache env).expandPeriodComp env p).1 = (v.expandPeriodComp env p).1 := by
    intro p; unfold VFreeBusy.expandPeriodComp; rw [hw]
  have h4 : ∀ p, ((v.withCache env).expandPeriodFB env p).1 = (v.expandPeriodFB env p).1 := by
    intro p; unfold VFreeBusy.expandPeriodFB; rw [hw]
  rw [h1, h2]
  exact ⟨h3 q, h3 q, h4 q, h4 q⟩

/-! ## An example -/

/-- A UTC time on 1 January 2020. -/
def at1 (h : Int) : DateTime := ⟨2020, 1, 1, h, 0, 0, false, true, none⟩

/-- Two properties, out of order, and a free one. -/
def two : List FBProperty :=
  [⟨some "busy-Tentative".toList, [.ofEnd (at1 14) (at1 15)]⟩, ⟨some "FREE".toList, [.ofEnd (at1 1) (at1 9)]⟩,
   ⟨none, [.ofEnd (at1 10) (at1 11), .ofDuration (at1 8) (Duration.ofSeconds 3600)]⟩]

theorem two_lists : Lists two [⟨.tentative, .ofEnd (at1 14) (at1 15)⟩, ⟨.busy, .ofEnd (at1 10) (at1 11)⟩,
    ⟨.busy, .ofDuration (at1 8) (Duration.ofSeconds 3600)⟩] :=
  .busy (p := ⟨some "busy-Tentative".toList, [.ofEnd (at1 14) (at1 15)]⟩) .tentative
    (Or.inr (Or.inr (Or.inl ⟨rfl, by decide⟩))) (by decide)
    (.free (Or.inl ⟨rfl, by decide⟩)
      (.busy (p := ⟨none, [.ofEnd (at1 10) (at1 11), .ofDuration (at1 8) (Duration.ofSeconds 3600)]⟩) .busy
        rfl (by decide) .nil))

theorem two_standard : ∀ p ∈ two, Standard p.fbtype := by
  intro p hp s hs
  simp only [two, List.mem_cons, List.not_mem_nil, or_false] at hp
  rcases hp with rfl | rfl | rfl
  · simp only [Option.some.injEq] at hs; subst hs; decide
  · simp only [Option.some.injEq] at hs; subst hs; decide
  · cases hs

/-- C87 is about real components: the busy periods of `two` are found, sorted, and the span is from 8 to
15. -/
example : (VFreeBusy.busyTime .empty { freebusy := two }).map (fun r =>
      (r.1.map fun b => (b.type, b.period.start.hours, b.period.stop.hours), r.2.start.hours,
        r.2.stop.hours)) =
    some ([(.busy, 8, 9), (.busy, 10, 11), (.tentative, 14, 15)], 8, 15) := by decide +kernel

example : ∀ b ∈ [(⟨.tentative, .ofEnd (at1 14) (at1 15)⟩ : Busy), ⟨.busy, .ofEnd (at1 10) (at1 11)⟩,
    ⟨.busy, .ofDuration (at1 8) (Duration.ofSeconds 3600)⟩],
    DateTime.InZone true none b.period.start ∧ DateTime.InZone true none b.period.stop := by
  unfold DateTime.InZone
  decide +kernel

/-! ## What fails -/

/-- C87 fails for FBTYPE values the standard does not define: they mean BUSY, but the periods are left
out. -/
theorem C87_fails_type : ∃ (p : FBProperty) (l : List Busy), Lists [p] l ∧ l ≠ [] ∧
    VFreeBusy.busyTime .empty { freebusy := [p] } = none :=
  ⟨⟨some "X-AWAY".toList, [.ofEnd (at1 10) (at1 11)]⟩, _,
    .busy .busy (Or.inr (Or.inr (Or.inr ⟨rfl, by decide, by decide, by decide⟩))) (by decide) .nil,
    by decide, by decide +kernel⟩

/-- C87 fails for `expandPeriodFB`: whatever it gives has no period, and its type is not one of the four
types. -/
theorem C87_fails_expand (env : TzEnv) (v : VFreeBusy) (period : Period) :
    ∀ o ∈ (v.expandPeriodFB env period).1, o.period = none ∧ ∀ t, o.type ≠ .inl t := by
  intro o ho
  unfold VFreeBusy.expandPeriodFB at ho
  generalize (v.withCache env).cachedTime = r at ho
  cases r with
  | none => cases ho
  | some r =>
    obtain ⟨busy, span⟩ := r
    simp only at ho
    split at ho
    · rw [List.mem_map] at ho
      obtain ⟨fb, -, rfl⟩ := ho
      exact ⟨rfl, by simp⟩
    · cases ho

/-- It does give something: one such object for each entry. -/
example : ((VFreeBusy.finalise none none none two).expandPeriodFB .empty
    (.ofEnd (at1 9) (at1 10))).1.length = 3 := by decide +kernel

/-- C87 fails for DTSTART with DURATION: the span ends with the last busy period and not after the
duration, so the component is not found for a range within it; with the DTEND that says the same it
is. -/
theorem C87_fails_duration : ∃ (s e : DateTime) (d : Duration) (ps : List FBProperty) (range : Period),
    s.add d = e ∧
    ((VFreeBusy.finalise (some s) none (some d) ps).expandPeriodComp .empty range).1 = false ∧
    ((VFreeBusy.finalise (some s) (some e) none ps).expandPeriodComp .empty range).1 = true :=
  ⟨at1 8, at1 20, Duration.ofSeconds 43200, two, .ofEnd (at1 17) (at1 18), by decide +kernel,
    by decide +kernel, by decide +kernel⟩

/-- C87 fails after a change: a query remembers the busy time, and FREEBUSY properties added or removed
later are not seen, although a copy of the component sees them. -/
theorem C87_fails_stale : ∃ (v : VFreeBusy) (p : FBProperty) (range first : Period),
    (((v.expandPeriodComp .empty first).2.addFreeBusy p).expandPeriodComp .empty range).1 = false ∧
    (((v.expandPeriodComp .empty first).2.addFreeBusy p).duplicate.expandPeriodComp .empty range).1 = true ∧
    (((v.addFreeBusy p).expandPeriodComp .empty first).2.removeFreeBusy.expandPeriodComp .empty range).1
      = true ∧
    (((v.addFreeBusy p).expandPeriodComp .empty first).2.removeFreeBusy.duplicate.expandPeriodComp
      .empty range).1 = false :=
  ⟨{}, ⟨none, [.ofEnd (at1 10) (at1 11)]⟩, .ofEnd (at1 10) (at1 11), .ofEnd (at1 10) (at1 11),
    by decide +kernel, by decide +kernel, by decide +kernel, by decide +kernel⟩

/-- C87 fails after a change, always: after a query, whatever FREEBUSY property is added, or if all are
removed, every later query gives what it gave before. -/
theorem C87_fails_stale_always (env : TzEnv) (v : VFreeBusy) (p : FBProperty) (first range : Period) :
    (((v.expandPeriodComp env first).2.addFreeBusy p).expandPeriodComp env range).1 =
      (v.expandPeriodComp env range).1 ∧
    ((v.expandPeriodComp env first).2.removeFreeBusy.expandPeriodComp env range).1 =
      (v.expandPeriodComp env range).1 ∧
    (((v.expandPeriodComp env first).2.addFreeBusy p).expandPeriodFB env range).1 =
      (v.expandPeriodFB env range).1 ∧
    ((v.expandPeriodComp env first).2.removeFreeBusy.expandPeriodFB env range).1 =
      (v.expandPeriodFB env range).1 := by
  have h1 : (v.expandPeriodComp env first).2 = v.withCache env := by
    unfold VFreeBusy.expandPeriodComp
    split <;> rfl
  rw [h1]
  have h2 : ∀ w : VFreeBusy, w.cachedTime = (v.withCache env).cachedTime → w.cached.isSome = true →
      (w.expandPeriodComp env range).1 = (v.expandPeriodComp env range).1 ∧
      (w.expandPeriodFB env range).1 = (v.expandPeriodFB env range).1 := by
    intro w hw hc
    obtain ⟨c, hc⟩ := Option.isSome_iff_exists.1 hc
    have : w.withCache env = w := by
      unfold VFreeBusy.withCache
      rw [hc]
    unfold VFreeBusy.expandPeriodComp VFreeBusy.expandPeriodFB
    rw [this, hw]
    cases (v.withCache env).cachedTime <;> exact ⟨rfl, rfl⟩
  have h3 : (v.withCache env).cached.isSome = true := by
    unfold VFreeBusy.withCache
    split
    · rename_i h; rw [h]; rfl
    · rfl
  have ha := h2 ((v.withCache env).addFreeBusy p) rfl h3
  have hr := h2 (v.withCache env).removeFreeBusy rfl h3
  exact ⟨ha.1, hr.1, ha.2, hr.2⟩

theorem lists_append {ps qs : List FBProperty} {l m : List Busy} (h : Lists ps l) (k : Lists qs m) :
    Lists (ps ++ qs) (l ++ m) := by
  induction h with
  | nil => exact k
  | free h _ ih => exact .free h ih
  | busy t h hf _ ih =>
    rw [List.append_assoc]
    exact .busy t h hf ih

/-- C87, a property added before the first query or before a copy: the component is found for a range that
overlaps a busy period it listed before, and for one that overlaps a busy period of the new property.

Needed: as for `C87_found_partial`.

Missing: properties added after a query, `C87_fails_stale_always`. -/
theorem C87_added_partial {env : TzEnv} {K : DateTime → Prop} (hK : Kind env K) (v : VFreeBusy)
    (p : FBProperty) (l m : List Busy) (hl : Lists v.freebusy l) (hm : Lists [p] m)
    (hs : ∀ q ∈ v.freebusy, Standard q.fbtype) (hp : Standard p.fbtype)
    (hk : ∀ b, b ∈ l ∨ b ∈ m → K b.period.start ∧ K b.period.stop) (period : Period) (kp : K period.start)
    (kq : K period.stop) (b : Busy) (hb : b ∈ l ∨ b ∈ m)
    (h1 : ∀ s, v.start = some s → K s ∧ ¬ b.period.start.lt env s = true)
    (h2 : ∀ e, v.stop = some e → K e ∧ ¬ e.lt env b.period.stop = true)
    (ho : period.isOverlap env b.period = true) :
    (v.cached = none → ((v.addFreeBusy p).expandPeriodComp env period).1 = true) ∧
    ((v.addFreeBusy p).duplicate.expandPeriodComp env period).1 = true := by
  have hL : Lists (v.addFreeBusy p).freebusy (l ++ m) := lists_append hl hm
  have hS : ∀ q ∈ (v.addFreeBusy p).freebusy, Standard q.fbtype := by
    intro q hq
    rcases List.mem_append.1 hq with h | h
    · exact hs q h
    · rw [List.mem_singleton.1 h]; exact hp
  have hK' : ∀ b ∈ l ++ m, K b.period.start ∧ K b.period.stop := fun b h => hk b (List.mem_append.1 h)
  exact ⟨fun hn => C87_found_partial hK (v.addFreeBusy p) (l ++ m) hL hS hK' period kp kq b
      (List.mem_append.2 hb) h1 h2 ho hn,
    C87_found_partial hK (v.addFreeBusy p).duplicate (l ++ m) hL hS hK' period kp kq b
      (List.mem_append.2 hb) h1 h2 ho rfl⟩

/-- The hypotheses can be met: `two` and a property from 17 to 18. -/
example : ((VFreeBusy.addFreeBusy ⟨none, [.ofEnd (at1 17) (at1 18)]⟩ { freebusy := two }).expandPeriodComp
      .empty (.ofEnd (at1 17) (at1 18))).1 = true ∧
    (VFreeBusy.expandPeriodComp .empty (.ofEnd (at1 17) (at1 18)) { freebusy := two }).1 = false := by
  decide +kernel

end PyCal.FB87
