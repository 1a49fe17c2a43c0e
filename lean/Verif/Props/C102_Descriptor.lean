import Verif.Model.TimezoneText
import Verif.Props.C35_Zones
import Verif.Props.C25_C26_DateTimeText

/-!
# C102: the text that describes a time zone at a time

`VTimezone.getTimezoneDescriptor` shows the element in force at a time: its TZNAME in parentheses, or
its UTC offset.
-/

namespace PyCal
open DateTime (TzEnv)
open Spec
open TzElement (newYear)

/-! ## The text of an element -/

theorem Desc102.twoDigits_eq (n : Nat) : Zone.twoDigits n = padInt 2 (n : Int) := by
  unfold Zone.twoDigits padInt
  rw [if_neg (show ¬ (n : Int) < 0 by omega)]
  simp only [Int.natAbs_natCast, padNat]
  by_cases h : n < 10
  · rw [if_pos h]
    have : (decNat n).length = 1 := by rw [decNat, if_pos h]; rfl
    rw [this]; rfl
  · rw [if_neg h]
    have : 2 ≤ (decNat n).length := by
      rw [decNat, if_neg h, List.length_append, List.length_singleton]
      have : 0 < (decNat (n / 10)).length := by
        rw [decNat]; split <;> simp
      omega
    rw [Nat.sub_eq_zero_of_le this]; rfl

/-- The text of a numeric time zone and that of an element are made alike. -/
theorem C102_same (v : Int) : Zone.offsetText v = fixedText v := by
  unfold Zone.offsetText fixedText
  rw [Desc102.twoDigits_eq, Desc102.twoDigits_eq]

/-- C102: a name is shown in parentheses; without one the text is the offset as written in a
TZOFFSETTO property, if it is in whole minutes, and says it if it is less than 100 hours. -/
theorem C102_text (e : TzElement) :
    (e.name ≠ [] → Zone.elementText e = "(".toList ++ e.name ++ ")".toList) ∧
    (e.name = [] → e.offsetTo % 60 = 0 → Zone.elementText e = utcOffsetGenerate false e.offsetTo ∧
      (e.offsetTo.natAbs < 360000 →
        utcOffsetParse false (Zone.elementText e) = some e.offsetTo)) := by
  refine ⟨fun h => ?_, fun h h0 => ?_⟩
  · unfold Zone.elementText
    rw [if_neg (by simpa using h)]
    rfl
  · have h1 : Zone.elementText e = utcOffsetGenerate false e.offsetTo := by
      unfold Zone.elementText
      rw [if_pos (by simp [h]), C102_same]
      unfold fixedText utcOffsetGenerate
      have : ¬ e.offsetTo.natAbs % 60 ≠ 0 := by omega
      simp [this]
    refine ⟨h1, fun hlt => ?_⟩
    rw [h1]
    exact C26_roundtrip_partial _ hlt false

/-- C102: a date-time with a numeric time zone shows its offset, one in UTC shows "(UTC)". -/
theorem C102_fixed {env : TzEnv} {o : SetOrder} {fuel : Nat} {db : Option String → Option Zone}
    {dflt : Option String} {t : DateTime} :
    (t.utc = true → t.timeZoneDescriptor env o fuel db dflt = some "(UTC)".toList) ∧
    ∀ v, t.utc = false → t.tzid = some (.fixed v) → v % 60 = 0 → v.natAbs < 360000 →
      ∃ s, t.timeZoneDescriptor env o fuel db dflt = some s ∧ utcOffsetParse false s = some v := by
  refine ⟨fun h => ?_, fun v hu ht h0 hlt => ?_⟩
  · unfold DateTime.timeZoneDescriptor
    simp [h]
  · unfold DateTime.timeZoneDescriptor
    simp only [hu, ht, Bool.false_eq_true, if_false]
    refine ⟨_, rfl, ?_⟩
    have := ((C102_text { start := t, offsetFrom := 0, offsetTo := v }).2 rfl h0).2 hlt
    rw [← C102_same]
    exact this

/-! ## What queries leave alone -/

namespace Desc102
variable {env : TzEnv} {o : SetOrder} {o' : SetOrder (DateTime × Int × Int)} {fuel : Nat}

theorem expand_sorted {s s' : RecurrenceSet} {start : DateTime} {range : Period} {off : Int}
    {l : List DateTime} {lim : Bool} (h1 : s.exrules = []) (h2 : s.exdates = [])
    (h3 : s.experiods = [])
    (h : s.expand env o fuel start range off none = some (.dates l lim s')) :
    l.Pairwise fun a b => a.posix env ≤ b.posix env := by
  unfold RecurrenceSet.expand at h
  simp only [h1, RecurrenceSet.expandRules] at h
  have hnil : s.exdateList env range = [] := by
    unfold RecurrenceSet.exdateList
    rw [h2, h3]; rfl
  have hu : uniqueSorted env o [] = [] := by
    have : ∀ t, t ∉ uniqueSorted env o [] := fun t => by
      rw [mem_uniqueSorted]; simp [setOf]
    exact List.eq_nil_iff_forall_not_mem.mpr this
  split at h
  · simp at h
  · simp at h
  · split at h
    · simp at h
    · simp only [hnil, List.append_nil, hu, setDifference, or_true, if_true, Option.some.injEq,
        RecurrenceSet.Result.dates.injEq] at h
      obtain ⟨rfl, _, _⟩ := h
      exact List.pairwise_insertionSort _ _

/-- The element `e` after some queries, `e0` before them. -/
structure Kept (env : TzEnv) (e0 e : TzElement) : Prop where
  ok : ElementOk (descOf env e0) e
  name : e.name = e0.name
  sorted : (e.items.getD []).Pairwise fun a b => a.posix env ≤ b.posix env

theorem fill_kept {e0 e e' : TzElement} {temp stop : DateTime} (hd : (descOf env e0).Ok env o)
    (he : Kept env e0 e) (hr : e.recurrences.hasRecurrence = true)
    (ht : Clock temp) (hs : Clock stop) (hle : temp.num ≤ stop.num)
    (h : e.fill env o fuel temp stop = some e') :
    Kept env e0 e' ∧ ∃ b, e'.below = some b ∧ temp.num ≤ b.num := by
  obtain ⟨k1, k2, _⟩ := fill_spec hd he.ok hr ht hs hle h
  refine ⟨⟨k1, ?_, ?_⟩, k2⟩
  · unfold TzElement.fill at h
    simp only at h
    split at h
    · split at h
      · simp only [Option.some.injEq] at h
        subst h; exact he.name
      · simp at h
    · simp only [Option.some.injEq] at h
      subst h; exact he.name
  · unfold TzElement.fill at h
    simp only at h
    obtain ⟨_, _, h3, h4, _, h6⟩ := he.ok.state
    split at h
    · split at h
      · next hx =>
        simp only [Option.some.injEq] at h
        subst h
        exact expand_sorted h3 h4 h6 hx
      · simp at h
    · simp only [Option.some.injEq] at h
      subst h
      exact he.sorted

theorem expandAll_kept {e0 e e' : TzElement} {start : Option DateTime} {stop : DateTime}
    {l : List (DateTime × Int × Int)} (hd : (descOf env e0).Ok env o) (he : Kept env e0 e)
    (hs : Clock stop) (h : e.expandAll env o fuel start stop = some (l, e')) : Kept env e0 e' := by
  unfold TzElement.expandAll at h
  simp only at h
  split at h
  · simp only [Option.some.injEq, Prod.mk.injEq] at h
    rw [← h.2]; exact he
  · split at h
    · simp only [Option.some.injEq, Prod.mk.injEq] at h
      rw [← h.2]; exact he
    · next hr =>
      rw [Option.map_eq_some_iff] at h
      obtain ⟨e1, hf, h⟩ := h
      simp only [Prod.mk.injEq] at h
      rw [← h.2]
      exact (fill_kept hd he (by simpa using hr) (clock_newYear _) hs (newYear_le hs) hf).1

theorem expandElements_kept {start : Option DateTime} {stop : DateTime}
    {es0 es es' : List TzElement}
    {l : List (DateTime × Int × Int)} (hds : ∀ e ∈ es0, (descOf env e).Ok env o)
    (hes : List.Forall₂ (Kept env) es0 es) (hs : Clock stop)
    (h : Zone.expandElements env o fuel start stop es = some (l, es')) :
    List.Forall₂ (Kept env) es0 es' := by
  induction hes generalizing es' l with
  | nil =>
    simp only [Zone.expandElements, Option.some.injEq, Prod.mk.injEq] at h
    rw [← h.2]; exact .nil
  | @cons d e ds es hd hrest ih =>
    rw [Zone.expandElements] at h
    split at h
    · simp at h
    · next l1 e1 h1 =>
      rw [Option.map_eq_some_iff] at h
      obtain ⟨⟨l2, es2⟩, h2, h⟩ := h
      simp only [Prod.mk.injEq] at h
      rw [← h.2]
      exact .cons (expandAll_kept (hds d (by simp)) hd hs h1)
        (ih (fun d' hd' => hds d' (by simp [hd'])) h2)

/-- The last transition of the element `e` that is not after `x`. -/
def LastOf (env : TzEnv) (e : TzElement) (x t : DateTime) : Prop :=
  (descOf env e).S t ∧ t.num ≤ x.num ∧ ∀ t', (descOf env e).S t' → t'.num ≤ x.num → t'.num ≤ t.num

/-- There is none. -/
def NoneOf (env : TzEnv) (e : TzElement) (x : DateTime) : Prop :=
  ∀ t, (descOf env e).S t → x.num < t.num

/-- Between 1 January of the year of `x` and `x` the element has no transition, but its first. -/
def Quiet (env : TzEnv) (e : TzElement) (x : DateTime) : Prop :=
  ∀ t, (descOf env e).S t → t.num ≤ x.num → t.num < (newYear x.year).num ∨ t = e.start

/-- The same, if the element is now `e`: the transitions that are in its cache count as well. -/
def Ready (env : TzEnv) (x : DateTime) (e0 e : TzElement) : Prop :=
  ∀ t, (descOf env e0).S t → t.num ≤ x.num → t.num < (newYear x.year).num ∨ t = e0.start ∨ ∃ b, e.below = some b ∧ t.num < b.num

theorem fill_below {e e' : TzElement} {temp stop b : DateTime} (ht : Clock temp) (hc : Clock b) (hb : e.below = some b)
    (h : e.fill env o fuel temp stop = some e') : ∃ b', e'.below = some b' ∧ b.num ≤ b'.num := by
  unfold TzElement.fill at h
  simp only [hb, Option.getD_some] at h
  by_cases hg : temp.gt env b = true
  · rw [if_pos hg] at h
    rw [clock_gt ht hc] at hg
    split at h
    · simp only [Option.some.injEq] at h
      subst h
      exact ⟨temp, rfl, hg.le⟩
    · simp at h
  · rw [if_neg hg] at h
    simp only [Option.some.injEq] at h
    subst h
    exact ⟨b, rfl, le_refl _⟩

theorem start_in (e : TzElement) : (descOf env e).S e.start := .inl rfl

theorem expandBelow_spec (hu : DefaultUtc env) {e0 e e' : TzElement} {x t : DateTime}
    (hd : (descOf env e0).Ok env o) (he : Kept env e0 e) (hx : Clock x)
    (h : e.expandBelow env o fuel x = some (t, e')) :
    Kept env e0 e' ∧ Clock t ∧ (Ready env x e0 e → LastOf env e0 x t ∨ NoneOf env e0 x ∧ x.num < t.num) := by
  have hst : e.start = e0.start := he.ok.start
  have hcs : Clock e0.start := hd.start
  unfold TzElement.expandBelow at h
  split at h
  · next hc =>
    simp only [Option.some.injEq, Prod.mk.injEq] at h
    obtain ⟨rfl, rfl⟩ := h
    refine ⟨he, hst ▸ hd.start, fun _ => ?_⟩
    by_cases hg : e.start.gt env x = true
    · right
      rw [hst, clock_gt hcs hx] at hg
      refine ⟨fun t ht => ?_, by rw [hst]; exact hg⟩
      have := (hd.clock t ht).2
      change e0.start.num ≤ t.num at this
      omega
    · left
      have hnr : e.recurrences.hasRecurrence = false := by
        rw [Bool.or_eq_true] at hc
        simpa [hg] using hc
      rw [hst, clock_gt hcs hx] at hg
      have hs := hd.single _ he.ok.state hnr
      refine ⟨hst ▸ start_in e0, by rw [hst]; omega, fun t' ht' _ => ?_⟩
      rw [(hs t').mp ht', hst]
      exact le_refl _
  · next hc =>
    rw [Bool.or_eq_true, not_or] at hc
    have hr : e.recurrences.hasRecurrence = true := by simpa using hc.1
    have hg := hc.2
    rw [hst, clock_gt hcs hx] at hg
    rw [Option.map_eq_some_iff] at h
    obtain ⟨e1, hf, h⟩ := h
    simp only [Prod.mk.injEq] at h
    obtain ⟨rfl, rfl⟩ := h
    obtain ⟨k1, b, hb, hyb⟩ := fill_kept hd he hr (clock_newYear _) (clock_newYear _) (le_refl _) hf
    obtain ⟨hb1, hb2, c, hbc, hb3⟩ := k1.ok.cache b hb
    have hrd : Ready env x e0 e → ∀ t', (descOf env e0).S t' → t'.num ≤ x.num → t'.num < c ∨ t' = e0.start := by
      intro hq t' ht' hle
      rcases hq t' ht' hle with hlt | h | ⟨b0, h0, hlt⟩
      · left; omega
      · exact .inr h
      · obtain ⟨b', h1, h2⟩ := fill_below (clock_newYear _) (he.ok.cache b0 h0).1 h0 hf
        rw [hb] at h1
        cases h1
        left; omega
    have hso := k1.sorted
    refine ⟨k1, ?_⟩
    generalize e1.items.getD [] = items at hb3 hso
    have hcl : ∀ t ∈ items, Clock t := fun t ht => (hd.clock t ((hb3 t).mp ht).1).1
    have hsn : items.Pairwise fun a b => a.num ≤ b.num :=
      hso.imp_of_mem fun {a b} ha hb hab => (clock_posix_le hu (hcl a ha) (hcl b hb)).mp hab
    have hmono : items.Pairwise fun a b => x.lt env a = true → x.lt env b = true := by
      refine hsn.imp_of_mem fun {a b} ha hb hab h => ?_
      rw [clock_lt hx (hcl a ha).1 (hcl a ha).2.1] at h
      rw [clock_lt hx (hcl b hb).1 (hcl b hb).2.1]
      omega
    obtain ⟨i1, i2, i3⟩ := bisectRight_spec hmono items.length 0 items.length (by omega) (by omega)
      (by omega) (by intro j h hj; omega) (by intro j h hj; omega)
    generalize bisectRight (fun t => x.lt env t) items 0 items.length = i at *
    cases hit : items with
    | nil =>
      subst hit
      simp only [List.length_nil, Nat.le_zero] at i1
      subst i1
      simp only [ne_eq, not_true_eq_false, if_false, List.getElem?_nil, Option.getD_none]
      refine ⟨hst ▸ hd.start, fun hq => .inl ⟨hst ▸ start_in e0, by rw [hst]; omega, ?_⟩⟩
      intro t' ht' hle
      rcases hrd hq t' ht' hle with hlt | rfl
      · exact absurd ((hb3 t').mpr ⟨ht', hlt⟩) (by simp)
      · rw [hst]
    | cons a l =>
      rw [← hit]
      have hpos : 0 < items.length := by rw [hit]; simp
      have hsb : e0.start.num < c := by
        have ha := (hb3 a).mp (by rw [hit]; simp)
        have := (hd.clock a ha.1).2
        change e0.start.num ≤ a.num at this
        omega
      have hsi : e0.start ∈ items := (hb3 _).mpr ⟨start_in e0, hsb⟩
      have hi0 : i ≠ 0 := by
        rintro rfl
        obtain ⟨j, hj, hje⟩ := List.getElem_of_mem hsi
        have := i3 j hj (by omega)
        rw [hje, clock_lt hx hcs.1 hcs.2.1] at this
        exact hg this
      have hlt : i - 1 < items.length := by omega
      rw [if_pos hi0, List.getElem?_eq_getElem hlt, Option.getD_some]
      have hm := List.getElem_mem hlt
      refine ⟨hcl _ hm, fun hq => .inl ⟨((hb3 _).mp hm).1, ?_, ?_⟩⟩
      · have := i2 (i - 1) hlt (by omega)
        rw [Bool.eq_false_iff, ne_eq, clock_lt hx (hcl _ hm).1 (hcl _ hm).2.1] at this
        omega
      · intro t' ht' hle
        have hin : t' ∈ items := by
          refine (hb3 t').mpr ⟨ht', ?_⟩
          rcases hrd hq t' ht' hle with hlt | rfl
          · exact hlt
          · exact hsb
        obtain ⟨j, hj, rfl⟩ := List.getElem_of_mem hin
        have hji : j < i := by
          by_contra hn
          have := i3 j hj (by omega)
          rw [clock_lt hx (hcl _ hin).1 (hcl _ hin).2.1] at this
          omega
        rw [List.pairwise_iff_getElem] at hsn
        by_cases hj' : j = i - 1
        · subst hj'; omega
        · exact hsn j (i - 1) hj hlt (by omega)

/-- What has been found among the elements `es`: `e` is the first of those that have the latest
transition, `t`, of all that are not after `x`. -/
def Best (env : TzEnv) (es : List TzElement) (x : DateTime) (e : TzElement) (t : DateTime) : Prop :=
  ∃ l r, es = l ++ e :: r ∧ LastOf env e x t ∧
    (∀ e' ∈ l, ∀ t', (descOf env e').S t' → t'.num ≤ x.num → t'.num < t.num) ∧
    ∀ e' ∈ r, ∀ t', (descOf env e').S t' → t'.num ≤ x.num → t'.num ≤ t.num

/-- The state of the loop after the elements `es`. -/
def Found (env : TzEnv) (es : List TzElement) (x : DateTime) :
    Option (TzElement × DateTime) → Prop
  | none => ∀ e ∈ es, NoneOf env e x
  | some (e, t) => Clock t ∧ ∃ e0, Kept env e0 e ∧ Best env es x e0 t

theorem findLoop_found (hu : DefaultUtc env) {x : DateTime} (hx : Clock x) :
    ∀ {done es0 es es' : List TzElement} {f f' : Option (TzElement × DateTime)},
    (∀ e ∈ es0, (descOf env e).Ok env o) → List.Forall₂ (Kept env) es0 es →
    Zone.findLoop env o fuel x es f = some (f', es') →
    List.Forall₂ (Kept env) es0 es' ∧
    (List.Forall₂ (Ready env x) es0 es → Found env done x f → Found env (done ++ es0) x f') := by
  intro done es0 es es' f f' hds hes h
  induction hes generalizing done es' f f' with
  | nil =>
    simp only [Zone.findLoop, Option.some.injEq, Prod.mk.injEq] at h
    obtain ⟨rfl, rfl⟩ := h
    exact ⟨.nil, fun _ hf => by simpa using hf⟩
  | @cons d e ds es hd hrest ih =>
    rw [Zone.findLoop] at h
    split at h
    · simp at h
    · next t e1 h1 =>
      obtain ⟨k1, ct, k2⟩ := expandBelow_spec hu (hds d (by simp)) hd hx h1
      rw [Option.map_eq_some_iff] at h
      obtain ⟨⟨f2, es2⟩, h2, h⟩ := h
      simp only [Prod.mk.injEq] at h
      obtain ⟨rfl, rfl⟩ := h
      obtain ⟨j1, j2⟩ := ih (done := done ++ [d]) (fun d' hd' => hds d' (by simp [hd'])) h2
      refine ⟨.cons k1 j1, fun hq hf => ?_⟩
      rw [show done ++ d :: ds = done ++ [d] ++ ds by simp]
      cases hq with | cons hq1 hq2 => ?_
      refine j2 hq2 ?_
      have hge := clock_ge (env := env) hx ct
      rcases k2 hq1 with hl | ⟨hn, hlt⟩
      · rw [if_pos (hge.mpr hl.2.1)]
        cases f with
        | none =>
          refine ⟨ct, d, k1, done, [], rfl, hl, ?_, by simp⟩
          intro e' he' t' ht' hle
          have := hf e' he' t' ht'
          omega
        | some p =>
          obtain ⟨g, tg⟩ := p
          obtain ⟨cg, e0, hk, l, r, rfl, hb1, hb2, hb3⟩ := hf
          simp only
          by_cases hgt : t.gt env tg = true
          · rw [if_pos hgt]
            rw [clock_gt ct cg] at hgt
            refine ⟨ct, d, k1, l ++ e0 :: r, [], rfl, hl, ?_, by simp⟩
            intro e' he' t' ht' hle
            rcases List.mem_append.mp he' with he' | he'
            · have := hb2 e' he' t' ht' hle
              omega
            · rcases List.mem_cons.mp he' with rfl | he'
              · have := hb1.2.2 t' ht' hle
                omega
              · have := hb3 e' he' t' ht' hle
                omega
          · rw [if_neg hgt]
            rw [clock_gt ct cg] at hgt
            refine ⟨cg, e0, hk, l, r ++ [d], by simp, hb1, hb2, ?_⟩
            intro e' he' t' ht' hle
            rcases List.mem_append.mp he' with he' | he'
            · exact hb3 e' he' t' ht' hle
            · simp only [List.mem_singleton] at he'
              subst he'
              have := hl.2.2 t' ht' hle
              omega
      · have hno : ¬ x.ge env t = true := by rw [hge]; omega
        rw [if_neg hno]
        cases f with
        | none =>
          intro e' he'
          rcases List.mem_append.mp he' with he' | he'
          · exact hf e' he'
          · simp only [List.mem_singleton] at he'
            subst he'; exact hn
        | some p =>
          obtain ⟨g, tg⟩ := p
          obtain ⟨cg, e0, hk, l, r, rfl, hb1, hb2, hb3⟩ := hf
          refine ⟨cg, e0, hk, l, r ++ [d], by simp, hb1, hb2, ?_⟩
          intro e' he' t' ht' hle
          rcases List.mem_append.mp he' with he' | he'
          · exact hb3 e' he' t' ht' hle
          · simp only [List.mem_singleton] at he'
            subst he'
            have := hn t' ht'
            omega

theorem fill_any {e0 e e' : TzElement} {x t : DateTime} (hd : (descOf env e0).Ok env o)
    (he : Kept env e0 e) (h : e.expandBelow env o fuel x = some (t, e')) : Kept env e0 e' := by
  unfold TzElement.expandBelow at h
  split at h
  · simp only [Option.some.injEq, Prod.mk.injEq] at h
    rw [← h.2]; exact he
  · next hr =>
    rw [Option.map_eq_some_iff] at h
    obtain ⟨e1, hf, h⟩ := h
    simp only [Prod.mk.injEq] at h
    obtain ⟨_, rfl⟩ := h
    rw [Bool.or_eq_true, not_or] at hr
    exact (fill_kept hd he (by simpa using hr.1) (clock_newYear _) (clock_newYear _) (le_refl _)
      hf).1

theorem findLoop_kept {x : DateTime} {es0 es es' : List TzElement}
    {f f' : Option (TzElement × DateTime)} (hds : ∀ e ∈ es0, (descOf env e).Ok env o)
    (hes : List.Forall₂ (Kept env) es0 es)
    (h : Zone.findLoop env o fuel x es f = some (f', es')) : List.Forall₂ (Kept env) es0 es' := by
  induction hes generalizing es' f f' with
  | nil =>
    simp only [Zone.findLoop, Option.some.injEq, Prod.mk.injEq] at h
    rw [← h.2]; exact .nil
  | @cons d e ds es hd hrest ih =>
    rw [Zone.findLoop] at h
    split at h
    · simp at h
    · next t e1 h1 =>
      rw [Option.map_eq_some_iff] at h
      obtain ⟨⟨f2, es2⟩, h2, h⟩ := h
      simp only [Prod.mk.injEq] at h
      obtain ⟨_, rfl⟩ := h
      exact .cons (fill_any (hds d (by simp)) hd h1) (ih (fun d' hd' => hds d' (by simp [hd'])) h2)

theorem reach_kept {z z1 : Zone} (hds : ∀ e ∈ z.elements, (descOf env e).Ok env o)
    (hp : ∀ e ∈ z.elements, ParsedElement e) (h : ZoneReach env o o' z z1) :
    List.Forall₂ (Kept env) z.elements z1.elements := by
  induction h with
  | start =>
    rw [List.forall₂_same]
    exact fun e he => ⟨parsed_element (hp e he), rfl, by rw [(hp e he).fresh.2]; exact .nil⟩
  | offset _ hx hd hq ih =>
    unfold Zone.offsetSeconds at hq
    rw [Option.map_eq_some_iff] at hq
    obtain ⟨z3, h1, h2⟩ := hq
    have h3 : List.Forall₂ (Kept env) z.elements z3.elements := by
      unfold Zone.recache at h1
      split at h1
      · rw [Option.map_eq_some_iff] at h1
        obtain ⟨⟨all, z4⟩, h1, rfl⟩ := h1
        rw [cacheMax_eq (clock_asLocal hx hd)] at h1
        unfold Zone.expandAll at h1
        rw [Option.map_eq_some_iff] at h1
        obtain ⟨⟨l, es⟩, h1, h5⟩ := h1
        simp only [Prod.mk.injEq] at h5
        obtain ⟨_, rfl⟩ := h5
        exact expandElements_kept hds ih (clock_newYear _) h1
      · simp only [Option.some.injEq] at h1
        subst h1
        exact ih
    have h4 : ∀ (t : DateTime) (rel : Bool), (z3.lookup env t rel).2.elements = z3.elements := by
      intro t rel
      unfold Zone.lookup
      split
      · rfl
      · simp only
        split <;> rfl
    rw [Prod.ext_iff] at h2
    have h5 := h2.2
    simp only at h5
    rw [← h5, h4]
    exact h3
  | find _ hq ih =>
    unfold Zone.findElement at hq
    rw [Option.map_eq_some_iff] at hq
    obtain ⟨⟨f, es⟩, h1, h2⟩ := hq
    simp only [Prod.mk.injEq] at h2
    obtain ⟨_, rfl⟩ := h2
    exact findLoop_kept hds ih h1
  | expand _ hs hq ih =>
    unfold Zone.expandAll at hq
    rw [Option.map_eq_some_iff] at hq
    obtain ⟨⟨l, es⟩, h1, h2⟩ := hq
    simp only [Prod.mk.injEq] at h2
    obtain ⟨_, rfl⟩ := h2
    exact expandElements_kept hds ih hs h1

end Desc102
open Desc102

/-! ## The element shown -/

section
variable {env : TzEnv} {o : SetOrder} {o' : SetOrder (DateTime × Int × Int)} {fuel : Nat}

theorem Desc102.shown_of (hu : DefaultUtc env) {z z1 z2 : Zone}
    (hp : ∀ e ∈ z.elements, ParsedElement e) (hr : ZoneReach env o o' z z1) {x : DateTime}
    (hx : x.Valid) (hd : x.dateOnly = false) (hq : List.Forall₂ (Ready env x) z.elements z1.elements) {s : List Char}
    (h : z1.descriptor env o fuel x = some (s, z2)) :
    (∃ e t, Best env z.elements x e t ∧ s = Zone.elementText e) ∨
    (∀ e ∈ z.elements, NoneOf env e x) ∧ s = [] := by
  have hds : ∀ e ∈ z.elements, (descOf env e).Ok env o := fun e he => parsed_ok hu (hp e he)
  have hk := reach_kept hds hp hr
  unfold Zone.descriptor at h
  rw [Option.map_eq_some_iff] at h
  obtain ⟨⟨f, z3⟩, h1, h2⟩ := h
  unfold Zone.findElement at h1
  rw [Option.map_eq_some_iff] at h1
  obtain ⟨⟨f', es⟩, h1, h3⟩ := h1
  simp only [Prod.mk.injEq] at h2 h3
  obtain ⟨rfl, rfl⟩ := h3
  have hf := (findLoop_found (done := []) hu (clock_asLocal hx hd) hds hk h1).2 hq (by
    intro e he; simp at he)
  cases f' with
  | none =>
    right
    exact ⟨hf, h2.1.symm⟩
  | some p =>
    obtain ⟨e, t⟩ := p
    left
    obtain ⟨_, e0, k, hb⟩ := hf
    refine ⟨e0, t, hb, ?_⟩
    rw [← h2.1]
    simp only [Option.map_some]
    unfold Zone.elementText
    rw [k.name, k.ok.offsets.2]
    rfl

/-- C102 (partial): in a time zone as parsed, after any queries, the text for a time describes the
element with the last transition at or before it (the first such element in the order of the time
zone), and is empty if there is none.

Needed: no element has a transition, other than its first, from 1 January of the year of the time up
to the time.  Missing: such times (`C102_fails_thisYear`), dates. -/
theorem C102_element_partial (hu : DefaultUtc env) {z z1 z2 : Zone}
    (hp : ∀ e ∈ z.elements, ParsedElement e) (hr : ZoneReach env o o' z z1) {x : DateTime}
    (hx : x.Valid) (hd : x.dateOnly = false) (hq : ∀ e ∈ z.elements, Quiet env e x) {s : List Char}
    (h : z1.descriptor env o fuel x = some (s, z2)) :
    (∃ e t, Best env z.elements x e t ∧ s = Zone.elementText e) ∨
    (∀ e ∈ z.elements, NoneOf env e x) ∧ s = [] := by
  have hk := reach_kept (fun e he => parsed_ok (o := o) hu (hp e he)) hp hr
  refine Desc102.shown_of hu hp hr hx hd ?_ h
  clear h
  generalize z.elements = es at hk hq
  generalize z1.elements = es1 at hk
  induction hk with
  | nil => exact .nil
  | cons _ _ ih =>
    refine .cons (fun t ht hle => ?_) (ih fun e he => hq e (by simp [he]))
    rcases hq _ (by simp) t ht hle with h | h
    · exact .inl h
    · exact .inr (.inl h)

/-- C102 (partial): under the same conditions the text does not depend on what was asked before, nor
on the order in which sets are run through.

Missing: the other times, `C102_fails_thisYear`. -/
theorem C102_history_partial (hu : DefaultUtc env) {oa ob : SetOrder}
    {oa' ob' : SetOrder (DateTime × Int × Int)} {na nb : Nat} {z za zb za' zb' : Zone}
    (hp : ∀ e ∈ z.elements, ParsedElement e) (hra : ZoneReach env oa oa' z za)
    (hrb : ZoneReach env ob ob' z zb) {x : DateTime}
    (hx : x.Valid) (hd : x.dateOnly = false) (hq : ∀ e ∈ z.elements, Quiet env e x)
    {sa sb : List Char}
    (ha : za.descriptor env oa na x = some (sa, za'))
    (hb : zb.descriptor env ob nb x = some (sb, zb')) : sa = sb := by
  rcases C102_element_partial hu hp hra hx hd hq ha with ⟨e, t, h1, rfl⟩ | ⟨h1, rfl⟩
  · rcases C102_element_partial hu hp hrb hx hd hq hb with ⟨e', t', h2, rfl⟩ | ⟨h2, rfl⟩
    · obtain ⟨l, r, he, a1, a2, a3⟩ := h1
      obtain ⟨l', r', he', b1, b2, b3⟩ := h2
      rw [he] at he'
      rcases List.append_eq_append_iff.mp he' with ⟨m, h3, h4⟩ | ⟨m, h3, h4⟩
      · cases m with
        | nil =>
          simp only [List.nil_append, List.cons.injEq] at h4
          rw [h4.1]
        | cons c m =>
          simp only [List.cons_append, List.cons.injEq] at h4
          obtain ⟨rfl, rfl⟩ := h4
          have h5 := b2 e (by rw [h3]; simp) t a1.1 a1.2.1
          have h6 := a3 e' (by simp) t' b1.1 b1.2.1
          omega
      · cases m with
        | nil =>
          simp only [List.nil_append, List.cons.injEq] at h4
          rw [h4.1]
        | cons c m =>
          simp only [List.cons_append, List.cons.injEq] at h4
          obtain ⟨rfl, rfl⟩ := h4
          have h5 := a2 e' (by rw [h3]; simp) t' b1.1 b1.2.1
          have h6 := b3 e (by simp) t a1.1 a1.2.1
          omega
    · obtain ⟨l, r, he, a1, a2, a3⟩ := h1
      have := h2 e (by rw [he]; simp) t a1.1
      have := a1.2.1
      omega
  · rcases C102_element_partial hu hp hrb hx hd hq hb with ⟨e', t', h2, rfl⟩ | ⟨h2, rfl⟩
    · obtain ⟨l, r, he, a1, a2, a3⟩ := h2
      have := h1 e' (by rw [he]; simp) t' a1.1
      have := a1.2.1
      omega
    · rfl

/-- The time zone of a date-time that is not in UTC: the one that its TZID names, or the default. -/
def zoneName (dflt : Option String) (x : DateTime) : Option String :=
  match x.tzid with
  | some (.name s) => some s
  | _ => dflt

/-- C102 (partial): under the same conditions, the text of a date-time describes the element in force
in the time zone that its TZID names, or in the default time zone if it has none; there is no text if
the database does not have that time zone.

Missing: the other times, `C102_fails_thisYear`. -/
theorem C102_date_partial (hu : DefaultUtc env) {db : Option String → Option Zone} {dflt : Option String}
    {x : DateTime} (hx : x.Valid) (hd : x.dateOnly = false) (h0 : x.utc = false)
    (hn : ∀ v, x.tzid ≠ some (.fixed v)) {s : List Char}
    (h : x.timeZoneDescriptor env o fuel db dflt = some s) :
    (∀ z z1, db (zoneName dflt x) = some z1 → (∀ e ∈ z.elements, ParsedElement e) → ZoneReach env o o' z z1 →
      (∀ e ∈ z.elements, Quiet env e x) →
      (∃ e t, Best env z.elements x e t ∧ s = Zone.elementText e) ∨
      (∀ e ∈ z.elements, NoneOf env e x) ∧ s = []) ∧
    (db (zoneName dflt x) = none → s = []) := by
  have key : (match db (zoneName dflt x) with
      | none => some []
      | some z => (z.descriptor env o fuel x).map (·.1)) = some s := by
    unfold DateTime.timeZoneDescriptor at h
    rw [h0] at h
    simp only [Bool.false_eq_true, if_false] at h
    unfold zoneName
    split at h
    · next e => rw [e]; exact h
    · next e => exact absurd e (hn _)
    · next e => rw [e]; exact h
  constructor
  · intro z z1 hz hp hr hq
    rw [hz] at key
    simp only [Option.map_eq_some_iff] at key
    obtain ⟨⟨s', z2⟩, h1, rfl⟩ := key
    exact C102_element_partial hu hp hr hx hd hq h1
  · intro hz
    rw [hz] at key
    exact (Option.some.inj key).symm

/-- C102 (partial): under the same conditions, in a time zone without names and with offsets in whole
minutes, the text says the offset that `getTimezoneOffsetSeconds` gives, from the first transition
on.

Missing: offsets with seconds, `C102_fails_seconds`. -/
theorem C102_agrees_partial (hu : DefaultUtc env) {z z1 z2 z3 z4 : Zone}
    (hp : ∀ e ∈ z.elements, ParsedElement e) (h0 : z.maxYear = none)
    (hm : WholeMinutes (z.elements.map (descOf env)))
    (hone : ∀ t f g t' f' g', Tr (z.elements.map (descOf env)) t f g →
      Tr (z.elements.map (descOf env)) t' f' g' → t.num = t'.num → g = g')
    (hname : ∀ e ∈ z.elements, e.name = [] ∧ e.offsetTo % 60 = 0 ∧ e.offsetTo.natAbs < 360000)
    (hr : ZoneReach env o o' z z1) (hr' : ZoneReach env o o' z z3) {x : DateTime}
    (hx : x.Valid) (hd : x.dateOnly = false) (hq : ∀ e ∈ z.elements, Quiet env e x)
    (hsome : ∃ e ∈ z.elements, ∃ t, (descOf env e).S t ∧ t.num ≤ x.num) {s : List Char} {v : Int}
    (h : z1.descriptor env o fuel x = some (s, z2))
    (h' : z3.offsetSeconds env o o' fuel x false = some (v, z4)) :
    utcOffsetParse false s = some v := by
  obtain ⟨e1, he1, t1, ht1, hle1⟩ := hsome
  rcases C102_element_partial hu hp hr hx hd hq h with ⟨e, t, ⟨l, r, he, a1, a2, a3⟩, rfl⟩ | ⟨h1, _⟩
  · have hmem : e ∈ z.elements := by rw [he]; simp
    obtain ⟨n1, n2, n3⟩ := hname e hmem
    have hv : v = e.offsetTo := by
      have htr : Tr (z.elements.map (descOf env)) t e.offsetFrom e.offsetTo :=
        ⟨_, List.mem_map_of_mem hmem, a1.1, rfl, rfl⟩
      rcases C35_zone_partial hu hp h0 hm hr' hx hd (by simp) h' with ⟨t', f', b1, b2, b3⟩ | ⟨b1, _⟩
      · refine hone _ _ _ _ _ _ b1 htr ?_
        simp only [timeOf, Bool.false_eq_true, if_false] at b2 b3
        have h5 := b3 _ _ _ htr a1.2.1
        obtain ⟨d, hd', hs, rfl, rfl⟩ := b1
        obtain ⟨e', he', rfl⟩ := List.mem_map.mp hd'
        rw [he] at he'
        rcases List.mem_append.mp he' with he' | he'
        · have := a2 e' he' _ hs b2
          omega
        · rcases List.mem_cons.mp he' with rfl | he'
          · have := a1.2.2 _ hs b2
            omega
          · have := a3 e' he' _ hs b2
            omega
      · have h6 := b1 _ _ _ htr
        simp only [timeOf, Bool.false_eq_true, if_false] at h6
        have := a1.2.1
        omega
    rw [hv]
    exact ((C102_text e).2 n1 n2).2 n3
  · have := h1 e1 he1 t1 ht1
    omega

end

/-! ## The order of time zones -/

/-- C102: `sortByUTCOffsetComparator` gives -1 or 1, puts the time zone first that has the smaller sum
of the offsets of its first two elements, if these are even numbers of seconds, and is
antisymmetric and transitive where it gives an answer. -/
theorem C102_order {a b : Zone} {ea ea' eb eb' : TzElement} {la lb : List TzElement}
    (ha : a.elements = ea :: ea' :: la) (hb : b.elements = eb :: eb' :: lb)
    (he : ea.offsetTo % 2 = 0 ∧ ea'.offsetTo % 2 = 0 ∧ eb.offsetTo % 2 = 0 ∧ eb'.offsetTo % 2 = 0) :
    (a.compareOffset b = some (-1) ↔
      ea.offsetTo + ea'.offsetTo < eb.offsetTo + eb'.offsetTo) ∧
    (a.compareOffset b = some 1 ↔
      eb.offsetTo + eb'.offsetTo < ea.offsetTo + ea'.offsetTo) := by
  unfold Zone.compareOffset Zone.sortKey
  rw [ha, hb]
  simp only
  constructor
  · split
    · simp; omega
    · split <;> simp <;> omega
  · split
    · simp; omega
    · split <;> simp <;> omega

/-- C102 fails for the order: two time zones with the same offsets in their first two elements cannot
be compared, an exception is raised. -/
theorem C102_fails_order {a b : Zone}
    (h : (a.elements.take 2).map (·.offsetTo) = (b.elements.take 2).map (·.offsetTo)) :
    a.compareOffset b = none := by
  have key : ∀ z : Zone, z.sortKey = match (z.elements.take 2).map (·.offsetTo) with
      | [] => 0
      | [v] => (v + v) / 2
      | v :: w :: _ => (v + w) / 2 := by
    intro z
    unfold Zone.sortKey
    rcases z.elements with _ | ⟨e, _ | ⟨e', l⟩⟩ <;> rfl
  unfold Zone.compareOffset
  rw [if_pos (by rw [key a, key b, h])]

/-! ## Examples -/

/-- Eastern Time with names. -/
def easternNamed : Zone where
  elements := [
    { start := easternDaylight, offsetFrom := -18000, offsetTo := -14400, name := "EDT".toList,
      recurrences := { rrules := [(sundayRule 3 2, {})] } },
    { start := easternStandard, offsetFrom := -14400, offsetTo := -18000, name := "EST".toList,
      recurrences := { rrules := [(sundayRule 11 1, {})] } }]

/-- The text shown by a time zone. -/
def shown (z : Zone) (t : DateTime) : Option (List Char) :=
  (z.descriptor .empty RecurrenceSet.inOrder 30 t).map (·.1)

/-- The conditions of `C102_element_partial`, `C102_history_partial` and `C102_agrees_partial` are met
by Eastern Time in February. -/
theorem C102_meets : (∀ e ∈ easternNamed.elements, ParsedElement e) ∧
    (∀ e ∈ easternNamed.elements, Quiet .empty e (minute 2010 2 28 12 0 0)) ∧
    (∀ e ∈ eastern.elements, Quiet .empty e (minute 2010 2 28 12 0 0)) ∧
    (∀ e ∈ eastern.elements, e.name = [] ∧ e.offsetTo % 60 = 0 ∧ e.offsetTo.natAbs < 360000) ∧
    (∃ e ∈ eastern.elements, ∃ t, (descOf .empty e).S t ∧ t.num ≤ (minute 2010 2 28 12 0 0).num) := by
  have hq : ∀ e ∈ eastern.elements, Quiet .empty e (minute 2010 2 28 12 0 0) := by
    intro e he t ht hle
    obtain ⟨hc, h2, h3, h4, h5⟩ := eastern_tr ⟨_, List.mem_map_of_mem he, ht, rfl, rfl⟩
    left
    refine lt_newYear hc ?_
    by_contra hn
    have hx : (minute 2010 2 28 12 0 0).Valid := by decide +kernel
    have hn' : 2010 ≤ t.year := by
      change ¬ t.year < 2010 at hn
      omega
    have : (minute 2010 2 28 12 0 0).num < t.num := by
      refine (DateTime.fieldsLt_iff_timeNum hx.1 hc.1.1).mp ?_
      unfold DateTime.FieldsLt Date.lt
      simp only [DateTime.date, minute]
      rcases h5 with h5 | h5 <;> omega
    omega
  have hn : easternNamed.elements.map (fun e => { e with name := [] }) = eastern.elements := rfl
  refine ⟨?_, ?_, hq, by decide +kernel, _, List.mem_cons_self, easternDaylight, .inl rfl, by
    decide +kernel⟩
  · intro e he
    have hm : ({ e with name := [] } : TzElement) ∈ eastern.elements := by
      rw [← hn]; exact List.mem_map.mpr ⟨e, he, rfl⟩
    have := eastern_parsed _ hm
    exact ⟨this.start, this.leap, this.rules, this.rdates, this.others, this.fresh⟩
  · intro e he
    have hm : ({ e with name := [] } : TzElement) ∈ eastern.elements := by
      rw [← hn]; exact List.mem_map.mpr ⟨e, he, rfl⟩
    have h := hq ({ e with name := [] } : TzElement) hm
    exact h

example : shown easternNamed (minute 2010 2 28 12 0 0) = some "(EST)".toList ∧
    shown eastern (minute 2010 2 28 12 0 0) = some "-0500".toList ∧
    shown easternNamed (minute 2007 6 1 12 0 0) = some "(EDT)".toList ∧
    shown easternNamed (minute 2000 6 1 12 0 0) = some [] := by decide +kernel

/-- Eastern Time by name, and as the default time zone. -/
example : (fun db : Option String → Option Zone =>
    (({ minute 2010 2 28 12 0 0 with tzid := some (.name "US/Eastern") } : DateTime).timeZoneDescriptor .empty
      RecurrenceSet.inOrder 30 db none = some "(EST)".toList) ∧
    ((minute 2010 2 28 12 0 0).timeZoneDescriptor .empty RecurrenceSet.inOrder 30 db (some "US/Eastern") =
      some "(EST)".toList) ∧
    ((minute 2010 2 28 12 0 0).timeZoneDescriptor .empty RecurrenceSet.inOrder 30 db none = some []))
    (fun n => if n = some "US/Eastern" then some easternNamed else none) := by decide +kernel

/-- C102 fails in the part of the year after a transition: on 1 July 2010 Eastern Time shows "(EST)",
as only transitions up to 1 January are looked at; after a query for the offset, which fills the
cache, it shows "(EDT)". -/
theorem C102_fails_thisYear :
    shown easternNamed (minute 2010 7 1 0 0 0) = some "(EST)".toList ∧
    ask easternNamed (minute 2010 7 1 0 0 0) false = some (-14400) ∧
    ((easternNamed.offsetSeconds .empty RecurrenceSet.inOrder inOrder' 30 (minute 2010 7 1 0 0 0)
      false).bind fun v => shown v.2 (minute 2010 7 1 0 0 0)) = some "(EDT)".toList := by
  decide +kernel

/-- C102 fails for offsets with seconds: they are left out, so that two offsets look the same. -/
theorem C102_fails_seconds : fixedText (-17762) = fixedText (-17760) ∧
    fixedText (-30) = "-0000".toList := by decide +kernel

end PyCal
