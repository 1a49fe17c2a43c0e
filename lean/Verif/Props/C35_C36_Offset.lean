import Verif.Model.Timezone
import Verif.Props.C34_RecurrenceSet

/-!
# C35, C36: UTC offsets of a VTIMEZONE
-/

namespace PyCal
open DateTime (TzEnv)
open Spec

/-! ## Binary search -/

/-- The list is split by `less`: no element before one that is not less. -/
theorem bisectRight_spec {α : Type} {less : α → Bool} {a : List α}
    (hmono : a.Pairwise fun x y => less x = true → less y = true) :
    ∀ (n lo hi : Nat), hi - lo ≤ n → lo ≤ hi → hi ≤ a.length →
    (∀ j (h : j < a.length), j < lo → less a[j] = false) →
    (∀ j (h : j < a.length), hi ≤ j → less a[j] = true) →
    bisectRight less a lo hi ≤ a.length ∧
    (∀ j (h : j < a.length), j < bisectRight less a lo hi → less a[j] = false) ∧
    (∀ j (h : j < a.length), bisectRight less a lo hi ≤ j → less a[j] = true) := by
  intro n
  induction n with
  | zero =>
    intro lo hi hn hle hlen h1 h2
    rw [bisectRight, dif_neg (by omega)]
    exact ⟨by omega, h1, fun j h hj => h2 j h (by omega)⟩
  | succ n ih =>
    intro lo hi hn hle hlen h1 h2
    rw [bisectRight]
    by_cases hlt : lo < hi
    · rw [dif_pos hlt]
      have hm : (lo + hi) / 2 < a.length := by omega
      rw [List.getElem?_eq_getElem hm]
      simp only
      rw [List.pairwise_iff_getElem] at hmono
      cases hl : less a[(lo + hi) / 2] with
      | true =>
        simp only [if_true]
        refine ih _ _ (by omega) (by omega) (by omega) h1 fun j h hj => ?_
        by_cases he : (lo + hi) / 2 = j
        · subst he; exact hl
        · exact hmono _ _ hm h (by omega) hl
      | false =>
        simp only [Bool.false_eq_true, if_false]
        refine ih _ _ (by omega) (by omega) (by omega) (fun j h hj => ?_) h2
        by_cases he : j = (lo + hi) / 2
        · subst he; exact hl
        · have := hmono _ _ h hm (by omega)
          cases hj' : less a[j] with
          | false => rfl
          | true => rw [this hj'] at hl; exact absurd hl (by simp)
    · rw [dif_neg hlt]
      exact ⟨by omega, h1, fun j h hj => h2 j h (by omega)⟩

/-! ## Clock times -/

/-- A clock time: a real date-time without a time zone. -/
def Clock (t : DateTime) : Prop := t.Valid ∧ t.dateOnly = false ∧ t.utc = false ∧ t.tzid = none

/-- The number of a clock reading: seconds are counted up by one. -/
def _root_.PyCal.DateTime.num (t : DateTime) : Int := timeNum t.civil

theorem clock_lt {env : TzEnv} {a b : DateTime} (ha : Clock a) (hb : b.Valid)
    (hd : b.dateOnly = false) : a.lt env b = true ↔ a.num < b.num := by
  obtain ⟨hv, h1, h2, h3⟩ := ha
  unfold DateTime.lt DateTime.compare
  have : tzSame a.utc a.tzid b.utc b.tzid = true := by
    simp [tzSame, tzIsFloat, h2, h3, tzTruthy]
  rw [h1, hd, this]
  simp only [Bool.or_self, Bool.false_eq_true, if_false, if_true, decide_eq_true_iff]
  rw [DateTime.cmpFields_lt, DateTime.fieldsLt_iff_timeNum hv.1 hb.1]
  rfl

theorem clock_ext {a b : DateTime} (ha : Clock a) (hb : Clock b) (h : a.num = b.num) : a = b :=
  DateTime.eq_of_civil ⟨by rw [ha.2.1, hb.2.1], by rw [ha.2.2.1, hb.2.2.1], by
    rw [ha.2.2.2, hb.2.2.2]⟩ (timeNum_inj ha.1.1 hb.1.1 h)

theorem clock_eq {env : TzEnv} {a b : DateTime} (ha : Clock a) (hb : Clock b) :
    a.eq env b = true ↔ a = b := by
  have h1 := clock_lt (env := env) ha hb.1 hb.2.1
  have h2 := clock_lt (env := env) hb ha.1 ha.2.1
  have h3 := DateTime.compare_neg env a b
  unfold DateTime.lt at h1 h2
  unfold DateTime.eq
  rw [decide_eq_true_iff] at h1 h2 ⊢
  constructor
  · intro h
    exact clock_ext ha hb (by omega)
  · rintro rfl
    omega

theorem clock_ge {env : TzEnv} {a b : DateTime} (ha : Clock a) (hb : Clock b) :
    a.ge env b = true ↔ b.num ≤ a.num := by
  have h1 := clock_lt (env := env) ha hb.1 hb.2.1
  unfold DateTime.lt at h1
  unfold DateTime.ge
  rw [decide_eq_true_iff] at h1 ⊢
  omega

theorem clock_gt {env : TzEnv} {a b : DateTime} (ha : Clock a) (hb : Clock b) :
    a.gt env b = true ↔ b.num < a.num := by
  rw [← clock_lt (env := env) hb ha.1 ha.2.1]
  have := DateTime.compare_neg env a b
  unfold DateTime.gt DateTime.lt
  rw [decide_eq_true_iff, decide_eq_true_iff]
  omega

/-- The default time zone is UTC, as set in timezone.py:119: a floating time has offset 0. -/
def DefaultUtc (env : TzEnv) : Prop := ∀ t b, env none t b = 0

theorem clock_posix_lt {env : TzEnv} (he : DefaultUtc env) {a b : DateTime} (ha : Clock a)
    (hb : Clock b) : a.posix env < b.posix env ↔ a.num < b.num := by
  have key : ∀ a b : DateTime, Clock a → Clock b → a.num < b.num → a.posix env < b.posix env :=
    fun a b ha hb h => DateTime.posix_strictMono env (.inr (.inr ⟨ha.2.2.2, he⟩))
      ⟨by rw [ha.2.1, hb.2.1], by rw [ha.2.2.1, hb.2.2.1], by rw [ha.2.2.2, hb.2.2.2]⟩ ha.1 hb.1 h
  refine ⟨fun h => ?_, key a b ha hb⟩
  rcases Int.lt_trichotomy a.num b.num with hl | hl | hl
  · exact hl
  · rw [clock_ext ha hb hl] at h; omega
  · have := key b a hb ha hl; omega

theorem clock_posix_le {env : TzEnv} (he : DefaultUtc env) {a b : DateTime} (ha : Clock a)
    (hb : Clock b) : a.posix env ≤ b.posix env ↔ a.num ≤ b.num := by
  have := clock_posix_lt he hb ha
  omega

open TzElement (newYear)

theorem clock_newYear (y : Int) : Clock (newYear y) := by
  refine ⟨⟨⟨⟨?_, ?_, ?_, ?_⟩, ?_⟩, ?_⟩, rfl, rfl, rfl⟩ <;>
    simp [newYear, DateTime.civil, DateTime.date, monthLen]

theorem lt_newYear {t : DateTime} (h : Clock t) {y : Int} (hy : t.year < y) :
    t.num < (newYear y).num := by
  refine (DateTime.fieldsLt_iff_timeNum h.1.1 (clock_newYear y).1.1).mp ?_
  unfold DateTime.FieldsLt Date.lt
  simp only [DateTime.date, newYear]
  omega

/-! ## The specification -/

/-- What a STANDARD or DAYLIGHT element means: its offsets and the set `S` of its dates, which are
clock times; `I` holds for the states of its recurrence set. -/
structure Desc where
  start : DateTime
  offsetFrom : Int
  offsetTo : Int
  S : DateTime → Prop
  I : RecurrenceSet → Prop

/-- The recurrence set expands to the dates `S`, whatever was asked before. -/
structure Desc.Ok (env : TzEnv) (o : SetOrder) (d : Desc) : Prop where
  start : Clock d.start
  clock : ∀ t, d.S t → Clock t ∧ d.start.num ≤ t.num
  single : ∀ s, d.I s → s.hasRecurrence = false → ∀ t, d.S t ↔ t = d.start
  expand : ∀ s fuel stop l lim s', d.I s → s.hasRecurrence = true → Clock stop →
    d.start.num < stop.num →
    s.expand env o fuel d.start (.ofEnd d.start stop) d.offsetFrom none =
      some (.dates l lim s') →
    d.I s' ∧ ∀ t, t ∈ l ↔ d.S t ∧ t.num < stop.num

/-- The time zone changes at local time `t` from offset `f` to offset `g`. -/
def Tr (ds : List Desc) (t : DateTime) (f g : Int) : Prop :=
  ∃ d ∈ ds, d.S t ∧ f = d.offsetFrom ∧ g = d.offsetTo

/-- The time of a transition: local time, or UTC for a search relative to UTC. -/
def timeOf (rel : Bool) (t : DateTime) (f : Int) : Int := if rel then t.num - f else t.num

/-- `v` is the offset after the last transition at or before `x`. -/
def IsOffset (ds : List Desc) (rel : Bool) (x v : Int) : Prop :=
  ∃ t f, Tr ds t f v ∧ timeOf rel t f ≤ x ∧
    ∀ t' f' g', Tr ds t' f' g' → timeOf rel t' f' ≤ x → timeOf rel t' f' ≤ timeOf rel t f

/-- There is no transition at or before `x`. -/
def BeforeAll (ds : List Desc) (rel : Bool) (x : Int) : Prop :=
  ∀ t f g, Tr ds t f g → x < timeOf rel t f

/-- All transitions are at whole minutes. -/
def WholeMinutes (ds : List Desc) : Prop :=
  ∀ t f g, Tr ds t f g → t.seconds = 0 ∧ f % 60 = 0

/-- In UTC the transitions are in the same order as in local time, and none moves over the turn of
a year. -/
def Orderly (ds : List Desc) : Prop :=
  (∀ t f g t' f' g', Tr ds t f g → Tr ds t' f' g' → t.num ≤ t'.num → t.num - f ≤ t'.num - f') ∧
  ∀ t f g y, Tr ds t f g → t.num - f < (newYear y).num → t.num < (newYear y).num

/-- The same, for the transitions up to the time `x` in UTC. -/
def OrderlyAt (ds : List Desc) (x : Int) : Prop :=
  (∀ t f g t' f' g', Tr ds t f g → Tr ds t' f' g' → t'.num - f' ≤ x → t.num ≤ t'.num → t.num - f ≤ t'.num - f') ∧
  ∀ t f g y, Tr ds t f g → t.num - f ≤ x → x < (newYear y).num → t.num < (newYear y).num

theorem Orderly.upTo {ds : List Desc} (h : Orderly ds) (x : Int) : OrderlyAt ds x :=
  ⟨fun t f g t' f' g' h1 h2 _ hle => h.1 t f g t' f' g' h1 h2 hle, fun t f g y h1 hle hlt => h.2 t f g y h1 (by omega)⟩

/-! ## The elements -/

/-- The state of an element: what it says, and a cache of all dates up to some time not before
`below`. -/
structure ElementOk (d : Desc) (e : TzElement) : Prop where
  start : e.start = d.start
  offsets : e.offsetFrom = d.offsetFrom ∧ e.offsetTo = d.offsetTo
  state : d.I e.recurrences
  empty : e.below = none → e.items.getD [] = []
  cache : ∀ b, e.below = some b → Clock b ∧ d.start.num ≤ b.num ∧ ∃ c, b.num ≤ c ∧
    ∀ t, t ∈ e.items.getD [] ↔ d.S t ∧ t.num < c

section
variable {env : TzEnv} {o : SetOrder}

theorem fill_spec {d : Desc} {e e' : TzElement} {fuel : Nat} {temp stop : DateTime}
    (hd : d.Ok env o) (he : ElementOk d e) (hr : e.recurrences.hasRecurrence = true)
    (ht : Clock temp) (hs : Clock stop) (hle : temp.num ≤ stop.num)
    (h : e.fill env o fuel temp stop = some e') :
    ElementOk d e' ∧ (∃ b, e'.below = some b ∧ temp.num ≤ b.num) ∧
    ((e.below.getD e.start).num < temp.num →
      ∀ t, t ∈ e'.items.getD [] ↔ d.S t ∧ t.num < stop.num) := by
  have hb : Clock (e.below.getD e.start) ∧ d.start.num ≤ (e.below.getD e.start).num ∧
      ∃ c, (e.below.getD e.start).num ≤ c ∧ ∀ t, t ∈ e.items.getD [] ↔ d.S t ∧ t.num < c := by
    cases hbel : e.below with
    | some b => exact he.cache b hbel
    | none =>
      rw [Option.getD_none, he.start]
      refine ⟨hd.start, le_refl _, _, le_refl _, fun t => ?_⟩
      rw [he.empty hbel]
      constructor
      · simp
      · rintro ⟨h1, h2⟩
        have := (hd.clock t h1).2
        omega
  unfold TzElement.fill at h
  simp only [Option.getD_some] at h
  split at h
  · next hg =>
    rw [clock_gt ht hb.1] at hg
    split at h
    · next l lim s hx =>
      simp only [Option.some.injEq] at h
      subst h
      rw [he.start, he.offsets.1] at hx
      obtain ⟨h1, h2⟩ := hd.expand _ _ _ _ _ _ he.state hr hs (by omega) hx
      refine ⟨⟨he.start, he.offsets, h1, by simp, ?_⟩, ⟨_, rfl, le_refl _⟩, fun _ => h2⟩
      intro b hb'
      simp only [Option.some.injEq] at hb'
      subst hb'
      exact ⟨ht, by omega, _, hle, h2⟩
    · simp at h
  · next hg =>
    rw [clock_gt ht hb.1] at hg
    simp only [Option.some.injEq] at h
    subst h
    refine ⟨⟨he.start, he.offsets, he.state, by simp, ?_⟩, ⟨_, rfl, by omega⟩,
      fun h => absurd h hg⟩
    intro b hb'
    simp only [Option.some.injEq] at hb'
    subst hb'
    exact hb

/-- 1 January of its year is not after a time. -/
theorem newYear_le {t : DateTime} (h : Clock t) : (newYear t.year).num ≤ t.num := by
  by_contra hc
  have := (DateTime.fieldsLt_iff_timeNum h.1.1 (clock_newYear t.year).1.1).mpr (by
    unfold DateTime.num at hc; omega)
  obtain ⟨⟨⟨hm1, hm2, hd1, hd2⟩, hh1, hh2, hmi1, hmi2, hs1, hs2⟩, _⟩ := h.1
  simp only [DateTime.civil, DateTime.date] at *
  unfold DateTime.FieldsLt Date.lt at this
  simp only [DateTime.date, newYear] at this
  omega

/-- The transitions an element lists from `start` (from its first, if not given) to before `stop`:
all up to 1 January of the year of `stop`, and those after it if nothing was expanded before and the
element starts in an earlier year. -/
theorem elementAll_spec {d : Desc} {e e' : TzElement} {fuel : Nat} {start : Option DateTime}
    {stop : DateTime} {l : List (DateTime × Int × Int)} (hd : d.Ok env o) (he : ElementOk d e)
    (hst : ∀ s, start = some s → Clock s) (hs : Clock stop)
    (h : e.expandAll env o fuel start stop = some (l, e')) :
    ElementOk d e' ∧ (∀ v ∈ l, d.S v.1 ∧ v.2 = (d.offsetFrom, d.offsetTo) ∧
      (∀ s, start = some s → s.num ≤ v.1.num) ∧ v.1.num ≤ stop.num ∧
      (e.recurrences.hasRecurrence = true → v.1.num < stop.num)) ∧
    ∀ t, d.S t → t.num < stop.num → (∀ s, start = some s → s.num ≤ t.num) →
      (t.num < (newYear stop.year).num ∨ e.recurrences.hasRecurrence = false ∨
        (e.below.getD e.start).num < (newYear stop.year).num) →
      (t, d.offsetFrom, d.offsetTo) ∈ l := by
  have hgs : Clock (start.getD e.start) ∧ ∀ t, d.S t →
      ((start.getD e.start).num ≤ t.num ↔ ∀ s, start = some s → s.num ≤ t.num) := by
    cases start with
    | none =>
      rw [Option.getD_none, he.start]
      exact ⟨hd.start, fun t ht => by simpa using (hd.clock t ht).2⟩
    | some s => exact ⟨hst s rfl, fun t _ => by simp⟩
  unfold TzElement.expandAll at h
  simp only at h
  split at h
  · next hg =>
    rw [he.start, clock_gt hd.start hs] at hg
    simp only [Option.some.injEq, Prod.mk.injEq] at h
    obtain ⟨rfl, rfl⟩ := h
    refine ⟨he, by simp, fun t h1 h2 => ?_⟩
    have := (hd.clock t h1).2
    omega
  · next hg =>
    rw [he.start, clock_gt hd.start hs] at hg
    split at h
    · next hr =>
      rw [Bool.not_eq_true'] at hr
      simp only [Option.some.injEq, Prod.mk.injEq] at h
      obtain ⟨h, rfl⟩ := h
      have hsi := hd.single _ he.state hr
      have hS : d.S d.start := (hsi _).mpr rfl
      have hge : e.start.ge env (start.getD e.start) = true ↔
          ∀ s, start = some s → s.num ≤ d.start.num := by
        rw [← hgs.2 _ hS, he.start]
        exact clock_ge hd.start (by rw [← he.start]; exact hgs.1)
      refine ⟨he, ?_, ?_⟩
      · intro v hv
        split at h
        · next hge' =>
          subst h
          simp only [List.mem_singleton] at hv
          subst hv
          rw [hge] at hge'
          refine ⟨(hsi _).mpr he.start, by rw [he.offsets.1, he.offsets.2], ?_, ?_, ?_⟩
          · simpa only [he.start] using hge'
          · simp only [he.start]; omega
          · rw [hr]; simp
        · subst h; simp at hv
      · intro t ht _ hst' _
        rw [(hsi t).mp ht] at hst' ⊢
        rw [if_pos (hge.mpr hst')] at h
        rw [← h, ← he.start, ← he.offsets.1, ← he.offsets.2]
        simp
    · next hr =>
      have hr : e.recurrences.hasRecurrence = true := by simpa using hr
      rw [Option.map_eq_some_iff] at h
      obtain ⟨e1, hf, h⟩ := h
      simp only [Prod.mk.injEq] at h
      obtain ⟨rfl, rfl⟩ := h
      obtain ⟨h1, ⟨b, h2, h3⟩, h4⟩ := fill_spec hd he hr (clock_newYear _) hs (newYear_le hs) hf
      obtain ⟨hb1, hb2, c, hbc, hb3⟩ := h1.cache b h2
      have hfl : ∀ t, d.S t → ((t.ge env (start.getD e.start) && t.lt env stop) = true ↔
          (∀ s, start = some s → s.num ≤ t.num) ∧ t.num < stop.num) := by
        intro t ht
        rw [Bool.and_eq_true, clock_ge (hd.clock t ht).1 hgs.1, hgs.2 t ht,
          clock_lt (hd.clock t ht).1 hs.1 hs.2.1]
      refine ⟨h1, ?_, ?_⟩
      · intro v hv
        obtain ⟨t, ht, rfl⟩ := List.mem_map.mp hv
        obtain ⟨ht, hft⟩ := List.mem_filter.mp ht
        have hS := ((hb3 t).mp ht).1
        obtain ⟨hft1, hft2⟩ := (hfl t hS).mp hft
        exact ⟨hS, by rw [he.offsets.1, he.offsets.2], hft1, by simp only; omega, fun _ => hft2⟩
      · intro t ht hlt hst' hor
        refine List.mem_map.mpr ⟨t, List.mem_filter.mpr ⟨?_, (hfl t ht).mpr ⟨hst', hlt⟩⟩, by
          rw [he.offsets.1, he.offsets.2]⟩
        rcases hor with hor | hor | hor
        · exact (hb3 t).mpr ⟨ht, by omega⟩
        · rw [hr] at hor; simp at hor
        · exact (h4 hor t).mpr ⟨ht, hlt⟩

theorem elementAll_ok {d : Desc} {e e' : TzElement} {fuel : Nat} {start : Option DateTime}
    {stop : DateTime} {l : List (DateTime × Int × Int)} (hd : d.Ok env o) (he : ElementOk d e)
    (hs : Clock stop) (h : e.expandAll env o fuel start stop = some (l, e')) :
    ElementOk d e' := by
  unfold TzElement.expandAll at h
  simp only at h
  split at h
  · simp only [Option.some.injEq, Prod.mk.injEq] at h
    rw [← h.2]; exact he
  · split at h
    · simp only [Option.some.injEq, Prod.mk.injEq] at h
      rw [← h.2]; exact he
    · next hr =>
      rw [Option.map_eq_some_iff] at h
      obtain ⟨e1, hf, h⟩ := h
      simp only [Prod.mk.injEq] at h
      rw [← h.2]
      exact (fill_spec hd he (by simpa using hr) (clock_newYear _) hs (newYear_le hs) hf).1

theorem expandBelow_ok {d : Desc} {e e' : TzElement} {fuel : Nat} {x t : DateTime}
    (hd : d.Ok env o) (he : ElementOk d e) (h : e.expandBelow env o fuel x = some (t, e')) :
    ElementOk d e' := by
  unfold TzElement.expandBelow at h
  split at h
  · simp only [Option.some.injEq, Prod.mk.injEq] at h
    rw [← h.2]; exact he
  · next hr =>
    rw [Option.map_eq_some_iff] at h
    obtain ⟨e1, hf, h⟩ := h
    simp only [Prod.mk.injEq] at h
    obtain ⟨_, rfl⟩ := h
    rw [Bool.or_eq_true, not_or] at hr
    exact (fill_spec hd he (by simpa using hr.1) (clock_newYear _) (clock_newYear _) (le_refl _)
      hf).1

/-- The element is ready to be expanded up to `stop`: it does not recur, or it starts before the
year of `stop` and was not yet expanded up to that year. -/
def Ready (stop : DateTime) (e : TzElement) : Prop :=
  e.recurrences.hasRecurrence = false ∨ (e.below.getD e.start).num < (newYear stop.year).num

theorem expandElements_spec {fuel : Nat} {start : Option DateTime} {stop : DateTime}
    {ds : List Desc} {es es' : List TzElement}
    {l : List (DateTime × Int × Int)} (hds : ∀ d ∈ ds, d.Ok env o)
    (hes : List.Forall₂ ElementOk ds es) (hst : ∀ s, start = some s → Clock s) (hs : Clock stop)
    (h : Zone.expandElements env o fuel start stop es = some (l, es')) :
    List.Forall₂ ElementOk ds es' ∧
    (∀ v ∈ l, (∃ d ∈ ds, d.S v.1 ∧ v.2 = (d.offsetFrom, d.offsetTo)) ∧
      (∀ s, start = some s → s.num ≤ v.1.num) ∧ v.1.num ≤ stop.num ∧
      ((∀ e ∈ es, e.recurrences.hasRecurrence = true) → v.1.num < stop.num)) ∧
    ∀ d ∈ ds, ∀ t, d.S t → t.num < stop.num → (∀ s, start = some s → s.num ≤ t.num) →
      (t.num < (newYear stop.year).num ∨ ∀ e ∈ es, Ready stop e) →
      (t, d.offsetFrom, d.offsetTo) ∈ l := by
  induction hes generalizing es' l with
  | nil =>
    simp only [Zone.expandElements, Option.some.injEq, Prod.mk.injEq] at h
    obtain ⟨rfl, rfl⟩ := h
    exact ⟨.nil, by simp, by simp⟩
  | @cons d e ds es hd hrest ih =>
    rw [Zone.expandElements] at h
    split at h
    · simp at h
    · next l1 e1 h1 =>
      rw [Option.map_eq_some_iff] at h
      obtain ⟨⟨l2, es2⟩, h2, h⟩ := h
      simp only [Prod.mk.injEq] at h
      obtain ⟨rfl, rfl⟩ := h
      obtain ⟨a1, a2, a3⟩ := elementAll_spec (hds d (by simp)) hd hst hs h1
      obtain ⟨b1, b2, b3⟩ := ih (fun d' hd' => hds d' (by simp [hd'])) h2
      refine ⟨.cons a1 b1, ?_, ?_⟩
      · intro v hv
        rcases List.mem_append.mp hv with hv | hv
        · obtain ⟨i1, i2, i3, i4, i5⟩ := a2 v hv
          exact ⟨⟨d, by simp, i1, i2⟩, i3, i4, fun hall => i5 (hall e (by simp))⟩
        · obtain ⟨⟨d', hd', h⟩, i3, i4, i5⟩ := b2 v hv
          exact ⟨⟨d', by simp [hd'], h⟩, i3, i4, fun hall => i5 fun e he => hall e (by simp [he])⟩
      · intro d' hd' t ht hlt hst' hor
        rcases List.mem_cons.mp hd' with rfl | hd'
        · exact List.mem_append.mpr (.inl (a3 t ht hlt hst' (hor.imp_right fun h => h e (by simp))))
        · exact List.mem_append.mpr (.inr (b3 d' hd' t ht hlt hst'
            (hor.imp_right fun h e he => h e (by simp [he]))))

theorem expandElements_ok {fuel : Nat} {start : Option DateTime} {stop : DateTime}
    {ds : List Desc} {es es' : List TzElement}
    {l : List (DateTime × Int × Int)} (hds : ∀ d ∈ ds, d.Ok env o)
    (hes : List.Forall₂ ElementOk ds es) (hs : Clock stop)
    (h : Zone.expandElements env o fuel start stop es = some (l, es')) :
    List.Forall₂ ElementOk ds es' := by
  induction hes generalizing es' l with
  | nil =>
    simp only [Zone.expandElements, Option.some.injEq, Prod.mk.injEq] at h
    rw [← h.2]; exact .nil
  | @cons d e ds es hd hrest ih =>
    rw [Zone.expandElements] at h
    split at h
    · simp at h
    · next l1 e1 h1 =>
      rw [Option.map_eq_some_iff] at h
      obtain ⟨⟨l2, es2⟩, h2, h⟩ := h
      simp only [Prod.mk.injEq] at h
      obtain ⟨rfl, rfl⟩ := h
      exact .cons (elementAll_ok (hds d (by simp)) hd hs h1)
        (ih (fun d' hd' => hds d' (by simp [hd'])) h2)

/-! ## The transitions of the zone -/

theorem sameTuple_iff (he : DefaultUtc env) {a b : DateTime × Int × Int} (ha : Clock a.1)
    (hb : Clock b.1) : Zone.sameTuple env a b = true ↔ a = b := by
  unfold Zone.sameTuple sameKey DateTime.hashKey
  rw [Bool.and_eq_true, Bool.and_eq_true, decide_eq_true_iff, decide_eq_true_iff, clock_eq ha hb]
  constructor
  · rintro ⟨⟨_, h1⟩, h2⟩; exact Prod.ext h1 h2
  · rintro rfl; exact ⟨⟨rfl, rfl⟩, rfl⟩

theorem tupleSet_mem (he : DefaultUtc env) : ∀ (l s : List (DateTime × Int × Int)),
    (∀ v ∈ l, Clock v.1) → (∀ v ∈ s, Clock v.1) → ∀ v,
    (v ∈ l.foldl (fun s x => if s.any fun y => Zone.sameTuple env y x then s else s ++ [x]) s ↔
      v ∈ s ∨ v ∈ l)
  | [], s, _, _, v => by simp
  | x :: l, s, hl, hs, v => by
    rw [List.foldl_cons]
    have hx := hl x (by simp)
    by_cases hc : (s.any fun y => Zone.sameTuple env y x) = true
    · rw [if_pos hc, tupleSet_mem he l s (fun v hv => hl v (by simp [hv])) hs]
      obtain ⟨y, hy, hyx⟩ := List.any_eq_true.mp hc
      rw [sameTuple_iff he (hs y hy) hx] at hyx
      subst hyx
      rw [List.mem_cons]
      constructor
      · rintro (h | h)
        · exact .inl h
        · exact .inr (.inr h)
      · rintro (h | h | h)
        · exact .inl h
        · exact .inl (h ▸ hy)
        · exact .inr h
    · rw [if_neg hc, tupleSet_mem he l _ (fun v hv => hl v (by simp [hv])) fun v hv => by
        rcases List.mem_append.mp hv with hv | hv
        · exact hs v hv
        · simp only [List.mem_singleton] at hv; subst hv; exact hx]
      simp [or_assoc]

theorem tupleSet_nodup (he : DefaultUtc env) : ∀ (l s : List (DateTime × Int × Int)),
    (∀ v ∈ l, Clock v.1) → (∀ v ∈ s, Clock v.1) → s.Nodup →
    (l.foldl (fun s x => if s.any fun y => Zone.sameTuple env y x then s else s ++ [x]) s).Nodup
  | [], s, _, _, h => h
  | x :: l, s, hl, hs, h => by
    rw [List.foldl_cons]
    have hx := hl x (by simp)
    by_cases hc : (s.any fun y => Zone.sameTuple env y x) = true
    · rw [if_pos hc]
      exact tupleSet_nodup he l s (fun v hv => hl v (by simp [hv])) hs h
    · rw [if_neg hc]
      refine tupleSet_nodup he l _ (fun v hv => hl v (by simp [hv])) ?_ ?_
      · intro v hv
        rcases List.mem_append.mp hv with hv | hv
        · exact hs v hv
        · simp only [List.mem_singleton] at hv; subst hv; exact hx
      · refine List.Nodup.append h (by simp) ?_
        rw [List.disjoint_singleton]
        intro hm
        exact hc (List.any_eq_true.mpr ⟨x, hm, (sameTuple_iff he hx hx).mpr rfl⟩)

/-- The list of all transitions up to 1 January of the year `y`, sorted by local time. -/
structure Listed (ds : List Desc) (y : Int) (all : List Transition) : Prop where
  sound : ∀ v ∈ all, Tr ds v.loc v.offsetFrom v.offsetTo ∧
    v = Zone.withUtc (v.loc, v.offsetFrom, v.offsetTo)
  complete : ∀ t f g, Tr ds t f g → t.num < (newYear y).num → Zone.withUtc (t, f, g) ∈ all
  sorted : all.Pairwise fun a b => a.loc.num ≤ b.loc.num

theorem expandAll_range (he : DefaultUtc env) {o' : SetOrder (DateTime × Int × Int)} {fuel : Nat}
    {start : Option DateTime} {stop : DateTime}
    {ds : List Desc} {z z' : Zone} {all : List Transition} (hds : ∀ d ∈ ds, d.Ok env o)
    (hes : List.Forall₂ ElementOk ds z.elements) (hst : ∀ s, start = some s → Clock s)
    (hs : Clock stop)
    (h : z.expandAll env o o' fuel start stop = some (all, z')) :
    List.Forall₂ ElementOk ds z'.elements ∧
    (∀ v ∈ all, Tr ds v.loc v.offsetFrom v.offsetTo ∧
      v = Zone.withUtc (v.loc, v.offsetFrom, v.offsetTo) ∧
      (∀ s, start = some s → s.num ≤ v.loc.num) ∧ v.loc.num ≤ stop.num ∧
      ((∀ e ∈ z.elements, e.recurrences.hasRecurrence = true) → v.loc.num < stop.num)) ∧
    (∀ t f g, Tr ds t f g → t.num < stop.num → (∀ s, start = some s → s.num ≤ t.num) →
      (t.num < (newYear stop.year).num ∨ ∀ e ∈ z.elements, Ready stop e) →
      Zone.withUtc (t, f, g) ∈ all) ∧
    (all.Pairwise fun a b => a.loc.num ≤ b.loc.num) ∧ all.Nodup := by
  unfold Zone.expandAll at h
  rw [Option.map_eq_some_iff] at h
  obtain ⟨⟨l, es⟩, hx, h⟩ := h
  simp only [Prod.mk.injEq] at h
  obtain ⟨rfl, rfl⟩ := h
  obtain ⟨h1, h2, h3⟩ := expandElements_spec hds hes hst hs hx
  have hl : ∀ v ∈ l, Clock v.1 := fun v hv => by
    obtain ⟨⟨d, hd, hs, _⟩, _⟩ := h2 v hv
    exact ((hds d hd).clock _ hs).1
  have hmem : ∀ v, v ∈ ((o'.run (Zone.tupleSet env l)).map Zone.withUtc).insertionSort
      (fun a b => a.loc.posix env ≤ b.loc.posix env) ↔ ∃ w ∈ l, Zone.withUtc w = v := by
    intro v
    rw [(List.perm_insertionSort _ _).mem_iff, List.mem_map]
    refine exists_congr fun w => and_congr_left fun _ => ?_
    rw [(o'.perm _).mem_iff]
    unfold Zone.tupleSet
    rw [tupleSet_mem he l [] hl (by simp)]
    simp
  refine ⟨h1, ?_, ?_, ?_, ?_⟩
  · intro v hv
    obtain ⟨w, hw, rfl⟩ := (hmem v).mp hv
    obtain ⟨⟨d, hd, hs, hw'⟩, i3, i4, i5⟩ := h2 w hw
    exact ⟨⟨d, hd, hs, congrArg Prod.fst hw', congrArg Prod.snd hw'⟩, rfl, i3, i4, i5⟩
  · rintro t f g ⟨d, hd, hs, rfl, rfl⟩ hlt hst' hor
    exact (hmem _).mpr ⟨_, h3 d hd t hs hlt hst' hor, rfl⟩
  · have hp : (((o'.run (Zone.tupleSet env l)).map Zone.withUtc).insertionSort
        (fun a b => a.loc.posix env ≤ b.loc.posix env)).Pairwise
        (fun a b => a.loc.posix env ≤ b.loc.posix env) := List.pairwise_insertionSort _ _
    refine hp.imp_of_mem fun {a b} ha hb hab => ?_
    obtain ⟨w, hw, rfl⟩ := (hmem a).mp ha
    obtain ⟨w', hw', rfl⟩ := (hmem b).mp hb
    exact (clock_posix_le he (hl w hw) (hl w' hw')).mp hab
  · rw [(List.perm_insertionSort _ _).nodup_iff]
    refine List.Nodup.map ?_ ((o'.perm _).nodup_iff.mpr (tupleSet_nodup he l [] hl (by simp) .nil))
    rintro ⟨a, f, g⟩ ⟨a', f', g'⟩ h
    simp only [Zone.withUtc, Transition.mk.injEq] at h
    rw [h.1, h.2.2.1, h.2.2.2]

theorem expandAll_spec (he : DefaultUtc env) {o' : SetOrder (DateTime × Int × Int)} {fuel : Nat}
    {y : Int} {ds : List Desc} {z z' : Zone} {all : List Transition} (hds : ∀ d ∈ ds, d.Ok env o)
    (hes : List.Forall₂ ElementOk ds z.elements)
    (h : z.expandAll env o o' fuel none (newYear y) = some (all, z')) :
    List.Forall₂ ElementOk ds z'.elements ∧ Listed ds y all := by
  obtain ⟨h1, h2, h3, h4, _⟩ := expandAll_range he hds hes (by simp) (clock_newYear y) h
  exact ⟨h1, fun v hv => ⟨(h2 v hv).1, (h2 v hv).2.1⟩,
    fun t f g ht hlt => h3 t f g ht hlt (by simp) (.inl hlt), h4⟩

theorem cacheMax_eq {t : DateTime} (ht : Clock t) : Zone.cacheMax t = newYear (t.year + 2) := by
  obtain ⟨hv, h1, h2, h3⟩ := ht
  have hv' : ({ t with hours := 0, minutes := 0, seconds := 0 } : DateTime).Valid := by
    obtain ⟨⟨hd, _⟩, _⟩ := hv
    exact ⟨⟨hd, by simp [DateTime.civil]⟩, by simp⟩
  have hy := (DateTime.offsetYear_year _ hv' 2).1
  unfold Zone.cacheMax
  unfold newYear
  rw [DateTime.mk.injEq]
  refine ⟨hy, rfl, rfl, ?_, ?_, ?_, h1, h2, h3⟩ <;>
    simp [DateTime.offsetYear, DateTime.normalise]

theorem num_offset {t : DateTime} (ht : Clock t) (n : Int) :
    ({ t.offsetSeconds n with utc := true } : DateTime).num = t.num + n := by
  have h1 : (t.offsetSeconds n).secNum = t.secNum + n := DateTime.addSeconds_secNum ht.2.1 n
  have hv : (t.offsetSeconds n).Valid := DateTime.normalise_valid _
  rw [hv.secNum, ht.1.secNum] at h1
  exact h1

/-- Comparing with the transition `v` as the search does. -/
theorem search_less {ds : List Desc} {y : Int} {all : List Transition} (hds : ∀ d ∈ ds, d.Ok env o)
    (hl : Listed ds y all) {x : DateTime} (hx : Clock x) (rel : Bool) {v : Transition}
    (hv : v ∈ all) : x.lt env (if rel then v.utc else v.loc) = true ↔
      x.num < timeOf rel v.loc v.offsetFrom := by
  obtain ⟨⟨d, hd, hs, _⟩, hu⟩ := hl.sound v hv
  have hc := ((hds d hd).clock _ hs).1
  have hu : v.utc = { v.loc.offsetSeconds (-v.offsetFrom) with utc := true } := by
    conv_lhs => rw [hu]
    rfl
  cases rel with
  | false =>
    simp only [timeOf, Bool.false_eq_true, if_false]
    exact clock_lt hx hc.1 hc.2.1
  | true =>
    simp only [timeOf, if_true]
    have hv' : ({ v.loc.offsetSeconds (-v.offsetFrom) with utc := true } : DateTime).Valid :=
      DateTime.normalise_valid { v.loc with seconds := v.loc.seconds + -v.offsetFrom }
    rw [hu, clock_lt hx hv' hc.2.1, num_offset hc, Int.sub_eq_add_neg]

theorem bisectRight_congr {α : Type} {f g : α → Bool} {a : List α} (h : ∀ e ∈ a, f e = g e) :
    ∀ (n lo hi : Nat), hi - lo ≤ n → bisectRight f a lo hi = bisectRight g a lo hi := by
  intro n
  induction n with
  | zero =>
    intro lo hi hn
    rw [bisectRight, dif_neg (by omega), bisectRight, dif_neg (by omega)]
  | succ n ih =>
    intro lo hi hn
    rw [bisectRight.eq_def f, bisectRight.eq_def g]
    by_cases hlt : lo < hi
    · rw [dif_pos hlt, dif_pos hlt]
      cases he : a[(lo + hi) / 2]? with
      | none => rfl
      | some e =>
        simp only
        rw [h e (List.mem_of_getElem? he), ih _ _ (by omega), ih _ _ (by omega)]
    · rw [dif_neg hlt, dif_neg hlt]

theorem num_mod {t : DateTime} (h : t.Valid) : t.num % 60 = t.seconds := by
  obtain ⟨⟨_, _, _, _, _, h5, h6⟩, _⟩ := h
  unfold DateTime.num timeNum
  simp only [DateTime.civil] at *
  omega

theorem search_key {ds : List Desc} {y : Int} {all : List Transition} (hds : ∀ d ∈ ds, d.Ok env o)
    (hm : WholeMinutes ds) (hl : Listed ds y all) {x x' : DateTime} (hx : Clock x)
    (hx' : Clock x') {rel rel' : Bool} (hk : Zone.cacheKey x' rel' = Zone.cacheKey x rel) :
    Zone.search env all x' rel' = Zone.search env all x rel := by
  unfold Zone.cacheKey at hk
  simp only [Prod.mk.injEq] at hk
  obtain ⟨k1, k2, k3, k4, k5, rfl⟩ := hk
  refine bisectRight_congr (fun v hv => ?_) _ _ _ (le_refl _)
  rw [Bool.eq_iff_iff, search_less hds hl hx _ hv, search_less hds hl hx' _ hv]
  obtain ⟨ht, _⟩ := hl.sound v hv
  obtain ⟨h1, h2⟩ := hm _ _ _ ht
  obtain ⟨d, hd, hs, _⟩ := ht
  have h3 := num_mod ((hds d hd).clock _ hs).1.1
  have h4 : timeOf rel' v.loc v.offsetFrom % 60 = 0 := by
    unfold timeOf
    split <;> omega
  have h5 := num_mod hx.1
  have h6 := num_mod hx'.1
  obtain ⟨⟨_, _, _, _, _, s1, s2⟩, _⟩ := hx.1
  obtain ⟨⟨_, _, _, _, _, s3, s4⟩, _⟩ := hx'.1
  have h7 : x'.num - x'.seconds = x.num - x.seconds := by
    unfold DateTime.num timeNum
    simp only [DateTime.civil, DateTime.date, k1, k2, k3, k4, k5]
    omega
  simp only [DateTime.civil] at s1 s2 s3 s4
  omega

/-- The value found at the position the search gives. -/
theorem search_value {ds : List Desc} {y : Int} {all : List Transition}
    (hds : ∀ d ∈ ds, d.Ok env o) (hl : Listed ds y all) {x : DateTime} (hx : Clock x) {rel : Bool}
    (hy : x.year < y) (hrel : rel = true → OrderlyAt ds x.num) {v : Int}
    (hv : v = if Zone.search env all x rel ≠ 0 then
      (all[Zone.search env all x rel - 1]?.map (·.offsetTo)).getD 0 else 0) :
    IsOffset ds rel x.num v ∨ BeforeAll ds rel x.num ∧ v = 0 := by
  have hsort : all.Pairwise fun a b => timeOf rel b.loc b.offsetFrom ≤ x.num →
      timeOf rel a.loc a.offsetFrom ≤ timeOf rel b.loc b.offsetFrom := by
    refine hl.sorted.imp_of_mem fun {a b} ha hb hab hle => ?_
    unfold timeOf at hle ⊢
    cases rel with
    | false => exact hab
    | true => exact (hrel rfl).1 _ _ _ _ _ _ (hl.sound a ha).1 (hl.sound b hb).1 hle hab
  have hmono : all.Pairwise fun a b =>
      (x.lt env (if rel then a.utc else a.loc)) = true →
      (x.lt env (if rel then b.utc else b.loc)) = true := by
    refine hsort.imp_of_mem fun {a b} ha hb hab h => ?_
    rw [search_less hds hl hx _ ha] at h
    rw [search_less hds hl hx _ hb]
    omega
  obtain ⟨i1, i2, i3⟩ := bisectRight_spec hmono all.length 0 all.length (by omega) (by omega)
    (by omega) (by intro j h hj; omega) (by intro j h hj; omega)
  change Zone.search env all x rel ≤ all.length at i1
  change ∀ j (h : j < all.length), j < Zone.search env all x rel → _ at i2
  change ∀ j (h : j < all.length), Zone.search env all x rel ≤ j → _ at i3
  generalize Zone.search env all x rel = i at *
  have hin : ∀ t f g, Tr ds t f g → timeOf rel t f ≤ x.num → ∃ j, ∃ h : j < all.length,
      j < i ∧ all[j].loc = t ∧ all[j].offsetFrom = f ∧ all[j].offsetTo = g := by
    intro t f g ht hle
    have hlt := lt_newYear hx hy
    have hb : t.num < (newYear y).num := by
      cases rel with
      | false =>
        simp only [timeOf, Bool.false_eq_true, if_false] at hle
        omega
      | true =>
        simp only [timeOf, if_true] at hle
        exact (hrel rfl).2 t f g y ht hle hlt
    obtain ⟨j, hj, he⟩ := List.getElem_of_mem (hl.complete t f g ht hb)
    refine ⟨j, hj, ?_, by rw [he]; rfl, by rw [he]; rfl, by rw [he]; rfl⟩
    by_contra hn
    have := i3 j hj (by omega)
    rw [search_less hds hl hx _ (List.getElem_mem hj), he] at this
    change x.num < timeOf rel t f at this
    omega
  by_cases hi : i = 0
  · right
    rw [if_neg (by omega)] at hv
    refine ⟨fun t f g ht => ?_, hv⟩
    by_contra hn
    obtain ⟨j, _, hj, _⟩ := hin t f g ht (by omega)
    omega
  · left
    rw [if_pos hi] at hv
    have hlt : i - 1 < all.length := by omega
    rw [List.getElem?_eq_getElem hlt, Option.map_some, Option.getD_some] at hv
    have hmem := List.getElem_mem hlt
    have h1 := i2 (i - 1) hlt (by omega)
    rw [Bool.eq_false_iff, ne_eq, search_less hds hl hx _ hmem] at h1
    refine ⟨all[i - 1].loc, all[i - 1].offsetFrom, ?_, by omega, ?_⟩
    · rw [hv]; exact (hl.sound _ hmem).1
    · intro t f g ht hle
      obtain ⟨j, hj, hji, rfl, rfl, rfl⟩ := hin t f g ht hle
      rw [List.pairwise_iff_getElem] at hsort
      by_cases hj' : j = i - 1
      · subst hj'; omega
      · exact hsort j (i - 1) hj hlt (by omega) (by omega)

/-! ## All states -/

/-- The invariant of a time zone through all queries. -/
structure ZoneOk (env : TzEnv) (ds : List Desc) (z : Zone) : Prop where
  elements : List.Forall₂ ElementOk ds z.elements
  all : ∀ y, z.maxYear = some y → Listed ds y z.all ∧
    ∀ v ∈ z.offsets, ∃ x rel, Clock x ∧ v = (Zone.cacheKey x rel, Zone.search env z.all x rel)

theorem recache_ok (he : DefaultUtc env) {o' : SetOrder (DateTime × Int × Int)} {fuel : Nat}
    {ds : List Desc} {z z' : Zone} {x : DateTime} (hds : ∀ d ∈ ds, d.Ok env o)
    (hz : ZoneOk env ds z) (hx : Clock x) (h : z.recache env o o' fuel x = some z') :
    ZoneOk env ds z' ∧ ∃ y, z'.maxYear = some y ∧ x.year < y := by
  unfold Zone.recache at h
  split at h
  · rw [Option.map_eq_some_iff] at h
    obtain ⟨⟨all, z1⟩, h1, rfl⟩ := h
    rw [cacheMax_eq hx] at h1 ⊢
    obtain ⟨h2, h3⟩ := expandAll_spec he hds hz.elements h1
    refine ⟨⟨h2, ?_⟩, _, rfl, ?_⟩
    · intro y hy
      simp only [Option.some.injEq] at hy
      subst hy
      exact ⟨h3, by simp⟩
    · simp only [newYear]; omega
  · next hc =>
    simp only [Option.some.injEq] at h
    subst h
    refine ⟨hz, ?_⟩
    cases hm : z.maxYear with
    | none => simp [hm] at hc
    | some y =>
      refine ⟨y, rfl, ?_⟩
      simpa [hm] using hc

theorem lookup_ok {ds : List Desc} {z z' : Zone} {x : DateTime} {y v : Int} {rel : Bool}
    (hds : ∀ d ∈ ds, d.Ok env o) (hm : WholeMinutes ds) (hz : ZoneOk env ds z) (hx : Clock x)
    (hy : z.maxYear = some y) (hxy : x.year < y) (h : z.lookup env x rel = (v, z')) :
    ZoneOk env ds z' ∧ ((rel = true → OrderlyAt ds x.num) →
      IsOffset ds rel x.num v ∨ BeforeAll ds rel x.num ∧ v = 0) := by
  obtain ⟨hl, hc⟩ := hz.all y hy
  have hs : ∀ i, i = Zone.search env z.all x rel →
      ((rel = true → OrderlyAt ds x.num) → IsOffset ds rel x.num (if i ≠ 0 then
        (z.all[i - 1]?.map (·.offsetTo)).getD 0 else 0) ∨ BeforeAll ds rel x.num ∧
        (if i ≠ 0 then (z.all[i - 1]?.map (·.offsetTo)).getD 0 else 0) = 0) := by
    rintro i rfl hrel
    exact search_value hds hl hx hxy hrel rfl
  unfold Zone.lookup at h
  split at h
  · next he =>
    simp only [Prod.mk.injEq] at h
    obtain ⟨rfl, rfl⟩ := h
    refine ⟨hz, fun hrel => ?_⟩
    have h0 : Zone.search env z.all x rel = 0 := by
      unfold Zone.search
      rw [he]
      rw [bisectRight]
      simp
    have := hs 0 h0.symm hrel
    simpa using this
  · cases hf : z.offsets.find? fun v => decide (v.1 = Zone.cacheKey x rel) with
    | some w =>
      simp only [hf, Prod.mk.injEq] at h
      obtain ⟨rfl, rfl⟩ := h
      refine ⟨hz, ?_⟩
      have hw := List.find?_some hf
      obtain ⟨x', rel', hx', rfl⟩ := hc w (List.mem_of_find?_eq_some hf)
      rw [decide_eq_true_iff] at hw
      exact hs _ (search_key hds hm hl hx hx' hw)
    | none =>
      simp only [hf, Prod.mk.injEq] at h
      obtain ⟨rfl, rfl⟩ := h
      refine ⟨⟨hz.elements, ?_⟩, hs _ rfl⟩
      intro y' hy'
      obtain ⟨hl', hc'⟩ := hz.all y' hy'
      refine ⟨hl', fun w hw => ?_⟩
      rcases List.mem_append.mp hw with hw | hw
      · split at hw
        · simp at hw
        · exact hc' w hw
      · simp only [List.mem_singleton] at hw
        exact ⟨x, rel, hx, hw⟩

theorem findLoop_ok {fuel : Nat} {x : DateTime} {ds : List Desc} {es es' : List TzElement}
    {f f' : Option (TzElement × DateTime)} (hds : ∀ d ∈ ds, d.Ok env o)
    (hes : List.Forall₂ ElementOk ds es)
    (h : Zone.findLoop env o fuel x es f = some (f', es')) : List.Forall₂ ElementOk ds es' := by
  induction hes generalizing es' f f' with
  | nil =>
    simp only [Zone.findLoop, Option.some.injEq, Prod.mk.injEq] at h
    rw [← h.2]; exact .nil
  | @cons d e ds es hd hrest ih =>
    rw [Zone.findLoop] at h
    split at h
    · simp at h
    · next t e1 h1 =>
      rw [Option.map_eq_some_iff] at h
      obtain ⟨⟨f2, es2⟩, h2, h⟩ := h
      simp only [Prod.mk.injEq] at h
      obtain ⟨_, rfl⟩ := h
      exact .cons (expandBelow_ok (hds d (by simp)) hd h1)
        (ih (fun d' hd' => hds d' (by simp [hd'])) h2)

/-- The states of a time zone that starts as `z`, after any queries about real times. -/
inductive ZoneReach (env : TzEnv) (o : SetOrder) (o' : SetOrder (DateTime × Int × Int)) (z : Zone) :
    Zone → Prop
  | start : ZoneReach env o o' z z
  | offset {z1 z2 : Zone} {fuel : Nat} {x : DateTime} {rel : Bool} {v : Int}
      (h : ZoneReach env o o' z z1) (hx : x.Valid) (hd : x.dateOnly = false)
      (hq : z1.offsetSeconds env o o' fuel x rel = some (v, z2)) : ZoneReach env o o' z z2
  | find {z1 z2 : Zone} {fuel : Nat} {x : DateTime} {e : Option TzElement}
      (h : ZoneReach env o o' z z1)
      (hq : z1.findElement env o fuel x = some (e, z2)) : ZoneReach env o o' z z2
  | expand {z1 z2 : Zone} {fuel : Nat} {start : Option DateTime} {stop : DateTime}
      {all : List Transition} (h : ZoneReach env o o' z z1) (hs : Clock stop)
      (hq : z1.expandAll env o o' fuel start stop = some (all, z2)) : ZoneReach env o o' z z2

/-- A time zone as parsed: nothing is cached, and the elements are as described. -/
def Fresh (ds : List Desc) (z : Zone) : Prop :=
  z.maxYear = none ∧ List.Forall₂ ElementOk ds z.elements

theorem clock_asLocal {x : DateTime} (hx : x.Valid) (hd : x.dateOnly = false) :
    Clock (Zone.asLocal x) := ⟨hx, hd, rfl, rfl⟩

theorem offsetSeconds_ok (he : DefaultUtc env) {o' : SetOrder (DateTime × Int × Int)} {fuel : Nat}
    {ds : List Desc} {z z' : Zone} {x : DateTime} {rel : Bool} {v : Int}
    (hds : ∀ d ∈ ds, d.Ok env o) (hm : WholeMinutes ds) (hz : ZoneOk env ds z) (hx : x.Valid)
    (hd : x.dateOnly = false) (hq : z.offsetSeconds env o o' fuel x rel = some (v, z')) :
    ZoneOk env ds z' ∧ ((rel = true → OrderlyAt ds x.num) →
      IsOffset ds rel x.num v ∨ BeforeAll ds rel x.num ∧ v = 0) := by
  unfold Zone.offsetSeconds at hq
  rw [Option.map_eq_some_iff] at hq
  obtain ⟨z1, h1, h2⟩ := hq
  obtain ⟨h3, y, h4, h5⟩ := recache_ok he hds hz (clock_asLocal hx hd) h1
  exact lookup_ok (x := Zone.asLocal x) hds hm h3 (clock_asLocal hx hd) h4 h5 h2

theorem reach_ok (he : DefaultUtc env) {o' : SetOrder (DateTime × Int × Int)} {ds : List Desc}
    {z z' : Zone} (hds : ∀ d ∈ ds, d.Ok env o) (hm : WholeMinutes ds) (hz : Fresh ds z)
    (h : ZoneReach env o o' z z') : ZoneOk env ds z' := by
  induction h with
  | start => exact ⟨hz.2, fun y hy => by rw [hz.1] at hy; exact absurd hy (by simp)⟩
  | offset _ hx hd hq ih => exact (offsetSeconds_ok he hds hm ih hx hd hq).1
  | find _ hq ih =>
    unfold Zone.findElement at hq
    rw [Option.map_eq_some_iff] at hq
    obtain ⟨⟨f, es⟩, h1, h2⟩ := hq
    simp only [Prod.mk.injEq] at h2
    obtain ⟨_, rfl⟩ := h2
    exact ⟨findLoop_ok hds ih.elements h1, ih.all⟩
  | expand _ hs hq ih =>
    unfold Zone.expandAll at hq
    rw [Option.map_eq_some_iff] at hq
    obtain ⟨⟨l, es⟩, h1, h2⟩ := hq
    simp only [Prod.mk.injEq] at h2
    obtain ⟨_, rfl⟩ := h2
    exact ⟨expandElements_ok hds ih.elements hs h1, ih.all⟩

/-- C35: after any queries, the UTC offset given for a time is that after the last transition at or
before it, and 0 before the first; for a search relative to UTC if the transitions up to then are in
the same order in UTC and none of them moves over the turn of a year.

Missing: times before the first transition, `C35_fails_before`, and the element in force, `C35_fails_element`. -/
theorem C35_offset_partial (he : DefaultUtc env) {o' : SetOrder (DateTime × Int × Int)}
    {ds : List Desc} (hds : ∀ d ∈ ds, d.Ok env o) (hm : WholeMinutes ds) {z z1 z2 : Zone}
    (hz : Fresh ds z) (hr : ZoneReach env o o' z z1) {fuel : Nat} {x : DateTime} (hx : x.Valid)
    (hd : x.dateOnly = false) {rel : Bool} (hrel : rel = true → OrderlyAt ds x.num) {v : Int}
    (hq : z1.offsetSeconds env o o' fuel x rel = some (v, z2)) :
    IsOffset ds rel x.num v ∨ BeforeAll ds rel x.num ∧ v = 0 :=
  (offsetSeconds_ok he hds hm (reach_ok he hds hm hz hr) hx hd hq).2 hrel

/-- C36: the answer does not depend on what was asked before, nor on the order in which sets are
run through, if no two transitions at one time lead to different offsets.

Missing: transitions not at whole minutes, `C36_fails_seconds`, dates, `C36_fails_date`, the turn of the year in UTC,
`C36_fails_year`, and ties, `C36_fails_tie`. -/
theorem C36_history_partial (he : DefaultUtc env) {ds : List Desc}
    {oa ob : SetOrder} {oa' ob' : SetOrder (DateTime × Int × Int)}
    (hda : ∀ d ∈ ds, d.Ok env oa) (hdb : ∀ d ∈ ds, d.Ok env ob) (hm : WholeMinutes ds)
    {z za zb za' zb' : Zone} (hz : Fresh ds z) (hra : ZoneReach env oa oa' z za)
    (hrb : ZoneReach env ob ob' z zb) {na nb : Nat} {x : DateTime} (hx : x.Valid)
    (hd : x.dateOnly = false) {rel : Bool} (hrel : rel = true → OrderlyAt ds x.num)
    (hone : ∀ t f g t' f' g', Tr ds t f g → Tr ds t' f' g' → timeOf rel t f = timeOf rel t' f' →
      g = g') {va vb : Int}
    (hqa : za.offsetSeconds env oa oa' na x rel = some (va, za'))
    (hqb : zb.offsetSeconds env ob ob' nb x rel = some (vb, zb')) : va = vb := by
  have h1 := C35_offset_partial he hda hm hz hra hx hd hrel hqa
  have h2 := C35_offset_partial he hdb hm hz hrb hx hd hrel hqb
  rcases h1 with ⟨t, f, h1, h1', h1''⟩ | ⟨h1, rfl⟩
  · rcases h2 with ⟨t', f', h2, h2', h2''⟩ | ⟨h2, rfl⟩
    · have := h1'' t' f' vb h2 h2'
      have := h2'' t f va h1 h1'
      exact hone _ _ _ _ _ _ h1 h2 (by omega)
    · have := h2 _ _ _ h1
      omega
  · rcases h2 with ⟨t', f', h2, h2', h2''⟩ | ⟨_, rfl⟩
    · have := h1 _ _ _ h2
      omega
    · rfl

end

end PyCal
