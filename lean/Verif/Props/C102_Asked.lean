import Verif.Props.C102_Descriptor
import Verif.Props.C35_Ends

/-!
# C102: the text that describes a time zone, after the offset was asked for; and that there is one
-/

namespace PyCal
open DateTime (TzEnv)
open Spec
open TzElement (newYear)

namespace Desc102
variable {env : TzEnv} {o : SetOrder} {o' : SetOrder (DateTime × Int × Int)} {fuel : Nat}

/-- The transitions before the year `y`, other than the first, are in the cache of the element. -/
def Filled (env : TzEnv) (y : Int) (e0 e : TzElement) : Prop :=
  ∀ t, (descOf env e0).S t → t.num < (newYear y).num → t = e0.start ∨ ∃ b, e.below = some b ∧ t.num < b.num

/-- The cache does not get smaller. -/
def Grows (e e' : TzElement) : Prop := ∀ b, Clock b → e.below = some b → ∃ b', e'.below = some b' ∧ b.num ≤ b'.num

theorem Grows.refl (e : TzElement) : Grows e e := fun b _ hb => ⟨b, hb, le_refl _⟩

theorem Filled.grows {y : Int} {e0 e e' : TzElement} (hk : Kept env e0 e) (h : Filled env y e0 e) (hg : Grows e e') :
    Filled env y e0 e' := by
  intro t ht hlt
  rcases h t ht hlt with h | ⟨b, hb, h⟩
  · exact .inl h
  · obtain ⟨b', h1, h2⟩ := hg b (hk.ok.cache b hb).1 hb
    exact .inr ⟨b', h1, by omega⟩

theorem expandBelow_grows {e e' : TzElement} {x t : DateTime} (h : e.expandBelow env o fuel x = some (t, e')) : Grows e e' := by
  unfold TzElement.expandBelow at h
  split at h
  · cases h; exact .refl _
  · rw [Option.map_eq_some_iff] at h
    obtain ⟨e1, h1, h2⟩ := h
    cases h2
    exact fun b hc hb => fill_below (clock_newYear _) hc hb h1

theorem expandAll_grows {e e' : TzElement} {start : Option DateTime} {stop : DateTime} {l : List (DateTime × Int × Int)}
    (h : e.expandAll env o fuel start stop = some (l, e')) : Grows e e' := by
  unfold TzElement.expandAll at h
  simp only at h
  split at h
  · cases h; exact .refl _
  · split at h
    · cases h; exact .refl _
    · rw [Option.map_eq_some_iff] at h
      obtain ⟨e1, h1, h2⟩ := h
      cases h2
      exact fun b hc hb => fill_below (clock_newYear _) hc hb h1

/-- After all transitions up to a year are asked for, they are in the cache. -/
theorem expandAll_filled {e0 e e' : TzElement} {start : Option DateTime} {y : Int} {l : List (DateTime × Int × Int)}
    (hd : (descOf env e0).Ok env o) (he : Kept env e0 e) (h : e.expandAll env o fuel start (newYear y) = some (l, e')) :
    Filled env y e0 e' := by
  have hst : e.start = e0.start := he.ok.start
  have hcs : Clock e0.start := hd.start
  intro t ht hlt
  unfold TzElement.expandAll at h
  simp only at h
  split at h
  · next hg =>
    rw [hst, clock_gt hcs (clock_newYear y)] at hg
    have := (hd.clock t ht).2
    change e0.start.num ≤ t.num at this
    omega
  · split at h
    · next hn =>
      left
      exact (hd.single _ he.ok.state (by simpa using hn) t).mp ht
    · next hn =>
      rw [Option.map_eq_some_iff] at h
      obtain ⟨e1, h1, h2⟩ := h
      cases h2
      obtain ⟨_, b, hb, hle⟩ := fill_kept hd he (by simpa using hn) (clock_newYear _) (clock_newYear _) (le_refl _) h1
      exact .inr ⟨b, hb, by change (newYear y).num ≤ b.num at hle; omega⟩

theorem expandElements_filled {start : Option DateTime} {y : Int} {es0 es es' : List TzElement}
    {l : List (DateTime × Int × Int)} (hds : ∀ e ∈ es0, (descOf env e).Ok env o) (hes : List.Forall₂ (Kept env) es0 es)
    (h : Zone.expandElements env o fuel start (newYear y) es = some (l, es')) : List.Forall₂ (Filled env y) es0 es' := by
  induction hes generalizing es' l with
  | nil => rw [Zone.expandElements] at h; cases h; exact .nil
  | @cons d e ds es hd hrest ih =>
    rw [Zone.expandElements] at h
    split at h
    · cases h
    · next l1 e1 h1 =>
      rw [Option.map_eq_some_iff] at h
      obtain ⟨⟨l2, es2⟩, h2, h3⟩ := h
      cases h3
      exact .cons (expandAll_filled (hds d (by simp)) hd h1) (ih (fun d' hd' => hds d' (by simp [hd'])) h2)

theorem expandElements_grows {start : Option DateTime} {stop : DateTime} {es es' : List TzElement}
    {l : List (DateTime × Int × Int)} (h : Zone.expandElements env o fuel start stop es = some (l, es')) :
    List.Forall₂ Grows es es' := by
  induction es generalizing es' l with
  | nil => rw [Zone.expandElements] at h; cases h; exact .nil
  | cons e es ih =>
    rw [Zone.expandElements] at h
    split at h
    · cases h
    · next l1 e1 h1 =>
      rw [Option.map_eq_some_iff] at h
      obtain ⟨⟨l2, es2⟩, h2, h3⟩ := h
      cases h3
      exact .cons (expandAll_grows h1) (ih h2)

theorem findLoop_grows {x : DateTime} {es es' : List TzElement} {f f' : Option (TzElement × DateTime)}
    (h : Zone.findLoop env o fuel x es f = some (f', es')) : List.Forall₂ Grows es es' := by
  induction es generalizing es' f f' with
  | nil => rw [Zone.findLoop] at h; cases h; exact .nil
  | cons e es ih =>
    rw [Zone.findLoop] at h
    split at h
    · cases h
    · next t e1 h1 =>
      rw [Option.map_eq_some_iff] at h
      obtain ⟨⟨f2, es2⟩, h2, h3⟩ := h
      cases h3
      exact .cons (expandBelow_grows h1) (ih h2)

theorem filled_all {y : Int} {es0 es es' : List TzElement} (hk : List.Forall₂ (Kept env) es0 es)
    (h : List.Forall₂ (Filled env y) es0 es) (hg : List.Forall₂ Grows es es') : List.Forall₂ (Filled env y) es0 es' := by
  induction hk generalizing es' with
  | nil => cases hg; exact .nil
  | cons a _ ih =>
    cases h with
    | cons b c =>
      cases hg with
      | cons d e => exact .cons (b.grows a d) (ih c e)

/-- The transitions before the last year in the cache of a time zone are in those of its elements. -/
theorem reach_filled {z z1 : Zone} (hds : ∀ e ∈ z.elements, (descOf env e).Ok env o)
    (hp : ∀ e ∈ z.elements, ParsedElement e) (h0 : z.maxYear = none) (h : ZoneReach env o o' z z1) :
    ∀ y, z1.maxYear = some y → List.Forall₂ (Filled env y) z.elements z1.elements := by
  induction h with
  | start => intro y hy; rw [h0] at hy; cases hy
  | @offset za zb fuel x rel v hr hx hd hq ih =>
    have hk := reach_kept hds hp hr
    unfold Zone.offsetSeconds at hq
    rw [Option.map_eq_some_iff] at hq
    obtain ⟨z3, h1, h2⟩ := hq
    have h3 : ∀ y, z3.maxYear = some y → List.Forall₂ (Filled env y) z.elements z3.elements := by
      unfold Zone.recache at h1
      split at h1
      · rw [Option.map_eq_some_iff] at h1
        obtain ⟨⟨all, z4⟩, h1, rfl⟩ := h1
        rw [cacheMax_eq (clock_asLocal hx hd)] at h1 ⊢
        unfold Zone.expandAll at h1
        rw [Option.map_eq_some_iff] at h1
        obtain ⟨⟨l, es⟩, h1, h5⟩ := h1
        cases h5
        intro y hy
        cases hy
        exact expandElements_filled hds hk h1
      · cases h1
        exact ih
    have h4 : ∀ (t : DateTime) (rel : Bool), (z3.lookup env t rel).2.elements = z3.elements ∧
        (z3.lookup env t rel).2.maxYear = z3.maxYear := by
      intro t rel
      unfold Zone.lookup
      split
      · exact ⟨rfl, rfl⟩
      · simp only
        split <;> exact ⟨rfl, rfl⟩
    have h5 := (Prod.ext_iff.mp h2).2
    simp only at h5
    rw [← h5, (h4 _ _).1, (h4 _ _).2]
    exact h3
  | find hr hq ih =>
    have hk := reach_kept hds hp hr
    unfold Zone.findElement at hq
    rw [Option.map_eq_some_iff] at hq
    obtain ⟨⟨f, es⟩, h1, h2⟩ := hq
    cases h2
    exact fun y hy => filled_all hk (ih y hy) (findLoop_grows h1)
  | expand hr hs hq ih =>
    have hk := reach_kept hds hp hr
    unfold Zone.expandAll at hq
    rw [Option.map_eq_some_iff] at hq
    obtain ⟨⟨l, es⟩, h1, h2⟩ := hq
    cases h2
    exact fun y hy => filled_all hk (ih y hy) (expandElements_grows h1)

/-- After a question about the offset the year is in the cache. -/
theorem offset_year {z z1 : Zone} {x : DateTime} {rel : Bool} {v : Int} (hx : x.Valid) (hd : x.dateOnly = false)
    (h : z.offsetSeconds env o o' fuel x rel = some (v, z1)) :
    ∃ y, z1.maxYear = some y ∧ x.year < y ∧ ∀ y', z.maxYear = some y' → y' ≤ y := by
  unfold Zone.offsetSeconds at h
  rw [Option.map_eq_some_iff] at h
  obtain ⟨z3, h1, h2⟩ := h
  have h4 : (z3.lookup env (Zone.asLocal x) rel).2.maxYear = z3.maxYear := by
    unfold Zone.lookup
    split
    · rfl
    · simp only
      split <;> rfl
  have h5 := (Prod.ext_iff.mp h2).2
  simp only at h5
  rw [← h5, h4]
  unfold Zone.recache at h1
  split at h1
  · next hc =>
    rw [Option.map_eq_some_iff] at h1
    obtain ⟨⟨all, z4⟩, h1, rfl⟩ := h1
    rw [cacheMax_eq (clock_asLocal hx hd)]
    refine ⟨_, rfl, by show x.year < x.year + 2; omega, fun y' hy' => ?_⟩
    rw [hy'] at hc
    have hc : x.year ≥ y' := of_decide_eq_true hc
    show y' ≤ x.year + 2
    omega
  · next hc =>
    cases h1
    cases hm : z.maxYear with
    | none => rw [hm] at hc; exact absurd rfl hc
    | some y =>
      rw [hm] at hc
      have hc : ¬ decide (x.year ≥ y) = true := hc
      rw [decide_eq_true_eq] at hc
      exact ⟨y, rfl, by omega, fun y' hy' => by cases hy'; exact le_refl _⟩

/-- The year does not get smaller. -/
theorem reach_year {z z1 : Zone} (h : ZoneReach env o o' z z1) {y : Int} (hy : z.maxYear = some y) :
    ∃ y', z1.maxYear = some y' ∧ y ≤ y' := by
  induction h with
  | start => exact ⟨y, hy, le_refl _⟩
  | offset _ hx hd hq ih =>
    obtain ⟨y', h1, h2⟩ := ih
    obtain ⟨y2, h3, _, h4⟩ := offset_year hx hd hq
    exact ⟨y2, h3, le_trans h2 (h4 _ h1)⟩
  | find _ hq ih =>
    unfold Zone.findElement at hq
    rw [Option.map_eq_some_iff] at hq
    obtain ⟨⟨f, es⟩, h1, h2⟩ := hq
    cases h2
    exact ih
  | expand _ hs hq ih =>
    unfold Zone.expandAll at hq
    rw [Option.map_eq_some_iff] at hq
    obtain ⟨⟨l, es⟩, h1, h2⟩ := hq
    cases h2
    exact ih

theorem reach_trans {z z1 z2 : Zone} (h : ZoneReach env o o' z z1) (h' : ZoneReach env o o' z1 z2) : ZoneReach env o o' z z2 := by
  induction h' with
  | start => exact h
  | offset _ hx hd hq ih => exact .offset ih hx hd hq
  | find _ hq ih => exact .find ih hq
  | expand _ hs hq ih => exact .expand ih hs hq

theorem expandBelow_mono {n m : Nat} (hnm : n ≤ m) {e : TzElement} {x : DateTime} {v : DateTime × TzElement}
    (h : e.expandBelow env o n x = some v) : e.expandBelow env o m x = some v := by
  unfold TzElement.expandBelow at h ⊢
  split at h
  · next hc => rw [if_pos hc]; exact h
  · next hc =>
    rw [if_neg hc]
    rw [Option.map_eq_some_iff] at h ⊢
    obtain ⟨w, h1, h2⟩ := h
    exact ⟨w, TzElement.fill_mono hnm h1, h2⟩

theorem findLoop_mono {n m : Nat} (hnm : n ≤ m) {x : DateTime} {es : List TzElement} {f : Option (TzElement × DateTime)}
    {v : Option (TzElement × DateTime) × List TzElement} (h : Zone.findLoop env o n x es f = some v) :
    Zone.findLoop env o m x es f = some v := by
  induction es generalizing f v with
  | nil => rw [Zone.findLoop] at h ⊢; exact h
  | cons e es ih =>
    rw [Zone.findLoop] at h ⊢
    split at h
    · cases h
    · next t e1 h1 =>
      rw [expandBelow_mono hnm h1]
      simp only
      rw [Option.map_eq_some_iff] at h ⊢
      obtain ⟨w, h2, h3⟩ := h
      exact ⟨w, ih h2, h3⟩

theorem findLoop_ends {x : DateTime} {ds : List Desc} {es : List TzElement} (hds : ∀ d ∈ ds, d.Ends env o)
    (hes : List.Forall₂ ElementOk ds es) (f : Option (TzElement × DateTime)) :
    ∃ n v, Zone.findLoop env o n x es f = some v := by
  induction hes generalizing f with
  | nil => exact ⟨0, _, rfl⟩
  | @cons d e ds es h1 _ ih =>
    have : ∃ n v, e.expandBelow env o n x = some v := by
      obtain ⟨n, e', hx⟩ := fill_ends (hds d (by simp)) h1 (newYear x.year) (clock_newYear x.year)
      refine ⟨n, ?_⟩
      unfold TzElement.expandBelow
      split
      · exact ⟨_, rfl⟩
      · rw [hx]; exact ⟨_, rfl⟩
    obtain ⟨n, ⟨t, e'⟩, hv⟩ := this
    have hall : ∀ g, ∃ n v, Zone.findLoop env o n x es g = some v := ih fun d hd => hds d (by simp [hd])
    have hone : ∀ N ≥ n, e.expandBelow env o N x = some (t, e') := fun N hN => expandBelow_mono hN hv
    have hg : ∃ g, ∀ N ≥ n, Zone.findLoop env o N x (e :: es) f =
        (Zone.findLoop env o N x es g).map fun v => (v.1, e' :: v.2) := ⟨_, fun N hN => by rw [Zone.findLoop, hone N hN]⟩
    obtain ⟨g, hg⟩ := hg
    obtain ⟨m, w, hw⟩ := hall g
    exact ⟨max n m, _, by rw [hg _ (le_max_left n m), findLoop_mono (le_max_right n m) hw]; rfl⟩

end Desc102
open Desc102

section
variable {env : TzEnv} {o : SetOrder} {o' : SetOrder (DateTime × Int × Int)} {fuel : Nat}

/-- C102 (partial), after the offset was asked for: if at some time before the offset was asked for, for a time in the same year or a
later one, then the text for a time describes the element with the last transition at or before it, and is empty if there is none.

Missing: if the offset was not asked for (`C102_fails_thisYear`), dates. -/
theorem C102_asked_partial (hu : DefaultUtc env) {z z1 z2 z3 z4 : Zone} (hp : ∀ e ∈ z.elements, ParsedElement e)
    (h0 : z.maxYear = none) (hr : ZoneReach env o o' z z1) {x w : DateTime} (hw : w.Valid) (hwd : w.dateOnly = false) {rel : Bool}
    {v : Int} (hq : z1.offsetSeconds env o o' fuel w rel = some (v, z2)) (hr' : ZoneReach env o o' z2 z3) (hx : x.Valid)
    (hd : x.dateOnly = false) (hy : x.year ≤ w.year) {s : List Char} {n : Nat} (h : z3.descriptor env o n x = some (s, z4)) :
    (∃ e t, Best env z.elements x e t ∧ s = Zone.elementText e) ∨
    (∀ e ∈ z.elements, NoneOf env e x) ∧ s = [] := by
  have hall : ZoneReach env o o' z z3 := reach_trans (.offset hr hw hwd hq) hr'
  obtain ⟨y, h1, h2, _⟩ := offset_year hw hwd hq
  obtain ⟨y', h3, h4⟩ := reach_year hr' h1
  have hds : ∀ e ∈ z.elements, (descOf env e).Ok env o := fun e he => parsed_ok hu (hp e he)
  refine shown_of hu hp hall hx hd ?_ h
  refine (reach_filled hds hp h0 hall y' h3).imp fun e0 e hf t ht hle => ?_
  have hlt : t.num < (newYear y').num := by
    have hc : Clock (Zone.asLocal x) := clock_asLocal hx hd
    have : (Zone.asLocal x).num < (newYear y').num := lt_newYear hc (by show x.year < y'; omega)
    change x.num < _ at this
    omega
  rcases hf t ht hlt with h | h
  · exact .inr (.inl h)
  · exact .inr (.inr h)

/-- C102 (partial), every question is answered: in a time zone as parsed, after any queries, there is a text for every time, and
allowing more iterations gives the same.

Missing: rules that can run forever (`C28_fails_endless`). -/
theorem C102_ends_partial (hu : DefaultUtc env) {z z1 : Zone} (hp : ∀ e ∈ z.elements, ParsedElement e) (hr : ZoneReach env o o' z z1)
    (x : DateTime) : ∃ n s z2, ∀ fuel ≥ n, z1.descriptor env o fuel x = some (s, z2) := by
  have hk := reach_kept (fun e he => parsed_ok (o := o) hu (hp e he)) hp hr
  have hes : List.Forall₂ ElementOk (z.elements.map (descOf env)) z1.elements := by
    rw [List.forall₂_map_left_iff]
    exact hk.imp fun _ _ h => h.ok
  obtain ⟨n, v, hv⟩ := findLoop_ends (x := Zone.asLocal x) (fun d hd => by
    obtain ⟨e, he, rfl⟩ := List.mem_map.mp hd
    exact parsed_ends (o := o) (hp e he)) hes none
  refine ⟨n, ?_⟩
  have : ∀ fuel ≥ n, z1.descriptor env o fuel x = z1.descriptor env o n x := by
    intro fuel hf
    unfold Zone.descriptor Zone.findElement
    rw [findLoop_mono hf hv, hv]
  have h2 : ∃ w, z1.descriptor env o n x = some w := by
    unfold Zone.descriptor Zone.findElement
    rw [hv]
    exact ⟨_, rfl⟩
  obtain ⟨⟨s, z2⟩, hs⟩ := h2
  exact ⟨s, z2, fun fuel hf => by rw [this fuel hf, hs]⟩

end

/-- Eastern Time on 1 July 2010, after the offset was asked for. -/
example : ∃ v z2, easternNamed.offsetSeconds .empty RecurrenceSet.inOrder inOrder' 30 (minute 2010 7 1 0 0 0) false = some (v, z2) ∧
    shown z2 (minute 2010 7 1 0 0 0) = some "(EDT)".toList ∧ shown z2 (minute 2011 12 31 0 0 0) = some "(EST)".toList := by
  have h : ((easternNamed.offsetSeconds .empty RecurrenceSet.inOrder inOrder' 30 (minute 2010 7 1 0 0 0) false).map fun v =>
      (shown v.2 (minute 2010 7 1 0 0 0), shown v.2 (minute 2011 12 31 0 0 0))) = some (some "(EDT)".toList, some "(EST)".toList) := by
    decide +kernel
  obtain ⟨⟨v, z2⟩, h1, h2⟩ := Option.map_eq_some_iff.mp h
  exact ⟨v, z2, h1, congrArg Prod.fst h2, congrArg Prod.snd h2⟩

end PyCal
