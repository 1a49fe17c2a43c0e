import Mathlib.Data.List.Dedup
import Mathlib.Data.List.Infix
import Verif.Model.Container

/-!
# C42: what is written is what the component has
-/

namespace PyCal
open Cont

namespace Ord42

theorem keyLoop_perm (order : List (List Char)) : ∀ keys, (keyLoop order keys).Perm keys := by
  induction order with
  | nil => intro keys; exact List.Perm.refl _
  | cons k order ih =>
    intro keys
    rw [keyLoop]
    split
    · rename_i h
      exact ((ih _).cons k).trans (List.perm_cons_erase h).symm
    · exact ih keys

theorem byKey_perm : ∀ (keys : List (List Char)) (ps : List CProp), keys.Nodup →
    (∀ p ∈ ps, p.key ∈ keys) →
    (keys.flatMap fun k => ps.filter fun p => decide (p.key = k)).Perm ps := by
  intro keys
  induction keys with
  | nil =>
    intro ps _ h
    cases ps with
    | nil => exact List.Perm.refl _
    | cons p ps => simpa using h p (by simp)
  | cons k keys ih =>
    intro ps hn h
    rw [List.nodup_cons] at hn
    rw [List.flatMap_cons]
    have h2 := ih (ps.filter fun p => !decide (p.key = k)) hn.2 (by
      intro p hp
      simp only [List.mem_filter, Bool.not_eq_true', decide_eq_false_iff_not] at hp
      have := h p hp.1
      simp only [List.mem_cons] at this
      exact this.resolve_left hp.2)
    have h3 : (keys.flatMap fun k' => ps.filter fun p => decide (p.key = k')) =
        keys.flatMap fun k' => (ps.filter fun p => !decide (p.key = k)).filter
          fun p => decide (p.key = k') := by
      rw [List.flatMap_def, List.flatMap_def]
      congr 1
      apply List.map_congr_left
      intro k' hk'
      rw [List.filter_filter]
      apply List.filter_congr
      intro p _
      by_cases hp : p.key = k'
      · have : p.key ≠ k := by rintro rfl; exact hn.1 (hp ▸ hk')
        simp [hp ▸ this, hp]
      · simp [hp]
    rw [h3]
    exact ((List.Perm.refl _).append h2).trans (List.filter_append_perm _ ps)

theorem sortedKeys_perm (ps : List CProp) : (sortedKeys ps).Perm (ps.map CProp.key).dedup :=
  List.perm_insertionSort _ _

theorem keys_perm (order : List (List Char)) (ps : List CProp) :
    (sortedPropertyKeys order ps).Perm (ps.map CProp.key).dedup :=
  (keyLoop_perm order _).trans (sortedKeys_perm ps)

theorem keys_nodup (order : List (List Char)) (ps : List CProp) :
    (sortedPropertyKeys order ps).Nodup :=
  (keys_perm order ps).nodup_iff.mpr (List.nodup_dedup _)

/-! ### Components -/

theorem remove_mid {eq : Component → Component → Bool} {c : Tagged} {done suf : List Tagged}
    (h : ∀ d ∈ done, d.1 ≠ c.1 ∧ eq d.2 c.2 = false) :
    remove eq c (done ++ c :: suf) = some (done ++ suf) := by
  induction done with
  | nil => simp [remove]
  | cons d done ih =>
    obtain ⟨h1, h2⟩ := h d (by simp)
    rw [List.cons_append, remove, if_neg (by simp [h1, h2]),
      ih fun e he => h e (List.mem_cons_of_mem _ he)]
    rfl

/-- The component has the name. -/
def named (name : List Char) (c : Tagged) : Bool := decide (PropText.upper c.2.type = name)

theorem nameLoop_eq {eq : Component → Component → Bool} (heq : ∀ a b, eq a b = true → a.type = b.type)
    (name : List Char) (tuple : List Tagged) : ∀ done : List Tagged,
    ((done ++ tuple).map Prod.fst).Nodup → (∀ d ∈ done, named name d = false) →
    nameLoop eq name tuple (done ++ tuple) =
      some (tuple.filter (named name), done ++ tuple.filter fun c => !named name c) := by
  induction tuple with
  | nil => intro done _ _; simp [nameLoop]
  | cons c tuple ih =>
    intro done hn hd
    rw [nameLoop]
    split
    · rename_i hc
      have hrem : remove eq c (done ++ c :: tuple) = some (done ++ tuple) := by
        apply remove_mid
        intro d hdm
        constructor
        · intro he
          rw [List.map_append, List.nodup_append] at hn
          exact hn.2.2 d.1 (List.mem_map_of_mem hdm) c.1 (by simp) he
        · by_contra hne
          have := heq d.2 c.2 (by simpa using hne)
          have h2 := hd d hdm
          simp only [named, decide_eq_false_iff_not] at h2
          exact h2 (this ▸ hc)
      rw [hrem]
      simp only
      have hn' : ((done ++ tuple).map Prod.fst).Nodup :=
        hn.sublist ((List.Sublist.append_left (List.sublist_cons_self _ _) _).map _)
      rw [ih done hn' hd]
      have hc' : named name c = true := by simpa [named] using hc
      simp [hc']
    · rename_i hc
      have hc' : named name c = false := by simpa [named] using hc
      have := ih (done ++ [c]) (by simpa using hn) (by
        intro d hd'
        rw [List.mem_append, List.mem_singleton] at hd'
        rcases hd' with hd' | rfl
        · exact hd d hd'
        · exact hc')
      rw [List.append_assoc, List.singleton_append] at this
      rw [this]
      simp [hc']

theorem namesLoop_perm {o : Order} (heq : ∀ a b, o.eq a b = true → a.type = b.type)
    (names : List (List Char)) : ∀ components : List Tagged, (components.map Prod.fst).Nodup →
    ∃ r, namesLoop o names components = some r ∧ (r.1 ++ r.2).Perm components := by
  induction names with
  | nil => intro cs _; exact ⟨_, rfl, by simp⟩
  | cons name names ih =>
    intro cs hn
    have h1 := nameLoop_eq heq name cs [] (by simpa using hn) (by simp)
    rw [List.nil_append, List.nil_append] at h1
    obtain ⟨r, hr, hp⟩ := ih (cs.filter fun c => !named name c)
      (hn.sublist ((List.filter_sublist).map _))
    refine ⟨_, by rw [namesLoop, h1]; simp only [hr]; rfl, ?_⟩
    simp only [List.append_assoc]
    exact ((List.perm_insertionSort _ _).append hp).trans (List.filter_append_perm _ cs)

theorem tag_fst (cs : List Component) : (tag cs).map Prod.fst = List.range cs.length := by
  unfold tag
  rw [List.map_map]
  show (cs.zipIdx).map (fun c => c.2) = _
  rw [List.zipIdx_map_snd]
  simp [List.range_eq_range']

theorem tag_snd (cs : List Component) : (tag cs).map Prod.snd = cs := by
  unfold tag
  rw [List.map_map]
  exact List.zipIdx_map_fst 0 cs

theorem sortedTagged_perm {o : Order} (heq : ∀ a b, o.eq a b = true → a.type = b.type)
    (t : List Char) {cs : List Tagged} (hn : (cs.map Prod.fst).Nodup) :
    ∃ l, sortedTagged o t cs = some l ∧ l.Perm cs := by
  unfold sortedTagged
  split
  · exact ⟨_, rfl, List.perm_insertionSort _ _⟩
  · obtain ⟨r, hr, hp⟩ := namesLoop_perm heq (o.names t) cs hn
    refine ⟨_, by rw [hr]; rfl, ?_⟩
    refine List.Perm.trans (List.Perm.append_left _ ?_) hp
    split
    · exact List.perm_insertionSort _ _
    · exact List.Perm.refl _

end Ord42
open Ord42

/-- C42: the properties written are those of the component, each as often as it is there. -/
theorem C42_properties (order : List (List Char)) (ps : List CProp) :
    (writtenProps order ps).Perm ps := by
  apply byKey_perm _ _ (keys_nodup order ps)
  intro p hp
  rw [(keys_perm order ps).mem_iff, List.mem_dedup]
  exact List.mem_map_of_mem hp

/-- C42: properties with the same name are written in the order in which they were added. -/
theorem C42_same_name (order : List (List Char)) (ps : List CProp) (key : List Char) :
    (writtenProps order ps).filter (fun p => decide (p.key = key)) =
      ps.filter fun p => decide (p.key = key) := by
  unfold writtenProps
  have hmem : ∀ p ∈ ps, p.key ∈ sortedPropertyKeys order ps := fun p hp => by
    rw [(keys_perm order ps).mem_iff, List.mem_dedup]
    exact List.mem_map_of_mem hp
  have hn := keys_nodup order ps
  generalize sortedPropertyKeys order ps = keys at hmem hn
  have hgen : ∀ keys : List (List Char), keys.Nodup →
      (keys.flatMap fun k => ps.filter fun p => decide (p.key = k)).filter
        (fun p => decide (p.key = key)) =
      if key ∈ keys then ps.filter (fun p => decide (p.key = key)) else [] := by
    intro keys
    induction keys with
    | nil => intro _; simp
    | cons k keys ih =>
      intro hn
      rw [List.nodup_cons] at hn
      rw [List.flatMap_cons, List.filter_append, ih hn.2, List.filter_filter]
      by_cases hk : key = k
      · subst hk
        simp [hn.1]
      · have : (ps.filter fun p => decide (p.key = key) && decide (p.key = k)) = [] := by
          rw [List.filter_eq_nil_iff]
          intro p _
          simp only [Bool.and_eq_true, decide_eq_true_eq, not_and]
          intro h1 h2
          exact hk (h1 ▸ h2)
        rw [this]
        simp [hk]
  rw [hgen keys hn]
  split
  · rfl
  · rename_i h
    symm
    rw [List.filter_eq_nil_iff]
    intro p hp hk
    simp only [decide_eq_true_eq] at hk
    exact h (hk ▸ hmem p hp)

/-- C42: the components written are those of the component, each as often as it is there, whatever
the keys are; that equal components have the same type is all that is needed of `__eq__`. -/
theorem C42_components (o : Order) (heq : ∀ a b, o.eq a b = true → a.type = b.type) (t : List Char)
    (cs : List Component) : ∃ l, sortedComponents o t cs = some l ∧ l.Perm cs := by
  obtain ⟨l, hl, hp⟩ := sortedTagged_perm heq t (cs := tag cs) (by
    rw [tag_fst]; exact List.nodup_range)
  refine ⟨l.map Prod.snd, by rw [sortedComponents, hl]; rfl, ?_⟩
  have := hp.map Prod.snd
  rwa [tag_snd] at this

/-! ## The documented order -/

namespace Ord42

/-- One key comes no later than another: listed keys in the order of the list before all others, which
are in ascending order. -/
def KeyLe (order : List (List Char)) (a b : List Char) : Prop :=
  order.idxOf a < order.idxOf b ∨ order.idxOf a = order.idxOf b ∧ a ≤ b

theorem KeyLe.cons {order : List (List Char)} {k a b : List Char} (ha : a ≠ k) (hb : b ≠ k)
    (h : KeyLe order a b) : KeyLe (k :: order) a b := by
  unfold KeyLe at *
  rw [List.idxOf_cons_ne _ (Ne.symm ha), List.idxOf_cons_ne _ (Ne.symm hb)]
  rcases h with h | ⟨h1, h2⟩
  · exact Or.inl (by omega)
  · exact Or.inr ⟨by omega, h2⟩

theorem keyLoop_sorted (order : List (List Char)) : ∀ keys : List (List Char), keys.Nodup →
    keys.Pairwise (· ≤ ·) → (keyLoop order keys).Pairwise (KeyLe order) := by
  induction order with
  | nil =>
    intro keys _ h
    exact h.imp fun hab => Or.inr ⟨rfl, hab⟩
  | cons k order ih =>
    intro keys hn h
    rw [keyLoop]
    split
    · rename_i hk
      have hk' : ∀ x ∈ keyLoop order (keys.erase k), x ≠ k := by
        intro x hx
        rw [(keyLoop_perm order _).mem_iff, hn.mem_erase_iff] at hx
        exact hx.1
      rw [List.pairwise_cons]
      refine ⟨fun x hx => Or.inl ?_, ?_⟩
      · rw [List.idxOf_cons_self, List.idxOf_cons_ne _ (Ne.symm (hk' x hx))]
        omega
      · exact (ih _ (hn.erase k) (h.sublist (List.erase_sublist))).imp_of_mem
          fun ha hb hab => hab.cons (hk' _ ha) (hk' _ hb)
    · rename_i hk
      have hk' : ∀ x ∈ keyLoop order keys, x ≠ k := by
        intro x hx
        rw [(keyLoop_perm order _).mem_iff] at hx
        rintro rfl
        exact hk hx
      exact (ih keys hn h).imp_of_mem fun ha hb hab => hab.cons (hk' _ ha) (hk' _ hb)

/-- The place of a component among the names. -/
def rank (names : List (List Char)) (c : Tagged) : Nat := names.idxOf (PropText.upper c.2.type)

theorem rank_cons {name : List Char} {names : List (List Char)} {c : Tagged}
    (h : named name c = false) : rank (name :: names) c = rank names c + 1 := by
  unfold rank
  rw [List.idxOf_cons_ne]
  intro he
  simp [named, he] at h

theorem rank_self {name : List Char} {names : List (List Char)} {c : Tagged}
    (h : named name c = true) : rank (name :: names) c = 0 := by
  unfold rank
  simp only [named, decide_eq_true_eq] at h
  rw [h, List.idxOf_cons_self]

/-- One component comes no later than another: by rank, and with the same name by key. -/
def CompLe (o : Order) (names : List (List Char)) (a b : Tagged) : Prop :=
  rank names a < rank names b ∨ rank names a = rank names b ∧
    (rank names a < names.length → o.sortKey a ≤ o.sortKey b)

theorem CompLe.cons {o : Order} {name : List Char} {names : List (List Char)} {a b : Tagged}
    (ha : named name a = false) (hb : named name b = false) (h : CompLe o names a b) :
    CompLe o (name :: names) a b := by
  unfold CompLe at *
  rw [rank_cons ha, rank_cons hb, List.length_cons]
  rcases h with h | ⟨h1, h2⟩
  · exact Or.inl (by omega)
  · exact Or.inr ⟨by omega, fun h => h2 (by omega)⟩

theorem namesLoop_sorted {o : Order} (heq : ∀ a b, o.eq a b = true → a.type = b.type)
    (names : List (List Char)) : ∀ (components : List Tagged) (r), (components.map Prod.fst).Nodup →
    namesLoop o names components = some r →
    (∀ c ∈ r.1, rank names c < names.length) ∧ (∀ c ∈ r.2, rank names c = names.length) ∧
    r.1.Pairwise (CompLe o names) := by
  induction names with
  | nil =>
    intro cs r _ h
    simp only [namesLoop, Option.some.injEq] at h
    subst h
    simp [rank]
  | cons name names ih =>
    intro cs r hn h
    have h1 := nameLoop_eq heq name cs [] (by simpa using hn) (by simp)
    rw [List.nil_append, List.nil_append] at h1
    rw [namesLoop, h1] at h
    simp only [Option.map_eq_some_iff] at h
    obtain ⟨r', hr', rfl⟩ := h
    have hn' := hn.sublist ((List.filter_sublist (p := fun c => !named name c)).map Prod.fst)
    obtain ⟨i1, i2, i3⟩ := ih _ r' hn' hr'
    obtain ⟨r'', hr'', hp⟩ := namesLoop_perm heq names (cs.filter fun c => !named name c) hn'
    rw [hr'] at hr''
    obtain rfl := Option.some.inj hr''
    have hno : ∀ c ∈ r'.1 ++ r'.2, named name c = false := by
      intro c hc
      rw [hp.mem_iff, List.mem_filter] at hc
      simpa using hc.2
    have hyes : ∀ c ∈ (cs.filter (named name)).insertionSort
        (fun a b => o.sortKey a ≤ o.sortKey b), named name c = true := by
      intro c hc
      rw [(List.perm_insertionSort _ _).mem_iff, List.mem_filter] at hc
      exact hc.2
    refine ⟨?_, ?_, ?_⟩
    · intro c hc
      rw [List.mem_append] at hc
      rcases hc with hc | hc
      · rw [rank_self (hyes c hc)]; simp
      · rw [rank_cons (hno c (List.mem_append_left _ hc)), List.length_cons]
        exact Nat.succ_lt_succ (i1 c hc)
    · intro c hc
      rw [rank_cons (hno c (List.mem_append_right _ hc)), List.length_cons, i2 c hc]
    · rw [List.pairwise_append]
      refine ⟨?_, ?_, ?_⟩
      · have : Std.Total (fun a b : Tagged => o.sortKey a ≤ o.sortKey b) := ⟨fun a b => le_total _ _⟩
        have : IsTrans Tagged (fun a b : Tagged => o.sortKey a ≤ o.sortKey b) :=
          ⟨fun a b c => le_trans⟩
        refine (List.pairwise_insertionSort (fun a b => o.sortKey a ≤ o.sortKey b) _).imp_of_mem
          fun ha hb hab => Or.inr ?_
        rw [rank_self (hyes _ ha), rank_self (hyes _ hb)]
        exact ⟨rfl, fun _ => hab⟩
      · exact i3.imp_of_mem fun ha hb hab => hab.cons (hno _ (List.mem_append_left _ ha))
          (hno _ (List.mem_append_left _ hb))
      · intro a ha b hb
        left
        rw [rank_self (hyes a ha), rank_cons (hno b (List.mem_append_left _ hb))]
        omega

end Ord42

/-- C42: the listed properties come first, in the order of the list, and then the others in
alphabetical order. -/
theorem C42_property_order (order : List (List Char)) (ps : List CProp) :
    (writtenProps order ps).Pairwise fun p q =>
      order.idxOf p.key < order.idxOf q.key ∨
        order.idxOf p.key = order.idxOf q.key ∧ p.key ≤ q.key := by
  have hs : (sortedPropertyKeys order ps).Pairwise (KeyLe order) := by
    apply keyLoop_sorted
    · exact (sortedKeys_perm ps).nodup_iff.mpr (List.nodup_dedup _)
    · exact List.pairwise_insertionSort _ _
  unfold writtenProps
  rw [List.pairwise_flatMap]
  refine ⟨?_, ?_⟩
  · intro k _
    rw [List.pairwise_filter]
    apply List.pairwise_of_forall
    intro a b ha hb
    simp only [decide_eq_true_eq] at ha hb
    rw [ha, hb]
    exact Or.inr ⟨rfl, le_refl k⟩
  · apply hs.imp
    intro a b hab p hp q hq
    rw [List.mem_filter, decide_eq_true_eq] at hp hq
    rw [hp.2, hq.2]
    exact hab

theorem Ord42.namesLoop_sublist {o : Order} (heq : ∀ a b, o.eq a b = true → a.type = b.type)
    (names : List (List Char)) : ∀ (components : List Tagged) (r), (components.map Prod.fst).Nodup →
    namesLoop o names components = some r → r.2.Sublist components := by
  induction names with
  | nil =>
    intro cs r _ h
    simp only [namesLoop, Option.some.injEq] at h
    subst h
    exact List.Sublist.refl _
  | cons name names ih =>
    intro cs r hn h
    have h1 := nameLoop_eq heq name cs [] (by simpa using hn) (by simp)
    rw [List.nil_append, List.nil_append] at h1
    rw [namesLoop, h1] at h
    simp only [Option.map_eq_some_iff] at h
    obtain ⟨r', hr', rfl⟩ := h
    have hn' := hn.sublist ((List.filter_sublist (p := fun c => !named name c)).map Prod.fst)
    exact (ih _ r' hn' hr').trans List.filter_sublist

/-- C42: the components with the listed names come first, in the order of the list and with the same
name by key; then the others, ordered by their type and then by key, or in the order in which they are in
the component if the class does not ask for them to be sorted. -/
theorem C42_component_order (o : Order) (heq : ∀ a b, o.eq a b = true → a.type = b.type)
    (t : List Char) (hw : o.whole t = false) (cs : List Component) {l : List Tagged}
    (h : sortedTagged o t (tag cs) = some l) :
    l.Pairwise fun a b =>
      rank (o.names t) a < rank (o.names t) b ∨ rank (o.names t) a = rank (o.names t) b ∧
        (rank (o.names t) a < (o.names t).length → o.sortKey a ≤ o.sortKey b) ∧
        (rank (o.names t) a = (o.names t).length →
          if o.sortSubs t = true then
            PropText.upper a.2.type < PropText.upper b.2.type ∨
              PropText.upper a.2.type = PropText.upper b.2.type ∧ o.sortKey a ≤ o.sortKey b
          else a.1 < b.1) := by
  rw [sortedTagged, if_neg (by simp [hw]), Option.map_eq_some_iff] at h
  obtain ⟨r, hr, rfl⟩ := h
  have hnd : ((tag cs).map Prod.fst).Nodup := by rw [tag_fst]; exact List.nodup_range
  obtain ⟨h1, h2, h3⟩ := namesLoop_sorted heq (o.names t) _ r hnd hr
  have h4 : r.2.Pairwise fun a b => a.1 < b.1 := by
    refine List.Pairwise.sublist (Ord42.namesLoop_sublist heq (o.names t) _ r hnd hr) ?_
    have : ((tag cs).map Prod.fst).Pairwise (· < ·) := by rw [tag_fst]; exact List.pairwise_lt_range
    exact List.pairwise_map.1 this
  have h2' : ∀ c ∈ (if o.sortSubs t then r.2.insertionSort (fun a b => remainderLe o a b = true)
      else r.2), rank (o.names t) c = (o.names t).length := by
    intro c hc
    apply h2 c
    split at hc
    · rwa [(List.perm_insertionSort _ _).mem_iff] at hc
    · exact hc
  rw [List.pairwise_append]
  refine ⟨h3.imp_of_mem ?_, ?_, ?_⟩
  · rintro a b ha hb (hab | ⟨hab, hk⟩)
    · exact Or.inl hab
    · exact Or.inr ⟨hab, hk, fun he => absurd he (h1 a ha).ne⟩
  · have h5 : (if o.sortSubs t then r.2.insertionSort (fun a b => remainderLe o a b = true)
        else r.2).Pairwise fun a b => if o.sortSubs t = true then
            PropText.upper a.2.type < PropText.upper b.2.type ∨
              PropText.upper a.2.type = PropText.upper b.2.type ∧ o.sortKey a ≤ o.sortKey b
          else a.1 < b.1 := by
      have hle : ∀ a b : Tagged, remainderLe o a b = true ↔
          PropText.upper a.2.type < PropText.upper b.2.type ∨
            PropText.upper a.2.type = PropText.upper b.2.type ∧ o.sortKey a ≤ o.sortKey b := by
        intro a b
        simp [remainderLe]
      have htot : Std.Total (fun a b : Tagged => remainderLe o a b = true) := ⟨fun a b => by
        rw [hle, hle]
        rcases lt_trichotomy (PropText.upper a.2.type) (PropText.upper b.2.type) with hx | hx | hx
        · exact Or.inl (Or.inl hx)
        · rcases le_total (o.sortKey a) (o.sortKey b) with hy | hy
          · exact Or.inl (Or.inr ⟨hx, hy⟩)
          · exact Or.inr (Or.inr ⟨hx.symm, hy⟩)
        · exact Or.inr (Or.inl hx)⟩
      have htr : IsTrans Tagged (fun a b : Tagged => remainderLe o a b = true) := ⟨fun a b c => by
        rw [hle, hle, hle]
        rintro (hx | ⟨hx, hx'⟩) (hy | ⟨hy, hy'⟩)
        · exact Or.inl (hx.trans hy)
        · exact Or.inl (hy ▸ hx)
        · exact Or.inl (hx ▸ hy)
        · exact Or.inr ⟨hx.trans hy, hx'.trans hy'⟩⟩
      split
      · exact (List.pairwise_insertionSort (fun a b => remainderLe o a b = true) r.2).imp
          fun {a b} hab => (hle a b).1 hab
      · exact h4
    refine h5.imp_of_mem fun {a b} ha hb hab => Or.inr ⟨by rw [h2' a ha, h2' b hb], fun hlt => ?_, fun _ => hab⟩
    rw [h2' a ha] at hlt
    omega
  · intro a ha b hb
    left
    rw [h2' b hb]
    exact h1 a ha

/-- Two equal events, a time zone and something unknown. -/
example : ∃ o : Order, (∀ a b, o.eq a b = true → a.type = b.type) ∧
    ∃ cs l, sortedComponents o "VCALENDAR".toList cs = some l ∧ l.map Component.type =
      ["VTIMEZONE".toList, "VEVENT".toList, "VEVENT".toList, "X".toList] ∧
      cs.map Component.type = ["X".toList, "VEVENT".toList, "VTIMEZONE".toList, "VEVENT".toList] :=
  ⟨{ keyOrder := fun _ => [], names := fun _ => ["VTIMEZONE".toList, "VEVENT".toList]
     sortSubs := fun _ => true, whole := fun _ => false, eq := fun a b => decide (a.type = b.type)
     sortKey := fun _ => [], wholeLe := fun _ _ => true }, by simp,
   [.mk "X".toList [] [], .mk "VEVENT".toList [] [], .mk "VTIMEZONE".toList [] [],
    .mk "VEVENT".toList [] []], _, rfl, by decide +kernel, by decide +kernel⟩

end PyCal
