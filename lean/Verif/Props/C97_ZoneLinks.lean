import Verif.Props.C96_ZoneFiles

/-! # C97: the files of calendar data and their links -/

namespace PyCal
namespace Zonal
open L95 F96

-- the order of strings is that of the core library, as in the model
attribute [-instance] List.LE'

/-! ## Specification -/

/-- The data as `parse` leaves it: each dictionary has a key once, and a zone is under its name. -/
def TzData.Good (st : TzData) : Prop :=
  (st.zones.map Prod.fst).Nodup ∧ (∀ x ∈ st.zones, x.2.name = x.1) ∧ (st.links.map Prod.fst).Nodup

/-- What `n` is another name for: the link of the time zone data, or else the first alias for the whole
world. -/
def linkOf (st : TzData) (aliases : List (List Char × List Char × List Char)) (n : List Char) :
    Option (List Char) :=
  (st.links.lookup n).or ((aliases.find? fun m => m.1 = "001".toList ∧ m.2.1 = n).map fun m => m.2.2)

/-- A file for `n` can be made: of a zone, or of a link to a zone, or of a link to a name before it in
alphabetical order for which this is so. -/
inductive Reach (zone : List Char → Prop) (link : List Char → Option (List Char)) : List Char → Prop
  | zone {n : List Char} (h : zone n) : Reach zone link n
  | direct {n f : List Char} (hl : link n = some f) (h : zone f) : Reach zone link n
  | chain {n f : List Char} (hl : link n = some f) (hlt : f < n) (h : Reach zone link f) : Reach zone link n

/-- `old` occurs in `s` at place `i`. -/
def OccursAt (old s : List Char) (i : Nat) : Prop := old <+: s.drop i

/-! ## The loop over the links -/

namespace K97

theorem set_keys {α : Type} (k : List Char) (v : α) : ∀ d : List (List Char × α),
    (setItem k v d).map Prod.fst = if k ∈ d.map Prod.fst then d.map Prod.fst else d.map Prod.fst ++ [k]
  | [] => by simp [setItem]
  | x :: d => by
    simp only [setItem]
    by_cases h : x.1 = k
    · simp [h]
    · rw [if_neg h]
      simp only [List.map_cons, set_keys k v d, List.mem_cons, Ne.symm h, false_or]
      split <;> simp

theorem set_nodup {α : Type} {k : List Char} {v : α} {d : List (List Char × α)} (h : (d.map Prod.fst).Nodup) :
    ((setItem k v d).map Prod.fst).Nodup := by
  rw [set_keys]
  split
  · exact h
  · rename_i hk
    exact List.nodup_append.2 ⟨h, by simp, by
      intro a ha b hb
      simp at hb
      subst hb
      exact fun e => hk (e ▸ ha)⟩

theorem mem_set {α : Type} {k : List Char} {v : α} : ∀ {d : List (List Char × α)} {x : List Char × α},
    x ∈ setItem k v d → x = (k, v) ∨ x ∈ d
  | [], x, h => by simp [setItem] at h; exact .inl h
  | y :: d, x, h => by
    simp only [setItem] at h
    split at h
    · rcases List.mem_cons.1 h with h | h
      · exact .inl h
      · exact .inr (by simp [h])
    · rcases List.mem_cons.1 h with h | h
      · exact .inr (by simp [h])
      · rcases mem_set h with h | h
        · exact .inl h
        · exact .inr (by simp [h])

theorem lookup_isNone {α : Type} {n : List Char} : ∀ {d : List (List Char × α)},
    d.lookup n = none ↔ n ∉ d.map Prod.fst
  | [] => by simp
  | (a, b) :: d => by
    simp only [List.lookup, List.map_cons, List.mem_cons, not_or]
    by_cases h : n = a
    · subst h; simp
    · have : (n == a) = false := by simpa using h
      rw [this]
      simp only [h, not_false_eq_true, true_and]
      exact lookup_isNone

theorem lookup_mem {α : Type} {n : List Char} {v : α} : ∀ {d : List (List Char × α)}, d.lookup n = some v → (n, v) ∈ d
  | [], h => by simp at h
  | (a, b) :: d, h => by
    simp only [List.lookup] at h
    by_cases e : n = a
    · subst e; simp at h; simp [h]
    · have : (n == a) = false := by simpa using e
      rw [this] at h
      exact List.mem_cons_of_mem _ (lookup_mem h)

theorem lookup_of_mem {α : Type} {n : List Char} {v : α} : ∀ {d : List (List Char × α)}, (d.map Prod.fst).Nodup →
    (n, v) ∈ d → d.lookup n = some v
  | [], _, h => by simp at h
  | (a, b) :: d, hd, h => by
    simp only [List.map_cons, List.nodup_cons] at hd
    simp only [List.lookup]
    by_cases e : n = a
    · subst e
      rcases List.mem_cons.1 h with h | h
      · simp at h; simp [h]
      · exact absurd (List.mem_map.2 ⟨_, h, rfl⟩) hd.1
    · have : (n == a) = false := by simpa using e
      rw [this]
      rcases List.mem_cons.1 h with h | h
      · simp at h; exact absurd h.1 e
      · exact lookup_of_mem hd.2 h

theorem loop_append (A B : List (List Char × List Char)) : ∀ fs : Files,
    linkLoop fs (A ++ B) = ((linkLoop (linkLoop fs A).1 B).1, (linkLoop fs A).2 ++ (linkLoop (linkLoop fs A).1 B).2) := by
  induction A with
  | nil => intro fs; simp [linkLoop]
  | cons x A ih =>
    intro fs
    obtain ⟨t, f⟩ := x
    simp only [List.cons_append, linkLoop]
    cases fs.lookup f with
    | none => simp only [ih]
    | some s => simp only [ih, List.cons_append]

theorem loop_other {n : List Char} : ∀ {A : List (List Char × List Char)} (fs : Files), n ∉ A.map Prod.fst →
    (linkLoop fs A).1.lookup n = fs.lookup n
  | [], fs, _ => rfl
  | (t, f) :: A, fs, h => by
    simp only [List.map_cons, List.mem_cons, not_or] at h
    simp only [linkLoop]
    cases fs.lookup f with
    | none => exact loop_other fs h.2
    | some s => simp only [loop_other _ h.2, lookup_set, if_neg h.1]

/-- In alphabetical order, each name once. -/
def Ascending (S : List (List Char × List Char)) : Prop := S.Pairwise fun a b => a.1 < b.1

theorem lt_ne {a b : List Char} (h : a < b) : a ≠ b := fun e => List.lt_irrefl _ (e ▸ h)

theorem lt_asymm' {a b : List Char} (h : a < b) : ¬ b < a := fun h' => List.lt_irrefl _ (List.lt_trans h h')

theorem loop_spec {S : List (List Char × List Char)} (hS : Ascending S) (fs : Files) (n f : List Char)
    (hm : (n, f) ∈ S) :
    (linkLoop fs S).1.lookup n = ((if f < n then (linkLoop fs S).1.lookup f else fs.lookup f).map
      (replaceText f n)).or (fs.lookup n) ∧
    ((n, f) ∈ (linkLoop fs S).2 ↔ ((if f < n then (linkLoop fs S).1.lookup f else fs.lookup f)).isSome) := by
  obtain ⟨A, B, rfl⟩ := List.append_of_mem hm
  have hA : ∀ x ∈ A, x.1 < n := by
    intro x hx
    have := (List.pairwise_append.1 hS).2.2 x hx (n, f) (by simp)
    exact this
  have hB : ∀ x ∈ B, n < x.1 := by
    intro x hx
    have := (List.pairwise_append.1 hS).2.1
    exact (List.pairwise_cons.1 this).1 x hx
  have nA : n ∉ A.map Prod.fst := by
    intro h
    obtain ⟨x, hx, hxe⟩ := List.mem_map.1 h
    exact lt_ne (hA x hx) hxe
  have nB : n ∉ B.map Prod.fst := by
    intro h
    obtain ⟨x, hx, hxe⟩ := List.mem_map.1 h
    exact lt_ne (hB x hx) hxe.symm
  have hsrc : (if f < n then (linkLoop fs (A ++ (n, f) :: B)).1.lookup f else fs.lookup f) =
      (linkLoop fs A).1.lookup f := by
    by_cases hlt : f < n
    · rw [if_pos hlt, loop_append]
      apply loop_other
      simp only [List.map_cons, List.mem_cons, not_or]
      refine ⟨lt_ne hlt, ?_⟩
      intro h
      obtain ⟨x, hx, hxe⟩ := List.mem_map.1 h
      exact lt_ne (List.lt_trans hlt (hB x hx)) hxe.symm
    · rw [if_neg hlt, loop_other]
      intro h
      obtain ⟨x, hx, hxe⟩ := List.mem_map.1 h
      exact hlt (hxe ▸ hA x hx)
  have hmem : ∀ (gs : Files) (C : List (List Char × List Char)), n ∉ C.map Prod.fst → (n, f) ∉ (linkLoop gs C).2 := by
    intro gs C
    induction C generalizing gs with
    | nil => simp [linkLoop]
    | cons x C ih =>
      obtain ⟨t, g⟩ := x
      intro h
      simp only [List.map_cons, List.mem_cons, not_or] at h
      simp only [linkLoop]
      cases gs.lookup g with
      | none => exact ih gs h.2
      | some s =>
        simp only [List.mem_cons, Prod.mk.injEq, not_or]
        exact ⟨fun e => h.1 e.1, ih _ h.2⟩
  rw [hsrc, loop_append]
  simp only [linkLoop]
  cases hf : (linkLoop fs A).1.lookup f with
  | none =>
    simp only [Option.map_none, Option.none_or, Option.isSome_none, Bool.false_eq_true, iff_false]
    refine ⟨?_, ?_⟩
    · rw [loop_other _ nB, loop_other _ nA]
    · intro h
      rcases List.mem_append.1 h with h | h
      · exact hmem fs A nA h
      · exact hmem _ B nB h
  | some s =>
    simp only [Option.map_some, Option.some_or, Option.isSome_some, iff_true]
    refine ⟨?_, ?_⟩
    · rw [loop_other _ nB, lookup_set, if_pos rfl]
    · simp

theorem pairs_sub : ∀ (S : List (List Char × List Char)) (fs : Files), (linkLoop fs S).2.Sublist S
  | [], fs => by simp [linkLoop]
  | (t, f) :: S, fs => by
    simp only [linkLoop]
    cases fs.lookup f with
    | none => exact (pairs_sub S fs).cons _
    | some s => exact (pairs_sub S _).cons_cons _

theorem aliases_lookup (n : List Char) : ∀ (l : List (List Char × List Char × List Char))
    (links : List (List Char × List Char)), (addAliases links l).lookup n =
      (links.lookup n).or ((l.find? fun m => m.1 = "001".toList ∧ m.2.1 = n).map fun m => m.2.2)
  | [], links => by simp [addAliases]
  | m :: l, links => by
    have ih := aliases_lookup n l
    unfold addAliases at ih ⊢
    rw [List.foldl_cons, ih]
    simp only [List.find?_cons]
    by_cases h1 : m.1 = "001".toList
    · rw [if_pos h1]
      by_cases h2 : (links.lookup m.2.1).isNone
      · rw [if_pos h2, List.lookup_append]
        by_cases h3 : m.2.1 = n
        · subst h3
          rw [Option.isNone_iff_eq_none.1 h2]
          simp [h1, List.lookup]
        · have : (n == m.2.1) = false := by simpa using Ne.symm h3
          simp [h1, h3, List.lookup, this]
      · rw [if_neg h2]
        by_cases h3 : m.2.1 = n
        · subst h3
          cases hl : links.lookup m.2.1 with
          | none => simp [hl] at h2
          | some v => simp
        · simp [h1, h3]
    · rw [if_neg h1]
      have : decide (m.1 = "001".toList ∧ m.2.1 = n) = false := decide_eq_false fun e => h1 e.1
      rw [this]

theorem aliases_nodup : ∀ (l : List (List Char × List Char × List Char)) {links : List (List Char × List Char)},
    (links.map Prod.fst).Nodup → ((addAliases links l).map Prod.fst).Nodup
  | [], links, h => by simpa [addAliases] using h
  | m :: l, links, h => by
    have ih := @aliases_nodup l
    unfold addAliases at ih ⊢
    rw [List.foldl_cons]
    apply ih
    split
    · split
      · rename_i hn
        have := lookup_isNone.1 (Option.isNone_iff_eq_none.1 hn)
        rw [List.map_append]
        exact List.nodup_append.2 ⟨h, by simp, by
          intro a ha b hb
          simp at hb
          subst hb
          exact fun e => this (e ▸ ha)⟩
      · exact h
    · exact h

theorem zoneFiles_lookup (text : Zone → List Char) (n : List Char) : ∀ (zs : List (List Char × Zone)) (acc : Files),
    (zs.map Prod.fst).Nodup → (∀ x ∈ zs, x.2.name = x.1) →
    (zs.foldl (fun fs z => setItem z.2.name (text z.2) fs) acc).lookup n =
      ((zs.lookup n).map text).or (acc.lookup n)
  | [], acc, _, _ => by simp
  | (k, z) :: zs, acc, hd, hk => by
    simp only [List.map_cons, List.nodup_cons] at hd
    have hz : z.name = k := hk (k, z) (by simp)
    rw [List.foldl_cons, zoneFiles_lookup text n zs _ hd.2 fun x hx => hk x (by simp [hx]), lookup_set]
    simp only [List.lookup, hz]
    by_cases h : n = k
    · subst h
      have := lookup_isNone.2 hd.1
      simp [this]
    · have h' : (n == k) = false := by simpa using h
      simp [h, h']

end K97
open K97

namespace K97

theorem sorted_links {L : List (List Char × List Char)} (hL : (L.map Prod.fst).Nodup) :
    Ascending (L.insertionSort fun a b => a.1 ≤ b.1) ∧
      ∀ x, x ∈ (L.insertionSort fun a b => a.1 ≤ b.1) ↔ x ∈ L := by
  have ht : Std.Total (fun a b : List Char × List Char => a.1 ≤ b.1) := ⟨fun a b => List.le_total _ _⟩
  have htr : IsTrans (List Char × List Char) (fun a b => a.1 ≤ b.1) := ⟨fun a b c => List.le_trans⟩
  refine ⟨?_, fun x => List.mem_insertionSort _⟩
  have hp := List.pairwise_insertionSort (fun a b : List Char × List Char => a.1 ≤ b.1) L
  have hn : ((L.insertionSort fun a b => a.1 ≤ b.1).map Prod.fst).Nodup :=
    ((List.perm_insertionSort _ L).map Prod.fst).nodup_iff.2 hL
  unfold Ascending
  rw [List.Nodup, List.pairwise_map] at hn
  exact (hp.and hn).imp fun h => Std.lt_of_le_of_ne h.1 h.2

end K97

/-- What `parse` has read from any files has each key once. -/
theorem C97_good (files : List (List Char)) (st : TzData)
    (h : files.foldlM (fun s t => TzData.parse s t) ({} : TzData) = some st) : st.Good := by
  have step : ∀ (k : Nat) (ls : List (List Char)) (s s' : TzData), ls.length ≤ k → s.Good →
      parseLoop s ls = some s' → s'.Good := by
    intro k
    induction k with
    | zero =>
      intro ls s s' hk hs h
      have : ls = [] := List.length_eq_zero_iff.1 (by omega)
      subst this
      rw [parseLoop] at h
      exact (Option.some.inj h) ▸ hs
    | succ k ih =>
      intro ls s s' hk hs h
      cases ls with
      | nil => rw [parseLoop] at h; exact (Option.some.inj h) ▸ hs
      | cons l ls =>
        have hk' : ls.length ≤ k := by simpa using hk
        have hzb := zoneBlock_length ls
        rw [parseLoop] at h
        split at h
        · exact ih _ _ _ hk' hs h
        · split at h
          · split at h
            · exact ih _ _ _ hk' (by exact hs) h
            · cases h
          · split at h
            · split at h
              · rename_i z hz
                refine ih _ { s with zones := setItem z.name z s.zones } _ (by omega)
                  ⟨set_nodup hs.1, ?_, hs.2.2⟩ h
                intro x hx
                rcases mem_set hx with rfl | hx
                · rfl
                · exact hs.2.1 x hx
              · cases h
            · split at h
              · split at h
                · exact ih _ { s with links := setItem _ _ s.links } _ hk' ⟨hs.1, hs.2.1, set_nodup hs.2.2⟩ h
                · cases h
              · split at h
                · cases h
                · exact ih _ _ _ hk' hs h
  have all : ∀ (fs : List (List Char)) (s s' : TzData), s.Good →
      fs.foldlM (fun s t => TzData.parse s t) s = some s' → s'.Good := by
    intro fs
    induction fs with
    | nil => intro s s' hs h; simp at h; exact h ▸ hs
    | cons f fs ih =>
      intro s s' hs h
      rw [List.foldlM_cons] at h
      cases hp : TzData.parse s f with
      | none => rw [hp] at h; cases h
      | some s1 =>
        rw [hp] at h
        exact ih s1 s' (step _ _ s s1 (Nat.le_refl _) hs hp) h
  exact all files {} st ⟨by simp, by simp, by simp⟩ h

/-- The files.  A name that is no link has the file of its zone.  A link to a name before it has the file of
that name, with the names exchanged; another link has that of the zone it is a link to.  If there is no
such file, there is no file for a link, unless it is the name of a zone too. -/
theorem C97_files (text : Zone → List Char) (st : TzData) (aliases : List (List Char × List Char × List Char))
    (h : st.Good) (n : List Char) :
    (zoneinfoFiles text st aliases).1.lookup n =
      match linkOf st aliases n with
      | none => (st.zones.lookup n).map text
      | some f => ((if f < n then (zoneinfoFiles text st aliases).1.lookup f else (st.zones.lookup f).map text).map
          (replaceText f n)).or ((st.zones.lookup n).map text) := by
  have hz : ∀ k, (zoneFiles text st.zones).lookup k = (st.zones.lookup k).map text := by
    intro k
    unfold zoneFiles
    rw [zoneFiles_lookup text k _ _ h.1 h.2.1]
    simp
  obtain ⟨hs, hm⟩ := sorted_links (aliases_nodup aliases h.2.2)
  unfold zoneinfoFiles
  have hl : linkOf st aliases n = (addAliases st.links aliases).lookup n := (aliases_lookup n aliases st.links).symm
  rw [hl]
  cases hc : (addAliases st.links aliases).lookup n with
  | none =>
    simp only
    rw [loop_other, hz]
    intro hk
    obtain ⟨x, hx, rfl⟩ := List.mem_map.1 hk
    exact lookup_isNone.1 hc (List.mem_map.2 ⟨x, (hm x).1 hx, rfl⟩)
  | some f =>
    simp only
    have := (loop_spec hs (zoneFiles text st.zones) n f ((hm _).2 (K97.lookup_mem hc))).1
    rw [this, hz, hz]

/-- There is a file for exactly the names that can be reached. -/
theorem C97_reach (text : Zone → List Char) (st : TzData) (aliases : List (List Char × List Char × List Char))
    (h : st.Good) (n : List Char) :
    ((zoneinfoFiles text st aliases).1.lookup n).isSome ↔
      Reach (fun k => (st.zones.lookup k).isSome) (linkOf st aliases) n := by
  constructor
  · have hwf : ∀ (m : Nat) (S : List (List Char × List Char)) (fs : Files), S.length = m →
        (∀ k, (fs.lookup k).isSome → Reach (fun k => (st.zones.lookup k).isSome) (linkOf st aliases) k) →
        (∀ x ∈ S, linkOf st aliases x.1 = some x.2) → Ascending S →
        (∀ x ∈ S, (fs.lookup x.2).isSome → (st.zones.lookup x.2).isSome ∨ x.2 < x.1) →
        (∀ x ∈ S, ∀ k, (fs.lookup k).isSome → (st.zones.lookup k).isSome ∨ k < x.1) →
        ∀ k, ((linkLoop fs S).1.lookup k).isSome →
          Reach (fun k => (st.zones.lookup k).isSome) (linkOf st aliases) k := by
      intro m
      induction m with
      | zero =>
        intro S fs hS h1 _ _ _ _ k hk
        have : S = [] := List.length_eq_zero_iff.1 hS
        subst this
        exact h1 k hk
      | succ m ih =>
        intro S fs hS h1 h2 h3 h4 h5 k hk
        cases S with
        | nil => simp at hS
        | cons x S =>
          obtain ⟨t, f⟩ := x
          simp only [linkLoop] at hk
          obtain ⟨h3a, h3b⟩ := List.pairwise_cons.1 h3
          cases hf : fs.lookup f with
          | none =>
            rw [hf] at hk
            exact ih S fs (by simpa using hS) h1 (fun y hy => h2 y (by simp [hy])) h3b
              (fun y hy => h4 y (by simp [hy])) (fun y hy => h5 y (by simp [hy])) k hk
          | some s =>
            rw [hf] at hk
            have hlink := h2 (t, f) (by simp)
            have ht : Reach (fun k => (st.zones.lookup k).isSome) (linkOf st aliases) t := by
              rcases h4 (t, f) (by simp) (by simp [hf]) with hz | hz
              · exact .direct hlink hz
              · exact .chain hlink hz (h1 f (by simp [hf]))
            refine ih S _ (by simpa using hS) ?_ (fun y hy => h2 y (by simp [hy])) h3b ?_ ?_ k hk
            · intro k hk
              rw [lookup_set] at hk
              split at hk
              · rename_i e; exact e ▸ ht
              · exact h1 k hk
            · intro y hy hk
              rw [lookup_set] at hk
              split at hk
              · rename_i e
                exact .inr (e ▸ h3a y hy)
              · exact h4 y (by simp [hy]) hk
            · intro y hy k hk
              rw [lookup_set] at hk
              split at hk
              · rename_i e
                exact .inr (e ▸ h3a y hy)
              · exact h5 y (by simp [hy]) k hk
    intro hn
    obtain ⟨hs, hm⟩ := sorted_links (aliases_nodup aliases h.2.2)
    have hz : ∀ k, (zoneFiles text st.zones).lookup k = (st.zones.lookup k).map text := by
      intro k
      unfold zoneFiles
      rw [zoneFiles_lookup text k _ _ h.1 h.2.1]
      simp
    refine hwf _ _ (zoneFiles text st.zones) rfl ?_ ?_ hs ?_ ?_ n hn
    · intro k hk
      rw [hz] at hk
      exact .zone (by simpa using hk)
    · intro x hx
      have := (hm x).1 hx
      have e := aliases_lookup x.1 aliases st.links
      rw [lookup_of_mem (aliases_nodup aliases h.2.2) (n := x.1) (v := x.2) this] at e
      exact e.symm
    · intro x hx hk
      rw [hz] at hk
      exact .inl (by simpa using hk)
    · intro x hx k hk
      rw [hz] at hk
      exact .inl (by simpa using hk)
  · intro hr
    induction hr with
    | zone hz =>
      rename_i n
      rw [C97_files text st aliases h n]
      cases linkOf st aliases n with
      | none => simpa using hz
      | some f => simp [hz]
    | direct hl hz =>
      rename_i n f
      rw [C97_files text st aliases h n, hl]
      have hf : ((zoneinfoFiles text st aliases).1.lookup f).isSome := by
        rw [C97_files text st aliases h f]
        cases linkOf st aliases f with
        | none => simpa using hz
        | some g => simp [hz]
      simp only
      split
      · simp [hf]
      · simp [hz]
    | chain hl hlt _hr ih =>
      rename_i n f
      rw [C97_files text st aliases h n, hl]
      simp [hlt, ih]

/-- The file `links.txt` has, in alphabetical order, the links for which there is a file to be copied. -/
theorem C97_list (text : Zone → List Char) (st : TzData) (aliases : List (List Char × List Char × List Char))
    (h : st.Good) : ((zoneinfoFiles text st aliases).2.Pairwise fun a b => a.1 < b.1) ∧
      ∀ n f, (n, f) ∈ (zoneinfoFiles text st aliases).2 ↔ linkOf st aliases n = some f ∧
        ((st.zones.lookup f).isSome ∨
          f < n ∧ Reach (fun k => (st.zones.lookup k).isSome) (linkOf st aliases) f) := by
  obtain ⟨hs, hm⟩ := sorted_links (aliases_nodup aliases h.2.2)
  have hz : ∀ k, (zoneFiles text st.zones).lookup k = (st.zones.lookup k).map text := by
    intro k
    unfold zoneFiles
    rw [zoneFiles_lookup text k _ _ h.1 h.2.1]
    simp
  refine ⟨hs.sublist (pairs_sub _ _), ?_⟩
  intro n f
  have hlink : linkOf st aliases n = some f ↔ (n, f) ∈ (addAliases st.links aliases) := by
    unfold linkOf
    rw [← aliases_lookup]
    exact ⟨K97.lookup_mem, lookup_of_mem (aliases_nodup aliases h.2.2)⟩
  constructor
  · intro hmem
    have hin : (n, f) ∈ (addAliases st.links aliases) := (hm _).1 ((pairs_sub _ _).mem hmem)
    refine ⟨hlink.2 hin, ?_⟩
    have := (loop_spec hs (zoneFiles text st.zones) n f ((hm _).2 hin)).2.1 hmem
    split at this
    · rename_i hlt
      exact .inr ⟨hlt, (C97_reach text st aliases h f).1 this⟩
    · rw [hz] at this
      exact .inl (by simpa using this)
  · rintro ⟨hl, hc⟩
    refine (loop_spec hs (zoneFiles text st.zones) n f ((hm _).2 (hlink.1 hl))).2.2 ?_
    split
    · refine (C97_reach text st aliases h f).2 ?_
      rcases hc with hc | hc
      · exact .zone hc
      · exact hc.2
    · rename_i hlt
      rcases hc with hc | hc
      · rw [hz]; simpa using hc
      · exact absurd hc.1 hlt

/-! ## Names in the text -/

namespace K97

theorem replace_none {old new : List Char} : ∀ {s : List Char}, (∀ i, i < s.length → ¬ OccursAt old s i) →
    replaceLoop old new 0 s = s
  | [], _ => by simp [replaceLoop]
  | c :: s, h => by
    have h0 : old.isPrefixOf (c :: s) = false := by
      have := h 0 (by simp)
      rw [Bool.eq_false_iff]
      intro hp
      exact this (by simpa [OccursAt] using hp)
    rw [replaceLoop, h0, if_neg (by simp), replace_none]
    intro i hi ho
    exact h (i + 1) (by simpa using hi) (by simpa [OccursAt] using ho)

theorem replace_skip {old new : List Char} : ∀ (a s : List Char), replaceLoop old new a.length (a ++ s) =
    replaceLoop old new 0 s
  | [], s => rfl
  | c :: a, s => by
    rw [List.length_cons, List.cons_append, replaceLoop, replace_skip a s]

end K97

/-- C97 (partial): if the name occurs once in the text, it is exchanged and nothing else is.

Missing: names that occur more often, `C97_fails_text`. -/
theorem C97_text_partial (old new pre post : List Char) (hne : old ≠ [])
    (h : ∀ i, OccursAt old (pre ++ old ++ post) i → i = pre.length) :
    replaceText old new (pre ++ old ++ post) = pre ++ new ++ post := by
  unfold replaceText
  induction pre with
  | nil =>
    cases old with
    | nil => exact absurd rfl hne
    | cons c old =>
      have hp : (c :: old).isPrefixOf (c :: old ++ post) = true := by simp
      simp only [List.nil_append, List.cons_append] at h hp ⊢
      rw [replaceLoop, hp, if_pos rfl]
      simp only [List.length_cons, Nat.add_sub_cancel, replace_skip]
      rw [replace_none]
      intro i hi ho
      have := h (i + (old.length + 1)) (by
        unfold OccursAt at ho ⊢
        have e : (c :: (old ++ post)).drop (i + (old.length + 1)) = post.drop i := by
          rw [← List.cons_append, Nat.add_comm, ← List.drop_drop]
          congr 1
          exact List.drop_left' (by simp)
        rw [e]; exact ho)
      simp at this
  | cons c pre ih =>
    have h0 : old.isPrefixOf (c :: (pre ++ old ++ post)) = false := by
      rw [Bool.eq_false_iff]
      intro hp
      have := h 0 (by simpa [OccursAt] using hp)
      simp at this
    simp only [List.cons_append] at h ⊢
    rw [replaceLoop, h0, if_neg (by simp), ih]
    intro i ho
    have := h (i + 1) (by simpa [OccursAt] using ho)
    simpa using this

/-- But a name that occurs elsewhere in the text is exchanged there too: the abbreviation of a zone that is called
like it changes. -/
theorem C97_fails_text : ∃ old new : List Char, replaceText old new
    "TZID:EST\r\nBEGIN:STANDARD\r\nTZNAME:EST\r\nEND:STANDARD\r\n".toList =
    "TZID:America/Panama\r\nBEGIN:STANDARD\r\nTZNAME:America/Panama\r\nEND:STANDARD\r\n".toList :=
  ⟨"EST".toList, "America/Panama".toList, by decide +kernel⟩

/-- And a link to a link that comes later in alphabetical order gets no file. -/
theorem C97_fails_chain (text : Zone → List Char) (st : TzData) (aliases : List (List Char × List Char × List Char))
    (h : st.Good) (n f : List Char) (hl : linkOf st aliases n = some f) (hlt : n < f)
    (hn : st.zones.lookup n = none) (hf : st.zones.lookup f = none) :
    (zoneinfoFiles text st aliases).1.lookup n = none := by
  rw [C97_files text st aliases h n, hl]
  simp [lt_asymm' hlt, hn, hf]

/-- Two links of the time zone data. -/
def sampleData : TzData :=
  { zones := [("Europe/London".toList, ⟨"Europe/London".toList, [⟨"0".toList, "-".toList, "GMT".toList, none⟩]⟩)]
    links := [("GB".toList, "Europe/London".toList), ("Europe/Jersey".toList, "GB".toList),
      ("Northern_Ireland".toList, "GB".toList)] }

example : sampleData.Good := by unfold TzData.Good; decide +kernel

/-- `GB` has a file and `Northern_Ireland`, which comes after it, too; `Europe/Jersey` has none. -/
example : (zoneinfoFiles (fun z => "TZID:".toList ++ z.name) sampleData
      [("001".toList, "GMT Standard Time".toList, "Europe/London".toList),
       ("GB".toList, "British".toList, "Europe/London".toList)]) =
    ([("Europe/London".toList, "TZID:Europe/London".toList), ("GB".toList, "TZID:GB".toList),
      ("GMT Standard Time".toList, "TZID:GMT Standard Time".toList),
      ("Northern_Ireland".toList, "TZID:Northern_Ireland".toList)],
     [("GB".toList, "Europe/London".toList), ("GMT Standard Time".toList, "Europe/London".toList),
      ("Northern_Ireland".toList, "GB".toList)]) := by decide +kernel

end Zonal
end PyCal
