import Mathlib.Data.List.Induction
import Verif.Spec.OutputFilter
import Verif.Props.C86_TreeJSON

/-!
# C91: writing through an output filter
-/

namespace PyCal
open Cont XCal OFilter Spec.OFilter

namespace F91

/-! ### The order of the properties -/

theorem keyLoop_filter (P : List Char → Bool) (order : List (List Char)) : ∀ keys : List (List Char),
    keys.Nodup → (keyLoop order keys).filter P = keyLoop order (keys.filter P) := by
  induction order with
  | nil => intro keys _; rfl
  | cons k order ih =>
    intro keys hn
    rw [keyLoop, keyLoop]
    by_cases hk : k ∈ keys
    · rw [if_pos hk, List.filter_cons]
      have he : (keys.filter P).erase k = (keys.erase k).filter P := by
        rw [hn.erase_eq_filter, (hn.filter _).erase_eq_filter, List.filter_filter, List.filter_filter]
        apply List.filter_congr
        intro a _
        rw [Bool.and_comm]
      cases hP : P k with
      | true => rw [if_pos rfl, if_pos (List.mem_filter.2 ⟨hk, hP⟩), he, ih _ (hn.erase k)]
      | false =>
        rw [if_neg (by simp), if_neg (by simp [hP]), ih _ (hn.erase k), ← he,
          List.erase_of_not_mem (by simp [hP])]
    · rw [if_neg hk, if_neg (by simp [hk]), ih _ hn]

theorem sortedKeys_filter (P : List Char → Bool) {ps qs : List CProp}
    (h : ∀ k, k ∈ qs.map CProp.key ↔ k ∈ ps.map CProp.key ∧ P k = true) :
    sortedKeys qs = (sortedKeys ps).filter P := by
  have hs : ∀ l : List CProp, (sortedKeys l).Pairwise (· ≤ ·) := fun l =>
    List.pairwise_insertionSort (· ≤ ·) _
  refine List.Perm.eq_of_pairwise (le := (· ≤ ·)) (fun a b _ _ h1 h2 => le_antisymm h1 h2) (hs _)
    ((hs _).filter _) ?_
  rw [List.perm_ext_iff_of_nodup]
  · intro k
    rw [List.mem_filter, (Ord42.sortedKeys_perm _).mem_iff, (Ord42.sortedKeys_perm _).mem_iff, List.mem_dedup,
      List.mem_dedup, h]
  · exact (Ord42.sortedKeys_perm _).nodup_iff.2 (List.nodup_dedup _)
  · exact ((Ord42.sortedKeys_perm _).nodup_iff.2 (List.nodup_dedup _)).filter _

theorem flatMap_filter {α β : Type} (P : α → Bool) (f : α → List β) {l : List α}
    (h : ∀ a ∈ l, P a = false → f a = []) : (l.filter P).flatMap f = l.flatMap f := by
  induction l with
  | nil => rfl
  | cons a l ih =>
    have := ih fun b hb => h b (List.mem_cons_of_mem _ hb)
    rw [List.filter_cons]
    cases hP : P a with
    | true => simp [this]
    | false => simp [h a (by simp) hP, this]

theorem filterMap_key {g : CProp → Option CProp} (hg : ∀ p q, g p = some q → q.key = p.key)
    (ps : List CProp) (k : List Char) : (ps.filterMap g).filter (fun p => decide (p.key = k)) =
      (ps.filter fun p => decide (p.key = k)).filterMap g := by
  induction ps with
  | nil => rfl
  | cons p ps ih =>
    by_cases hk : p.key = k
    · cases hp : g p with
      | none => simp [List.filterMap_cons, hp, hk, ih]
      | some q => simp [List.filterMap_cons, hp, hk, hg p q hp, ih]
    · cases hp : g p with
      | none => simp [List.filterMap_cons, hp, hk, ih]
      | some q => simp [List.filterMap_cons, hp, hk, hg p q hp, ih]

/-- Leaving out properties does not change the order of the others. -/
theorem written_filterMap {g : CProp → Option CProp} (hg : ∀ p q, g p = some q → q.key = p.key)
    (order : List (List Char)) (ps : List CProp) :
    writtenProps order (ps.filterMap g) = (writtenProps order ps).filterMap g := by
  let P : List Char → Bool := fun k => decide (k ∈ (ps.filterMap g).map CProp.key)
  have hmem : ∀ k, k ∈ (ps.filterMap g).map CProp.key → k ∈ ps.map CProp.key := by
    intro k hk
    obtain ⟨q, hq, rfl⟩ := List.mem_map.1 hk
    obtain ⟨p, hp, h⟩ := List.mem_filterMap.1 hq
    exact List.mem_map.2 ⟨p, hp, (hg p q h).symm⟩
  have hk : sortedPropertyKeys order (ps.filterMap g) = (sortedPropertyKeys order ps).filter P := by
    unfold sortedPropertyKeys
    rw [keyLoop_filter P order _ ((Ord42.sortedKeys_perm _).nodup_iff.2 (List.nodup_dedup _)),
      sortedKeys_filter P (ps := ps) fun k => ⟨fun h => ⟨hmem k h, by simpa [P] using h⟩, fun h => by
        simpa [P] using h.2⟩]
  unfold writtenProps
  rw [hk, flatMap_filter]
  · rw [List.filterMap_flatMap]
    congr 1
    funext k
    exact filterMap_key hg ps k
  · intro k _ hP
    rw [List.filter_eq_nil_iff]
    intro q hq
    simp only [decide_eq_true_eq]
    rintro rfl
    have : P q.key = true := decide_eq_true (List.mem_map_of_mem hq)
    rw [hP] at this
    cases this

/-! ### The filter -/

theorem made_snoc (t : List Char) (calls : List Call) (c : Call) :
    made t (calls ++ [c]) = Call.run (made t calls) c := by simp [made, List.foldl_append]

theorem allProps_iff (t : List Char) (calls : List Call) :
    (made t calls).isAllProps = true ↔ AllProps calls := by
  unfold AllProps
  induction calls using List.reverseRecOn with
  | nil => simp [made, Filter.new, Filter.isAllProps]
  | append_singleton calls c ih =>
    rw [made_snoc, List.mem_append, ← ih]
    obtain ⟨a, b, c', d, e⟩ := made t calls
    cases c <;> simp [Call.run, Filter.setAllSubs, Filter.addSub, Filter.setAllProps, Filter.addProp,
      Filter.isAllProps]

theorem allSubs_iff (t : List Char) (calls : List Call) :
    (made t calls).isAllSubs = true ↔ AllSubs calls := by
  unfold AllSubs
  induction calls using List.reverseRecOn with
  | nil => simp [made, Filter.new, Filter.isAllSubs]
  | append_singleton calls c ih =>
    rw [made_snoc, List.mem_append, ← ih]
    obtain ⟨a, b, c', d, e⟩ := made t calls
    cases c <;> simp [Call.run, Filter.setAllSubs, Filter.addSub, Filter.setAllProps, Filter.addProp,
      Filter.isAllSubs]

theorem subs_iff (t : List Char) (calls : List Call) (h : Call.allSubs ∉ calls) :
    (made t calls).hasSubFilters = true ↔ ∃ f, Call.addSub f ∈ calls := by
  induction calls using List.reverseRecOn with
  | nil => simp [made, Filter.new, Filter.hasSubFilters]
  | append_singleton calls c ih =>
    simp only [List.mem_append, List.mem_singleton, not_or] at h
    have := ih h.1
    rw [made_snoc]
    simp only [List.mem_append, List.mem_singleton, exists_or, ← this]
    revert this
    obtain ⟨a, b, c', d, e⟩ := made t calls
    intro _
    cases c with
    | allSubs => exact absurd rfl h.2
    | addSub f => simp [Call.run, Filter.addSub, Filter.hasSubFilters]
    | allProps => simp [Call.run, Filter.setAllProps, Filter.hasSubFilters]
    | addProp n b => simp [Call.run, Filter.addProp, Filter.hasSubFilters]

/-- What `addProperty` has put under a name. -/
def found (n : List Char) : Filter → Option Bool
  | .mk _ _ _ _ ps => (ps.getD []).lookup n

theorem found_iff (t : List Char) (calls : List Call) (h : ¬ AllProps calls) (n : List Char) (b : Bool) :
    found n (made t calls) = some b ↔
      ∃ before after, calls = before ++ Call.addProp n b :: after ∧
        ∀ m b', Call.addProp m b' ∈ after → m ≠ n := by
  induction calls using List.reverseRecOn with
  | nil => simp [made, Filter.new, found]
  | append_singleton calls c ih =>
    have h1 : ¬ AllProps calls := fun hc => h (List.mem_append_left _ hc)
    have h2 : c ≠ .allProps := by rintro rfl; exact h (by simp [AllProps])
    have ih := ih h1
    have hsame : (∀ b', c ≠ .addProp n b') →
        ((∃ before after, calls = before ++ Call.addProp n b :: after ∧
          ∀ m b', Call.addProp m b' ∈ after → m ≠ n) ↔
        ∃ before after, calls ++ [c] = before ++ Call.addProp n b :: after ∧
          ∀ m b', Call.addProp m b' ∈ after → m ≠ n) := by
      intro hc
      constructor
      · rintro ⟨x, y, rfl, hy⟩
        refine ⟨x, y ++ [c], by simp, ?_⟩
        intro m b' hm hmn
        rcases List.mem_append.1 hm with hm | hm
        · exact hy m b' hm hmn
        · rw [List.mem_singleton] at hm
          exact hc b' (by rw [← hm, hmn])
      · rintro ⟨x, y, hxy, hy⟩
        rcases List.eq_nil_or_concat y with rfl | ⟨y', d, rfl⟩
        · have := List.append_inj_right' hxy rfl
          simp only [List.cons.injEq, and_true] at this
          exact absurd this (hc b)
        · rw [List.concat_eq_append, ← List.cons_append, ← List.append_assoc] at hxy
          refine ⟨x, y', List.append_inj_left' hxy rfl, fun m b' hm => hy m b' ?_⟩
          rw [List.concat_eq_append]
          exact List.mem_append_left _ hm
    rw [made_snoc]
    cases c with
    | allProps => exact absurd rfl h2
    | allSubs =>
      rw [← hsame (by simp), ← ih]
      obtain ⟨_, _, _, _, _⟩ := made t calls
      rfl
    | addSub f =>
      rw [← hsame (by simp), ← ih]
      obtain ⟨_, _, _, _, _⟩ := made t calls
      rfl
    | addProp m b' =>
      by_cases hm : m = n
      · subst hm
        have : found m ((made t calls).addProp m b') = some b' := by
          obtain ⟨_, _, _, _, _⟩ := made t calls
          simp [Filter.addProp, found]
        show found m ((made t calls).addProp m b') = some b ↔ _
        rw [this]
        constructor
        · rintro h
          cases h
          exact ⟨calls, [], rfl, by simp⟩
        · rintro ⟨x, y, hxy, hy⟩
          rcases List.eq_nil_or_concat y with rfl | ⟨y', d, rfl⟩
          · have := List.append_inj_right' hxy rfl
            simp only [List.cons.injEq, and_true, Call.addProp.injEq, true_and] at this
            rw [this]
          · rw [List.concat_eq_append] at hxy hy
            rw [← List.cons_append, ← List.append_assoc] at hxy
            have := List.append_inj_right' hxy rfl
            simp only [List.cons.injEq, and_true] at this
            exact absurd rfl (hy m b' (by simp [this]))
      · rw [← hsame (by simpa using hm), ← ih]
        have : (n == m) = false := by simpa using fun e => hm e.symm
        obtain ⟨_, _, _, _, _⟩ := made t calls
        simp [Call.run, Filter.addProp, found, List.lookup, this]

theorem test_form (n : List Char) (f : Filter) : f.testPropertyValue n =
    if f.isAllProps then (true, false)
    else match found n f with
      | some b => (true, b)
      | none => (false, false) := by
  obtain ⟨_, _, _, ap, ps⟩ := f
  simp only [Filter.testPropertyValue, Filter.isAllProps, found]
  cases ap with
  | true => rfl
  | false =>
    cases ps with
    | none => rfl
    | some l =>
      simp only [Option.getD_some]
      cases l.lookup n <;> rfl

theorem filteredProps_eq (bare : CProp → CProp) (order : List (List Char)) (f : Filter) (ps : List CProp) :
    filteredProps bare order f ps = (writtenProps order ps).filterMap (filteredProp bare f) := by
  unfold filteredProps
  by_cases h : f.isAllProps = true
  · rw [if_pos h]
    have : filteredProp bare f = some := by
      funext p
      rw [filteredProp, test_form, if_pos h]
    rw [this]
    exact (List.filterMap_some).symm
  · rw [if_neg h]
    split
    · rfl
    · rename_i h2
      symm
      rw [List.filterMap_eq_nil_iff]
      intro p _
      rw [filteredProp, test_form, if_neg h]
      obtain ⟨_, _, _, _, ps⟩ := f
      cases ps with
      | none => rfl
      | some _ => exact absurd rfl h2

theorem wanted_iff (bare : CProp → CProp) (t : List Char) (calls : List Call)
    (hu : ∀ n b, Call.addProp n b ∈ calls → PropText.upper n = n) (p q : CProp) :
    filteredProp bare (made t calls) p = some q ↔ Wanted bare calls p q := by
  rw [filteredProp, test_form]
  by_cases h : AllProps calls
  · rw [if_pos ((allProps_iff t calls).2 h)]
    constructor
    · intro e; cases e; exact .all h
    · intro e
      cases e with
      | all => rfl
      | value h' => exact absurd h h'
      | bare h' => exact absurd h h'
  · rw [if_neg fun h' => h ((allProps_iff t calls).1 h')]
    have hn : ∀ b, found p.key (made t calls) = some b ↔ Named p.name b calls := by
      intro b
      rw [found_iff t calls h]
      constructor
      · rintro ⟨x, y, rfl, hy⟩
        refine .mk (hu _ b (by simp)) fun m b' hm => ?_
        rw [hu m b' (by simp [hm])]
        exact hy m b' hm
      · rintro ⟨hn, hlast⟩
        rename_i x y n
        rw [hu n b (by simp)] at hn
        refine ⟨x, y, by rw [hn]; rfl, fun m b' hm => ?_⟩
        have := hlast m b' hm
        rwa [hu m b' (by simp [hm])] at this
    cases hf : found p.key (made t calls) with
    | none =>
      constructor
      · intro e; cases e
      · intro e
        cases e with
        | all h' => exact absurd h' h
        | value _ h' => rw [← hn, hf] at h'; cases h'
        | bare _ h' => rw [← hn, hf] at h'; cases h'
    | some b =>
      have hb := (hn b).1 hf
      constructor
      · intro e
        cases b with
        | true => cases e; exact .bare h hb
        | false => cases e; exact .value h hb
      · intro e
        cases e with
        | all h' => exact absurd h' h
        | value _ h' =>
          rw [← hn, hf] at h'
          cases h'
          rfl
        | bare _ h' =>
          rw [← hn, hf] at h'
          cases h'
          rfl

theorem wantedAll (bare : CProp → CProp) (t : List Char) (calls : List Call)
    (hu : ∀ n b, Call.addProp n b ∈ calls → PropText.upper n = n) (ps : List CProp) :
    WantedAll bare calls ps (ps.filterMap (filteredProp bare (made t calls))) := by
  induction ps with
  | nil => exact .nil
  | cons p ps ih =>
    rw [List.filterMap_cons]
    cases h : filteredProp bare (made t calls) p with
    | none =>
      refine .leave (fun q hq => ?_) ih
      rw [← wanted_iff bare t calls hu, h] at hq
      cases hq
    | some q => exact .keep ((wanted_iff bare t calls hu p q).1 h) ih

theorem key_kept {bare : CProp → CProp} (hb : ∀ p, (bare p).key = p.key) (f : Filter) (p q : CProp)
    (h : filteredProp bare f p = some q) : q.key = p.key := by
  unfold filteredProp at h
  split at h
  · cases h; exact hb p
  · cases h; rfl
  · cases h

theorem written_eq {bare : CProp → CProp} (hb : ∀ p, (bare p).key = p.key) (order : List (List Char))
    (f : Filter) (ps : List CProp) :
    filteredProps bare order f ps = writtenProps order (ps.filterMap (filteredProp bare f)) := by
  rw [filteredProps_eq, written_filterMap (key_kept hb f)]

theorem namesLoop_nil (o : Order) (names : List (List Char)) : namesLoop o names [] = some ([], []) := by
  induction names with
  | nil => rfl
  | cons n names ih => rw [namesLoop, nameLoop]; simp [ih]

theorem sorted_nil (o : Order) (t : List Char) : sortedTagged o t (tag []) = some [] := by
  unfold sortedTagged
  split
  · rfl
  · show Option.map _ (namesLoop o (o.names t) []) = _
    rw [namesLoop_nil]
    simp

end F91
open F91

/-- C91 (partial): what is written through a filter is what is written for the component that has only the
properties and components the calls ask for.  Missing: filters for components (`C91_fails_subs`) and names
of properties that are not in capital letters (`C91_fails_case`).  `bare`: a property without its value. -/
theorem C91_text_partial (bare : CProp → CProp) (hb : ∀ p, (bare p).key = p.key) (o : Order)
    (type : List Char) (calls : List Call)
    (hu : ∀ n b, Call.addProp n b ∈ calls → PropText.upper n = n)
    (hs : AllSubs calls ∨ NoSubs calls) (c : Component) :
    ∃ d, Part bare calls c d ∧ generateFiltered bare o (made type calls) c = generate o d := by
  obtain ⟨t, ps, cs⟩ := c
  rcases hs with hs | hs
  · refine ⟨_, .all (wantedAll bare type calls hu ps) hs, ?_⟩
    rw [generateFiltered, generate, if_pos ((allSubs_iff type calls).2 hs), written_eq hb]
    cases generateAll o cs <;> cases sortedTagged o t (tag cs) <;> rfl
  · refine ⟨_, .none (wantedAll bare type calls hu ps) hs, ?_⟩
    rw [generateFiltered, generate, if_neg fun h => hs.1 ((allSubs_iff type calls).1 h),
      if_neg fun h => by
        obtain ⟨f, hf⟩ := (subs_iff type calls hs.1).1 h
        exact hs.2 f hf, written_eq hb, generateAll, sorted_nil]
    rfl

/-- C91: a filter for everything leaves nothing out. -/
theorem C91_everything (bare : CProp → CProp) (o : Order) (type : List Char) (calls : List Call)
    (hp : AllProps calls) (hs : AllSubs calls) (c : Component) :
    generateFiltered bare o (made type calls) c = generate o c := by
  obtain ⟨t, ps, cs⟩ := c
  rw [generateFiltered, generate, if_pos ((allSubs_iff type calls).2 hs), filteredProps,
    if_pos ((allProps_iff type calls).2 hp)]
  cases generateAll o cs <;> cases sortedTagged o t (tag cs) <;> rfl

/-- C91 (partial): the same in jCal, if there are no components or none are asked for.  Missing: filters for
components, all components (`C91_fails_nested`), and names not in capital letters. -/
theorem C91_json_partial {J : Type} (bare : CProp → CProp) (hb : ∀ p, (bare p).key = p.key) (env : JEnv J)
    (o : Order) (type : List Char) (calls : List Call)
    (hu : ∀ n b, Call.addProp n b ∈ calls → PropText.upper n = n) (c : Component)
    (hs : NoSubs calls ∨ AllSubs calls ∧ c.subs = []) :
    ∃ d, Part bare calls c d ∧ writeJSONFiltered bare env o (made type calls) c = writeJSON env o d := by
  obtain ⟨t, ps, cs⟩ := c
  refine ⟨.mk t (ps.filterMap (filteredProp bare (made type calls))) [], ?_, ?_⟩
  · rcases hs with hs | ⟨hs, hc⟩
    · exact .none (wantedAll bare type calls hu ps) hs
    · cases hc
      exact .all (wantedAll bare type calls hu ps) hs
  have hs : cs = [] ∨ (made type calls).isAllSubs = false ∧ (made type calls).hasSubFilters = false := by
    rcases hs with hs | ⟨-, hs⟩
    · refine .inr ⟨by simpa using fun h => hs.1 ((allSubs_iff type calls).1 h), ?_⟩
      rw [← Bool.not_eq_true, subs_iff type calls hs.1]
      rintro ⟨f, hf⟩
      exact hs.2 f hf
    · exact .inl hs
  rw [writeJSONFiltered.eq_def]
  dsimp only
  rw [written_eq hb]
  generalize writeJSON env o (.mk t ps cs) = inner
  rw [writeJSON, writeAllJSON, sorted_nil]
  cases List.mapM env.write (writtenProps (o.keyOrder t)
    (ps.filterMap (filteredProp bare (made type calls)))) with
  | none => rfl
  | some js => rcases hs with rfl | ⟨h1, h2⟩ <;> simp [*]

/-- C91 (partial): the same in xCal; if the component has components but none are asked for, the element for
them is there but empty.  What is missing is as in jCal. -/
theorem C91_xml_partial (bare : CProp → CProp) (hb : ∀ p, (bare p).key = p.key)
    (write : CProp → Option Xml) (o : Order) (type : List Char) (calls : List Call)
    (hu : ∀ n b, Call.addProp n b ∈ calls → PropText.upper n = n) (c : Component)
    (hs : NoSubs calls ∨ AllSubs calls ∧ c.subs = []) :
    ∃ d, Part bare calls c d ∧ (writeXMLFiltered bare write o (made type calls) c = none ∧
        compElem write o d = none ∨
      ∃ tag xs es, compElem write o d = some (.elem tag .none [propertiesElem xs]) ∧
        (es = [] ∨ es = [.elem "components".toList .none []]) ∧
        writeXMLFiltered bare write o (made type calls) c =
          some (.elem tag .none (propertiesElem xs :: es))) := by
  obtain ⟨t, ps, cs⟩ := c
  refine ⟨.mk t (ps.filterMap (filteredProp bare (made type calls))) [], ?_, ?_⟩
  · rcases hs with hs | ⟨hs, hc⟩
    · exact .none (wantedAll bare type calls hu ps) hs
    · cases hc
      exact .all (wantedAll bare type calls hu ps) hs
  have hs : cs = [] ∨ (made type calls).isAllSubs = false ∧ (made type calls).hasSubFilters = false := by
    rcases hs with hs | ⟨-, hs⟩
    · refine .inr ⟨by simpa using fun h => hs.1 ((allSubs_iff type calls).1 h), ?_⟩
      rw [← Bool.not_eq_true, subs_iff type calls hs.1]
      rintro ⟨f, hf⟩
      exact hs.2 f hf
    · exact .inl hs
  rw [writeXMLFiltered.eq_def]
  dsimp only
  rw [written_eq hb]
  generalize compElem write o (.mk t ps cs) = inner
  rw [compElem, compElems, sorted_nil]
  cases List.mapM write (writtenProps (o.keyOrder t)
    (ps.filterMap (filteredProp bare (made type calls)))) with
  | none => exact .inl ⟨rfl, rfl⟩
  | some xs =>
    refine .inr ⟨makeTag t, xs, componentsElem cs [], rfl, ?_, ?_⟩
    · cases cs with
      | nil => exact .inl rfl
      | cons c cs => exact .inr rfl
    · rcases hs with rfl | ⟨h1, h2⟩ <;> simp [*]

/-- C91 fails: if a filter for some components is added (and not all are asked for), writing raises,
whatever the component; in jCal and xCal if it has components. -/
theorem C91_fails_subs {J : Type} (bare : CProp → CProp) (env : JEnv J) (write : CProp → Option Xml)
    (o : Order) (type : List Char) (calls : List Call) (f : Filter) (hf : Call.addSub f ∈ calls)
    (hs : ¬ AllSubs calls) (t : List Char) (ps : List CProp) (cs : List Component) :
    generateFiltered bare o (made type calls) (.mk t ps cs) = none ∧
    (cs ≠ [] → writeJSONFiltered bare env o (made type calls) (.mk t ps cs) = none ∧
      writeXMLFiltered bare write o (made type calls) (.mk t ps cs) = none) := by
  have h1 : ¬ (made type calls).isAllSubs = true := fun h => hs ((allSubs_iff type calls).1 h)
  have h2 : (made type calls).hasSubFilters = true := (subs_iff type calls hs).2 ⟨f, hf⟩
  refine ⟨by rw [generateFiltered, if_neg h1, if_pos h2], fun hc => ?_⟩
  have hc : ¬ cs.isEmpty = true := by simpa using hc
  constructor
  · rw [writeJSONFiltered.eq_def]
    dsimp only
    split
    · rfl
    · rw [if_neg hc, if_neg h1, if_pos h2]
  · rw [writeXMLFiltered.eq_def]
    dsimp only
    split
    · rfl
    · rw [if_neg hc, if_neg h1, if_pos h2]

/-- C91 fails: if all components are asked for, what is written for a component that has some, in jCal and
xCal, has in their place the component itself. -/
theorem C91_fails_nested {J : Type} (bare : CProp → CProp) (env : JEnv J) (write : CProp → Option Xml)
    (o : Order) (type : List Char) (calls : List Call) (hs : AllSubs calls) (c : Component)
    (hc : ∀ t ps, c ≠ .mk t ps []) :
    (∀ j, writeJSONFiltered bare env o (made type calls) c = some j →
      ∃ t js i, j = .mk t js [i] ∧ writeJSON env o c = some i) ∧
    ∀ x, writeXMLFiltered bare write o (made type calls) c = some x →
      ∃ t xs y, x = .elem t .none [propertiesElem xs, .elem "components".toList .none [y]] ∧
        compElem write o c = some y := by
  obtain ⟨t, ps, cs⟩ := c
  have hc : ¬ cs.isEmpty = true := by
    intro h
    cases cs with
    | nil => exact hc t ps rfl
    | cons => cases h
  have h1 := (allSubs_iff type calls).2 hs
  constructor
  · intro j hj
    rw [writeJSONFiltered.eq_def] at hj
    dsimp only at hj
    split at hj
    · cases hj
    · rename_i js _
      rw [if_neg hc, if_pos h1] at hj
      cases hw : writeJSON env o (.mk t ps cs) with
      | none => rw [hw] at hj; cases hj
      | some i =>
        rw [hw] at hj
        exact ⟨_, js, i, (Option.some.inj hj).symm, rfl⟩
  · intro x hx
    rw [writeXMLFiltered.eq_def] at hx
    dsimp only at hx
    split at hx
    · cases hx
    · rename_i xs _
      rw [if_neg hc, if_pos h1] at hx
      cases hw : compElem write o (.mk t ps cs) with
      | none => rw [hw] at hx; cases hx
      | some y =>
        rw [hw] at hx
        have hx := (Option.some.inj hx).symm
        have hx : x = .elem (makeTag t) .none (propertiesElem xs :: componentsElem cs [y]) := hx
        rw [componentsElem, if_neg hc] at hx
        exact ⟨_, xs, y, hx, rfl⟩

/-- C91 fails: a property asked for by a name that is not in capital letters is not written. -/
theorem C91_fails_case (bare : CProp → CProp) (type n : List Char) (b : Bool)
    (hn : PropText.upper n ≠ n) (p : CProp) (hp : p.key = PropText.upper n) :
    filteredProp bare (made type [.addProp n b]) p = none ∧
      ∃ q, Wanted bare [.addProp n b] p q := by
  constructor
  · rw [filteredProp, hp]
    have : (PropText.upper n == n) = false := by simpa using hn
    simp [made, Call.run, Filter.addProp, Filter.new, Filter.testPropertyValue, List.lookup, this]
  · have h1 : ¬ AllProps [Call.addProp n b] := by simp [AllProps]
    have h2 : Named p.name b [.addProp n b] := .mk (before := []) (after := []) hp.symm (by simp)
    cases b with
    | true => exact ⟨_, .bare h1 h2⟩
    | false => exact ⟨_, .value h1 h2⟩

/-- A calendar with an event, and its name, without the value, and all components asked for. -/
example : let calls := [Call.addProp "VERSION".toList false, .allSubs, .addProp "VERSION".toList true]
    (∀ n b, Call.addProp n b ∈ calls → PropText.upper n = n) ∧ AllSubs calls ∧ ¬ AllProps calls ∧
    generateFiltered (fun p => ⟨p.name, p.name ++ [':']⟩) Tree41.plain (made "VCALENDAR".toList calls)
      (.mk "VCALENDAR".toList
        [⟨"METHOD".toList, "METHOD:PUBLISH".toList⟩, ⟨"VERSION".toList, "VERSION:2.0".toList⟩]
        [.mk "VEVENT".toList [⟨"UID".toList, "UID:1".toList⟩] []]) =
      some ["BEGIN:VCALENDAR".toList, "VERSION:".toList, "BEGIN:VEVENT".toList, "UID:1".toList,
        "END:VEVENT".toList, "END:VCALENDAR".toList] := by
  refine ⟨?_, by simp [AllSubs], by simp [AllProps], by decide +kernel⟩
  intro n b h
  simp only [List.mem_cons, List.not_mem_nil, or_false, Call.addProp.injEq, reduceCtorEq, false_or] at h
  rcases h with ⟨rfl, -⟩ | ⟨rfl, -⟩ <;> decide

/-- C91: the filter for a kind of component is the one last given for it, unless all components were asked
for since. -/
theorem C91_subFilter (type : List Char) (calls : List Call) (n : List Char) (f : Filter) :
    (made type calls).getSub n = some f ↔ ∃ before after, calls = before ++ .addSub f :: after ∧
      f.type = n ∧ .allSubs ∉ after ∧ ∀ g, .addSub g ∈ after → g.type ≠ n := by
  induction calls using List.reverseRecOn with
  | nil =>
    simp only [made, List.foldl_nil, Filter.new, Filter.getSub, Option.bind_none]
    constructor
    · intro h; cases h
    · rintro ⟨b, a, h, -⟩
      exact absurd h (by simp)
  | append_singleton calls c ih =>
    have split : ∀ before after (x : Call), calls ++ [c] = before ++ x :: after →
        (after = [] ∧ c = x ∧ calls = before) ∨
        ∃ a, after = a ++ [c] ∧ calls = before ++ x :: a := by
      intro before after x e
      rcases List.eq_nil_or_concat after with rfl | ⟨a, y, rfl⟩
      · left
        have := List.append_inj' e rfl
        simpa [and_comm] using this
      · right
        have e' : calls ++ [c] = (before ++ x :: a) ++ [y] := by simpa using e
        have := List.append_inj' e' rfl
        obtain ⟨h1, h2⟩ := this
        cases h2
        exact ⟨a, by simp, h1⟩
    have keep : (c ≠ .allSubs) → (∀ g, c = .addSub g → g.type ≠ n) →
        ((∃ before after, calls = before ++ .addSub f :: after ∧ f.type = n ∧ .allSubs ∉ after ∧
          ∀ g, .addSub g ∈ after → g.type ≠ n) ↔
        ∃ before after, calls ++ [c] = before ++ .addSub f :: after ∧ f.type = n ∧ .allSubs ∉ after ∧
          ∀ g, .addSub g ∈ after → g.type ≠ n) := by
      intro h1 h2
      constructor
      · rintro ⟨b, a, rfl, ht, ha, hg⟩
        refine ⟨b, a ++ [c], by simp, ht, ?_, ?_⟩
        · simp only [List.mem_append, List.mem_singleton, not_or]
          exact ⟨ha, fun e => h1 e.symm⟩
        · intro g hm
          simp only [List.mem_append, List.mem_singleton] at hm
          rcases hm with hm | hm
          · exact hg g hm
          · exact h2 g hm.symm
      · rintro ⟨b, a, e, ht, ha, hg⟩
        rcases split b a _ e with ⟨-, hc, -⟩ | ⟨a', rfl, hc⟩
        · exact absurd ht (h2 f hc)
        · exact ⟨b, a', hc, ht, fun hm => ha (by simp [hm]), fun g hm => hg g (by simp [hm])⟩
    rw [made_snoc]
    cases c with
    | allSubs =>
      obtain ⟨a1, a2, a3, a4, a5⟩ := made type calls
      simp only [Call.run, Filter.setAllSubs, Filter.getSub, Option.bind_none]
      constructor
      · intro h; cases h
      · rintro ⟨b, a, e, -, ha, -⟩
        rcases split b a _ e with ⟨-, hc, -⟩ | ⟨a', rfl, -⟩
        · cases hc
        · exact absurd ha (by simp)
    | allProps =>
      rw [← keep (by simp) (by simp), ← ih]
      obtain ⟨a1, a2, a3, a4, a5⟩ := made type calls
      simp [Call.run, Filter.setAllProps, Filter.getSub]
    | addProp m b =>
      rw [← keep (by simp) (by simp), ← ih]
      obtain ⟨a1, a2, a3, a4, a5⟩ := made type calls
      simp [Call.run, Filter.addProp, Filter.getSub]
    | addSub g =>
      by_cases hg : g.type = n
      · have : Filter.getSub n (Call.run (made type calls) (.addSub g)) = some g := by
          obtain ⟨a1, a2, a3, a4, a5⟩ := made type calls
          simp [Call.run, Filter.addSub, Filter.getSub, List.lookup, hg]
        rw [this, Option.some.injEq]
        constructor
        · rintro rfl
          exact ⟨calls, [], rfl, hg, by simp, by simp⟩
        · rintro ⟨b, a, e, ht, ha, hgs⟩
          rcases split b a _ e with ⟨-, hc, -⟩ | ⟨a', rfl, -⟩
          · cases hc; rfl
          · exact absurd hg (hgs g (by simp))
      · rw [← keep (by simp) (by simpa using hg), ← ih]
        have hne : (n == g.type) = false := by simpa using fun e : n = g.type => hg e.symm
        obtain ⟨a1, a2, a3, a4, a5⟩ := made type calls
        cases a3 <;> simp [Call.run, Filter.addSub, Filter.getSub, List.lookup, hne]

/-- C91: a kind of component passes the test of a filter if and only if all components were asked for, or
this kind. -/
theorem C91_testSub (type : List Char) (calls : List Call) (n : List Char) :
    (made type calls).testSub n = true ↔ AllSubs calls ∨ ∃ f, .addSub f ∈ calls ∧ f.type = n := by
  have h : ∀ f : Filter, f.testSub n = (f.isAllSubs || (f.getSub n).isSome) := fun f => by
    cases f; rfl
  rw [h, Bool.or_eq_true, allSubs_iff, Option.isSome_iff_exists]
  constructor
  · rintro (h | ⟨f, h⟩)
    · exact .inl h
    · obtain ⟨b, a, rfl, ht, -⟩ := (C91_subFilter type calls n f).1 h
      exact .inr ⟨f, by simp, ht⟩
  · rintro (h | ⟨f, hm, ht⟩)
    · exact .inl h
    · by_cases ha : AllSubs calls
      · exact .inl ha
      right
      have last : ∀ l : List Call, (∃ f, .addSub f ∈ l ∧ f.type = n) → ∃ f before after,
          l = before ++ .addSub f :: after ∧ f.type = n ∧ ∀ g, .addSub g ∈ after → g.type ≠ n := by
        intro l
        induction l with
        | nil => rintro ⟨f, h, -⟩; cases h
        | cons c l ih =>
          rintro ⟨f, h, ht⟩
          by_cases hl : ∃ f, Call.addSub f ∈ l ∧ f.type = n
          · obtain ⟨f, b, a, rfl, h1, h2⟩ := ih hl
            exact ⟨f, c :: b, a, rfl, h1, h2⟩
          · rcases List.mem_cons.1 h with rfl | h
            · exact ⟨f, [], l, rfl, ht, fun g hg e => hl ⟨g, hg, e⟩⟩
            · exact absurd ⟨f, h, ht⟩ hl
      obtain ⟨f, b, a, e, h1, h2⟩ := last calls ⟨f, hm, ht⟩
      exact ⟨f, (C91_subFilter type calls n f).2 ⟨b, a, e, h1,
        fun hm => ha (by rw [AllSubs, e]; simp [hm]), h2⟩⟩

/-- Of two filters for events the second counts; the one for to-dos stays. -/
example : ((made "VCALENDAR".toList [.addSub (.new "VEVENT".toList), .addSub (.new "VTODO".toList),
      .addSub (made "VEVENT".toList [.allProps])]).getSub "VEVENT".toList).map Filter.isAllProps =
        some true ∧
    (made "VCALENDAR".toList [.addSub (.new "VTODO".toList),
      .addSub (made "VEVENT".toList [.allProps])]).testSub "VTODO".toList = true := by
  decide +kernel

end PyCal
