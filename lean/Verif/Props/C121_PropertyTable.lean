import Mathlib.Tactic.Common
import Verif.Model.PropertyTable

/-!
# C121: the properties of a component after any history of calls
-/

namespace PyCal
open Table

namespace T121

/-- What a component should have: the properties in the order of adding, each with the name, in upper
case, that it was added under. -/
abbrev Entries := List (List Char × Obj)

/-- Those under a name. -/
def under (key : List Char) (l : Entries) : List Obj :=
  (l.filter fun e => decide (e.1 = key)).map Prod.snd

/-- Those not under a name. -/
def others (key : List Char) (l : Entries) : Entries := l.filter fun e => !decide (e.1 = key)

/-- What a call should do. -/
def step (h : Heap) (names : Obj → List Char) : Op → Entries → Entries
  | .add p, l => l ++ [(PropText.upper (names p), p)]
  | .remove p, l =>
    l.eraseP fun e => decide (e.1 = PropText.upper (names p)) && (decide (e.2 = p) || h.same names e.2 p)
  | .removeAll n, l => others (PropText.upper n) l
  | .edit n none, l => others (PropText.upper n) l
  | .edit n (some p), l => others (PropText.upper n) l ++ [(PropText.upper n, p)]
  | .loadPrivate n, l =>
    if ((under (PropText.upper n) l).head?.bind h.text).isSome then others (PropText.upper n) l else l
  | .rename _ _, l => l

/-- The names of the property objects after a call. -/
def names' : Op → (Obj → List Char) → Obj → List Char
  | .rename p n, f => fun q => if q = p then n else f q
  | .edit n (some p), f => fun q => if q = p then n else f q
  | _, f => f

/-- What a history should leave. -/
def final : List (Heap × Op) → (Obj → List Char) → Entries → Entries
  | [], _, l => l
  | (h, op) :: ops, f, l => final ops (names' op f) (step h f op l)

/-- The dictionary has what it should: the keys are different and none has an empty list. -/
structure Good (d : Dict) (l : Entries) : Prop where
  get : ∀ k, (lookup k d).getD [] = under k l
  full : ∀ k, lookup k d ≠ some []

theorem lookup_store (k key : List Char) (ps : List Obj) : ∀ d : Dict,
    lookup k (store key ps d) = if k = key then some ps else lookup k d := by
  intro d
  induction d with
  | nil =>
    by_cases h : k = key
    · rw [if_pos h, h]; simp [store, lookup]
    · rw [if_neg h]; simp [store, lookup, Ne.symm h]
  | cons e d ih =>
    obtain ⟨k', qs⟩ := e
    rw [store]
    by_cases h' : k' = key
    · subst h'
      rw [if_pos rfl, lookup, lookup]
      by_cases h : k = k'
      · rw [if_pos h.symm, if_pos h]
      · rw [if_neg (Ne.symm h), if_neg h, if_neg (Ne.symm h)]
    · rw [if_neg h', lookup, ih, lookup]
      by_cases h : k' = k
      · subst h
        rw [if_pos rfl, if_neg h', if_pos rfl]
      · rw [if_neg h, if_neg h]

theorem lookup_none {k : List Char} {d : Dict} : lookup k d = none ↔ k ∉ d.map Prod.fst := by
  induction d with
  | nil => simp [lookup]
  | cons e d ih =>
    obtain ⟨k', qs⟩ := e
    rw [lookup]
    by_cases h : k' = k
    · simp [h]
    · rw [if_neg h, ih]
      simp [Ne.symm h]

theorem keys_store (key : List Char) (ps : List Obj) : ∀ {d : Dict}, (d.map Prod.fst).Nodup →
    ((store key ps d).map Prod.fst).Nodup ∧
      ∀ k, k ∈ (store key ps d).map Prod.fst ↔ k = key ∨ k ∈ d.map Prod.fst := by
  intro d
  induction d with
  | nil => intro _; simp [store]
  | cons e d ih =>
    intro hd
    obtain ⟨k', qs⟩ := e
    rw [List.map_cons, List.nodup_cons] at hd
    rw [store]
    by_cases h' : k' = key
    · subst h'
      rw [if_pos rfl]
      refine ⟨by rw [List.map_cons, List.nodup_cons]; exact hd, ?_⟩
      intro k
      simp
    · rw [if_neg h']
      obtain ⟨h1, h2⟩ := ih hd.2
      refine ⟨?_, ?_⟩
      · rw [List.map_cons, List.nodup_cons]
        refine ⟨?_, h1⟩
        rw [h2]
        rintro (h | h)
        · exact h' h
        · exact hd.1 h
      · intro k
        rw [List.map_cons, List.mem_cons, h2, List.map_cons, List.mem_cons]
        tauto

theorem lookup_drop {key : List Char} : ∀ {d : Dict}, (d.map Prod.fst).Nodup → ∀ k,
    lookup k (drop key d) = if k = key then none else lookup k d := by
  intro d
  induction d with
  | nil => intro _ k; simp [drop, lookup]
  | cons e d ih =>
    intro hd k
    obtain ⟨k', qs⟩ := e
    rw [List.map_cons, List.nodup_cons] at hd
    rw [drop]
    by_cases h' : k' = key
    · subst h'
      rw [if_pos rfl, lookup]
      by_cases h : k = k'
      · subst h
        rw [if_pos rfl]
        exact lookup_none.mpr hd.1
      · rw [if_neg h, if_neg (Ne.symm h)]
    · rw [if_neg h', lookup, ih hd.2, lookup]
      by_cases h : k' = k
      · subst h
        rw [if_pos rfl, if_neg h', if_pos rfl]
      · rw [if_neg h, if_neg h]

theorem keys_drop {key : List Char} : ∀ {d : Dict}, (d.map Prod.fst).Nodup →
    ((drop key d).map Prod.fst).Nodup := by
  intro d hd
  have : ((drop key d).map Prod.fst).Sublist (d.map Prod.fst) := by
    clear hd
    induction d with
    | nil => exact List.Sublist.refl _
    | cons e d ih =>
      obtain ⟨k', qs⟩ := e
      rw [drop]
      split
      · exact List.sublist_cons_self _ _
      · rw [List.map_cons, List.map_cons]
        exact ih.cons_cons _
  exact this.nodup hd

theorem under_append (key : List Char) (l : Entries) (k : List Char) (p : Obj) :
    under key (l ++ [(k, p)]) = under key l ++ if key = k then [p] else [] := by
  unfold under
  rw [List.filter_append, List.map_append]
  by_cases h : key = k
  · simp [h]
  · simp [h, Ne.symm h]

theorem under_others (key k : List Char) (l : Entries) :
    under key (others k l) = if key = k then [] else under key l := by
  unfold under others
  rw [List.filter_filter]
  by_cases h : key = k
  · subst h
    rw [if_pos rfl]
    simp
  · rw [if_neg h]
    congr 1
    apply List.filter_congr
    intro e _
    by_cases he : e.1 = key
    · simp [he, h]
    · simp [he]

/-- Removing from the list under a name, and from the whole. -/
theorem removeFirst_under (same : Obj → Obj → Bool) (p : Obj) (k : List Char) : ∀ l : Entries,
    match removeFirst same p (under k l) with
    | none => l.eraseP (fun e => decide (e.1 = k) && (decide (e.2 = p) || same e.2 p)) = l ∧
        ∀ q ∈ under k l, q ≠ p ∧ same q p = false
    | some qs => ∀ key,
        under key (l.eraseP fun e => decide (e.1 = k) && (decide (e.2 = p) || same e.2 p)) =
          if key = k then qs else under key l := by
  intro l
  induction l with
  | nil => simp [removeFirst, under]
  | cons e l ih =>
    obtain ⟨k', q⟩ := e
    by_cases hk : k' = k
    · subst hk
      have hu : under k' ((k', q) :: l) = q :: under k' l := by simp [under]
      rw [hu, removeFirst]
      by_cases hq : q = p ∨ same q p = true
      · rw [if_pos hq]
        intro key
        rw [List.eraseP_cons_of_pos (by simpa using hq)]
        by_cases h : key = k'
        · rw [h, if_pos rfl]
        · rw [if_neg h]
          simp [under, Ne.symm h]
      · rw [if_neg hq]
        rw [List.eraseP_cons_of_neg (by simpa using hq)]
        revert ih
        cases removeFirst same p (under k' l) with
        | none =>
          rintro ⟨h1, h2⟩
          refine ⟨by rw [h1], ?_⟩
          intro q' hq'
          rcases List.mem_cons.mp hq' with rfl | hq'
          · push Not at hq
            exact ⟨hq.1, by simpa using hq.2⟩
          · exact h2 q' hq'
        | some qs =>
          intro ih key
          have ih := ih key
          by_cases h : key = k'
          · subst h
            rw [if_pos rfl] at ih ⊢
            rw [← ih]
            simp [under]
          · rw [if_neg h] at ih ⊢
            unfold under at ih ⊢
            rw [List.filter_cons_of_neg (by simpa using Ne.symm h),
              List.filter_cons_of_neg (by simpa using Ne.symm h)]
            exact ih
    · have hu : under k ((k', q) :: l) = under k l := by simp [under, hk]
      rw [hu, List.eraseP_cons_of_neg (by simp [hk])]
      revert ih
      cases removeFirst same p (under k l) with
      | none =>
        rintro ⟨h1, h2⟩
        exact ⟨by rw [h1], h2⟩
      | some qs =>
        intro ih key
        have ih := ih key
        unfold under at ih ⊢
        rw [List.filter_cons]
        by_cases h : k' = key
        · subst h
          rw [if_pos (by simp), List.map_cons, ih, if_neg hk, if_neg hk, List.filter_cons_of_pos (by simp)]
          rfl
        · rw [if_neg (by simpa using h), ih, List.filter_cons_of_neg (by simpa using h)]

/-- What is held of a component. -/
structure Holds (st : St) (l : Entries) : Prop where
  nodup : (st.dict.map Prod.fst).Nodup
  good : Good st.dict l

theorem holds_new (f : Obj → List Char) : Holds (new f) [] :=
  ⟨List.nodup_nil, fun _ => rfl, fun _ => by simp [new, lookup]⟩

theorem Good.cases {d : Dict} {l : Entries} (hg : Good d l) (k : List Char) :
    lookup k d = if under k l = [] then none else some (under k l) := by
  have h1 := hg.get k
  have h2 := hg.full k
  cases h : lookup k d with
  | none =>
    rw [h] at h1
    simp only [Option.getD_none] at h1
    rw [if_pos h1.symm]
  | some ps =>
    rw [h] at h1 h2
    simp only [Option.getD_some] at h1
    rw [if_neg (by rw [← h1]; simpa using h2), h1]

theorem holds_add {st : St} {l : Entries} (hh : Holds st l) (p : Obj) :
    Holds (addProperty p st) (l ++ [(PropText.upper (st.name p), p)]) := by
  obtain ⟨hn, hg⟩ := hh
  unfold addProperty
  dsimp only
  refine ⟨(keys_store _ _ hn).1, ?_, ?_⟩
  · intro k
    simp only
    rw [lookup_store, under_append]
    split
    · rename_i h
      rw [h, Option.getD_some, hg.get]
    · rw [hg.get, List.append_nil]
  · intro k
    simp only
    rw [lookup_store]
    split
    · simp
    · exact hg.full k

theorem holds_removeAll {st : St} {l : Entries} (hh : Holds st l) (n : List Char) :
    Holds (removeProperties n st) (others (PropText.upper n) l) := by
  obtain ⟨hn, hg⟩ := hh
  unfold removeProperties
  split
  · refine ⟨keys_drop hn, ?_, ?_⟩
    · intro k
      simp only
      rw [lookup_drop hn, under_others]
      split
      · rfl
      · exact hg.get k
    · intro k
      simp only
      rw [lookup_drop hn]
      split
      · simp
      · exact hg.full k
  · rename_i h
    refine ⟨hn, ?_, hg.full⟩
    intro k
    rw [under_others]
    split
    · rename_i hk
      rw [Option.not_isSome_iff_eq_none] at h
      rw [hk, h]
      rfl
    · exact hg.get k

theorem name_removeProperties (n : List Char) (st : St) : (removeProperties n st).name = st.name := by
  unfold removeProperties
  split <;> rfl

theorem holds_edit {st : St} {l : Entries} (hh : Holds st l) (n : List Char) (p : Option Obj) (h : Heap) :
    Holds (editProperty n p st) (step h st.name (.edit n p) l) ∧
      (editProperty n p st).name = names' (.edit n p) st.name := by
  have hr := holds_removeAll hh n
  unfold editProperty
  dsimp only
  cases p with
  | none => exact ⟨hr, name_removeProperties n st⟩
  | some p =>
    simp only [step, names']
    have : Holds { removeProperties n st with
        name := fun q => if q = p then n else (removeProperties n st).name q }
        (others (PropText.upper n) l) := ⟨hr.nodup, hr.good⟩
    have := holds_add this p
    simp only [if_true] at this
    refine ⟨this, ?_⟩
    unfold addProperty
    dsimp only
    rw [name_removeProperties]

/-- Whether `removeProperty` raises. -/
theorem holds_remove {st : St} {l : Entries} (hh : Holds st l) (h : Heap) (p : Obj) :
    match removeProperty h p st with
    | none => (under (PropText.upper (st.name p)) l ≠ [] ∧
        ∀ q ∈ under (PropText.upper (st.name p)) l, q ≠ p ∧ h.same st.name q p = false) ∧
        step h st.name (.remove p) l = l
    | some st' => Holds st' (step h st.name (.remove p) l) ∧ st'.name = st.name ∧
        ¬ (under (PropText.upper (st.name p)) l ≠ [] ∧
          ∀ q ∈ under (PropText.upper (st.name p)) l, q ≠ p ∧ h.same st.name q p = false) := by
  have hrf : ∀ {qs qs' : List Obj}, removeFirst (h.same st.name) p qs = some qs' →
      ∃ q ∈ qs, ¬ (q ≠ p ∧ h.same st.name q p = false) := by
    intro qs
    induction qs with
    | nil => intro qs' hq; simp [removeFirst] at hq
    | cons q qs ih =>
      intro qs' hq
      rw [removeFirst] at hq
      split at hq
      · rename_i hc
        refine ⟨q, by simp, ?_⟩
        rintro ⟨h1, h2⟩
        rcases hc with hc | hc
        · exact h1 hc
        · rw [hc] at h2; exact Bool.noConfusion h2
      · rw [Option.map_eq_some_iff] at hq
        obtain ⟨qs'', hq, _⟩ := hq
        obtain ⟨q', hm, hq'⟩ := ih hq
        exact ⟨q', List.mem_cons_of_mem _ hm, hq'⟩
  obtain ⟨hn, hg⟩ := hh
  have hu := removeFirst_under (h.same st.name) p (PropText.upper (st.name p)) l
  unfold removeProperty step
  dsimp only
  rw [hg.cases]
  by_cases he : under (PropText.upper (st.name p)) l = []
  · rw [if_pos he]
    rw [he, removeFirst] at hu
    simp only at hu ⊢
    refine ⟨?_, trivial, fun hx => hx.1 he⟩
    rw [hu.1]
    exact ⟨hn, hg⟩
  · rw [if_neg he]
    simp only
    cases hr : removeFirst (h.same st.name) p (under (PropText.upper (st.name p)) l) with
    | none =>
      rw [hr] at hu
      simp only at hu ⊢
      exact ⟨⟨he, hu.2⟩, hu.1⟩
    | some qs =>
      rw [hr] at hu
      simp only at hu ⊢
      have hno : ¬ (under (PropText.upper (st.name p)) l ≠ [] ∧
          ∀ q ∈ under (PropText.upper (st.name p)) l, q ≠ p ∧ h.same st.name q p = false) := by
        rintro ⟨_, hx⟩
        obtain ⟨q, hm, hq⟩ := hrf hr
        exact hq (hx q hm)
      have hst := keys_store (PropText.upper (st.name p)) qs hn
      by_cases hl : qs.length = 0
      · rw [if_pos hl]
        refine ⟨⟨keys_drop hst.1, ?_, ?_⟩, rfl, hno⟩
        · intro k
          simp only
          rw [lookup_drop hst.1, lookup_store, hu]
          split
          · rw [List.length_eq_zero_iff.mp hl]; rfl
          · exact hg.get k
        · intro k
          simp only
          rw [lookup_drop hst.1, lookup_store]
          split
          · simp
          · exact hg.full k
      · rw [if_neg hl]
        refine ⟨⟨hst.1, ?_, ?_⟩, rfl, hno⟩
        · intro k
          simp only
          rw [lookup_store, hu]
          split
          · rfl
          · exact hg.get k
        · intro k
          simp only
          rw [lookup_store]
          split
          · intro hc
            apply hl
            rw [Option.some.inj hc]
            rfl
          · exact hg.full k

theorem find_eq {st : St} {l : Entries} (hh : Holds st l) (n : List Char) :
    findFirstProperty n st = some (under (PropText.upper n) l).head? := by
  unfold findFirstProperty
  rw [hh.good.cases]
  by_cases he : under (PropText.upper n) l = []
  · rw [if_pos he, he]; rfl
  · rw [if_neg he]
    simp only
    cases hc : under (PropText.upper n) l with
    | nil => exact absurd hc he
    | cons q qs => rfl

theorem has_eq {st : St} {l : Entries} (hh : Holds st l) (n : List Char) :
    hasProperty n st = !(under (PropText.upper n) l).isEmpty := by
  unfold hasProperty
  rw [hh.good.cases]
  by_cases he : under (PropText.upper n) l = []
  · rw [if_pos he, he]; rfl
  · rw [if_neg he]
    cases hc : under (PropText.upper n) l with
    | nil => exact absurd hc he
    | cons q qs => rfl

theorem loadPrivate_eq {st : St} {l : Entries} (hh : Holds st l) (h : Heap) (n : List Char) :
    ∃ st', loadPrivateValue h n st = some ((under (PropText.upper n) l).head?.bind h.text, st') ∧
      Holds st' (step h st.name (.loadPrivate n) l) ∧ st'.name = st.name := by
  have hl : loadValueString h n st = some ((under (PropText.upper n) l).head?.bind h.text) := by
    unfold loadValueString
    rw [find_eq hh, has_eq hh]
    cases hc : under (PropText.upper n) l with
    | nil => rfl
    | cons q qs => rfl
  unfold loadPrivateValue
  rw [hl]
  simp only [step]
  cases hb : (under (PropText.upper n) l).head?.bind h.text with
  | none => exact ⟨st, rfl, by simpa using hh, rfl⟩
  | some v => exact ⟨_, rfl, by simpa using holds_removeAll hh n, name_removeProperties n st⟩

theorem holds_apply {st : St} {l : Entries} (hh : Holds st l) (h : Heap) (op : Op) :
    Holds ((apply h op st).getD st) (step h st.name op l) ∧
      ((apply h op st).getD st).name = names' op st.name := by
  cases op with
  | add p => exact ⟨holds_add hh p, rfl⟩
  | remove p =>
    have := holds_remove hh h p
    simp only [apply]
    cases hr : removeProperty h p st with
    | none =>
      rw [hr] at this
      simp only at this
      rw [this.2]
      exact ⟨hh, rfl⟩
    | some st' =>
      rw [hr] at this
      exact ⟨this.1, this.2.1⟩
  | removeAll n => exact ⟨holds_removeAll hh n, name_removeProperties n st⟩
  | edit n p => exact holds_edit hh n p h
  | loadPrivate n =>
    obtain ⟨st', h1, h2, h3⟩ := loadPrivate_eq hh h n
    simp only [apply]
    rw [h1]
    exact ⟨h2, h3⟩
  | rename p n => exact ⟨⟨hh.nodup, hh.good⟩, rfl⟩

theorem holds_run : ∀ (ops : List (Heap × Op)) {st : St} {l : Entries}, Holds st l →
    Holds (run ops st) (final ops st.name l) := by
  intro ops
  induction ops with
  | nil => intro st l hh; exact hh
  | cons op ops ih =>
    intro st l hh
    obtain ⟨h, op⟩ := op
    obtain ⟨h1, h2⟩ := holds_apply hh h op
    have := ih h1
    rw [h2] at this
    exact this

/-- A call that gives no property in the component another name. -/
def Keeps (l : Entries) : Op → Prop
  | .rename p _ => ∀ e ∈ l, e.2 ≠ p
  | .edit _ (some p) => ∀ e ∈ l, e.2 ≠ p
  | _ => True

/-- A history of such calls. -/
def KeepsAll : List (Heap × Op) → (Obj → List Char) → Entries → Prop
  | [], _, _ => True
  | (h, op) :: ops, f, l => Keeps l op ∧ KeepsAll ops (names' op f) (step h f op l)

theorem mem_others {k : List Char} {l : Entries} {e : List Char × Obj} (h : e ∈ others k l) : e ∈ l :=
  (List.mem_filter.mp h).1

theorem named_step {f : Obj → List Char} {l : Entries} {h : Heap} {op : Op} (hk : Keeps l op)
    (hl : ∀ e ∈ l, e.1 = PropText.upper (f e.2)) :
    ∀ e ∈ step h f op l, e.1 = PropText.upper (names' op f e.2) := by
  intro e he
  cases op with
  | add p =>
    rcases List.mem_append.mp he with he | he
    · exact hl e he
    · rw [List.mem_singleton.mp he]; rfl
  | remove p => exact hl e (List.mem_of_mem_eraseP he)
  | removeAll n => exact hl e (mem_others he)
  | edit n p =>
    cases p with
    | none => exact hl e (mem_others he)
    | some p =>
      rcases List.mem_append.mp he with he | he
      · have := hk e (mem_others he)
        simp only [names']
        rw [if_neg this]
        exact hl e (mem_others he)
      · rw [List.mem_singleton.mp he]
        simp [names']
  | loadPrivate n =>
    simp only [step] at he
    split at he
    · exact hl e (mem_others he)
    · exact hl e he
  | rename p n =>
    simp only [names']
    rw [if_neg (hk e he)]
    exact hl e he

theorem named_run : ∀ (ops : List (Heap × Op)) {st : St} {l : Entries}, KeepsAll ops st.name l →
    Holds st l → (∀ e ∈ l, e.1 = PropText.upper (st.name e.2)) →
    ∀ e ∈ final ops st.name l, e.1 = PropText.upper ((run ops st).name e.2) := by
  intro ops
  induction ops with
  | nil => intro st l _ _ hl; exact hl
  | cons op ops ih =>
    intro st l hk hh hl
    obtain ⟨h, op⟩ := op
    obtain ⟨hk1, hk2⟩ := hk
    obtain ⟨h1, h2⟩ := holds_apply hh h op
    have hl' := named_step (h := h) hk1 hl
    rw [← h2] at hk2 hl'
    have := ih hk2 h1 hl'
    rw [h2] at this
    exact this

end T121
open T121

/-- C121: after any history of calls (those that raise being caught), with whatever the properties have
for values at each of them, the four questions for a name give the properties added under that name, in
whatever case, and not removed since, in the order of adding; `getProperties` is asked for a name that is
not empty. -/
theorem C121_found (f : Obj → List Char) (ops : List (Heap × Op)) (n : List Char) :
    let l := under (PropText.upper n) (final ops f [])
    let st := run ops (new f)
    (n ≠ [] → getProperties (some n) st = .list l) ∧
    hasProperty n st = !l.isEmpty ∧ countProperty n st = l.length ∧
    findFirstProperty n st = some l.head? := by
  dsimp only
  have hh : Holds (run ops (new f)) (final ops f []) := holds_run ops (holds_new f)
  refine ⟨?_, has_eq hh n, ?_, find_eq hh n⟩
  · intro hn
    unfold getProperties
    simp only
    rw [if_pos hn, hh.good.get]
  · unfold countProperty
    rw [hh.good.get]

/-- C121: what `getProperties()` lists has each name once, exactly those that properties are under, with
the properties. -/
theorem C121_all (f : Obj → List Char) (ops : List (Heap × Op)) :
    ∃ d, getProperties none (run ops (new f)) = .dict d ∧ (d.map Prod.fst).Nodup ∧
      ∀ k ps, (k, ps) ∈ d ↔ ps = under k (final ops f []) ∧ ps ≠ [] := by
  have hh : Holds (run ops (new f)) (final ops f []) := holds_run ops (holds_new f)
  refine ⟨_, rfl, hh.nodup, ?_⟩
  have hmem : ∀ (d : Dict), (d.map Prod.fst).Nodup → ∀ k ps, (k, ps) ∈ d ↔ lookup k d = some ps := by
    intro d
    induction d with
    | nil => intro _ k ps; simp [lookup]
    | cons e d ih =>
      intro hd k ps
      obtain ⟨k', qs⟩ := e
      rw [List.map_cons, List.nodup_cons] at hd
      rw [lookup, List.mem_cons]
      by_cases h : k' = k
      · subst h
        rw [if_pos rfl]
        constructor
        · rintro (h | h)
          · rw [(Prod.mk.inj h).2]
          · exact absurd (List.mem_map.mpr ⟨_, h, rfl⟩) hd.1
        · intro h
          left
          rw [Option.some.inj h]
      · rw [if_neg h, ← ih hd.2]
        constructor
        · rintro (h' | h')
          · exact absurd (Prod.mk.inj h').1.symm h
          · exact h'
        · exact Or.inr
  intro k ps
  rw [hmem _ hh.nodup, hh.good.cases]
  constructor
  · intro h
    split at h
    · cases h
    · rename_i hne
      rw [← Option.some.inj h]
      exact ⟨rfl, hne⟩
  · rintro ⟨rfl, hne⟩
    rw [if_neg hne]

/-- C121: only `removeProperty` raises, and just when the component has properties under the name of the
property but none of them is it or equal to it. -/
theorem C121_raises (f : Obj → List Char) (ops : List (Heap × Op)) (h : Heap) (op : Op) :
    apply h op (run ops (new f)) = none ↔
      ∃ p, op = .remove p ∧
        under (PropText.upper ((run ops (new f)).name p)) (final ops f []) ≠ [] ∧
        ∀ q ∈ under (PropText.upper ((run ops (new f)).name p)) (final ops f []),
          q ≠ p ∧ h.same (run ops (new f)).name q p = false := by
  have hh : Holds (run ops (new f)) (final ops f []) := holds_run ops (holds_new f)
  cases op with
  | add p => simp [apply]
  | remove p =>
    simp only [apply]
    have := holds_remove hh h p
    cases hr : removeProperty h p (run ops (new f)) with
    | none =>
      rw [hr] at this
      exact ⟨fun _ => ⟨p, rfl, this.1⟩, fun _ => rfl⟩
    | some st' =>
      rw [hr] at this
      simp only [reduceCtorEq, false_iff]
      rintro ⟨q, hq, hx⟩
      obtain rfl := Op.remove.inj hq
      exact this.2.2 hx
  | removeAll n => simp [apply]
  | edit n p => simp [apply]
  | loadPrivate n =>
    obtain ⟨st', h1, -⟩ := loadPrivate_eq hh h n
    simp only [apply]
    rw [h1]
    simp
  | rename p n => simp [apply]

/-- C121: as long as no property that is in the component is given another name, each property is under
its own name. -/
theorem C121_named (f : Obj → List Char) (ops : List (Heap × Op)) (hk : KeepsAll ops f []) (n : List Char)
    (hn : n ≠ []) : ∃ ps, getProperties (some n) (run ops (new f)) = .list ps ∧
      ps = ((final ops f []).map Prod.snd).filter fun p =>
        decide (PropText.upper ((run ops (new f)).name p) = PropText.upper n) := by
  refine ⟨_, (C121_found f ops n).1 hn, ?_⟩
  have hnd := named_run ops (st := new f) hk (holds_new f) (by simp)
  rw [List.filter_map]
  unfold under
  congr 1
  apply List.filter_congr
  intro e he
  have h := hnd e he
  simp only [Function.comp_apply]
  rw [← h]

/-- What `loadPrivateValue` returns: the text of the first property under the name, if it has one. -/
theorem C121_private (f : Obj → List Char) (ops : List (Heap × Op)) (h : Heap) (n : List Char) :
    (loadPrivateValue h n (run ops (new f))).map Prod.fst =
      some ((under (PropText.upper n) (final ops f [])).head?.bind h.text) := by
  obtain ⟨st', h1, -⟩ := loadPrivate_eq (holds_run ops (holds_new f)) h n
  rw [h1]
  rfl

/-- Three properties, two of which are equal. -/
def T121.demo : Heap where
  same := fun f a b => decide (f a = f b ∧ a / 2 = b / 2)
  text := fun p => if p = 2 then none else some ['v']

/-- A history that meets the hypothesis of `C121_named`, with its end: the first of two equal properties
is removed when the second is asked for, a property of the other name stays. -/
example : let f := fun p => if p = 2 then "Summary".toList else "x-a".toList
    let ops := [(demo, Op.add 0), (demo, .add 2), (demo, .add 1), (demo, .remove 1), (demo, .remove 3),
      (demo, .edit "LOCATION".toList (some 4)), (demo, .rename 7 "UID".toList)]
    KeepsAll ops f [] ∧ final ops f [] =
      [("SUMMARY".toList, 2), ("X-A".toList, 1), ("LOCATION".toList, 4)] ∧
    (loadPrivateValue demo "X-a".toList (run ops (new f))).map Prod.fst = some (some ['v']) ∧
    final (ops ++ [(demo, .loadPrivate "x-A".toList)]) f [] =
      [("SUMMARY".toList, 2), ("LOCATION".toList, 4)] := by
  refine ⟨?_, by decide +kernel, by decide +kernel, by decide +kernel⟩
  refine ⟨trivial, trivial, trivial, trivial, trivial, ?_, ?_, trivial⟩
  · show ∀ e ∈ _, _
    decide +kernel
  · show ∀ e ∈ _, _
    decide +kernel

end PyCal
