import Verif.Model.RemoveAll
import Verif.Props.C47_Index

/-!
# C122: removing all components of a name
-/

namespace PyCal
open RemoveAll

namespace A122

/-- Whether a component is to be removed. -/
def named (type : Nat → List Char) (n : List Char) (c : Nat) : Bool :=
  decide (PropText.upper (type c) = PropText.upper n)

/-- Equal components have one type, as `__eq__` compares it. -/
def TypeEq (h : RemoveAll.Heap) : Prop := ∀ a b, h.eq a b = true → h.type a = h.type b

/-- Before the first component with the name there are only others. -/
theorem remove_first {h : RemoveAll.Heap} (ht : TypeEq h) {n : List Char} {c : Nat}
    (hc : named h.type n c = true) : ∀ (front back : List Nat), (∀ d ∈ front, named h.type n d = false) →
    RemoveAll.removeComponent h c (front ++ c :: back) = some (front ++ back) := by
  intro front
  induction front with
  | nil =>
    intro back _
    rw [List.nil_append, RemoveAll.removeComponent, if_pos (Or.inl rfl), List.nil_append]
  | cons d front ih =>
    intro back hf
    have hd := hf d (by simp)
    have hne : ¬ (d = c ∨ h.eq d c = true) := by
      rintro (rfl | he)
      · rw [hc] at hd; exact Bool.noConfusion hd
      · unfold named at hd hc
        rw [ht d c he, hc] at hd
        exact Bool.noConfusion hd
    rw [List.cons_append, RemoveAll.removeComponent, if_neg hne, ih back (fun e he => hf e (by simp [he]))]
    rfl

theorem loop_eq {h : RemoveAll.Heap} (ht : TypeEq h) (n : List Char) : ∀ (tuple front : List Nat),
    (∀ d ∈ front, named h.type n d = false) →
    removeLoop h (PropText.upper n) tuple (front ++ tuple) =
      some (front ++ tuple.filter fun c => !named h.type n c) := by
  intro tuple
  induction tuple with
  | nil => intro front _; rfl
  | cons c tuple ih =>
    intro front hf
    rw [removeLoop]
    cases hc : named h.type n c with
    | true =>
      rw [if_pos (by simpa [named] using hc), remove_first ht hc front tuple hf]
      simp only
      rw [ih front hf, List.filter_cons_of_neg (by simp [hc])]
    | false =>
      rw [if_neg (by simpa [named] using hc), List.filter_cons_of_pos (by simp [hc])]
      have := ih (front ++ [c]) (by
        intro d hd
        rcases List.mem_append.mp hd with hd | hd
        · exact hf d hd
        · rw [List.mem_singleton.mp hd]; exact hc)
      simpa using this

/-- `list.remove` of the calendar's components as that of a component. -/
def heapOf (h : Index.Heap) (uid : Nat → Index.UID) : RemoveAll.Heap where
  type := fun c => (h.attr c).type
  eq := fun a b => Index.same h uid a b

theorem removeFirst_eq (h : Index.Heap) (uid : Nat → Index.UID) (c : Nat) : ∀ l : List Nat,
    Index.removeFirst h uid c l = RemoveAll.removeComponent (heapOf h uid) c l := by
  intro l
  induction l with
  | nil => rfl
  | cons d l ih =>
    rw [Index.removeFirst, RemoveAll.removeComponent, ih]
    by_cases hs : Index.same h uid d c = true
    · rw [if_pos hs, if_pos (Or.inr (show (heapOf h uid).eq d c = true from hs))]
    · rw [if_neg hs, if_neg]
      rintro (rfl | he)
      · exact hs (Index47.same_refl h uid d)
      · exact hs he

theorem typeEq_heapOf (h : Index.Heap) (uid : Nat → Index.UID) : TypeEq (heapOf h uid) := by
  intro a b he
  have := (Index47.same_class he).1
  show (h.attr a).type = (h.attr b).type
  rw [this]

/-- What a removal leaves in the list, and that the UIDs stay. -/
theorem remove_comps {h : Index.Heap} {c : Nat} {st st' : Index.St} (hr : Index.remove h c st = some st') :
    Index.removeFirst h st.uid c st.comps = some st'.comps ∧ st'.uid = st.uid ∧ st'.ctr = st.ctr := by
  unfold Index.remove at hr
  cases hf : Index.removeFirst h st.uid c st.comps with
  | none => rw [hf] at hr; cases hr
  | some comps =>
    rw [hf] at hr
    dsimp only at hr
    split at hr
    · split at hr
      · split at hr
        · cases hr
        · cases hr; exact ⟨rfl, rfl, rfl⟩
      · split at hr
        · cases hr
        · cases hr; exact ⟨rfl, rfl, rfl⟩
    · cases hr; exact ⟨rfl, rfl, rfl⟩

theorem loopCal_eq {h : Index.Heap} (n : List Char) : ∀ (tuple front : List Nat) (st : Index.St),
    Index47.Agrees h st → st.comps = front ++ tuple →
    (∀ d ∈ front, named (fun c => (h.attr c).type) n d = false) →
    ∃ st', removeLoopCal h (PropText.upper n) tuple st = some st' ∧ Index47.Agrees h st' ∧
      st'.uid = st.uid ∧
      st'.comps = front ++ tuple.filter fun c => !named (fun c => (h.attr c).type) n c := by
  intro tuple
  induction tuple with
  | nil =>
    intro front st ha hs _
    exact ⟨st, rfl, ha, rfl, hs⟩
  | cons c tuple ih =>
    intro front st ha hs hf
    rw [removeLoopCal]
    cases hc : named (fun c => (h.attr c).type) n c with
    | true =>
      rw [if_pos (by simpa [named] using hc)]
      obtain ⟨st1, h1, a1⟩ := Index47.agrees_remove (c := c) ha (by rw [hs]; simp)
      rw [h1]
      simp only
      obtain ⟨hcm, hu, -⟩ := remove_comps h1
      have hrf := remove_first (typeEq_heapOf h st.uid) (n := n) (c := c) hc front tuple hf
      rw [removeFirst_eq, hs, hrf] at hcm
      obtain ⟨st2, h2, a2, u2, c2⟩ := ih front st1 a1 (Option.some.inj hcm).symm hf
      refine ⟨st2, h2, a2, u2.trans hu, ?_⟩
      rw [c2, List.filter_cons_of_neg (by simp [hc])]
    | false =>
      rw [if_neg (by simpa [named] using hc), List.filter_cons_of_pos (by simp [hc])]
      obtain ⟨st2, h2, a2, u2, c2⟩ := ih (front ++ [c]) st ha (by rw [hs]; simp) (by
        intro d hd
        rcases List.mem_append.mp hd with hd | hd
        · exact hf d hd
        · rw [List.mem_singleton.mp hd]; exact hc)
      exact ⟨st2, h2, a2, u2, by rw [c2]; simp⟩

end A122
open A122

/-- C122: `getComponents` gives the components of the name, in their order (the case of letters does not matter), or all
if the name is empty; `countComponents` is how many there are, and `hasComponent` whether there is one. -/
theorem C122_ask (type : Nat → List Char) (n : List Char) (comps : List Nat) :
    (n ≠ [] → getComponents type (some n) comps =
      comps.filter fun c => decide (PropText.upper (type c) = PropText.upper n)) ∧
    getComponents type none comps = comps ∧ getComponents type (some []) comps = comps ∧
    countComponents type n comps = (getComponents type (some n) comps).length ∧
    (n ≠ [] → (hasComponent type n comps = true ↔
      ∃ c ∈ comps, PropText.upper (type c) = PropText.upper n)) := by
  refine ⟨fun hn => by simp [getComponents, hn], rfl, rfl, rfl, fun hn => ?_⟩
  unfold hasComponent countComponents getComponents
  simp only [if_neg hn]
  rw [decide_eq_true_iff, Ne, List.length_eq_zero_iff, List.filter_eq_nil_iff]
  push Not
  simp

/-- C122, of a component other than a calendar: `removeAllComponent` never raises, whatever else `==`
says, and leaves none of the name and all others, in order; without a name (or with an empty one)
nothing is left.

Missing: calendars, which record components by UID, `C122_fails_unnamed`, `C122_fails_stale`, `C122_fails_raises`. -/
theorem C122_component_partial (h : RemoveAll.Heap) (ht : TypeEq h) (comps : List Nat) :
    (∀ n, n ≠ [] → ∃ comps', RemoveAll.removeAllComponent h (some n) comps = some comps' ∧
      comps' = comps.filter (fun c => !decide (PropText.upper (h.type c) = PropText.upper n)) ∧
      hasComponent h.type n comps' = false ∧
      ∀ m, m ≠ [] → PropText.upper m ≠ PropText.upper n →
        getComponents h.type (some m) comps' = getComponents h.type (some m) comps ∧
        countComponents h.type m comps' = countComponents h.type m comps) ∧
    RemoveAll.removeAllComponent h none comps = some [] ∧
    RemoveAll.removeAllComponent h (some []) comps = some [] := by
  refine ⟨?_, rfl, rfl⟩
  intro n hn
  have hl := loop_eq ht n comps [] (by simp)
  rw [List.nil_append, List.nil_append] at hl
  have hg : ∀ m, m ≠ [] → PropText.upper m ≠ PropText.upper n →
      getComponents h.type (some m) (comps.filter fun c => !named h.type n c) =
        getComponents h.type (some m) comps := by
    intro m hm hmn
    unfold getComponents
    simp only [if_neg hm]
    rw [List.filter_filter]
    apply List.filter_congr
    intro c _
    unfold named
    by_cases he : PropText.upper (h.type c) = PropText.upper m
    · simp [he, hmn]
    · simp [he]
  refine ⟨_, by unfold RemoveAll.removeAllComponent; simp only [if_neg hn]; exact hl, rfl, ?_, ?_⟩
  · unfold hasComponent countComponents getComponents
    simp only [if_neg hn]
    rw [List.filter_filter]
    simp [named]
  · intro m hm hmn
    refine ⟨hg m hm hmn, ?_⟩
    exact congrArg List.length (hg m hm hmn)

/-- C122, of a calendar after any history of proper operations (`C47_index_partial`): with a name
`removeAllComponent` does not raise, leaves the components of other names in order, and what is recorded
for each UID is again exactly what is contained.  Missing: histories that are not proper, and no name;
then it is false (`C122_fails_unnamed`, `C122_fails_raises`). -/
theorem C122_calendar_partial (h : Index.Heap) (uid : Nat → Index.UID) (ops : List Index.Op)
    (hp : Index47.ProperAll h ops (Index.empty uid)) (n : List Char) (hn : n ≠ []) :
    ∃ st st', Index.applyAll h ops (Index.empty uid) = some st ∧
      removeAllCal h (some n) st = some st' ∧
      st'.comps = st.comps.filter (fun c =>
        !decide (PropText.upper (h.attr c).type = PropText.upper n)) ∧
      st'.uid = st.uid ∧
      (∀ u, Index.instances st' u = st'.comps.filter fun c =>
        (h.attr c).recur && (h.attr c).rid && decide (st'.uid c = u)) ∧
      ∀ t u, st'.masters t u = (st'.comps.filter fun c =>
        (h.attr c).recur && !(h.attr c).rid && decide ((h.attr c).type = t ∧ st'.uid c = u)).head? := by
  obtain ⟨st, h1, ha⟩ := Index47.agrees_all ops (Index47.agrees_empty h uid) hp
  obtain ⟨st', h2, a2, u2, c2⟩ := loopCal_eq n st.comps [] st ha rfl (by simp)
  rw [List.nil_append] at c2
  exact ⟨st, st', h1, by unfold removeAllCal; simp only [if_neg hn]; exact h2, c2, u2, a2.over, a2.masters⟩

/-- C122 fails: without a name the components are gone, but all that was recorded for each UID stays,
whatever was in the calendar. -/
theorem C122_fails_unnamed (h : Index.Heap) (st : Index.St) : ∃ st',
    removeAllCal h none st = some st' ∧ removeAllCal h (some []) st = some st' ∧ st'.comps = [] ∧
    (∀ u, Index.instances st' u = Index.instances st u) ∧ st'.masters = st.masters :=
  ⟨_, rfl, rfl, rfl, fun _ => rfl, rfl⟩

/-- C122 fails: so after `removeAllComponent()` an overridden instance that is not contained is recorded,
and asking to remove all of a name again does not forget it. -/
theorem C122_fails_stale : ∃ st st' st'', Index.applyAll Index47.demo [.add 0] (Index.empty Index47.demoUid)
      = some st ∧ removeAllCal Index47.demo none st = some st' ∧
    removeAllCal Index47.demo (some "VEVENT".toList) st' = some st'' ∧
    st''.comps = [] ∧ Index.instances st'' ['a'] = [0] :=
  ⟨_, _, _, rfl, rfl, rfl, rfl, by decide +kernel⟩

/-- C122 fails: with two masters of one type and UID `removeAllComponent` raises `KeyError`, and the
second is left. -/
theorem C122_fails_raises : ∃ st, Index.applyAll Index47.demo
      [.add 2, .changeUID ['b'] ['c'], .add 3, .changeUID ['b'] ['a']] (Index.empty Index47.demoUid)
      = some st ∧ (removeAllCal Index47.demo (some "vevent".toList) st).isNone = true :=
  ⟨_, rfl, by decide +kernel⟩

/-- Components that meet the hypothesis of `C122_component_partial`, two of them equal; and a history that
meets that of `C122_calendar_partial`. -/
example : let h : RemoveAll.Heap :=
      ⟨fun c => if c = 1 then "DAYLIGHT".toList else "STANDARD".toList, fun a b => a != 1 && b != 1⟩
    TypeEq h ∧ RemoveAll.removeAllComponent h (some "Standard".toList) [0, 1, 2] = some [1] := by
  refine ⟨?_, by decide +kernel⟩
  intro a b he
  simp only [Bool.and_eq_true, bne_iff_ne, ne_eq] at he
  simp [he.1, he.2]

example : Index47.ProperAll Index47.demo [.add 0, .add 2] (Index.empty Index47.demoUid) := by
  refine ⟨?_, ?_⟩
  · intro _ h; exact absurd h (by decide)
  rintro _ ⟨⟩
  exact ⟨fun _ _ => by decide, fun _ _ => trivial⟩

end PyCal
