import Mathlib.Tactic.Tauto
import Verif.Model.CalendarIndex

/-!
# C47: the calendar's index of overridden instances
-/

namespace PyCal
open Index

namespace Index47

/-- A contained component with this UID and a RECURRENCE-ID. -/
def overridden (h : Heap) (st : St) (u : UID) : List Nat :=
  st.comps.filter fun c => (h.attr c).recur && (h.attr c).rid && decide (st.uid c = u)

/-- A contained component of this type with this UID that has none. -/
def master (h : Heap) (st : St) (t : List Char) (u : UID) : List Nat :=
  st.comps.filter fun c =>
    (h.attr c).recur && !(h.attr c).rid && decide ((h.attr c).type = t ∧ st.uid c = u)

/-- What is required of an operation: a master is only added if there is none of that type and UID, only
contained components are removed, and a UID is only changed to another one, not empty, that no
overridden instance has and that no master has which would be replaced. -/
def Proper (h : Heap) (st : St) : Op → Prop
  | .add c => (h.attr c).recur = true → (h.attr c).rid = false →
      master h st (h.attr c).type (st.uid c) = []
  | .remove c => c ∈ st.comps
  | .changeUID old new => new ≠ [] ∧ new ≠ old ∧ overridden h st new = [] ∧
      ∀ t, master h st t new = [] ∨ master h st t old = []

/-- Each operation of a history is proper where it is done. -/
def ProperAll (h : Heap) : List Op → St → Prop
  | [], _ => True
  | op :: ops, st => Proper h st op ∧ ∀ st', apply h op st = some st' → ProperAll h ops st'

/-- The index agrees with the components. -/
structure Agrees (h : Heap) (st : St) : Prop where
  over : ∀ u, instances st u = overridden h st u
  masters : ∀ t u, st.masters t u = (master h st t u).head?
  single : ∀ t u, (master h st t u).length ≤ 1

theorem same_refl (h : Heap) (uid : Nat → UID) (c : Nat) : same h uid c c = true := by
  simp [same]

theorem same_class {h : Heap} {uid : Nat → UID} {a b : Nat} (hs : same h uid a b = true) :
    h.attr a = h.attr b ∧ uid a = uid b := by
  simp only [same, decide_eq_true_eq] at hs
  rcases hs with rfl | hs
  · exact ⟨rfl, rfl⟩
  · exact hs

/-- Removing from a list and from a part of it that takes equal components alike. -/
theorem remove_filter {h : Heap} {uid : Nat → UID} {c : Nat} {p : Nat → Bool}
    (hp : ∀ a b, same h uid a b = true → p a = p b) : ∀ {l l' : List Nat},
    removeFirst h uid c l = some l' →
    (p c = true → removeFirst h uid c (l.filter p) = some (l'.filter p)) ∧
    (p c = false → l'.filter p = l.filter p) := by
  intro l
  induction l with
  | nil => intro l' hr; simp [removeFirst] at hr
  | cons d l ih =>
    intro l' hr
    rw [removeFirst] at hr
    by_cases hs : same h uid d c = true
    · rw [if_pos hs] at hr
      cases hr
      have hd := hp _ _ hs
      refine ⟨fun hc => ?_, fun hc => ?_⟩
      · rw [List.filter_cons, if_pos (hd.trans hc), removeFirst, if_pos hs]
      · rw [List.filter_cons, if_neg (by rw [hd, hc]; simp)]
    · rw [if_neg hs, Option.map_eq_some_iff] at hr
      obtain ⟨l'', hr, rfl⟩ := hr
      obtain ⟨h1, h2⟩ := ih hr
      refine ⟨fun hc => ?_, fun hc => ?_⟩
      · rw [List.filter_cons, List.filter_cons]
        split
        · rw [removeFirst, if_neg hs, h1 hc]
          rfl
        · exact h1 hc
      · rw [List.filter_cons, List.filter_cons, h2 hc]

theorem remove_some {h : Heap} {uid : Nat → UID} {c : Nat} {l : List Nat} (hm : c ∈ l) :
    ∃ l', removeFirst h uid c l = some l' := by
  induction l with
  | nil => simp at hm
  | cons d l ih =>
    rw [removeFirst]
    by_cases hs : same h uid d c = true
    · exact ⟨l, by rw [if_pos hs]⟩
    · rw [if_neg hs]
      rcases List.mem_cons.mp hm with rfl | hm
      · exact absurd (same_refl h uid c) hs
      · obtain ⟨l', hl⟩ := ih hm
        exact ⟨d :: l', by rw [hl]; rfl⟩

theorem remove_length {h : Heap} {uid : Nat → UID} {c : Nat} : ∀ {l l' : List Nat},
    removeFirst h uid c l = some l' → l.length = l'.length + 1 := by
  intro l
  induction l with
  | nil => intro l' hr; simp [removeFirst] at hr
  | cons d l ih =>
    intro l' hr
    rw [removeFirst] at hr
    split at hr
    · cases hr; rfl
    · rw [Option.map_eq_some_iff] at hr
      obtain ⟨l'', hr, rfl⟩ := hr
      rw [List.length_cons, List.length_cons, ih hr]

theorem agrees_empty (h : Heap) (uid : Nat → UID) : Agrees h (empty uid) :=
  ⟨fun _ => rfl, fun _ _ => rfl, fun _ _ => by simp [master, empty]⟩

theorem agrees_add {h : Heap} {st : St} {c : Nat} (ha : Agrees h st) (hp : Proper h st (.add c)) :
    Agrees h (add h c st) := by
  have hcomps : (add h c st).comps = st.comps ++ [c] ∧ (add h c st).uid = st.uid := by
    unfold add
    cases (h.attr c).recur <;> cases (h.attr c).rid <;> exact ⟨rfl, rfl⟩
  have hover : ∀ u, overridden h (add h c st) u = overridden h st u ++
      if (h.attr c).recur = true ∧ (h.attr c).rid = true ∧ st.uid c = u then [c] else [] := by
    intro u
    unfold overridden
    rw [hcomps.1, hcomps.2, List.filter_append, List.filter_cons, List.filter_nil]
    simp [and_assoc]
  have hmas : ∀ t u, master h (add h c st) t u = master h st t u ++
      if (h.attr c).recur = true ∧ (h.attr c).rid = false ∧ (h.attr c).type = t ∧ st.uid c = u then [c]
      else [] := by
    intro t u
    unfold master
    rw [hcomps.1, hcomps.2, List.filter_append, List.filter_cons, List.filter_nil]
    simp [and_assoc]
  obtain ⟨h1, h2, h3⟩ := ha
  cases hr : (h.attr c).recur with
  | false =>
    simp only [hr, Bool.false_eq_true, false_and, if_false, List.append_nil] at hover hmas
    have he : add h c st = { st with comps := st.comps ++ [c] } := by
      unfold add; rw [hr]; rfl
    refine ⟨fun u => ?_, fun t u => ?_, fun t u => ?_⟩
    · rw [hover, he]; exact h1 u
    · rw [hmas, he]; exact h2 t u
    · rw [hmas]; exact h3 t u
  | true =>
    cases hd : (h.attr c).rid with
    | true =>
      simp only [hr, hd, true_and, Bool.true_eq_false, false_and, if_false, List.append_nil] at hover hmas
      refine ⟨fun u => ?_, fun t u => ?_, fun t u => ?_⟩
      · rw [hover, ← h1 u]
        unfold instances add
        simp only [hr, hd, if_true]
        by_cases hu : u = st.uid c
        · subst hu
          simp
        · rw [if_neg hu, if_neg (Ne.symm hu), List.append_nil]
      · rw [hmas, ← h2 t u]
        unfold add
        simp only [hr, hd, if_true]
      · rw [hmas]; exact h3 t u
    | false =>
      simp only [hr, hd, Bool.false_eq_true, false_and, and_false, true_and, if_false,
        List.append_nil] at hover hmas
      have hp := hp hr hd
      refine ⟨fun u => ?_, fun t u => ?_, fun t u => ?_⟩
      · rw [hover, ← h1 u]
        unfold instances add
        simp only [hr, hd, if_true, Bool.false_eq_true, if_false]
      · rw [hmas]
        unfold add
        simp only [hr, hd, if_true, Bool.false_eq_true, if_false]
        by_cases hu : t = (h.attr c).type ∧ u = st.uid c
        · rw [if_pos hu, hu.1, hu.2, hp]
          simp
        · rw [if_neg hu, if_neg (by tauto), h2, List.append_nil]
      · rw [hmas]
        split
        · rename_i hu
          rw [← hu.1, ← hu.2, hp]
          simp
        · simpa using h3 t u

theorem agrees_remove {h : Heap} {st : St} {c : Nat} (ha : Agrees h st) (hc : c ∈ st.comps) :
    ∃ st', remove h c st = some st' ∧ Agrees h st' := by
  obtain ⟨comps, hr⟩ := remove_some (h := h) (uid := st.uid) hc
  obtain ⟨h1, h2, h3⟩ := ha
  have hpo : ∀ u a b, same h st.uid a b = true →
      ((h.attr a).recur && (h.attr a).rid && decide (st.uid a = u)) =
        ((h.attr b).recur && (h.attr b).rid && decide (st.uid b = u)) := by
    intro u a b hs
    obtain ⟨e1, e2⟩ := same_class hs
    rw [e1, e2]
  have hpm : ∀ t u a b, same h st.uid a b = true →
      ((h.attr a).recur && !(h.attr a).rid && decide ((h.attr a).type = t ∧ st.uid a = u)) =
        ((h.attr b).recur && !(h.attr b).rid && decide ((h.attr b).type = t ∧ st.uid b = u)) := by
    intro t u a b hs
    obtain ⟨e1, e2⟩ := same_class hs
    rw [e1, e2]
  have hov := fun u => remove_filter (hpo u) hr
  have hma := fun t u => remove_filter (hpm t u) hr
  have lenm : ∀ t u, (comps.filter fun c =>
      (h.attr c).recur && !(h.attr c).rid && decide ((h.attr c).type = t ∧ st.uid c = u)).length ≤ 1 := by
    intro t u
    have := h3 t u
    unfold master at this
    cases hb : ((h.attr c).recur && !(h.attr c).rid && decide ((h.attr c).type = t ∧ st.uid c = u)) with
    | true =>
      have := remove_length ((hma t u).1 hb)
      omega
    | false => rw [(hma t u).2 hb]; exact this
  unfold remove
  rw [hr]
  simp only
  cases hrec : (h.attr c).recur with
  | false =>
    simp only [Bool.false_eq_true, if_false]
    refine ⟨_, rfl, fun u => ?_, fun t u => ?_, lenm⟩
    · unfold overridden
      rw [(hov u).2 (by simp [hrec])]
      exact h1 u
    · unfold master
      rw [(hma t u).2 (by simp [hrec])]
      exact h2 t u
  | true =>
    cases hrid : (h.attr c).rid with
    | true =>
      simp only [if_true]
      have hrem := (hov (st.uid c)).1 (by simp [hrec, hrid])
      have h1c := h1 (st.uid c)
      unfold instances overridden at h1c
      rw [h1c, hrem]
      refine ⟨_, rfl, fun u => ?_, fun t u => ?_, lenm⟩
      · unfold instances overridden
        simp only
        by_cases hu : u = st.uid c
        · subst hu
          rw [if_pos rfl]
          rfl
        · rw [if_neg hu, (hov u).2 (by simp [Ne.symm hu])]
          exact h1 u
      · unfold master
        simp only
        rw [(hma t u).2 (by simp [hrid])]
        exact h2 t u
    | false =>
      simp only [if_true, Bool.false_eq_true, if_false]
      have hmem : c ∈ master h st (h.attr c).type (st.uid c) := by
        unfold master
        rw [List.mem_filter]
        exact ⟨hc, by simp [hrec, hrid]⟩
      have hlen := remove_length ((hma (h.attr c).type (st.uid c)).1 (by simp [hrec, hrid]))
      have hle := h3 (h.attr c).type (st.uid c)
      cases hm : master h st (h.attr c).type (st.uid c) with
      | nil => rw [hm] at hmem; simp at hmem
      | cons m ms =>
        have hmas : st.masters (h.attr c).type (st.uid c) = some m := by
          rw [h2, hm]
          rfl
        rw [hmas]
        refine ⟨_, rfl, fun u => ?_, fun t u => ?_, lenm⟩
        · unfold overridden
          simp only
          rw [(hov u).2 (by simp [hrid])]
          exact h1 u
        · unfold master at hlen hle ⊢
          simp only
          by_cases hu : t = (h.attr c).type ∧ u = st.uid c
          · obtain ⟨rfl, rfl⟩ := hu
            rw [if_pos ⟨rfl, rfl⟩]
            have h0 : (List.filter (fun d => (h.attr d).recur && !(h.attr d).rid &&
                decide ((h.attr d).type = (h.attr c).type ∧ st.uid d = st.uid c)) comps).length = 0 := by
              omega
            rw [List.length_eq_zero_iff.mp h0]
            rfl
          · rw [if_neg hu, (hma t u).2 (by
              simp only [Bool.and_eq_false_iff, decide_eq_false_iff_not]
              right
              tauto)]
            exact h2 t u

theorem setUIDs_eq (h : Heap) {old new : UID} (hn : new ≠ []) (hne : new ≠ old) (cs : List Nat) :
    ∀ (uid : Nat → UID) (ctr : Nat), setUIDs h old new cs uid ctr =
      (fun d => if d ∈ cs ∧ uid d = old then new else uid d, ctr) := by
  induction cs with
  | nil => intro uid ctr; simp [setUIDs]
  | cons c cs ih =>
    intro uid ctr
    rw [setUIDs]
    split
    · rename_i hc
      first | rw [if_neg hn, ih] | rw [ih]
      congr 1
      funext d
      by_cases hd : d = c
      · subst hd
        simp only [if_true]
        rw [if_neg (fun h => hne h.2), if_pos ⟨by simp, hc⟩]
      · simp [hd]
    · rename_i hc
      rw [ih]
      congr 1
      funext d
      by_cases hd : d = c
      · subst hd
        rw [if_neg (fun h => hc h.2), if_neg (fun h => hc h.2)]
      · simp only [List.mem_cons, hd, false_or]

theorem agrees_change {h : Heap} {st : St} {old new : UID} (ha : Agrees h st)
    (hp : Proper h st (.changeUID old new)) : Agrees h (changeUID h old new st) := by
  obtain ⟨hn, hne, ho, hm⟩ := hp
  obtain ⟨h1, h2, h3⟩ := ha
  have hst : changeUID h old new st = { st with
      uid := fun d => if d ∈ st.comps ∧ st.uid d = old then new else st.uid d
      over := moveKey old new st.over
      masters := fun t => moveKey old new (st.masters t) } := by
    unfold changeUID
    rw [setUIDs_eq h hn hne]
  -- a filter by UID after the change
  have key : ∀ (p : Nat → Bool) (u : UID), (st.comps.filter fun c => p c && decide (st.uid c = new)) = [] ∨
      (u ≠ new) → (st.comps.filter fun c => p c &&
        decide ((if c ∈ st.comps ∧ st.uid c = old then new else st.uid c) = u)) =
      if u = old then [] else if u = new then st.comps.filter fun c => p c && decide (st.uid c = old)
      else st.comps.filter fun c => p c && decide (st.uid c = u) := by
    intro p u hor
    have step1 : (st.comps.filter fun c => p c &&
        decide ((if c ∈ st.comps ∧ st.uid c = old then new else st.uid c) = u)) =
        st.comps.filter fun c => p c && decide ((if st.uid c = old then new else st.uid c) = u) := by
      apply List.filter_congr
      intro c hc
      simp [hc]
    rw [step1]
    by_cases hu : u = old
    · subst hu
      rw [if_pos rfl, List.filter_eq_nil_iff]
      intro c _
      split
      · simp [hne]
      · rename_i h
        simp [h]
    · rw [if_neg hu]
      by_cases hu' : u = new
      · subst hu'
        rw [if_pos rfl]
        have he : (st.comps.filter fun c => p c && decide (st.uid c = u)) = [] := by tauto
        apply List.filter_congr
        intro c hc
        by_cases hco : st.uid c = old
        · simp [hco]
        · rw [if_neg hco]
          have := List.filter_eq_nil_iff.mp he c hc
          rw [Bool.not_eq_true] at this
          rw [this]
          simp [hco]
      · rw [if_neg hu']
        apply List.filter_congr
        intro c hc
        by_cases hco : st.uid c = old
        · rw [if_pos hco, hco]
          simp [Ne.symm hu, Ne.symm hu']
        · rw [if_neg hco]
  have hover : ∀ u, overridden h (changeUID h old new st) u =
      if u = old then [] else if u = new then overridden h st old else overridden h st u := by
    intro u
    rw [hst]
    exact key (fun c => (h.attr c).recur && (h.attr c).rid) u (Or.inl ho)
  have hand : ∀ (uid : Nat → UID) (t : List Char) (u : UID) (c : Nat),
      ((h.attr c).recur && !(h.attr c).rid && decide ((h.attr c).type = t ∧ uid c = u)) =
      (((h.attr c).recur && !(h.attr c).rid && decide ((h.attr c).type = t)) && decide (uid c = u)) := by
    intro uid t u c
    simp [Bool.and_assoc, Bool.decide_and]
  have hmk : ∀ t u, master h st t u = st.comps.filter fun c =>
      ((h.attr c).recur && !(h.attr c).rid && decide ((h.attr c).type = t)) && decide (st.uid c = u) := by
    intro t u
    unfold master
    apply List.filter_congr
    intro c _
    exact hand _ _ _ _
  have hmas : ∀ t u, master h (changeUID h old new st) t u =
      if master h st t old = [] then master h st t u
      else if u = old then [] else if u = new then master h st t old else master h st t u := by
    intro t u
    have e1 : master h (changeUID h old new st) t u = st.comps.filter fun c =>
        ((h.attr c).recur && !(h.attr c).rid && decide ((h.attr c).type = t)) &&
          decide ((if c ∈ st.comps ∧ st.uid c = old then new else st.uid c) = u) := by
      rw [hst]
      unfold master
      apply List.filter_congr
      intro c _
      exact hand _ _ _ _
    by_cases hold : master h st t old = []
    · rw [if_pos hold, e1, hmk]
      rw [hmk, List.filter_eq_nil_iff] at hold
      apply List.filter_congr
      intro c hc
      have := hold c hc
      cases hq : ((h.attr c).recur && !(h.attr c).rid && decide ((h.attr c).type = t)) with
      | false => rfl
      | true =>
        rw [hq] at this
        simp only [Bool.true_and, decide_eq_true_eq] at this
        rw [if_neg (fun h => this h.2)]
    · rw [if_neg hold, e1, key _ u (Or.inl (by
        rw [← hmk]
        have := hm t
        tauto)), hmk, hmk]
  refine ⟨fun u => ?_, fun t u => ?_, fun t u => ?_⟩
  · rw [hover, hst]
    unfold instances moveKey
    simp only
    have ho1 := h1 old
    have hu1 := h1 u
    unfold instances at ho1 hu1
    cases hov : st.over old with
    | none =>
      rw [hov] at ho1
      simp only [Option.getD_none] at ho1
      simp only
      rw [hu1]
      split
      · rename_i he
        rw [he, ← ho1]
      · split
        · rename_i he
          rw [he, ho, ← ho1]
        · rfl
    | some l =>
      rw [hov] at ho1
      simp only [Option.getD_some] at ho1
      simp only
      split
      · rfl
      · split
        · simpa using ho1
        · exact hu1
  · rw [hmas, hst]
    unfold moveKey
    simp only
    have ho2 := h2 t old
    cases hov : st.masters t old with
    | none =>
      rw [hov] at ho2
      have hnil : master h st t old = [] := List.head?_eq_none_iff.mp ho2.symm
      rw [if_pos hnil]
      exact h2 t u
    | some m =>
      rw [hov] at ho2
      have hnil : master h st t old ≠ [] := by
        intro h
        rw [h] at ho2
        simp at ho2
      rw [if_neg hnil]
      simp only
      split
      · rfl
      · split
        · exact ho2
        · exact h2 t u
  · rw [hmas]
    split
    · exact h3 t u
    · split
      · simp
      · split
        · exact h3 t old
        · exact h3 t u

theorem agrees_all {h : Heap} : ∀ (ops : List Op) {st : St}, Agrees h st → ProperAll h ops st →
    ∃ st', applyAll h ops st = some st' ∧ Agrees h st' := by
  intro ops
  induction ops with
  | nil => intro st ha _; exact ⟨st, rfl, ha⟩
  | cons op ops ih =>
    intro st ha ⟨hp, hall⟩
    have : ∃ st', apply h op st = some st' ∧ Agrees h st' := by
      cases op with
      | add c => exact ⟨_, rfl, agrees_add ha hp⟩
      | remove c => exact agrees_remove ha hp
      | changeUID old new => exact ⟨_, rfl, agrees_change ha hp⟩
    obtain ⟨st1, e1, a1⟩ := this
    obtain ⟨st2, e2, a2⟩ := ih a1 (hall st1 e1)
    exact ⟨st2, by rw [applyAll, e1]; exact e2, a2⟩

end Index47
open Index47

/-- C47: after any history of proper operations, none of which fails, the overridden instances recorded
for a UID are exactly the contained components with that UID and a RECURRENCE-ID, in order.  Missing:
histories that are not proper; without each of the conditions it is false (`C47_fails_merge`,
`C47_fails_same`, `C47_fails_empty`, `C47_fails_remove`). -/
theorem C47_index_partial (h : Heap) (uid : Nat → UID) (ops : List Op)
    (hp : ProperAll h ops (empty uid)) :
    ∃ st, applyAll h ops (empty uid) = some st ∧ ∀ u,
      instances st u = st.comps.filter fun c =>
        (h.attr c).recur && (h.attr c).rid && decide (st.uid c = u) := by
  obtain ⟨st, h1, h2⟩ := agrees_all ops (agrees_empty h uid) hp
  exact ⟨st, h1, h2.over⟩

/-- Two overridden instances (0, 1), two masters of the same type (2, 3), and a component that does not
recur (4). -/
def Index47.demo : Heap where
  attr := fun c => ⟨"VEVENT".toList, decide (c < 4), decide (c < 2), c⟩
  fresh := fun n => "fresh".toList ++ List.replicate n 'x'

/-- Their UIDs. -/
def Index47.demoUid : Nat → UID := fun c => if c = 1 ∨ c = 3 then ['b'] else ['a']

/-- C47 fails: changing a UID to one that already has overridden instances forgets those (they stay in
the calendar, with that UID and a RECURRENCE-ID). -/
theorem C47_fails_merge : ∃ st,
    applyAll demo [.add 0, .add 1, .changeUID ['a'] ['b']] (empty demoUid) = some st ∧
    st.comps = [0, 1] ∧ st.uid 0 = ['b'] ∧ st.uid 1 = ['b'] ∧ instances st ['b'] = [0] :=
  ⟨_, rfl, by decide +kernel, by decide +kernel, by decide +kernel, by decide +kernel⟩

/-- C47 fails: changing a UID to itself forgets its overridden instances, and then one of them cannot be
removed. -/
theorem C47_fails_same : ∃ st,
    applyAll demo [.add 0, .changeUID ['a'] ['a']] (empty demoUid) = some st ∧
    st.comps = [0] ∧ st.uid 0 = ['a'] ∧ instances st ['a'] = [] ∧ (remove demo 0 st).isNone = true :=
  ⟨_, rfl, by decide +kernel, by decide +kernel, by decide +kernel, by decide +kernel⟩

/-- C47 fails: changing a UID to the empty one makes a new UID for the component, but records it as the
empty one. -/
theorem C47_fails_empty : ∃ st,
    applyAll demo [.add 0, .changeUID ['a'] []] (empty demoUid) = some st ∧
    st.comps = [0] ∧ st.uid 0 = "fresh".toList ∧ instances st "fresh".toList = [] ∧
    instances st [] = [0] :=
  ⟨_, rfl, by decide +kernel, by decide +kernel, by decide +kernel, by decide +kernel⟩

/-- C47 fails: of two masters with the same type and UID, both contained, only one can be removed. -/
theorem C47_fails_remove : ∃ st,
    applyAll demo [.add 2, .changeUID ['b'] ['c'], .add 3, .changeUID ['b'] ['a'], .remove 2]
      (empty demoUid) = some st ∧
    st.comps = [3] ∧ (remove demo 3 st).isNone = true :=
  ⟨_, rfl, by decide +kernel, by decide +kernel⟩

/-- A history that meets the hypothesis: it adds, moves and removes. -/
example : ProperAll demo [.add 0, .add 2, .add 1, .add 4, .changeUID ['a'] ['c'], .remove 0, .remove 2]
    (empty demoUid) := by
  refine ⟨?_, ?_⟩
  · intro _ h; exact absurd h (by decide)
  rintro _ ⟨⟩
  refine ⟨?_, ?_⟩
  · intro _ _; decide
  rintro _ ⟨⟩
  refine ⟨?_, ?_⟩
  · intro _ h; exact absurd h (by decide)
  rintro _ ⟨⟩
  refine ⟨?_, ?_⟩
  · intro h; exact absurd h (by decide)
  rintro _ ⟨⟩
  refine ⟨⟨by decide, by decide, by decide, ?_⟩, ?_⟩
  · intro t
    left
    unfold master
    rw [List.filter_eq_nil_iff]
    intro c hc
    have : c = 0 ∨ c = 2 ∨ c = 1 ∨ c = 4 := by simpa [add, empty, demo] using hc
    rcases this with rfl | rfl | rfl | rfl <;> simp [demo, add, empty, demoUid]
  rintro _ ⟨⟩
  refine ⟨?_, ?_⟩
  · show 0 ∈ _
    decide
  intro st h
  refine ⟨?_, fun _ _ => trivial⟩
  have : st.comps = [2, 1, 4] := by
    have h' : (apply demo (.remove 0) (changeUID demo ['a'] ['c'] (add demo 4 (add demo 1 (add demo 2
      (add demo 0 (empty demoUid))))))).map St.comps = some [2, 1, 4] := by decide +kernel
    simp only [apply] at h h'
    rw [h] at h'
    simpa using h'
  show 2 ∈ st.comps
  rw [this]
  decide

end PyCal
