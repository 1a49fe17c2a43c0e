import Verif.Model.Attributes

/-!
# C93, C94: attributes kept beside the properties; the completion state of a to-do
-/

namespace PyCal
namespace Attr
open DateTime (TzEnv)

/-! ## Properties -/

/-- The first of the properties with a key has a value. -/
def FirstIs (k : Key) (ps : Props) (v : Val) : Prop :=
  ∃ l r, ps = l ++ (k, v) :: r ∧ ∀ p ∈ l, p.1 ≠ k

theorem first_iff {k : Key} {ps : Props} {v : Val} : first k ps = some v ↔ FirstIs k ps v := by
  unfold first FirstIs
  simp only [Option.map_eq_some_iff, List.find?_eq_some_iff_append, decide_eq_true_eq]
  constructor
  · rintro ⟨⟨k', v'⟩, ⟨hk, l, r, h, hl⟩, hv⟩
    simp only at hk hv
    subst hk hv
    exact ⟨l, r, h, fun p hp => by simpa using hl p hp⟩
  · rintro ⟨l, r, h, hl⟩
    exact ⟨(k, v), ⟨rfl, l, r, h, fun p hp => by simpa using hl p hp⟩, rfl⟩

theorem first_remove (k : Key) (ps : Props) : first k (remove k ps) = none := by
  unfold first remove
  simp only [Option.map_eq_none_iff, List.find?_eq_none, List.mem_filter, decide_eq_true_eq]
  intro p hp
  exact hp.2

theorem first_remove_ne {k k' : Key} (h : k ≠ k') (ps : Props) : first k (remove k' ps) = first k ps := by
  unfold first remove
  rw [List.find?_filter]
  congr 2
  funext p
  by_cases hp : p.1 = k
  · simp [hp, h]
  · simp [hp]

theorem first_add {k : Key} {ps : Props} (h : first k ps = none) (v : Val) : first k (add k v ps) = some v := by
  unfold first add at *
  rw [Option.map_eq_none_iff] at h
  simp [h]

theorem first_add_ne {k k' : Key} (h : k ≠ k') (v : Val) (ps : Props) : first k (add k' v ps) = first k ps := by
  unfold first add
  rw [List.find?_append]
  have : List.find? (fun p : Key × Val => decide (p.1 = k)) [(k', v)] = none := by
    simp [Ne.symm h]
  rw [this, Option.or_none]

theorem first_replace (k : Key) (v : Val) (ps : Props) : first k (add k v (remove k ps)) = some v :=
  first_add (first_remove k ps) v

theorem first_replace_ne {k k' : Key} (h : k ≠ k') (v : Val) (ps : Props) :
    first k (add k' v (remove k' ps)) = first k ps := by
  rw [first_add_ne h, first_remove_ne h]

theorem first_edit (k : Key) (v : Option (List Char)) (ps : Props) :
    first k (editProperty k v ps) = match v with | some (c :: s) => some (.text (c :: s)) | _ => none := by
  unfold editProperty
  rcases v with _ | _ | ⟨c, s⟩
  · exact first_remove k ps
  · exact first_remove k ps
  · exact first_replace k _ ps

theorem first_edit_ne {k k' : Key} (h : k ≠ k') (v : Option (List Char)) (ps : Props) :
    first k (editProperty k' v ps) = first k ps := by
  unfold editProperty
  split
  · rw [first_replace_ne h]
  · rw [first_remove_ne h]

/-! ## C93 -/

/-- The attributes of a component are those of a new component with the same properties. -/
def Agrees (k : Kind) (c : Comp) : Prop :=
  let d := Comp.fresh k c.props
  c.uid = d.uid ∧ c.seq = d.seq ∧ c.mapKey = d.mapKey ∧ c.summary = d.summary ∧ c.status = d.status ∧
  c.hasCompleted = d.hasCompleted ∧ (c.hasCompleted = true → c.completed = d.completed) ∧
  c.priority = d.priority ∧ c.percent = d.percent

/-- Edits that keep them together: no empty summary (`C93_fails_summary`), a status that exists and, for a
to-do, is not "completed" (`C93_fails_complete`). -/
def Keeps (k : Kind) : Call → Prop
  | .editSummary s => s ≠ some []
  | .editStatus s => match k with | .event => 0 ≤ s ∧ s ≤ 3 | .todo => 0 ≤ s ∧ s ≤ 4 ∧ s ≠ 3
  | _ => True

theorem fresh_form (k : Kind) (ps : Props) : Comp.fresh k ps =
    let uid := (loadString .uid ps).getD []
    let seq := (loadInt .sequence ps).getD 0
    let c : Comp := { props := ps, uid, seq, originalSeq := seq, mapKey := mapKey uid (ridText ps),
                      summary := loadString .summary ps,
                      status := ((loadString .status ps).bind (statusOf k)).getD 0 }
    match k with
    | .event => c
    | .todo => { c with priority := loadInt .priority ps, percent := loadInt .percent ps,
                        hasCompleted := (loadDateTime .completed ps).isSome,
                        completed := (loadDateTime .completed ps).getD ⟨1970, 1, 1, 0, 0, 0, false, false, none⟩ } := by
  unfold Comp.fresh Comp.finalise
  cases k <;> simp only <;> cases loadString .summary ps <;> rfl

theorem agrees_iff (k : Kind) (c : Comp) : Agrees k c ↔
    c.uid = (loadString .uid c.props).getD [] ∧ c.seq = (loadInt .sequence c.props).getD 0 ∧
    c.mapKey = mapKey c.uid (ridText c.props) ∧ c.summary = loadString .summary c.props ∧
    c.status = ((loadString .status c.props).bind (statusOf k)).getD 0 ∧
    (match k with
    | .event => c.hasCompleted = false ∧ c.priority = some 0 ∧ c.percent = some 0
    | .todo => c.hasCompleted = (loadDateTime .completed c.props).isSome ∧
      (∀ t, loadDateTime .completed c.props = some t → c.completed = t) ∧
      c.priority = loadInt .priority c.props ∧ c.percent = loadInt .percent c.props) := by
  unfold Agrees
  rw [fresh_form]
  cases k
  · simp only
    constructor
    · rintro ⟨h1, h2, h3, h4, h5, h6, -, h8, h9⟩
      exact ⟨h1, h2, by rw [h1]; exact h3, h4, h5, h6, h8, h9⟩
    · rintro ⟨h1, h2, h3, h4, h5, h6, h8, h9⟩
      exact ⟨h1, h2, by rw [← h1]; exact h3, h4, h5, h6, by simp [h6], h8, h9⟩
  · simp only
    cases loadDateTime .completed c.props with
    | none =>
      constructor
      · rintro ⟨h1, h2, h3, h4, h5, h6, -, h8, h9⟩
        exact ⟨h1, h2, by rw [h1]; exact h3, h4, h5, h6, by simp, h8, h9⟩
      · rintro ⟨h1, h2, h3, h4, h5, h6, -, h8, h9⟩
        exact ⟨h1, h2, by rw [← h1]; exact h3, h4, h5, h6, by simp [h6], h8, h9⟩
    | some t =>
      constructor
      · rintro ⟨h1, h2, h3, h4, h5, h6, h7, h8, h9⟩
        exact ⟨h1, h2, by rw [h1]; exact h3, h4, h5, h6, by rintro t' ⟨⟩; exact h7 h6, h8, h9⟩
      · rintro ⟨h1, h2, h3, h4, h5, h6, h7, h8, h9⟩
        exact ⟨h1, h2, by rw [← h1]; exact h3, h4, h5, h6, fun _ => h7 t rfl, h8, h9⟩

/-- The values that the attributes depend on. -/
theorem agrees_congr {k : Kind} {c c' : Comp} (h : Agrees k c)
    (hp : ∀ x, x = Key.uid ∨ x = .sequence ∨ x = .rid ∨ x = .summary ∨ x = .status ∨ x = .completed ∨
      x = .priority ∨ x = .percent → first x c'.props = first x c.props)
    (he : c' = { c with props := c'.props }) : Agrees k c' := by
  have hs : ∀ x, x = Key.uid ∨ x = .sequence ∨ x = .rid ∨ x = .summary ∨ x = .status ∨ x = .completed ∨
      x = .priority ∨ x = .percent → loadString x c'.props = loadString x c.props ∧
        loadInt x c'.props = loadInt x c.props ∧ loadDateTime x c'.props = loadDateTime x c.props := by
    intro x hx
    unfold loadString loadInt loadDateTime
    rw [hp x hx]
    exact ⟨rfl, rfl, rfl⟩
  rw [agrees_iff] at h ⊢
  unfold ridText at *
  rw [(hs .uid (by simp)).1, (hs .sequence (by simp)).2.1, (hs .rid (by simp)).2.2, (hs .summary (by simp)).1,
    (hs .status (by simp)).1, (hs .completed (by simp)).2.2, (hs .priority (by simp)).2.1,
    (hs .percent (by simp)).2.1]
  rw [he]
  exact h

theorem call_agrees (env : TzEnv) (k : Kind) (c : Comp) (x : Call) (h : Agrees k c) (hx : Keeps k x) :
    Agrees k (c.call env k x).2 := by
  cases x with
  | setUID u =>
    simp only [Comp.call, Comp.setUID]
    split
    · exact h
    · rw [agrees_iff] at h ⊢
      simp only [loadString, loadInt, loadDateTime, ridText, first_replace, ne_eq, reduceCtorEq,
        not_false_eq_true, first_replace_ne, Option.getD_some, true_and] at h ⊢
      exact ⟨h.2.1, h.2.2.2⟩
  | setSeq n =>
    simp only [Comp.call, Comp.setSeq]
    rw [agrees_iff] at h ⊢
    simp only [loadString, loadInt, loadDateTime, ridText, first_replace, ne_eq, reduceCtorEq,
      not_false_eq_true, first_replace_ne, Option.getD_some, true_and] at h ⊢
    exact ⟨h.1, h.2.2⟩
  | editSummary s =>
    simp only [Comp.call, Comp.editSummary]
    rw [agrees_iff] at h ⊢
    simp only [loadString, loadInt, loadDateTime, ridText, first_edit, ne_eq, reduceCtorEq,
      not_false_eq_true, first_edit_ne] at h ⊢
    refine ⟨h.1, h.2.1, h.2.2.1, ?_, h.2.2.2.2⟩
    simp only [Keeps] at hx
    rcases s with _ | _ | ⟨c, s⟩
    · rfl
    · exact absurd rfl hx
    · rfl
  | editDetails d l =>
    refine agrees_congr h (fun x hx => ?_) rfl
    simp only [Comp.call, Comp.editDetails]
    rw [first_edit_ne (by rintro rfl; simp at hx), first_edit_ne (by rintro rfl; simp at hx)]
  | stamp t =>
    refine agrees_congr h (fun x hx => ?_) rfl
    simp only [Comp.call]
    rw [first_replace_ne (by rintro rfl; simp at hx)]
  | modified t =>
    refine agrees_congr h (fun x hx => ?_) rfl
    simp only [Comp.call]
    rw [first_replace_ne (by rintro rfl; simp at hx)]
  | editCompleted t =>
    cases k with
    | event => exact h
    | todo =>
      simp only [Comp.call, Comp.editCompleted]
      rw [agrees_iff] at h ⊢
      simp only [loadString, loadInt, loadDateTime, ridText, first_replace, ne_eq, reduceCtorEq,
        not_false_eq_true, first_replace_ne] at h ⊢
      exact ⟨h.1, h.2.1, h.2.2.1, h.2.2.2.1, h.2.2.2.2.1, rfl, by rintro t' ⟨⟩; rfl, h.2.2.2.2.2.2.2.1,
        h.2.2.2.2.2.2.2.2⟩
  | editStatus s =>
    cases k with
    | event =>
      simp only [Comp.call, Comp.editStatusEvent]
      split
      · exact h
      · rw [agrees_iff] at h ⊢
        simp only [Keeps] at hx
        have hs : s = 0 ∨ s = 1 ∨ s = 2 ∨ s = 3 := by omega
        rcases hs with rfl | rfl | rfl | rfl <;>
          simp [loadString, loadInt, loadDateTime, ridText, first_replace, first_remove,
            first_replace_ne, first_remove_ne] at h ⊢ <;>
          first
          | exact ⟨h.1, h.2.1, h.2.2.1, h.2.2.2.1, h.2.2.2.2.2⟩
          | exact ⟨h.1, h.2.1, h.2.2.1, h.2.2.2.1, by decide +kernel, h.2.2.2.2.2⟩
    | todo =>
      simp only [Comp.call, Comp.editStatusToDo]
      split
      · exact h
      · rw [agrees_iff] at h
        simp only [Keeps] at hx
        have hs : s = 0 ∨ s = 1 ∨ s = 2 ∨ s = 4 := by omega
        rcases hs with rfl | rfl | rfl | rfl <;> simp only [Int.reduceEq, if_true, if_false] <;>
          rw [agrees_iff] <;>
          simp [loadString, loadInt, loadDateTime, ridText, first_add, first_add_ne, first_remove,
            first_remove_ne] at h ⊢ <;>
          first
          | exact ⟨h.1, h.2.1, h.2.2.1, h.2.2.2.1, h.2.2.2.2.2.2.2.1, h.2.2.2.2.2.2.2.2⟩
          | exact ⟨h.1, h.2.1, h.2.2.1, h.2.2.2.1, by decide +kernel, h.2.2.2.2.2.2.2.1, h.2.2.2.2.2.2.2.2⟩

theorem fresh_agrees (k : Kind) (ps : Props) : Agrees k (Comp.fresh k ps) := by
  have : (Comp.fresh k ps).props = ps := by rw [fresh_form]; cases k <;> rfl
  unfold Agrees
  rw [this]
  exact ⟨rfl, rfl, rfl, rfl, rfl, rfl, fun _ => rfl, rfl, rfl⟩

/-- C93 (partial): after any edits of an event or a to-do that has been loaded, its attributes are those of
a new component with the same properties.  Missing: an empty summary (`C93_fails_summary`), the status
"completed" of a to-do (`C93_fails_complete`). -/
theorem C93_edits_partial (env : TzEnv) (k : Kind) (ps : Props) (xs : List Call) (h : ∀ x ∈ xs, Keeps k x) :
    Agrees k ((Comp.fresh k ps).calls env k xs) := by
  suffices ∀ c, Agrees k c → Agrees k (c.calls env k xs) from this _ (fresh_agrees k ps)
  induction xs with
  | nil => intro c hc; exact hc
  | cons x xs ih =>
    intro c hc
    exact ih (fun y hy => h y (List.mem_cons_of_mem _ hy)) _
      (call_agrees env k c x hc (h x List.mem_cons_self))

/-- The text that the first property with a key has as its value, and likewise a number or a date. -/
theorem loadString_iff {k : Key} {ps : Props} {s : List Char} :
    loadString k ps = some s ↔ FirstIs k ps (.text s) := by
  rw [← first_iff]
  unfold loadString
  split
  · next h => rw [h]; simp
  · next h =>
    constructor
    · intro h'; cases h'
    · intro h'; exact absurd h' (h s)

theorem loadInt_iff {k : Key} {ps : Props} {n : Int} : loadInt k ps = some n ↔ FirstIs k ps (.int n) := by
  rw [← first_iff]
  unfold loadInt
  split
  · next h => rw [h]; simp
  · next h =>
    constructor
    · intro h'; cases h'
    · intro h'; exact absurd h' (h n)

theorem loadDateTime_iff {k : Key} {ps : Props} {t : DateTime} :
    loadDateTime k ps = some t ↔ FirstIs k ps (.dateTime t) := by
  rw [← first_iff]
  unfold loadDateTime
  split
  · next h => rw [h]; simp
  · next h =>
    constructor
    · intro h'; cases h'
    · intro h'; exact absurd h' (h t)

/-- C93: what a component that has been loaded says is what its properties say: UID, SEQUENCE and SUMMARY,
and of a to-do PRIORITY, PERCENT-COMPLETE and COMPLETED. -/
theorem C93_loaded (k : Kind) (ps : Props) :
    (∀ s, FirstIs .uid ps (.text s) → (Comp.fresh k ps).uid = s) ∧
    (∀ n, FirstIs .sequence ps (.int n) → (Comp.fresh k ps).seq = n) ∧
    (∀ s, (Comp.fresh k ps).summary = some s ↔ FirstIs .summary ps (.text s)) ∧
    ((∀ v, ¬ FirstIs .uid ps v) → (Comp.fresh k ps).uid = []) ∧
    ((∀ v, ¬ FirstIs .sequence ps v) → (Comp.fresh k ps).seq = 0) ∧
    (k = .todo → (∀ n, (Comp.fresh k ps).priority = some n ↔ FirstIs .priority ps (.int n)) ∧
      (∀ n, (Comp.fresh k ps).percent = some n ↔ FirstIs .percent ps (.int n)) ∧
      ((Comp.fresh k ps).hasCompleted = true ↔ ∃ t, FirstIs .completed ps (.dateTime t)) ∧
      ∀ t, FirstIs .completed ps (.dateTime t) → (Comp.fresh k ps).completed = t) := by
  rw [fresh_form]
  refine ⟨fun s h => ?_, fun n h => ?_, fun s => ?_, fun h => ?_, fun h => ?_, ?_⟩
  · rw [← loadString_iff] at h
    cases k <;> simp only [h, Option.getD_some]
  · rw [← loadInt_iff] at h
    cases k <;> simp only [h, Option.getD_some]
  · rw [← loadString_iff]
    cases k <;> rfl
  · have : loadString .uid ps = none := by
      cases hl : loadString .uid ps with
      | none => rfl
      | some s => exact absurd (loadString_iff.1 hl) (h _)
    cases k <;> simp only [this, Option.getD_none]
  · have : loadInt .sequence ps = none := by
      cases hl : loadInt .sequence ps with
      | none => rfl
      | some s => exact absurd (loadInt_iff.1 hl) (h _)
    cases k <;> simp only [this, Option.getD_none]
  · rintro rfl
    refine ⟨fun n => by rw [← loadInt_iff], fun n => by rw [← loadInt_iff], ?_, fun t h => ?_⟩
    · simp only [Option.isSome_iff_exists, loadDateTime_iff]
    · rw [← loadDateTime_iff] at h
      simp only [h, Option.getD_some]

/-- The status texts of RFC 5545, 3.8.1.11, with the numbers of definitions.py:277-286. -/
def statusTexts : Kind → List (List Char × Int)
  | .event => [("TENTATIVE".toList, 2), ("CONFIRMED".toList, 1), ("CANCELLED".toList, 3)]
  | .todo => [("NEEDS-ACTION".toList, 1), ("COMPLETED".toList, 3), ("IN-PROCESS".toList, 2),
      ("CANCELLED".toList, 4)]

theorem statusOf_eq (k : Kind) (s : List Char) : statusOf k s = (statusTexts k).lookup s := by
  cases k <;> simp only [statusOf, statusTexts, List.lookup_cons, List.lookup_nil] <;>
    (repeat' split) <;> simp_all

/-- C93 (partial): the status of a component that has been loaded is the one named by its STATUS, in upper
case (`C93_fails_case`), and none if it has no STATUS or one not in the table. -/
theorem C93_status_partial (k : Kind) (ps : Props) :
    (∀ s n, FirstIs .status ps (.text s) → (s, n) ∈ statusTexts k → (Comp.fresh k ps).status = n) ∧
    ((∀ s n, FirstIs .status ps (.text s) → (s, n) ∉ statusTexts k) → (Comp.fresh k ps).status = 0) := by
  have hf : (Comp.fresh k ps).status = ((loadString .status ps).bind (statusOf k)).getD 0 := by
    rw [fresh_form]; cases k <;> rfl
  have hl : ∀ s n, (s, n) ∈ statusTexts k ↔ statusOf k s = some n := by
    intro s n
    rw [statusOf_eq]
    cases k <;> simp only [statusTexts, List.lookup_cons, List.lookup_nil, List.mem_cons, List.not_mem_nil,
      or_false, Prod.mk.injEq]
    · constructor
      · rintro (⟨rfl, rfl⟩ | ⟨rfl, rfl⟩ | ⟨rfl, rfl⟩) <;> decide +kernel
      · intro h; (repeat' split at h) <;> simp_all
    · constructor
      · rintro (⟨rfl, rfl⟩ | ⟨rfl, rfl⟩ | ⟨rfl, rfl⟩ | ⟨rfl, rfl⟩) <;> decide +kernel
      · intro h; (repeat' split at h) <;> simp_all
  rw [hf]
  constructor
  · intro s n h hm
    rw [← loadString_iff] at h
    rw [h, Option.bind_some, (hl s n).1 hm, Option.getD_some]
  · intro h
    cases hs : loadString .status ps with
    | none => rfl
    | some s =>
      rw [Option.bind_some]
      cases ho : statusOf k s with
      | none => rfl
      | some n => exact absurd ((hl s n).2 ho) (h s n (loadString_iff.1 hs))

/-- C93: a call sets the attribute it names, in the properties too.  (For a component whose attributes agree
with its properties, as after `C93_edits_partial`; what else it writes: `C93_others`.) -/
theorem C93_set (env : TzEnv) (k : Kind) (c : Comp) (h : Agrees k c) :
    (∀ u, u ≠ [] → (c.call env k (.setUID u)).1 = true ∧
      (Comp.fresh k (c.call env k (.setUID u)).2.props).uid = u) ∧
    (∀ n, (Comp.fresh k (c.call env k (.setSeq n)).2.props).seq = n) ∧
    (∀ s, s ≠ some [] → (Comp.fresh k (c.call env k (.editSummary s)).2.props).summary = s) ∧
    (∀ s, Keeps k (.editStatus s) → (c.call env k (.editStatus s)).1 = true ∧
      (Comp.fresh k (c.call env k (.editStatus s)).2.props).status = s) ∧
    (k = .todo → ∀ t, (Comp.fresh k (c.call env k (.editCompleted t)).2.props).hasCompleted = true ∧
      (Comp.fresh k (c.call env k (.editCompleted t)).2.props).completed = PeriodObj.utcOf env t) := by
  refine ⟨fun u hu => ⟨?_, ?_⟩, fun n => ?_, fun s hs => ?_, fun s hs => ⟨?_, ?_⟩, ?_⟩
  · simp only [Comp.call, Comp.setUID, hu, if_false]
  · rw [← (call_agrees env k c _ h (show Keeps k (.setUID u) from trivial)).1]
    simp only [Comp.call, Comp.setUID, hu, if_false]
  · rw [← (call_agrees env k c _ h (show Keeps k (.setSeq n) from trivial)).2.1]
    rfl
  · rw [← (call_agrees env k c _ h (show Keeps k (.editSummary s) from hs)).2.2.2.1]
    rfl
  · cases k with
    | event => rfl
    | todo =>
      simp only [Comp.call, Comp.editStatusToDo]
      split
      · rfl
      · rw [if_neg hs.2.2]
  · rw [← (call_agrees env k c _ h hs).2.2.2.2.1]
    cases k with
    | event =>
      simp only [Comp.call, Comp.editStatusEvent]
      split
      · assumption
      · rfl
    | todo =>
      simp only [Comp.call, Comp.editStatusToDo]
      split
      · assumption
      · rw [if_neg hs.2.2]
  · rintro rfl t
    have := call_agrees env .todo c _ h (show Keeps .todo (.editCompleted t) from trivial)
    exact ⟨by rw [← this.2.2.2.2.2.1]; rfl, by rw [← this.2.2.2.2.2.2.1 rfl]; rfl⟩

/-- Which keys a call writes. -/
def writes : Call → Key → Prop
  | .setUID _, k => k = .uid
  | .setSeq _, k => k = .sequence
  | .editSummary _, k => k = .summary
  | .editDetails _ _, k => k = .description ∨ k = .location
  | .editStatus _, k => k = .status ∨ k = .completed
  | .editCompleted _, k => k = .completed
  | .stamp _, k => k = .dtstamp
  | .modified _, k => k = .lastModified

/-- C93: an edit leaves the properties of all other names alone, and their order. -/
theorem C93_others (env : TzEnv) (k : Kind) (c : Comp) (x : Call) (key : Key) (h : ¬ writes x key) :
    ((c.call env k x).2.props.filter fun p => p.1 = key) = c.props.filter fun p => p.1 = key := by
  have hr : ∀ k' ps, k' ≠ key →
      (remove k' ps).filter (fun p => decide (p.1 = key)) = ps.filter fun p => p.1 = key := by
    intro k' ps hk
    unfold remove
    rw [List.filter_filter]
    congr 1
    funext p
    by_cases hp : p.1 = key
    · simp [hp, Ne.symm hk]
    · simp [hp]
  have ha : ∀ k' v ps, k' ≠ key →
      (add k' v ps).filter (fun p => decide (p.1 = key)) = ps.filter fun p => p.1 = key := by
    intro k' v ps hk
    unfold add
    simp [hk]
  have he : ∀ k' v ps, k' ≠ key →
      (editProperty k' v ps).filter (fun p => decide (p.1 = key)) = ps.filter fun p => p.1 = key := by
    intro k' v ps hk
    unfold editProperty
    split
    · rw [ha _ _ _ hk, hr _ _ hk]
    · rw [hr _ _ hk]
  cases x with
  | setUID u =>
    simp only [Comp.call, Comp.setUID]
    split
    · rfl
    · rw [ha _ _ _ (Ne.symm h), hr _ _ (Ne.symm h)]
  | setSeq n => simp only [Comp.call, Comp.setSeq]; rw [ha _ _ _ (Ne.symm h), hr _ _ (Ne.symm h)]
  | editSummary s => simp only [Comp.call, Comp.editSummary]; rw [he _ _ _ (Ne.symm h)]
  | editDetails d l =>
    simp only [writes, not_or] at h
    simp only [Comp.call, Comp.editDetails]
    rw [he _ _ _ (Ne.symm h.2), he _ _ _ (Ne.symm h.1)]
  | stamp t => simp only [Comp.call]; rw [ha _ _ _ (Ne.symm h), hr _ _ (Ne.symm h)]
  | modified t => simp only [Comp.call]; rw [ha _ _ _ (Ne.symm h), hr _ _ (Ne.symm h)]
  | editCompleted t =>
    cases k with
    | event => rfl
    | todo => simp only [Comp.call, Comp.editCompleted]; rw [ha _ _ _ (Ne.symm h), hr _ _ (Ne.symm h)]
  | editStatus s =>
    simp only [writes, not_or] at h
    cases k with
    | event =>
      simp only [Comp.call, Comp.editStatusEvent]
      split
      · rfl
      · simp only
        split
        · rw [ha _ _ _ (Ne.symm h.1), hr _ _ (Ne.symm h.1)]
        · split
          · rw [ha _ _ _ (Ne.symm h.1), hr _ _ (Ne.symm h.1)]
          · split
            · rw [ha _ _ _ (Ne.symm h.1), hr _ _ (Ne.symm h.1)]
            · rw [hr _ _ (Ne.symm h.1)]
    | todo =>
      simp only [Comp.call, Comp.editStatusToDo]
      split
      · rfl
      · split
        · simp only; rw [hr _ _ (Ne.symm h.2), hr _ _ (Ne.symm h.1)]
        · simp only; rw [ha _ _ _ (Ne.symm h.1), hr _ _ (Ne.symm h.2), hr _ _ (Ne.symm h.1)]

/-- A to-do that is in process. -/
def inProcess : Comp := Comp.fresh .todo [(.uid, .text "1".toList), (.status, .text "IN-PROCESS".toList),
  (.priority, .int 5), (.completed, .dateTime ⟨2020, 1, 1, 0, 0, 0, false, true, none⟩)]

/-- The calls of `C93_edits_partial` do something. -/
example : let c := inProcess.calls .empty .todo [.editStatus 4, .setSeq 2, .editSummary (some "x".toList),
      .editCompleted ⟨2020, 1, 2, 0, 0, 0, false, true, none⟩]
    inProcess.status = 2 ∧ inProcess.hasCompleted = true ∧ c.status = 4 ∧ c.seq = 2 ∧
    c.completed = ⟨2020, 1, 2, 0, 0, 0, false, true, none⟩ ∧ c.uid = "1".toList ∧
    c.props = [(.uid, .text "1".toList), (.priority, .int 5), (.status, .text "CANCELLED".toList),
      (.sequence, .int 2), (.summary, .text "x".toList),
      (.completed, .dateTime ⟨2020, 1, 2, 0, 0, 0, false, true, none⟩)] := by decide +kernel

/-! ### What fails -/

/-- C93 fails: a component cannot be given a new UID of its own. -/
theorem C93_fails_uid (env : TzEnv) (k : Kind) (c : Comp) : c.call env k (.setUID []) = (false, c) := rfl

/-- C93 fails: with an empty summary the component says that it has one, and does not when it is read again. -/
theorem C93_fails_summary (env : TzEnv) (k : Kind) (c : Comp) :
    (c.call env k (.editSummary (some []))).2.summary = some [] ∧
    (Comp.fresh k (c.call env k (.editSummary (some []))).2.props).summary = none := by
  refine ⟨rfl, ?_⟩
  rw [fresh_form]
  cases k <;> simp only [Comp.call, Comp.editSummary, loadString, first_edit]

/-- C93 fails: to complete a to-do raises, and its STATUS and COMPLETED are gone. -/
theorem C93_fails_complete (env : TzEnv) (c : Comp) (h : c.status ≠ 3) :
    (c.call env .todo (.editStatus 3)).1 = false ∧ (c.call env .todo (.editStatus 3)).2.status = 3 ∧
    (Comp.fresh .todo (c.call env .todo (.editStatus 3)).2.props).status = 0 ∧
    (Comp.fresh .todo (c.call env .todo (.editStatus 3)).2.props).hasCompleted = false := by
  simp only [Comp.call, Comp.editStatusToDo, h, if_false, if_true, true_and]
  rw [fresh_form]
  simp [loadString, loadDateTime, first_remove, first_remove_ne]

/-- C93 fails: a to-do that loses its status gets a STATUS property without a value. -/
theorem C93_fails_none (env : TzEnv) (c : Comp) (h : c.status ≠ 0) :
    FirstIs .status (c.call env .todo (.editStatus 0)).2.props .none := by
  rw [← first_iff]
  simp only [Comp.call, Comp.editStatusToDo, h, if_false]
  simp [first_add, first_remove, first_remove_ne]

/-- C93 fails: a status in lower case is not understood. -/
theorem C93_fails_case : ∃ ps, FirstIs .status ps (.text "completed".toList) ∧
    (Comp.fresh .todo ps).status = 0 :=
  ⟨[(.status, .text "completed".toList)], ⟨[], [], rfl, by simp⟩, by decide +kernel⟩

/-- C93 fails: a floating time of completion is not made UTC. -/
theorem C93_fails_floating (env : TzEnv) (c : Comp) (t : DateTime) (h : t.isLocal = false) (hu : t.utc = false) :
    (c.call env .todo (.editCompleted t)).2.completed.utc = false := by
  simp only [Comp.call, Comp.editCompleted, PeriodObj.utcOf, h, Bool.false_and, Bool.false_eq_true, if_false, hu]

/-- C93 fails: loading again after a property has been removed keeps what it said. -/
theorem C93_fails_again (k : Kind) (c : Comp) :
    (Comp.finalise k { c with props := remove .uid c.props }).uid = c.uid ∧
    (Comp.finalise k { c with props := remove .status c.props }).status = c.status := by
  cases k <;> simp [Comp.finalise, loadString, first_remove]

/-- C93 fails: a recurring component and an instance of another can have the same key. -/
theorem C93_fails_key : ∃ a b : Props, (Comp.fresh .event a).uid ≠ (Comp.fresh .event b).uid ∧
    (Comp.fresh .event a).mapKey = (Comp.fresh .event b).mapKey :=
  ⟨[(.uid, .text "a".toList), (.rid, .dateTime (.ofDate 2020 1 1))], [(.uid, .text "a20200101".toList)],
    by decide +kernel, by decide +kernel⟩

/-! ### Calendars -/

/-- C93 (partial): the description of a calendar and the property agree after an edit, and the name is left
alone.  Missing: the name (`C93_fails_name`). -/
theorem C93_description_partial (c : Cal) (s : List Char)
    (h : c.description = (loadString .caldesc c.props).getD []) :
    (c.editDescription s).description = s ∧ (Cal.finalise { props := (c.editDescription s).props }).description = s ∧
    (Cal.finalise { props := (c.editDescription s).props }).name = (Cal.finalise { props := c.props }).name := by
  unfold Cal.editDescription
  split
  · next hs => exact ⟨hs, by rw [← hs, h]; rfl, rfl⟩
  · refine ⟨rfl, ?_, ?_⟩
    · simp only [Cal.finalise]
      split
      · next hs => simp [loadString, first_remove, hs]
      · simp [loadString, first_replace]
    · simp only [Cal.finalise]
      split
      · simp [loadString, first_remove_ne]
      · simp [loadString, first_replace_ne]

example : (Cal.editDescription "b".toList { props := [(.caldesc, .text "a".toList)], description := "a".toList }) =
    { props := [(.caldesc, .text "b".toList)], description := "b".toList } := by decide +kernel

/-- C93 fails: a new name for a calendar raises, and the old one is gone from its properties. -/
theorem C93_fails_name (c : Cal) (s : List Char) (hs : s ≠ []) (h : c.name ≠ s) :
    (c.editName s).1 = false ∧ (c.editName s).2.name = s ∧
    (Cal.finalise { props := (c.editName s).2.props }).name = [] := by
  unfold Cal.editName
  rw [if_neg h]
  refine ⟨by simpa using hs, rfl, ?_⟩
  simp [Cal.finalise, loadString, first_remove]

/-! ## C94 -/

/-- C94 (partial): a to-do that is completed is done, one that is cancelled is cancelled, and one that is to be
done or in process and has no due time is due now.  Missing: those with a due time (`C94_fails_due`) or
without a status (`C94_fails_status`). -/
theorem C94_state_partial (ps : Props) (hasEnd : Bool) (s : List Char) (h : FirstIs .status ps (.text s)) :
    (s = "COMPLETED".toList → (Comp.fresh .todo ps).completionState hasEnd = some (some 3)) ∧
    (s = "CANCELLED".toList → (Comp.fresh .todo ps).completionState hasEnd = some (some 4)) ∧
    (hasEnd = false → (s = "NEEDS-ACTION".toList ∨ s = "IN-PROCESS".toList) →
      (Comp.fresh .todo ps).completionState hasEnd = some (some 1)) := by
  have hf := (C93_status_partial .todo ps).1 s
  refine ⟨?_, ?_, ?_⟩
  · rintro rfl
    have := hf 3 h (by decide +kernel)
    simp [Comp.completionState, this]
  · rintro rfl
    have := hf 4 h (by decide +kernel)
    simp [Comp.completionState, this]
  · rintro rfl (rfl | rfl)
    · have := hf 1 h (by decide +kernel)
      simp [Comp.completionState, this]
    · have := hf 2 h (by decide +kernel)
      simp [Comp.completionState, this]

/-- C94 fails: for a to-do with a due time that is not completed or cancelled it raises. -/
theorem C94_fails_due (ps : Props) (s : List Char) (h : FirstIs .status ps (.text s))
    (hs : s = "NEEDS-ACTION".toList ∨ s = "IN-PROCESS".toList) :
    (Comp.fresh .todo ps).completionState true = none := by
  have hf := (C93_status_partial .todo ps).1 s
  rcases hs with rfl | rfl
  · have := hf 1 h (by decide +kernel)
    simp [Comp.completionState, this]
  · have := hf 2 h (by decide +kernel)
    simp [Comp.completionState, this]

/-- C94 fails: a to-do without a status has no state. -/
theorem C94_fails_status (ps : Props) (hasEnd : Bool) (h : ∀ v, ¬ FirstIs .status ps v) :
    (Comp.fresh .todo ps).completionState hasEnd = some none := by
  have := (C93_status_partial .todo ps).2 fun s n hs => absurd hs (h _)
  simp [Comp.completionState, this]

example : FirstIs .status inProcess.props (.text "IN-PROCESS".toList) :=
  ⟨[(.uid, .text "1".toList)], _, rfl, by simp⟩

end Attr
end PyCal
