import Verif.Model.Copy
import Verif.Model.Container

/-!
# C127: A copy says the same and is independent of the original
-/

namespace PyCal
namespace Copy

/-! ### Specification -/

/-- What an object says: everything but the numbers. -/
inductive Content where
  | mk (cls : Cls) (name data : List Char) (kids : List (List Char × Content))

mutual
def content : Node → Content
  | .mk _ _ cls name data kids => .mk cls name data (contents kids)

def contents : List (List Char × Node) → List (List Char × Content)
  | [] => []
  | (slot, k) :: ks => (slot, content k) :: contents ks
end

mutual
/-- The objects that can be reached. -/
def ids : Node → List Nat
  | .mk i _ _ _ _ kids => i :: idsKids kids

def idsKids : List (List Char × Node) → List Nat
  | [] => []
  | (_, k) :: ks => ids k ++ idsKids ks
end

mutual
/-- The objects held by an organisation, name or address. -/
def held : Node → List Nat
  | .mk _ _ cls _ _ kids => if cls = .org ∨ cls = .structured then idsKids kids else heldKids kids

def heldKids : List (List Char × Node) → List Nat
  | [] => []
  | (_, k) :: ks => held k ++ heldKids ks
end

mutual
/-- A property somewhere that is copied has no value. -/
def Valueless : Node → Prop
  | .mk _ _ cls _ _ kids =>
    (cls = .property ∧ ∀ k ∈ kids, k.1 ≠ "value".toList) ∨
      (cls ≠ .org ∧ cls ≠ .structured ∧ ValuelessKids kids)

def ValuelessKids : List (List Char × Node) → Prop
  | [] => False
  | (_, k) :: ks => Valueless k ∨ ValuelessKids ks
end

mutual
/-- Each component in it has the one around it as parent. -/
def Parents : Node → Prop
  | .mk i _ cls _ _ kids => cls = .org ∨ cls = .structured ∨ ParentsKids i kids

def ParentsKids (i : Nat) : List (List Char × Node) → Prop
  | [] => True
  | (_, k) :: ks => ((k.cls = .container ∨ k.cls = .component ∨ k.cls = .element) → k.parent = some i) ∧
      Parents k ∧ ParentsKids i ks
end

/-! ### Proofs -/

theorem shares_iff (c : Cls) : c.shares = true ↔ c = .org ∨ c = .structured := by
  cases c <;> simp [Cls.shares]

theorem isComponent_iff (c : Cls) :
    c.isComponent = true ↔ c = .container ∨ c = .component ∨ c = .element := by
  cases c <;> simp [Cls.isComponent]

mutual
theorem dup_spec (p : Option Nat) : ∀ (t : Node) (n : Nat) (t' : Node) (n' : Nat),
    dup p t n = some (t', n') →
    content t' = content t ∧ n < n' ∧ (∀ a ∈ ids t', (n ≤ a ∧ a < n') ∨ a ∈ held t) ∧
    (∀ a ∈ held t, a ∈ ids t') ∧ Parents t' ∧ t'.parent = p ∧ t'.id = n ∧ t'.cls = t.cls
  | .mk i p0 cls name data kids, n, t', n', h => by
    unfold dup at h
    split at h
    · cases h
    · split at h
      · rename_i hs
        rw [shares_iff] at hs
        cases h
        refine ⟨by simp [content], by omega, ?_, ?_, ?_, rfl, rfl, rfl⟩
        · intro a ha
          simp only [ids, List.mem_cons] at ha
          rcases ha with rfl | ha
          · exact Or.inl ⟨Nat.le_refl _, by omega⟩
          · right; simp only [held, if_pos hs]; exact ha
        · intro a ha
          simp only [held, if_pos hs] at ha
          simp [ids, ha]
        · simp only [Parents]
          rcases hs with hs | hs
          · exact Or.inl hs
          · exact Or.inr (Or.inl hs)
      · rename_i hs
        rw [shares_iff] at hs
        cases hk : dupKids n kids (n + 1) with
        | none => rw [hk] at h; cases h
        | some r =>
          obtain ⟨ks, m⟩ := r
          rw [hk] at h
          cases h
          obtain ⟨h1, h2, h3, h4, h5⟩ := dupKids_spec n kids (n + 1) ks _ hk
          refine ⟨by simp [content, h1], by omega, ?_, ?_, ?_, rfl, rfl, rfl⟩
          · intro a ha
            simp only [ids, List.mem_cons] at ha
            rcases ha with rfl | ha
            · exact Or.inl ⟨Nat.le_refl _, by omega⟩
            · rcases h3 a ha with h | h
              · exact Or.inl ⟨by omega, h.2⟩
              · right; simp only [held, if_neg hs]; exact h
          · intro a ha
            simp only [held, if_neg hs] at ha
            simp [ids, h4 a ha]
          · simp only [Parents]
            exact Or.inr (Or.inr h5)

theorem dupKids_spec (o : Nat) : ∀ (ks : List (List Char × Node)) (n : Nat)
    (ks' : List (List Char × Node)) (n' : Nat), dupKids o ks n = some (ks', n') →
    contents ks' = contents ks ∧ n ≤ n' ∧ (∀ a ∈ idsKids ks', (n ≤ a ∧ a < n') ∨ a ∈ heldKids ks) ∧
    (∀ a ∈ heldKids ks, a ∈ idsKids ks') ∧ ParentsKids o ks'
  | [], n, ks', n', h => by
    simp only [dupKids, Option.some.injEq, Prod.mk.injEq] at h
    obtain ⟨rfl, rfl⟩ := h
    simp [contents, idsKids, heldKids, ParentsKids]
  | (slot, k) :: ks, n, ks', n', h => by
    unfold dupKids at h
    split at h
    · cases h
    · rename_i k' m hk
      cases hr : dupKids o ks m with
      | none => rw [hr] at h; cases h
      | some r =>
        obtain ⟨l, m'⟩ := r
        rw [hr] at h
        cases h
        obtain ⟨a1, a2, a3, a4, a5, a6, a7, a8⟩ := dup_spec _ k n k' m hk
        obtain ⟨b1, b2, b3, b4, b5⟩ := dupKids_spec o ks m l _ hr
        refine ⟨by simp [contents, a1, b1], by omega, ?_, ?_, ?_⟩
        · intro a ha
          simp only [idsKids, List.mem_append] at ha
          simp only [heldKids, List.mem_append]
          rcases ha with ha | ha
          · rcases a3 a ha with h | h
            · exact Or.inl ⟨h.1, by omega⟩
            · exact Or.inr (Or.inl h)
          · rcases b3 a ha with h | h
            · exact Or.inl ⟨by omega, h.2⟩
            · exact Or.inr (Or.inr h)
        · intro a ha
          simp only [heldKids, List.mem_append] at ha
          simp only [idsKids, List.mem_append]
          exact ha.imp (a4 a) (b4 a)
        · simp only [ParentsKids]
          refine ⟨fun hc => ?_, a5, b5⟩
          rw [a8] at hc
          rw [a6, if_pos ((isComponent_iff _).2 hc)]
end

mutual
theorem dup_none (p : Option Nat) : ∀ (t : Node) (n : Nat), dup p t n = none ↔ Valueless t
  | .mk i p0 cls name data kids, n => by
    unfold dup
    simp only [Valueless]
    split
    · rename_i h
      simp only [lacksValue, Bool.and_eq_true, decide_eq_true_eq, Bool.not_eq_true',
        List.any_eq_false, valueSlot] at h
      simp only [true_iff]
      exact Or.inl ⟨h.1, fun k hk e => h.2 k hk (decide_eq_true e)⟩
    · rename_i h
      simp only [lacksValue, Bool.and_eq_true, decide_eq_true_eq, Bool.not_eq_true',
        List.any_eq_false, valueSlot] at h
      split
      · rename_i hs
        rw [shares_iff] at hs
        simp only [reduceCtorEq, false_iff]
        rintro (⟨h1, h2⟩ | ⟨h1, h2, _⟩)
        · rcases hs with hs | hs <;> simp [hs] at h1
        · exact hs.elim h1 h2
      · rename_i hs
        rw [shares_iff, not_or] at hs
        rw [Option.map_eq_none_iff, dupKids_none n kids (n + 1)]
        constructor
        · exact fun hk => Or.inr ⟨hs.1, hs.2, hk⟩
        · rintro (⟨h1, h2⟩ | ⟨_, _, h3⟩)
          · exact absurd ⟨h1, fun k hk e => h2 k hk (of_decide_eq_true e)⟩ h
          · exact h3

theorem dupKids_none (o : Nat) : ∀ (ks : List (List Char × Node)) (n : Nat),
    dupKids o ks n = none ↔ ValuelessKids ks
  | [], n => by simp [dupKids, ValuelessKids]
  | (slot, k) :: ks, n => by
    unfold dupKids
    simp only [ValuelessKids]
    split
    · rename_i h
      rw [dup_none] at h
      simp [h]
    · rename_i k' m h
      have hn : ¬ Valueless k := by
        rw [← dup_none (if k.cls.isComponent then some o else none) k n, h]; simp
      rw [Option.map_eq_none_iff, dupKids_none o ks m]
      simp [hn]
end

mutual
theorem write_other (a : Nat) (d : List Char) (ks : List (List Char × Node)) :
    ∀ t : Node, a ∉ ids t → write a d ks t = t
  | .mk i p cls name data kids, h => by
    simp only [ids, List.mem_cons, not_or] at h
    unfold write
    rw [if_neg (fun e => h.1 e.symm), writeKids_other a d ks kids h.2]

theorem writeKids_other (a : Nat) (d : List Char) (ks : List (List Char × Node)) :
    ∀ l : List (List Char × Node), a ∉ idsKids l → writeKids a d ks l = l
  | [], _ => rfl
  | (slot, k) :: l, h => by
    simp only [idsKids, List.mem_append, not_or] at h
    unfold writeKids
    rw [write_other a d ks k h.1, writeKids_other a d ks l h.2]
end

theorem writes_other (l : List (Nat × List Char × List (List Char × Node))) (t : Node)
    (h : ∀ w ∈ l, w.1 ∉ ids t) : writes l t = t := by
  induction l with
  | nil => rfl
  | cons w l ih =>
    show writes l (write w.1 w.2.1 w.2.2 t) = t
    rw [write_other _ _ _ t (h w (by simp))]
    exact ih fun w' hw' => h w' (by simp [hw'])

mutual
def weight : Content → Nat
  | .mk _ _ data kids => data.length + weightKids kids

def weightKids : List (List Char × Content) → Nat
  | [] => 0
  | (_, k) :: ks => weight k + weightKids ks
end

mutual
theorem write_weight (a : Nat) (d : List Char) : ∀ t : Node, a ∈ ids t →
    d.length ≤ weight (content (write a d [] t))
  | .mk i p cls name data kids, h => by
    unfold write
    split
    · simp [content, weight]
    · rename_i hi
      simp only [ids, List.mem_cons] at h
      have := writeKids_weight a d kids (h.resolve_left fun e => hi e.symm)
      simp only [content, weight]
      omega

theorem writeKids_weight (a : Nat) (d : List Char) : ∀ l : List (List Char × Node), a ∈ idsKids l →
    d.length ≤ weightKids (contents (writeKids a d [] l))
  | [], h => by simp [idsKids] at h
  | (slot, k) :: l, h => by
    simp only [idsKids, List.mem_append] at h
    simp only [writeKids, contents, weightKids]
    rcases h with h | h
    · have := write_weight a d k h
      omega
    · have := writeKids_weight a d l h
      omega
end

/-- A change of an object that can be reached can be seen. -/
theorem write_seen (a : Nat) (t : Node) (h : a ∈ ids t) :
    ∃ d, content (write a d [] t) ≠ content t := by
  refine ⟨List.replicate (weight (content t) + 1) 'x', fun e => ?_⟩
  have := write_weight a (List.replicate (weight (content t) + 1) 'x') t h
  rw [e] at this
  simp at this

/-! ### C127 -/

/-- C127, what the copy says: whenever `duplicate` gives a copy, the copy has the class, the name
and the data of the original and in the same slots copies of what the original holds, at all depths, and
each component in the copy has the component around it, not one of the original's, as its parent.  (For the
text written see `C127_fails_text`, for `mMaster` C104.) -/
theorem C127_content (p : Option Nat) (t : Node) (n : Nat) (t' : Node) (n' : Nat)
    (h : dup p t n = some (t', n')) :
    content t' = content t ∧ t'.parent = p ∧ Parents t' :=
  ⟨(dup_spec p t n t' n' h).1, (dup_spec p t n t' n' h).2.2.2.2.2.1, (dup_spec p t n t' n' h).2.2.2.2.1⟩

/-- C127 (partial), independence: let the objects made so far be those below `n`.  If no organisation,
name or address holds a list, then after any changes of objects other than those the copy is made of
(old ones, and ones made later) the copy is what it was, and after any changes of objects that the copy is
made of or that were made later the original is what it was.

Needed: no such lists; see `C127_fails_shared`. -/
theorem C127_independent_partial (p : Option Nat) (t : Node) (n : Nat) (t' : Node) (n' : Nat)
    (hold : ∀ a ∈ ids t, a < n) (hheld : held t = [])
    (h : dup p t n = some (t', n'))
    (l : List (Nat × List Char × List (List Char × Node))) :
    ((∀ w ∈ l, w.1 < n ∨ n' ≤ w.1) → writes l t' = t') ∧
    ((∀ w ∈ l, n ≤ w.1) → writes l t = t) := by
  obtain ⟨_, _, h3, _⟩ := dup_spec p t n t' n' h
  constructor
  · intro hl
    apply writes_other
    intro w hw hm
    rcases h3 _ hm with h | h
    · have := hl w hw; omega
    · rw [hheld] at h; cases h
  · intro hl
    apply writes_other
    intro w hw hm
    have := hold _ hm
    have := hl w hw
    omega

/-- C127 fails for organisations (ORG) and for names and addresses one of whose parts is a list: each
list that the original holds in such a value is held by the copy too, so there is a change of the copy's
list that changes the original, and one that changes the copy. -/
theorem C127_fails_shared (p : Option Nat) (t : Node) (n : Nat) (t' : Node) (n' : Nat)
    (h : dup p t n = some (t', n')) (a : Nat) (ha : a ∈ held t) (hi : a ∈ ids t) :
    a ∈ ids t' ∧ (∃ d, content (write a d [] t) ≠ content t) ∧
    ∃ d, content (write a d [] t') ≠ content t' :=
  have h4 := (dup_spec p t n t' n' h).2.2.2.1 a ha
  ⟨h4, write_seen a t hi, write_seen a t' h4⟩

/-- C127, when there is a copy: `duplicate` raises if and only if a property in it has no
value (such as the VERSION of a new card, C112). -/
theorem C127_raises_exact (p : Option Nat) (t : Node) (n : Nat) : dup p t n = none ↔ Valueless t :=
  dup_none p t n

/-- C127 (partial), the order in the text: a component that has a UID or is of unknown type (or is part
of a time zone) is put where its original is put: the copy has its key.

Missing: other components, such as alarms, `C127_fails_text`. -/
theorem C127_key_partial (fresh : Nat → List Char) (p : Option Nat) (t : Node) (n : Nat) (t' : Node)
    (n' : Nat) (h : dup p t n = some (t', n')) (hk : t.data ≠ [] ∨ t.cls = .element) :
    sortKey fresh t' = sortKey fresh t := by
  obtain ⟨h1, _, _, _, _, _, h7, h8⟩ := dup_spec p t n t' n' h
  have hd : t'.data = t.data := by
    obtain ⟨_, _, _, _, _, _⟩ := t
    obtain ⟨_, _, _, _, _, _⟩ := t'
    simp only [content, Content.mk.injEq] at h1
    exact h1.2.2.1
  unfold sortKey
  rw [h8, hd]
  rcases hk with hk | hk
  · simp [hk]
  · simp [hk]

/-- The keys of two alarms without UID, and the text of an event with these alarms. -/
def alarm (id : Nat) (text : List Char) : Node :=
  .mk id none .component "VALARM".toList [] [("ACTION".toList,
    .mk (id + 10) none .property "ACTION".toList [] [("value".toList,
      .mk (id + 20) none .plain "TEXT".toList text [])])]

def keyed : Cont.Order where
  keyOrder := fun _ => []
  names := fun _ => []
  sortSubs := fun _ => true
  whole := fun _ => false
  eq := fun a b => decide (a = b)
  sortKey := fun _ => []
  wholeLe := fun _ _ => false

/-- The text of an event with two alarms, which are written in the order of their keys. -/
def eventText (fresh : Nat → List Char) (a b : Node) : Option (List (List Char)) :=
  Cont.generate { keyed with sortKey := fun x => if x.1 = 0 then sortKey fresh a else sortKey fresh b }
    (.mk "VEVENT".toList [] [.mk "VALARM".toList [⟨"ACTION".toList, "ACTION:AUDIO".toList⟩] [],
      .mk "VALARM".toList [⟨"ACTION".toList, "ACTION:DISPLAY".toList⟩] []])

/-- C127 fails for the text: the alarms of an event have no UID, their keys are random and the copies get
other keys, so the copy may be written with its alarms in the other order. -/
theorem C127_fails_text :
    ∃ (fresh : Nat → List Char) (a b a' b' : Node),
      (∀ i j, i ∈ [1, 2, 30, 40] → j ∈ [1, 2, 30, 40] → fresh i = fresh j → i = j) ∧
      dup none (alarm 1 "AUDIO".toList) 30 = some (a', 33) ∧
      dup none (alarm 2 "DISPLAY".toList) 40 = some (b', 43) ∧
      a = alarm 1 "AUDIO".toList ∧ b = alarm 2 "DISPLAY".toList ∧
      eventText fresh a' b' ≠ eventText fresh a b := by
  refine ⟨fun i => if i = 1 then "a".toList else if i = 2 then "b".toList else if i = 30 then "d".toList
    else "c".toList, alarm 1 "AUDIO".toList, alarm 2 "DISPLAY".toList,
    ((dup none (alarm 1 "AUDIO".toList) 30).map (·.1)).getD (alarm 0 []),
    ((dup none (alarm 2 "DISPLAY".toList) 40).map (·.1)).getD (alarm 0 []), ?_, ?_, ?_, rfl, rfl, ?_⟩
  · intro i j hi hj
    simp only [List.mem_cons, List.not_mem_nil, or_false] at hi hj
    rcases hi with rfl | rfl | rfl | rfl <;> rcases hj with rfl | rfl | rfl | rfl <;> simp
  · simp [alarm, dup, dupKids, lacksValue, Cls.shares, valueSlot, Node.cls, Cls.isComponent]
  · simp [alarm, dup, dupKids, lacksValue, Cls.shares, valueSlot, Node.cls, Cls.isComponent]
  · decide +kernel

/-! ### Examples -/

/-- A calendar with an event that has a summary and two alarms. -/
def example127 : Node :=
  .mk 0 none .container "VCALENDAR".toList [] [("component".toList,
    .mk 3 (some 0) .component "VEVENT".toList "u1".toList
      [("component".toList, alarm 1 "AUDIO".toList), ("component".toList, alarm 2 "DISPLAY".toList),
       ("SUMMARY".toList, .mk 4 none .property "SUMMARY".toList []
        [("LANGUAGE".toList, .mk 5 none .parameter "LANGUAGE".toList []
          [("values".toList, .mk 6 none .list [] "en".toList [])]),
         ("value".toList, .mk 7 none .plain "TEXT".toList "Meeting".toList [])])])]

example : (∀ a ∈ ids example127, a < 30) ∧ held example127 = [] ∧
    (dup none example127 30).map (·.2) = some 42 := by decide +kernel

/-- ORG of a card. -/
def org127 : Node :=
  .mk 0 none .property "ORG".toList [] [("value".toList, .mk 1 none .org "ORG".toList []
    [("value".toList, .mk 2 none .list [] "Apple;Sales".toList [])])]

example : 2 ∈ held org127 ∧ 2 ∈ ids org127 ∧ (dup none org127 10).map (·.2) = some 12 := by
  decide +kernel

example : Valueless (.mk 0 none .property "VERSION".toList [] []) := by
  simp [Valueless]

end Copy
end PyCal
