import Verif.Model.XmlText
import Verif.Props.C90_XTrees

/-!
# C109: indenting XML keeps what it says
-/

namespace PyCal
open XCal Cont

namespace X109
open XNode

/-- A text of blanks, or none. -/
def BlankText : XText → Prop
  | .none => True
  | .str s => ∀ c ∈ s, c ∈ [' ', '\t', '\n', '\x0b', '\x0c', '\r']
  | .float _ => False

instance : DecidablePred BlankText := fun t => by
  cases t <;> unfold BlankText <;> infer_instance

/-- What a tree says: its elements and their texts, but for blanks between elements. -/
def content : XNode → Xml
  | .node tag text _ cs => .elem tag (if cs ≠ [] ∧ BlankText text then .none else text) (cs.map content)

def tailOf : XNode → Option (List Char)
  | .node _ _ tail _ => tail

/-- A tree laid out: an element without a text of its own that has children begins each of them on a new line, two blanks
further in, and ends on a new line. -/
inductive Laid : Nat → XNode → Prop
  | leaf {level tag text tail} : Laid level (.node tag text tail [])
  | text {level tag s tail cs} (h : ¬ BlankText (.str s)) : Laid level (.node tag (.str s) tail cs)
  | inner {level tag tail cs} (h : ∀ c ∈ cs, Laid (level + 1) c)
      (ht : cs.map tailOf = (List.range cs.length).map fun i =>
        some ('\n' :: List.replicate (2 * (if i + 1 = cs.length then level else level + 1)) ' ')) :
      Laid level (.node tag (.str ('\n' :: List.replicate (2 * (level + 1)) ' ')) tail cs)

theorem node_rec {P : XNode → Prop} (h : ∀ tag text tail cs, (∀ c ∈ cs, P c) → P (.node tag text tail cs)) : ∀ n, P n
  | .node tag text tail cs => h tag text tail cs fun c _ => node_rec h c
termination_by n => n

theorem xml_rec {P : Xml → Prop} (h : ∀ tag text cs, (∀ c ∈ cs, P c) → P (.elem tag text cs)) : ∀ n, P n
  | .elem tag text cs => h tag text cs fun c _ => xml_rec h c
termination_by n => n

theorem blank_iff (s : List Char) : (s.any fun c => !isBlank c) = true ↔ ¬ BlankText (.str s) := by
  unfold BlankText isBlank
  simp only [List.any_eq_true, Bool.not_eq_true', decide_eq_false_iff_not]
  push Not
  exact Iff.rfl

theorem all_spec {level : Nat} : ∀ {cs l : List XNode}, indentAll level cs = some l →
    List.Forall₂ (fun c c' => ∃ d, indent level c = some d ∧ c' = d.setTail (newline level)) cs l
  | [], l, h => by
    unfold indentAll at h
    cases h
    exact .nil
  | c :: cs, l, h => by
    unfold indentAll at h
    rw [Option.bind_eq_some_iff] at h
    obtain ⟨d, hd, h⟩ := h
    rw [Option.map_eq_some_iff] at h
    obtain ⟨l', h, rfl⟩ := h
    exact .cons ⟨d, hd, rfl⟩ (all_spec h)

theorem all_of {level : Nat} : ∀ {cs : List XNode}, (∀ c ∈ cs, (indent level c).isSome) → (indentAll level cs).isSome
  | [], _ => by rw [indentAll]; rfl
  | c :: cs, h => by
    unfold indentAll
    obtain ⟨d, hd⟩ := Option.isSome_iff_exists.mp (h c List.mem_cons_self)
    obtain ⟨l, hl⟩ := Option.isSome_iff_exists.mp (all_of (level := level) (cs := cs) fun x hx => h x (List.mem_cons_of_mem _ hx))
    rw [hd, hl]
    rfl

theorem content_tail (t : List Char) (n : XNode) : content (n.setTail t) = content n := by
  obtain ⟨tag, text, tail, cs⟩ := n
  simp only [setTail, content]

theorem content_last (t : List Char) : ∀ l : List XNode, (setLast t l).map content = l.map content
  | [] => rfl
  | [c] => by simp only [setLast, List.map_cons, content_tail]
  | c :: d :: cs => by
    simp only [setLast, List.map_cons]
    have := content_last t (d :: cs)
    simp only [List.map_cons] at this
    rw [this]

theorem last_length (t : List Char) : ∀ l : List XNode, (setLast t l).length = l.length
  | [] => rfl
  | [c] => rfl
  | c :: d :: cs => by
    simp only [setLast, List.length_cons]
    have := last_length t (d :: cs)
    simp only [List.length_cons] at this
    omega

theorem blank_newline (n : Nat) : BlankText (.str (newline n)) := by
  intro c hc
  unfold newline at hc
  rcases List.mem_cons.mp hc with rfl | hc
  · decide
  · rw [List.eq_of_mem_replicate hc]; decide

/-- The two ways of indenting an element. -/
theorem indent_form {level : Nat} {tag : List Char} {text : XText} {tail : Option (List Char)} {cs : List XNode} {n : XNode}
    (h : indent level (.node tag text tail cs) = some n) :
    ((cs = [] ∨ ∃ s, text = .str s ∧ ¬ BlankText (.str s)) ∧ n = .node tag text tail cs) ∨
    (cs ≠ [] ∧ BlankText text ∧ ∃ l, indentAll (level + 1) cs = some l ∧
      n = .node tag (.str (newline (level + 1))) tail (setLast (newline level) l)) := by
  unfold indent at h
  have blank : ∀ (text : XText), BlankText text → indentBlank level tag text tail cs = some n →
      ((cs = [] ∨ ∃ s, text = .str s ∧ ¬ BlankText (.str s)) ∧ n = .node tag text tail cs) ∨
      (cs ≠ [] ∧ BlankText text ∧ ∃ l, indentAll (level + 1) cs = some l ∧
        n = .node tag (.str (newline (level + 1))) tail (setLast (newline level) l)) := by
    intro text hb h
    cases cs with
    | nil =>
      unfold indentBlank at h
      cases h
      exact .inl ⟨.inl rfl, rfl⟩
    | cons c cs =>
      unfold indentBlank at h
      rw [Option.map_eq_some_iff] at h
      obtain ⟨l, hl, rfl⟩ := h
      exact .inr ⟨by simp, hb, l, hl, rfl⟩
  cases text with
  | float s => cases h
  | none => exact blank .none trivial h
  | str s =>
    simp only at h
    split at h
    · next hs =>
      cases h
      exact .inl ⟨.inr ⟨s, rfl, (blank_iff s).mp hs⟩, rfl⟩
    · next hs =>
      exact blank (.str s) (by rw [blank_iff] at hs; exact Decidable.not_not.mp hs) h

theorem tail_of_set (t : List Char) (n : XNode) : tailOf (n.setTail t) = some t := by
  obtain ⟨tag, text, tail, cs⟩ := n
  rfl

theorem laid_tail {level : Nat} (t : List Char) {n : XNode} (h : Laid level n) : Laid level (n.setTail t) := by
  cases h with
  | leaf => exact .leaf
  | text h => exact .text h
  | inner h ht => exact .inner h ht

theorem newline_eq (n : Nat) : newline n = '\n' :: List.replicate (2 * n) ' ' := by
  rw [newline, Nat.mul_comm]

/-- Setting the tail of the last. -/
theorem setLast_eq (t : List Char) : ∀ (l : List XNode) (c : XNode), setLast t (l ++ [c]) = l ++ [c.setTail t]
  | [], c => rfl
  | [a], c => rfl
  | a :: b :: l, c => by
    have := setLast_eq t (b :: l) c
    simp only [List.cons_append] at this ⊢
    rw [setLast, this]
    simp

theorem setLast_tails (a b : List Char) : ∀ l : List XNode, (∀ c ∈ l, tailOf c = some a) →
    (setLast b l).map tailOf = (List.range l.length).map fun i => some (if i + 1 = l.length then b else a) := by
  intro l h
  rcases List.eq_nil_or_concat l with rfl | ⟨l', c, rfl⟩
  · rfl
  · rw [List.concat_eq_append] at h ⊢
    rw [setLast_eq, List.length_append, List.length_singleton, List.range_succ, List.map_append, List.map_append,
      List.map_singleton, List.map_singleton, tail_of_set, if_pos rfl]
    congr 1
    refine List.ext_getElem (by simp) fun i h1 h2 => ?_
    rw [List.getElem_map, List.getElem_map, List.getElem_range]
    rw [List.length_map] at h1
    rw [if_neg (by omega)]
    exact h _ (List.mem_append_left _ (List.getElem_mem h1))

theorem mem_setLast (t : List Char) {P : XNode → Prop} (hP : ∀ n, P n → P (n.setTail t)) (l : List XNode) (h : ∀ c ∈ l, P c) :
    ∀ c ∈ setLast t l, P c := by
  rcases List.eq_nil_or_concat l with rfl | ⟨l', c, rfl⟩
  · simp [setLast]
  · rw [List.concat_eq_append] at h ⊢
    rw [setLast_eq]
    intro x hx
    rcases List.mem_append.mp hx with hx | hx
    · exact h x (List.mem_append_left _ hx)
    · rw [List.mem_singleton] at hx
      subst hx
      exact hP _ (h c (List.mem_append_right _ (List.mem_singleton.mpr rfl)))

theorem forall2_right {α β : Type} {R : α → β → Prop} {l : List α} {l' : List β} (h : List.Forall₂ R l l') :
    ∀ b ∈ l', ∃ a ∈ l, R a b := by
  induction h with
  | nil => simp
  | cons h _ ih =>
    intro b hb
    rcases List.mem_cons.mp hb with rfl | hb
    · exact ⟨_, List.mem_cons_self, h⟩
    · obtain ⟨a, ha, hr⟩ := ih b hb
      exact ⟨a, List.mem_cons_of_mem _ ha, hr⟩

end X109
open X109

/-- Indenting keeps what a tree says: all elements, and all texts but for the blanks between elements. -/
theorem C109_same (n : XNode) : ∀ (level : Nat) (n' : XNode), n.indent level = some n' → content n' = content n := by
  refine node_rec (P := fun n => ∀ (level : Nat) (n' : XNode), n.indent level = some n' → content n' = content n) ?_ n
  intro tag text tail cs ih level n' h
  rcases indent_form h with ⟨-, rfl⟩ | ⟨hc, hb, l, hl, rfl⟩
  · rfl
  · have hf := all_spec hl
    have hm : l.map content = cs.map content := by
      clear hl h hc
      induction hf with
      | nil => rfl
      | cons h1 _ ih2 =>
        obtain ⟨d, hd, rfl⟩ := h1
        rw [List.map_cons, List.map_cons, content_tail, ih _ List.mem_cons_self _ _ hd,
          ih2 fun c hc => ih c (List.mem_cons_of_mem _ hc)]
    have hn : XNode.setLast (XNode.newline level) l ≠ [] := by
      intro he
      have := congrArg List.length he
      rw [last_length, ← hf.length_eq] at this
      exact hc (List.length_eq_zero_iff.mp this)
    simp only [content]
    rw [if_pos ⟨hn, blank_newline _⟩, if_pos ⟨hc, hb⟩, content_last, hm]

/-- What is indented is laid out, each element on a line of its own. -/
theorem C109_layout (n : XNode) : ∀ (level : Nat) (n' : XNode), n.indent level = some n' → Laid level n' := by
  refine node_rec (P := fun n => ∀ (level : Nat) (n' : XNode), n.indent level = some n' → Laid level n') ?_ n
  intro tag text tail cs ih level n' h
  rcases indent_form h with ⟨hc | ⟨s, rfl, hs⟩, rfl⟩ | ⟨hc, hb, l, hl, rfl⟩
  · subst hc; exact .leaf
  · exact .text hs
  · have hf := forall2_right (all_spec hl)
    rw [newline_eq]
    refine .inner ?_ ?_
    · refine mem_setLast _ (fun n hn => laid_tail _ hn) l fun c hc => ?_
      obtain ⟨a, ha, d, hd, rfl⟩ := hf c hc
      exact laid_tail _ (ih a ha _ _ hd)
    · rw [setLast_tails (XNode.newline (level + 1)), last_length]
      · refine List.map_congr_left fun i _ => ?_
        split <;> rw [newline_eq]
      · intro c hc
        obtain ⟨a, ha, d, hd, rfl⟩ := hf c hc
        exact tail_of_set _ _

namespace X109

/-- A tree as `writeXML` makes them: an element with children has no text. -/
inductive Shaped : Xml → Prop
  | leaf {tag text} : Shaped (.elem tag text [])
  | inner {tag cs} (h : ∀ c ∈ cs, Shaped c) : Shaped (.elem tag .none cs)

/-- There is a floating point number in a tree. -/
inductive HasFloat : Xml → Prop
  | here {tag s cs} : HasFloat (.elem tag (.float s) cs)
  | sub {tag text cs c} (h : c ∈ cs) (hc : HasFloat c) : HasFloat (.elem tag text cs)

theorem content_of {x : Xml} (h : Shaped x) : content (XNode.ofXml x) = x := by
  revert h
  refine xml_rec (P := fun x => Shaped x → content (XNode.ofXml x) = x) ?_ x
  intro tag text cs ih h
  unfold XNode.ofXml content
  have hm : (cs.map XNode.ofXml).map content = cs → (if cs.map XNode.ofXml ≠ [] ∧ BlankText text then XText.none else text) = text →
      Xml.elem tag (if cs.map XNode.ofXml ≠ [] ∧ BlankText text then XText.none else text) ((cs.map XNode.ofXml).map content) =
        .elem tag text cs := fun h1 h2 => by rw [h1, h2]
  refine hm ?_ ?_
  · rw [List.map_map]
    conv_rhs => rw [← List.map_id cs]
    refine List.map_congr_left fun c hc => ih c hc ?_
    cases h with
    | leaf => cases hc
    | inner h => exact h c hc
  · cases h with
    | leaf => simp
    | inner h => split <;> rfl

theorem defined_iff {x : Xml} (h : Shaped x) : ∀ level, ((XNode.ofXml x).indent level).isSome ↔ ¬ HasFloat x := by
  revert h
  refine xml_rec (P := fun x => Shaped x → ∀ level, ((XNode.ofXml x).indent level).isSome ↔ ¬ HasFloat x) ?_ x
  intro tag text cs ih h level
  unfold XNode.ofXml
  constructor
  · intro hs hf
    obtain ⟨n, hn⟩ := Option.isSome_iff_exists.mp hs
    cases hf with
    | here => unfold XNode.indent at hn; cases hn
    | sub hc hf =>
      cases h with
      | leaf => cases hc
      | inner hsh =>
        rcases indent_form hn with ⟨hnil | ⟨s, hs, -⟩, -⟩ | ⟨-, -, l, hl, -⟩
        · rw [List.map_eq_nil_iff] at hnil
          subst hnil
          cases hc
        · cases hs
        · have hall := all_spec hl
          have : ∀ (cs' : List XNode) (l' : List XNode),
              List.Forall₂ (fun c c' => ∃ d, XNode.indent (level + 1) c = some d ∧ c' = d.setTail (XNode.newline (level + 1))) cs' l' →
              ∀ c ∈ cs', (XNode.indent (level + 1) c).isSome := by
            intro cs' l' h
            induction h with
            | nil => simp
            | cons h _ ih =>
              intro c hc
              rcases List.mem_cons.mp hc with rfl | hc
              · obtain ⟨d, hd, -⟩ := h
                rw [hd]; rfl
              · exact ih c hc
          exact ((ih _ hc (hsh _ hc) (level + 1)).mp (this _ _ hall _ (List.mem_map_of_mem hc))) hf
  · intro hf
    have hall : ∀ c ∈ cs.map XNode.ofXml, (XNode.indent (level + 1) c).isSome := by
      intro c hc
      obtain ⟨x, hx, rfl⟩ := List.mem_map.mp hc
      refine (ih x hx ?_ (level + 1)).mpr fun h' => hf (.sub hx h')
      cases h with
      | leaf => cases hx
      | inner h => exact h x hx
    have blank : ∀ text, (XNode.indentBlank level tag text none (cs.map XNode.ofXml)).isSome := by
      intro text
      generalize cs.map XNode.ofXml = l at hall
      cases l with
      | nil => rw [XNode.indentBlank]; rfl
      | cons c l =>
        unfold XNode.indentBlank
        obtain ⟨l', hl'⟩ := Option.isSome_iff_exists.mp (all_of hall)
        rw [hl']
        rfl
    unfold XNode.indent
    cases text with
    | float s => exact absurd .here hf
    | none => exact blank .none
    | str s =>
      simp only
      split
      · rfl
      · exact blank _

theorem shaped_leaf (tag : String) (s : List Char) : Shaped (leaf tag s) := .leaf

theorem shaped_value {v : XVal} {x : Xml} (h : valueElem v = some x) : Shaped x := by
  unfold valueElem at h
  cases v with
  | plain t s => simp only [Option.map_eq_some_iff] at h; obtain ⟨n, -, rfl⟩ := h; exact .leaf
  | int n => simp only [Option.map_eq_some_iff] at h; obtain ⟨n, -, rfl⟩ := h; exact .leaf
  | float s => simp only [Option.map_eq_some_iff] at h; obtain ⟨n, -, rfl⟩ := h; exact .leaf
  | offset n => simp only [Option.map_eq_some_iff] at h; obtain ⟨n, -, rfl⟩ := h; exact .leaf
  | status l =>
    rcases l with _ | ⟨a, _ | ⟨b, l⟩⟩
    · cases h
    · cases h
    · cases h
  | geo lat lon =>
    simp only [Option.map_eq_some_iff] at h
    obtain ⟨n, -, rfl⟩ := h
    refine .inner fun c hc => ?_
    simp only [List.mem_cons, List.not_mem_nil, or_false] at hc
    rcases hc with rfl | rfl <;> exact .leaf
  | recur r =>
    simp only [recurElem, Option.map_eq_some_iff] at h
    obtain ⟨limit, hl, rfl⟩ := h
    have hn : ∀ name l, ∀ c ∈ numElems name l, Shaped c := by
      intro name l c hc
      obtain ⟨n, -, rfl⟩ := List.mem_map.mp hc
      exact .leaf
    have hlim : ∀ c ∈ limit, Shaped c := by
      unfold limitElems at hl
      split at hl
      · cases hl
        intro c hc
        rw [List.mem_singleton] at hc
        subst hc; exact .leaf
      · split at hl
        · rw [Option.map_eq_some_iff] at hl
          obtain ⟨t, -, rfl⟩ := hl
          intro c hc
          rw [List.mem_singleton] at hc
          subst hc
          refine .inner fun c hc => ?_
          rw [List.mem_singleton] at hc
          subst hc; exact .leaf
        · cases hl
          simp
    refine .inner fun c hc => ?_
    simp only [List.mem_cons, List.mem_append, List.mem_map] at hc
    rcases hc with rfl | ((((((((((((hc | hc) | hc) | hc) | hc) | hc) | hc) | hc) | hc) | hc) | hc) | hc))
    · exact .leaf
    · exact hlim c hc
    · split at hc
      · rw [List.mem_singleton] at hc
        subst hc; exact .leaf
      · cases hc
    · exact hn _ _ c hc
    · exact hn _ _ c hc
    · exact hn _ _ c hc
    · obtain ⟨w, -, rfl⟩ := hc
      exact .leaf
    · exact hn _ _ c hc
    · exact hn _ _ c hc
    · exact hn _ _ c hc
    · exact hn _ _ c hc
    · exact hn _ _ c hc
    · split at hc
      · rw [List.mem_singleton] at hc
        subst hc; exact .leaf
      · cases hc
  | date t => cases h; exact .leaf
  | duration d => cases h
  | period p => cases h

theorem mapM_mem {α β : Type} {f : α → Option β} : ∀ {l : List α} {l' : List β}, l.mapM f = some l' → ∀ b ∈ l', ∃ a ∈ l, f a = some b
  | [], l', h => by
    rw [List.mapM_nil] at h
    cases h
    simp
  | a :: l, l', h => by
    rw [List.mapM_cons] at h
    simp only [Option.bind_eq_bind, Option.bind_eq_some_iff] at h
    obtain ⟨b, hb, l'', hl, h⟩ := h
    cases h
    intro x hx
    rcases List.mem_cons.mp hx with rfl | hx
    · exact ⟨a, List.mem_cons_self, hb⟩
    · obtain ⟨y, hy, h⟩ := mapM_mem hl x hx
      exact ⟨y, List.mem_cons_of_mem _ hy, h⟩

theorem shaped_prop {p : XProp} {x : Xml} (h : propElem false p = some x) : Shaped x := by
  unfold propElem at h
  rw [Option.map_eq_some_iff] at h
  obtain ⟨vs, hv, rfl⟩ := h
  refine .inner fun c hc => ?_
  rcases List.mem_append.mp hc with hc | hc
  · unfold paramsElem at hc
    split at hc
    · cases hc
    · rw [List.mem_singleton] at hc
      subst hc
      refine .inner fun c hc => ?_
      obtain ⟨q, -, rfl⟩ := List.mem_map.mp hc
      refine .inner fun c hc => ?_
      obtain ⟨s, -, rfl⟩ := List.mem_map.mp hc
      exact .leaf
  · obtain ⟨v, -, hv'⟩ := mapM_mem (by simpa using hv) c hc
    exact shaped_value hv'

theorem shaped_comp {write : CProp → Option Xml} (hw : ∀ p x, write p = some x → Shaped x) {o : Order} (c : Component) :
    ∀ x, compElem write o c = some x → Shaped x := by
  refine Component.rec' (P := fun c => ∀ x, compElem write o c = some x → Shaped x) ?_ c
  intro t ps cs ih x h
  unfold compElem at h
  split at h
  · next xs subs l h1 h2 h3 =>
    cases h
    refine .inner fun c hc => ?_
    rcases List.mem_cons.mp hc with rfl | hc
    · refine .inner fun c hc => ?_
      obtain ⟨p, -, hp⟩ := mapM_mem h1 c hc
      exact hw p c hp
    · unfold componentsElem at hc
      split at hc
      · cases hc
      · rw [List.mem_singleton] at hc
        subst hc
        refine .inner fun c hc => ?_
        obtain ⟨y, -, hy⟩ := List.mem_filterMap.mp hc
        have hsub : ∀ (cs : List Component) (subs : List Xml), (∀ c ∈ cs, ∀ x, compElem write o c = some x → Shaped x) →
            compElems write o cs = some subs → ∀ x ∈ subs, Shaped x := by
          intro cs
          induction cs with
          | nil =>
            intro subs _ h
            unfold compElems at h
            cases h
            simp
          | cons c cs ih2 =>
            intro subs ih h
            unfold compElems at h
            split at h
            · next x xs hx hxs =>
              cases h
              intro y hy
              rcases List.mem_cons.mp hy with rfl | hy
              · exact ih c List.mem_cons_self _ hx
              · exact ih2 _ (fun c hc => ih c (List.mem_cons_of_mem _ hc)) hxs y hy
            · cases h
        exact hsub cs subs ih h2 c (List.mem_of_getElem? hy)
  · cases h

theorem shaped_root {write : CProp → Option Xml} (hw : ∀ p x, write p = some x → Shaped x) {o : Order} {c : Component} {x : Xml}
    (h : rootElem write o c = some x) : Shaped x := by
  unfold rootElem at h
  rw [Option.map_eq_some_iff] at h
  obtain ⟨y, hy, rfl⟩ := h
  refine .inner fun c hc => ?_
  rw [List.mem_singleton] at hc
  subst hc
  exact shaped_comp hw _ _ hy

end X109

/-- C109 (partial): the XML text of a calendar is made from exactly the elements of the calendar, with its texts
unchanged, unless there is a floating point number among the texts.

Missing: calendars with one, `C109_fails_geo`. -/
theorem C109_calendar_partial (value : CProp → XProp) (o : Order) (c : Component) (x : Xml)
    (h : rootElem (fun p => propElem false (value p)) o c = some x) :
    ((XNode.toText x).isSome ↔ ¬ HasFloat x) ∧ ∀ n, XNode.toText x = some n → content n = x ∧ Laid 0 n := by
  have hs : Shaped x := shaped_root (fun p x hp => shaped_prop hp) h
  refine ⟨defined_iff hs 0, fun n hn => ⟨?_, C109_layout _ _ _ hn⟩⟩
  rw [C109_same _ _ _ hn, content_of hs]

namespace X109

theorem forall2_left {α β : Type} {R : α → β → Prop} {l : List α} {l' : List β} (h : List.Forall₂ R l l') :
    ∀ a ∈ l, ∃ b ∈ l', R a b := by
  induction h with
  | nil => simp
  | cons h _ ih =>
    intro a ha
    rcases List.mem_cons.mp ha with rfl | ha
    · exact ⟨_, List.mem_cons_self, h⟩
    · obtain ⟨b, hb, hr⟩ := ih a ha
      exact ⟨b, List.mem_cons_of_mem _ hb, hr⟩

/-- A number in the element of a property is in the element of each component that the property is in. -/
theorem float_within {W : CProp → Xml → Prop} {p : CProp} (hW : ∀ x, W p x → HasFloat x) {c : Component} (hp : X90.Within p c) :
    ∀ {x : Xml}, Spec.XCal.TreeForm W c x → HasFloat x := by
  induction hp with
  | here h =>
    intro x hx
    cases hx with
    | mk hq hx hl hs hh =>
      obtain ⟨y, hy, hw⟩ := forall2_left hx p (hq.mem_iff.mpr h)
      exact .sub List.mem_cons_self (.sub hy (hW y hw))
  | sub h _ ih =>
    intro x hx
    cases hx with
    | mk hq hx hl hs hh =>
      obtain ⟨y, hy, hw⟩ := forall2_left hs _ (hl.mem_iff.mpr h)
      rw [if_neg (List.ne_nil_of_mem h)] at hh
      subst hh
      exact .sub (List.mem_cons_of_mem _ List.mem_cons_self) (.sub hy (ih hw))

theorem mapM_left {α β : Type} {f : α → Option β} : ∀ {l : List α} {l' : List β}, l.mapM f = some l' → ∀ a ∈ l, ∃ b ∈ l', f a = some b
  | [], l', h => by simp
  | a :: l, l', h => by
    rw [List.mapM_cons] at h
    simp only [Option.bind_eq_bind, Option.bind_eq_some_iff] at h
    obtain ⟨b, hb, l'', hl, h⟩ := h
    cases h
    intro x hx
    rcases List.mem_cons.mp hx with rfl | hx
    · exact ⟨b, List.mem_cons_self, hb⟩
    · obtain ⟨y, hy, h⟩ := mapM_left hl x hx
      exact ⟨y, List.mem_cons_of_mem _ hy, h⟩

theorem float_geo {q : XProp} {lat lon : List Char} (hv : .geo lat lon ∈ q.values) {x : Xml} (h : propElem false q = some x) :
    HasFloat x := by
  unfold propElem at h
  rw [Option.map_eq_some_iff] at h
  obtain ⟨vs, hvs, rfl⟩ := h
  obtain ⟨y, hy, hg⟩ := mapM_left (by simpa using hvs) _ hv
  cases hg
  exact .sub (List.mem_append_right _ hy) (.sub List.mem_cons_self .here)

end X109

/-- C109 fails: a calendar with a GEO property anywhere has no XML text. -/
theorem C109_fails_geo (value : CProp → XProp) (o : Order) (heq : ∀ a b, o.eq a b = true → a.type = b.type) (c : Component)
    (p : CProp) (hp : X90.Within p c) (lat lon : List Char) (hv : .geo lat lon ∈ (value p).values) :
    (rootElem (fun p => propElem false (value p)) o c).bind XNode.toText = none := by
  rw [Option.bind_eq_none_iff]
  intro x hx
  obtain ⟨y, rfl, hy⟩ := C90_root _ o heq c x hx
  have hf : HasFloat (.elem "icalendar".toList .none [y]) :=
    .sub List.mem_cons_self (float_within (fun x hx => float_geo hv hx) hp hy)
  rw [← Option.not_isSome_iff_eq_none, (C109_calendar_partial value o c _ hx).1]
  exact fun h => h hf

/-- A calendar with one property, indented. -/
example : XNode.toText (.elem ['a'] .none [.elem ['b'] .none [.elem ['c'] (.str "2.0".toList) [], .elem ['d'] (.str [' ']) []]]) =
    some (.node ['a'] (.str "\n  ".toList) none [.node ['b'] (.str "\n    ".toList) (some ['\n'])
      [.node ['c'] (.str "2.0".toList) (some "\n    ".toList) [], .node ['d'] (.str [' ']) (some "\n  ".toList) []]]) := by
  simp [XNode.toText, XNode.ofXml, XNode.indent, XNode.indentBlank, XNode.indentAll, XNode.setLast, XNode.setTail, XNode.newline,
    XNode.isBlank, List.replicate]

end PyCal
