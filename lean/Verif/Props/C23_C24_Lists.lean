import Verif.Props.C20_C21_Escaping
import Mathlib.Tactic.Tauto

/-! # C23 (text lists) and C24 (structured values) -/

namespace PyCal
open Spec

/-- The text ends in a backslash. -/
def EndsInBackslash (s : List Char) : Prop := s.getLast? = some '\\'

instance (s : List Char) : Decidable (EndsInBackslash s) := inferInstanceAs (Decidable (_ = _))

theorem escapeText_ne_nil {s : List Char} (h : s ≠ []) : escapeText s ≠ [] := by
  cases s with
  | nil => exact absurd rfl h
  | cons c s => rw [escapeText_cons]; split <;> simp

theorem endsIn_escapeText (s : List Char) :
    EndsInBackslash (escapeText s) ↔ EndsInBackslash s := by
  unfold EndsInBackslash
  induction s with
  | nil => rw [escapeText_nil]
  | cons c s ih =>
    rw [escapeText_cons]
    cases s with
    | nil =>
      rw [escapeText_nil]
      cases hc : isEscapee c with
      | true =>
        simp [isEscapee] at hc
        rcases hc with (((rfl | rfl) | rfl) | rfl) | rfl <;> simp [escapeLetter]
      | false => simp
    | cons d s =>
      rw [List.getLast?_append, Option.or_of_isSome (by simp [escapeText_ne_nil]), ih, List.getLast?_cons_cons]

/-! ## C23 -/

theorem splitList_escaped {e : List Char} (h : Escaped e) {sep : Char} (hs : sep = ';' ∨ sep = ',')
    (pre : Option Char) (item rest : List Char) :
    splitList sep pre item (e ++ rest) = splitList sep (e.getLast?.or pre) (item ++ e) rest := by
  induction h generalizing pre item with
  | nil => simp
  | plain c s h _ ih =>
    have hc : c ≠ sep := by rcases hs with rfl | rfl <;> simp_all
    simp only [List.cons_append, splitList, hc, false_and, if_false]
    rw [ih]
    cases hl : s.getLast? with
    | none => rw [List.getLast?_eq_none_iff] at hl; subst hl; simp
    | some d =>
      obtain ⟨t, rfl⟩ := List.getLast?_eq_some_iff.1 hl
      simp [List.getLast?_cons]
  | esc c s h _ ih =>
    have h1 : '\\' ≠ sep := by rcases hs with rfl | rfl <;> decide
    simp only [List.cons_append, splitList, h1, false_and, if_false, ne_eq, not_true_eq_false,
      and_false]
    rw [ih]
    cases hl : s.getLast? with
    | none => rw [List.getLast?_eq_none_iff] at hl; subst hl; simp
    | some d =>
      obtain ⟨t, rfl⟩ := List.getLast?_eq_some_iff.1 hl
      simp [List.getLast?_cons]

/-- Splitting the joined items again, when no item but the last ends in a backslash. -/
theorem splitList_join {sep : Char} (hs : sep = ';' ∨ sep = ',') (es : List (List Char))
    (hne : es ≠ []) (he : ∀ e ∈ es, Escaped e) (hb : ∀ e ∈ es.dropLast, ¬ EndsInBackslash e)
    {pre : Option Char} (hp : pre ≠ some '\\') :
    splitList sep pre [] (joinSep sep es) = es := by
  induction es generalizing pre with
  | nil => exact absurd rfl hne
  | cons a es ih =>
    cases es with
    | nil =>
      have := splitList_escaped (he a (by simp)) hs pre [] []
      simpa [joinSep, splitList] using this
    | cons b r =>
      simp only [joinSep]
      rw [splitList_escaped (he a (by simp)) hs]
      have ha : ¬ EndsInBackslash a := hb a (by simp)
      have : a.getLast?.or pre ≠ some '\\' := by
        unfold EndsInBackslash at ha
        cases hl : a.getLast? with
        | none => simpa using hp
        | some d => rw [hl] at ha; simpa using ha
      simp only [splitList, true_and, this, ne_eq, not_false_eq_true, if_true, List.nil_append]
      rw [ih (by simp) (fun e h => he e (by simp [h])) (fun e h => hb e (by simp [h]))]
      rcases hs with rfl | rfl <;> decide

/-- Without that condition there are fewer items. -/
theorem splitList_join_length {sep : Char} (hs : sep = ';' ∨ sep = ',') (es : List (List Char))
    (hne : es ≠ []) (he : ∀ e ∈ es, Escaped e)
    {pre : Option Char} (hp : pre ≠ some '\\') (item : List Char) :
    (splitList sep pre item (joinSep sep es)).length =
      1 + es.dropLast.countP (fun e => ¬ EndsInBackslash e) := by
  induction es generalizing pre item with
  | nil => exact absurd rfl hne
  | cons a es ih =>
    have hsep : some sep ≠ some '\\' := by rcases hs with rfl | rfl <;> decide
    cases es with
    | nil =>
      have := splitList_escaped (he a (by simp)) hs pre item []
      rw [List.append_nil] at this
      simp [joinSep, this, splitList]
    | cons b r =>
      simp only [joinSep]
      rw [splitList_escaped (he a (by simp)) hs]
      have ih' := fun item => ih (by simp) (fun e h => he e (by simp [h])) hsep item
      by_cases ha : EndsInBackslash a
      · have hl : a.getLast? = some '\\' := ha
        simp only [splitList, hl, Option.some_or, ne_eq, not_true_eq_false, and_false, if_false]
        rw [ih']
        simp [ha]
      · have : a.getLast?.or pre ≠ some '\\' := by
          unfold EndsInBackslash at ha
          cases hl : a.getLast? with
          | none => simpa using hp
          | some d => rw [hl] at ha; simpa using ha
        simp only [splitList, true_and, this, ne_eq, not_false_eq_true, if_true, List.length_cons]
        rw [ih']
        simp [ha]
        omega

theorem mapM_decode_escape (m o : PMode) (l : List (List Char)) :
    (l.map escapeText).mapM (decodeText m o) = some l := by
  induction l with
  | nil => rfl
  | cons a l ih => simp [List.mapM_cons, ih, C20_decode_escape]

theorem mapM_length {α β : Type} {f : α → Option β} {l : List α} {r : List β}
    (h : l.mapM f = some r) : r.length = l.length := by
  induction l generalizing r with
  | nil => simp at h; subst h; rfl
  | cons a l ih =>
    simp only [List.mapM_cons, Option.bind_eq_bind, Option.pure_def] at h
    cases hf : f a with
    | none => simp [hf] at h
    | some b =>
      cases hl : l.mapM f with
      | none => simp [hf, hl] at h
      | some r' =>
        simp [hf, hl] at h
        subst h; simp [ih hl]

/-- C23, exact range of validity: the round trip restores a non-empty list exactly when no string
but the last ends in a backslash.  Missing for C23: lists where another string does. -/
theorem C23_roundtrip_partial (l : List (List Char)) (hne : l ≠ []) (sep : Char)
    (hs : sep = ';' ∨ sep = ',') (colon other : PMode) :
    parseTextList colon other sep (generateTextList sep l) = some l ↔
      ∀ s ∈ l.dropLast, ¬ EndsInBackslash s := by
  unfold parseTextList generateTextList
  have he : ∀ e ∈ l.map escapeText, Escaped e := by
    intro e h; simp at h; obtain ⟨s, _, rfl⟩ := h; exact C20_escaped s
  constructor
  · intro h s hmem hbad
    have h1 := mapM_length h
    rw [splitList_join_length hs _ (by simpa using hne) he (by simp)] at h1
    rw [← List.map_dropLast] at h1
    have h2 : (l.dropLast.map escapeText).countP (fun e => ¬ EndsInBackslash e) <
        (l.dropLast.map escapeText).length := by
      have := List.countP_le_length (p := fun e => decide (¬ EndsInBackslash e))
        (l := l.dropLast.map escapeText)
      refine Nat.lt_of_le_of_ne this fun heq => ?_
      rw [List.countP_eq_length] at heq
      have := heq (escapeText s) (List.mem_map_of_mem hmem)
      simp [endsIn_escapeText] at this
      exact this hbad
    have h3 : l.dropLast.length = l.length - 1 := by simp
    rw [List.length_map] at h2
    have : l.length ≠ 0 := by simpa using hne
    omega
  · intro h
    rw [splitList_join hs _ (by simpa using hne) he _ (by simp)]
    · exact mapM_decode_escape _ _ l
    · intro e hmem
      rw [← List.map_dropLast, List.mem_map] at hmem
      obtain ⟨s, hs', rfl⟩ := hmem
      rw [endsIn_escapeText]
      exact h s hs'

/-- C23 is false. -/
theorem C23_fails : ∃ l : List (List Char), l ≠ [] ∧
    parseTextList .fix .raise ';' (generateTextList ';' l) ≠ some l := by
  refine ⟨["a\\".toList, "b".toList], by simp, fun h => ?_⟩
  have := (C23_roundtrip_partial _ (by simp) ';' (Or.inl rfl) .fix .raise).1 h
  exact this "a\\".toList (by simp) (by decide)

example : ∀ s ∈ ["a;b".toList, "".toList, "c\\".toList].dropLast, ¬ EndsInBackslash s := by decide

/-! ## C24 -/

theorem splitNested_escaped {e : List Char} (h : Escaped e)
    (pre : Option Char) (items : List (List Char)) (item rest : List Char) :
    splitNested pre items item (e ++ rest) =
      splitNested (e.getLast?.or pre) items (item ++ e) rest := by
  induction h generalizing pre item with
  | nil => simp
  | plain c s h _ ih =>
    simp only [List.cons_append, splitNested, h.2.2.1, h.2.2.2.1, false_and, if_false]
    rw [ih]
    cases hl : s.getLast? with
    | none => rw [List.getLast?_eq_none_iff] at hl; subst hl; simp
    | some d =>
      obtain ⟨t, rfl⟩ := List.getLast?_eq_some_iff.1 hl
      simp [List.getLast?_cons]
  | esc c s h _ ih =>
    have h1 : '\\' ≠ ';' := by decide
    have h2 : '\\' ≠ ',' := by decide
    simp only [List.cons_append, splitNested, h1, h2, false_and, if_false, ne_eq,
      not_true_eq_false, and_false]
    rw [ih]
    cases hl : s.getLast? with
    | none => rw [List.getLast?_eq_none_iff] at hl; subst hl; simp
    | some d =>
      obtain ⟨t, rfl⟩ := List.getLast?_eq_some_iff.1 hl
      simp [List.getLast?_cons]

theorem or_ne_backslash {a : List Char} (ha : ¬ EndsInBackslash a) {pre : Option Char}
    (hp : pre ≠ some '\\') : a.getLast?.or pre ≠ some '\\' := by
  unfold EndsInBackslash at ha
  cases hl : a.getLast? with
  | none => simpa using hp
  | some d => rw [hl] at ha; simpa using ha

/-- Reading the items of one component. -/
theorem splitNested_comp (es : List (List Char)) (z : List Char)
    (he : ∀ e ∈ es ++ [z], Escaped e) (hb : ∀ e ∈ es, ¬ EndsInBackslash e)
    {pre : Option Char} (hp : pre ≠ some '\\') (items : List (List Char)) (rest : List Char) :
    ∃ pre', (¬ EndsInBackslash z → pre' ≠ some '\\') ∧
      splitNested pre items [] (joinSep ',' (es ++ [z]) ++ rest) =
        splitNested pre' (items ++ es) z rest := by
  induction es generalizing pre items with
  | nil =>
    refine ⟨z.getLast?.or pre, fun h => or_ne_backslash h hp, ?_⟩
    simp only [List.nil_append, joinSep]
    rw [splitNested_escaped (he z (by simp))]
    simp
  | cons a es ih =>
    have hj : joinSep ',' (a :: es ++ [z]) = a ++ ',' :: joinSep ',' (es ++ [z]) := by
      cases es <;> rfl
    rw [hj, List.append_assoc, splitNested_escaped (he a (by simp))]
    have h1 := or_ne_backslash (hb a (by simp)) hp
    have h2 : ',' ≠ ';' := by decide
    simp only [List.cons_append, splitNested, h1, h2, ne_eq, not_false_eq_true, false_and,
      and_self, if_false, if_true, List.nil_append]
    obtain ⟨pre', h3, h4⟩ := ih (fun e h => he e (by simp at h ⊢; tauto))
      (fun e h => hb e (by simp [h])) (pre := some ',') (by decide) (items ++ [a])
    refine ⟨pre', h3, ?_⟩
    rw [h4]; simp

/-- Splitting a whole structured value. -/
theorem splitNested_join (cs : List (List (List Char))) (hne : cs ≠ []) (hc : ∀ c ∈ cs, c ≠ [])
    (he : ∀ e ∈ cs.flatten, Escaped e) (hb : ∀ e ∈ cs.flatten.dropLast, ¬ EndsInBackslash e)
    {pre : Option Char} (hp : pre ≠ some '\\') :
    splitNested pre [] [] (joinSep ';' (cs.map (joinSep ','))) = cs := by
  induction cs generalizing pre with
  | nil => exact absurd rfl hne
  | cons c cs ih =>
    obtain ⟨es, z, rfl⟩ : ∃ es z, c = es ++ [z] :=
      ⟨c.dropLast, c.getLast (hc c (by simp)), (List.dropLast_concat_getLast _).symm⟩
    cases cs with
    | nil =>
      obtain ⟨pre', _, h⟩ := splitNested_comp es z (by simpa using he) (by simpa using hb) hp [] []
      rw [List.append_nil] at h
      simp only [List.map_cons, List.map_nil, joinSep, h]
      simp [splitNested]
    | cons d cs =>
      have hflat : ((es ++ [z]) :: d :: cs).flatten.dropLast =
          es ++ [z] ++ (d :: cs).flatten.dropLast := by
        rw [List.flatten_cons, List.dropLast_append_of_ne_nil]
        have := hc d (by simp)
        simp [this]
      rw [hflat] at hb
      obtain ⟨pre', h1, h⟩ := splitNested_comp es z (fun e h => he e (by simp at h ⊢; tauto))
        (fun e h => hb e (by simp [h])) hp [] (';' :: joinSep ';' ((d :: cs).map (joinSep ',')))
      have h2 := h1 (hb z (by simp))
      simp only [List.map_cons, joinSep] at h ⊢
      rw [h]
      simp only [splitNested, h2, ne_eq, not_false_eq_true, and_self, if_true, List.nil_append]
      congr 1
      exact ih (by simp) (fun c h => hc c (by simp at h ⊢; tauto))
        (fun e h => he e (by simp at h ⊢; tauto))
        (fun e h => hb e (List.mem_append_right _ h)) (by decide)

/-- The strings of a component. -/
def Comp.strings : Comp → List (List Char)
  | .str s => [s]
  | .tup l => l

/-- A component is a string or a tuple of at least two strings (a tuple of one string or none is
written like a string). -/
def Comp.Proper : Comp → Prop
  | .str _ => True
  | .tup l => 2 ≤ l.length

theorem Comp.Proper.ne_nil {c : Comp} (h : c.Proper) : c.strings ≠ [] := by
  cases c with
  | str s => simp [Comp.strings]
  | tup l => intro h'; simp [Comp.strings] at h'; subst h'; simp [Comp.Proper] at h

theorem writeElement_eq (c : Comp) : writeElement c = joinSep ',' (c.strings.map escapeText) := by
  cases c <;> rfl

theorem nestedComp_escape {c : Comp} (h : c.Proper) (m o : PMode) :
    nestedComp m o (c.strings.map escapeText) = some c := by
  cases c with
  | str s => simp [Comp.strings, nestedComp, C20_decode_escape]
  | tup l =>
    match l, h with
    | a :: b :: r, _ =>
      have := mapM_decode_escape m o (a :: b :: r)
      simp only [Comp.strings, List.map_cons] at this ⊢
      simp only [nestedComp, this, Option.map_some]

theorem split_generate (data : List Comp) (hne : data ≠ []) (hp : ∀ c ∈ data, c.Proper)
    (hb : ∀ s ∈ (data.flatMap Comp.strings).dropLast, ¬ EndsInBackslash s)
    (colon other : PMode) :
    (splitNested none [] [] (generateNested data)).mapM (nestedComp colon other) = some data := by
  unfold generateNested
  have h1 : data.map writeElement =
      (data.map fun c => c.strings.map escapeText).map (joinSep ',') := by
    simp [List.map_map, Function.comp_def, writeElement_eq]
  have hflat : (data.map fun c => c.strings.map escapeText).flatten =
      (data.flatMap Comp.strings).map escapeText := by
    simp [List.flatMap, List.map_flatten, Function.comp_def]
  rw [h1, splitNested_join _ (by simpa using hne) _ _ _ (by simp)]
  · clear hb h1 hflat hne
    induction data with
    | nil => rfl
    | cons c data ih =>
      simp [List.mapM_cons, nestedComp_escape (hp c (by simp)),
        ih (fun c h => hp c (by simp [h]))]
  · intro c h
    simp at h
    obtain ⟨d, hd, rfl⟩ := h
    simpa using (hp d hd).ne_nil
  · rw [hflat]
    intro e h; simp at h; obtain ⟨s, _, rfl⟩ := h; exact C20_escaped s
  · rw [hflat]
    intro e hmem
    rw [← List.map_dropLast, List.mem_map] at hmem
    obtain ⟨s, hs', rfl⟩ := hmem
    rw [endsIn_escapeText]
    exact hb s hs'

/-- C24 for values in which no string but the last ends in a backslash: a structured value with
the proper number of components is restored.  Missing for C24: values where another string ends in
a backslash. -/
theorem C24_roundtrip_partial (data : List Comp) (hne : data ≠ []) (hp : ∀ c ∈ data, c.Proper)
    (hb : ∀ s ∈ (data.flatMap Comp.strings).dropLast, ¬ EndsInBackslash s)
    (colon other over : PMode) :
    parseNested colon other over data.length (generateNested data) = some data := by
  unfold parseNested
  rw [split_generate data hne hp hb]
  simp

/-- C24: values with too few components are filled up with empty ones; of values with too many
the first ones are kept, all are kept, or the value is rejected, as the parser is told.

Missing: texts that end in a backslash, `C24_fails`. -/
theorem C24_size_partial (data : List Comp) (hne : data ≠ []) (hp : ∀ c ∈ data, c.Proper)
    (hb : ∀ s ∈ (data.flatMap Comp.strings).dropLast, ¬ EndsInBackslash s)
    (colon other : PMode) (n : Nat) :
    (data.length ≤ n → ∀ over, parseNested colon other over n (generateNested data) =
      some (data ++ List.replicate (n - data.length) (.str []))) ∧
    (n < data.length →
      parseNested colon other .fix n (generateNested data) = some (data.take n) ∧
      parseNested colon other .raise n (generateNested data) = none ∧
      parseNested colon other .allow n (generateNested data) = some data) := by
  unfold parseNested
  rw [split_generate data hne hp hb]
  constructor
  · intro h over
    have : ¬ (data ++ List.replicate (n - data.length) (Comp.str [])).length > n := by
      simp; omega
    simp only [this, if_false]
  · intro h
    have : n - data.length = 0 := by omega
    simp [this, h]

/-! ### When a structured value is not restored -/

namespace L24

/-- A text that can be decoded, to `n` characters. -/
inductive Soft : List Char → Nat → Prop
  | nil : Soft [] 0
  | plain {c s n} (h : c ≠ '\\') (hs : Soft s n) : Soft (c :: s) (n + 1)
  | esc {c d s n} (h : ∀ m o, unescape m o c = some [d]) (hs : Soft s n) : Soft ('\\' :: c :: s) (n + 1)

theorem Soft.append {s t : List Char} {n k : Nat} (h : Soft s n) (ht : Soft t k) : Soft (s ++ t) (n + k) := by
  induction h with
  | nil => simpa using ht
  | plain h _ ih => rw [Nat.add_right_comm]; exact .plain h ih
  | esc h _ ih => rw [Nat.add_right_comm]; exact .esc h ih

theorem Soft.decode {s : List Char} {n : Nat} (h : Soft s n) (m o : PMode) :
    ∃ t, decodeText m o s = some t ∧ t.length = n := by
  induction h with
  | nil => exact ⟨[], by rw [decodeText_nil], rfl⟩
  | plain h _ ih =>
    obtain ⟨t, h1, h2⟩ := ih
    exact ⟨_, by rw [decodeText_plain _ _ h, h1]; rfl, by simp [h2]⟩
  | esc h _ ih =>
    obtain ⟨t, h1, h2⟩ := ih
    exact ⟨_, by rw [decodeText_esc _ _ _ _ (h m o), h1]; rfl, by simp [h2]⟩

theorem soft_escape (s : List Char) : Soft (escapeText s) s.length := by
  induction s with
  | nil => rw [escapeText_nil]; exact .nil
  | cons c s ih =>
    rw [escapeText_cons]
    cases hc : isEscapee c with
    | true => exact .esc (fun m o => unescape_escapeLetter m o hc) ih
    | false =>
      refine .plain ?_ ih
      rintro rfl
      simp [isEscapee] at hc

/-- All texts can be decoded, to `n` characters together. -/
inductive Softs : List (List Char) → Nat → Prop
  | nil : Softs [] 0
  | cons {s l n k} (h : Soft s n) (hl : Softs l k) : Softs (s :: l) (n + k)

theorem Softs.append {a b : List (List Char)} {n k : Nat} (h : Softs a n) (hb : Softs b k) : Softs (a ++ b) (n + k) := by
  induction h with
  | nil => simpa using hb
  | cons h _ ih => rw [Nat.add_assoc]; exact .cons h ih

/-- A text of strings with separators before them. -/
def text : List (Char × List Char) → List Char
  | [] => []
  | t :: ts => t.1 :: (escapeText t.2 ++ text ts)

/-- Splitting: the strings and the characters in them are as many as the strings and characters written; there are no more
components than semicolons; and there are fewer strings, if a string before a separator ends in a backslash. -/
theorem split_count : ∀ (ts : List (Char × List Char)) (pre : Option Char) (items : List (List Char)) (item : List Char) (na ni : Nat),
    (∀ t ∈ ts, t.1 = ';' ∨ t.1 = ',') → Softs items na → Soft item ni →
    ∃ w, Softs (splitNested pre items item (text ts)).flatten w ∧
      w + (splitNested pre items item (text ts)).flatten.length =
        na + items.length + ni + 1 + (ts.map fun t => t.2.length + 1).sum ∧
      (splitNested pre items item (text ts)).length ≤ 1 + ts.countP (fun t => t.1 = ';') ∧
      (splitNested pre items item (text ts)).flatten.length ≤ items.length + 1 + ts.length ∧
      ((pre = some '\\' ∧ ts ≠ [] ∨ ∃ t ∈ ts.dropLast, EndsInBackslash t.2) →
        (splitNested pre items item (text ts)).flatten.length < items.length + 1 + ts.length) := by
  intro ts
  induction ts with
  | nil =>
    intro pre items item na ni _ ha hi
    refine ⟨na + (ni + 0), ?_, ?_, ?_, ?_, ?_⟩
    · rw [text, splitNested]
      simpa using ha.append (.cons hi .nil)
    · rw [text, splitNested]
      simp
      omega
    · rw [text, splitNested]; simp
    · rw [text, splitNested]; simp
    · simp
  | cons t ts ih =>
    intro pre items item na ni hs ha hi
    obtain ⟨k, s⟩ := t
    have hk : k = ';' ∨ k = ',' := hs _ List.mem_cons_self
    have hts : ∀ t ∈ ts, t.1 = ';' ∨ t.1 = ',' := fun t h => hs t (List.mem_cons_of_mem _ h)
    have hk' : k ≠ '\\' := by rcases hk with rfl | rfl <;> decide
    -- what is before the next separator
    have hbad : ∀ q : Option Char, (EndsInBackslash s ∧ ts ≠ [] ∨ ∃ t ∈ ts.dropLast, EndsInBackslash t.2) →
        ((escapeText s).getLast?.or q = some '\\' ∧ ts ≠ [] ∨ ∃ t ∈ ts.dropLast, EndsInBackslash t.2) := by
      rintro q (⟨h1, h2⟩ | h)
      · refine .inl ⟨?_, h2⟩
        rw [← endsIn_escapeText] at h1
        unfold EndsInBackslash at h1
        rw [h1]; rfl
      · exact .inr h
    have hdrop : (∃ t ∈ ((k, s) :: ts).dropLast, EndsInBackslash t.2) →
        (EndsInBackslash s ∧ ts ≠ [] ∨ ∃ t ∈ ts.dropLast, EndsInBackslash t.2) := by
      rintro ⟨t, ht, hb⟩
      cases ts with
      | nil => simp at ht
      | cons t' ts =>
        rw [List.dropLast_cons₂] at ht
        rcases List.mem_cons.mp ht with rfl | ht
        · exact .inl ⟨hb, by simp⟩
        · exact .inr ⟨t, ht, hb⟩
    rw [text, splitNested]
    dsimp only
    by_cases hp : pre = some '\\'
    · -- the separator is kept
      rw [if_neg (by simp [hp]), if_neg (by simp [hp]), splitNested_escaped (C20_escaped s)]
      obtain ⟨w, h1, h2, h3, h4, h5⟩ := ih ((escapeText s).getLast?.or (some k)) items (item ++ [k] ++ escapeText s) na
        (ni + (0 + 1) + s.length) hts ha ((hi.append (.plain hk' .nil)).append (soft_escape s))
      refine ⟨w, h1, ?_, ?_, ?_, ?_⟩
      · rw [h2]
        simp
        omega
      · refine Nat.le_trans h3 ?_
        rw [List.countP_cons]
        omega
      · rw [List.length_cons]; omega
      · intro _
        rw [List.length_cons]; omega
    · rcases hk with rfl | rfl
      · -- a new component
        rw [if_pos ⟨rfl, hp⟩, splitNested_escaped (C20_escaped s)]
        obtain ⟨w, h1, h2, h3, h4, h5⟩ := ih ((escapeText s).getLast?.or (some ';')) [] ([] ++ escapeText s) 0 (0 + s.length)
          hts .nil (by simpa using soft_escape s)
        refine ⟨na + (ni + 0) + w, ?_, ?_, ?_, ?_, ?_⟩
        · rw [List.flatten_cons]
          exact (ha.append (.cons hi .nil)).append h1
        · rw [List.flatten_cons, List.length_append, List.length_append, List.length_singleton]
          simp at h2 ⊢
          omega
        · rw [List.length_cons, List.countP_cons]
          simp only [decide_true, if_true]
          omega
        · rw [List.flatten_cons, List.length_append, List.length_append, List.length_singleton, List.length_cons]
          simp at h4 ⊢
          omega
        · rintro (⟨h, -⟩ | h)
          · exact absurd h hp
          · have := h5 (hbad _ (hdrop h))
            rw [List.flatten_cons, List.length_append, List.length_append, List.length_singleton, List.length_cons]
            simp at this ⊢
            omega
      · -- a new string
        rw [if_neg (by simp), if_pos ⟨rfl, hp⟩, splitNested_escaped (C20_escaped s)]
        obtain ⟨w, h1, h2, h3, h4, h5⟩ := ih ((escapeText s).getLast?.or (some ',')) (items ++ [item]) ([] ++ escapeText s)
          (na + (ni + 0)) (0 + s.length) hts (ha.append (.cons hi .nil)) (by simpa using soft_escape s)
        refine ⟨w, h1, ?_, ?_, ?_, ?_⟩
        · rw [h2]
          simp
          omega
        · refine Nat.le_trans h3 ?_
          rw [List.countP_cons]
          omega
        · rw [List.length_cons]
          simp at h4 ⊢
          omega
        · rintro (⟨h, -⟩ | h)
          · exact absurd h hp
          · have := h5 (hbad _ (hdrop h))
            rw [List.length_cons]
            simp at this ⊢
            omega

/-- The strings of components after the first string, with the separators before them. -/
def tokens (first : Char) : List (List Char) → List (Char × List Char)
  | [] => []
  | s :: l => (first, s) :: l.map (Prod.mk ',')

def allTokens (data : List Comp) : List (Char × List Char) := data.flatMap fun c => tokens ';' c.strings

theorem text_append (a b : List (Char × List Char)) : text (a ++ b) = text a ++ text b := by
  induction a with
  | nil => rfl
  | cons t a ih => simp [text, ih]

theorem text_comma (l : List (List Char)) (s : List Char) :
    joinSep ',' ((s :: l).map escapeText) = escapeText s ++ text (l.map (Prod.mk ',')) := by
  induction l generalizing s with
  | nil => simp [joinSep, text]
  | cons a l ih =>
    have := ih a
    simp only [List.map_cons, joinSep, text] at this ⊢
    rw [this]

theorem text_generate (c : Comp) (hc : c.strings ≠ []) (data : List Comp) (hd : ∀ c ∈ data, c.strings ≠ []) :
    ';' :: generateNested (c :: data) = text (allTokens (c :: data)) := by
  induction data generalizing c with
  | nil =>
    obtain ⟨s, l, hs⟩ := List.exists_cons_of_ne_nil hc
    unfold generateNested allTokens
    simp only [List.map_cons, List.map_nil, joinSep, List.flatMap_cons, List.flatMap_nil, List.append_nil, writeElement_eq, hs,
      tokens, text]
    rw [← text_comma, List.map_cons]
  | cons d data ih =>
    obtain ⟨s, l, hs⟩ := List.exists_cons_of_ne_nil hc
    have := ih d (hd d (by simp)) fun c h => hd c (by simp [h])
    unfold generateNested allTokens at this ⊢
    rw [List.flatMap_cons, text_append, ← this]
    simp only [List.map_cons, joinSep, writeElement_eq, hs, tokens, text]
    rw [← text_comma, List.map_cons]
    simp

theorem tokens_snd (k : Char) (l : List (List Char)) : (tokens k l).map (·.2) = l := by
  cases l with
  | nil => rfl
  | cons s l => simp [tokens, Function.comp_def]

theorem allTokens_snd (data : List Comp) : (allTokens data).map (·.2) = data.flatMap Comp.strings := by
  unfold allTokens
  rw [List.map_flatMap]
  simp only [tokens_snd]

theorem allTokens_sep (data : List Comp) : ∀ t ∈ allTokens data, t.1 = ';' ∨ t.1 = ',' := by
  intro t ht
  unfold allTokens at ht
  obtain ⟨c, -, h⟩ := List.mem_flatMap.mp ht
  cases hs : c.strings with
  | nil => rw [hs] at h; cases h
  | cons s l =>
    rw [hs] at h
    rcases List.mem_cons.mp h with rfl | h
    · exact .inl rfl
    · obtain ⟨a, -, rfl⟩ := List.mem_map.mp h
      exact .inr rfl

theorem allTokens_count (data : List Comp) : (allTokens data).countP (fun t => t.1 = ';') ≤ data.length := by
  induction data with
  | nil => simp [allTokens]
  | cons c data ih =>
    unfold allTokens at ih ⊢
    rw [List.flatMap_cons, List.countP_append, List.length_cons]
    have : (tokens ';' c.strings).countP (fun t => t.1 = ';') ≤ 1 := by
      cases c.strings with
      | nil => simp [tokens]
      | cons s l =>
        rw [tokens, List.countP_cons]
        have : (l.map (Prod.mk ',')).countP (fun t => decide (t.1 = ';')) = 0 := by
          rw [List.countP_eq_zero]
          intro t ht
          obtain ⟨a, -, rfl⟩ := List.mem_map.mp ht
          simp
        rw [this]
        simp
    omega

/-- The characters in components. -/
def chars (data : List Comp) : Nat := ((data.flatMap Comp.strings).map List.length).sum

theorem chars_of {m o : PMode} : ∀ {l : List (List (List Char))} {data : List Comp} {w : Nat},
    l.mapM (nestedComp m o) = some data → (∀ c ∈ l, c ≠ []) → Softs l.flatten w → chars data = w
  | [], data, w, h, _, hw => by
    rw [List.mapM_nil] at h
    cases h
    cases hw
    rfl
  | c :: l, data, w, h, hne, hw => by
    rw [List.mapM_cons] at h
    simp only [Option.bind_eq_bind, Option.bind_eq_some_iff] at h
    obtain ⟨d, hd, data', hl, h⟩ := h
    cases h
    rw [List.flatten_cons] at hw
    have split : ∀ (a b : List (List Char)) (w : Nat), Softs (a ++ b) w → ∃ n k, Softs a n ∧ Softs b k ∧ w = n + k := by
      intro a
      induction a with
      | nil => intro b w h; exact ⟨0, w, .nil, h, by omega⟩
      | cons s a ih =>
        intro b w h
        cases h with
        | cons h1 h2 =>
          obtain ⟨n, k, h3, h4, rfl⟩ := ih b _ h2
          exact ⟨_, k, .cons h1 h3, h4, by omega⟩
    obtain ⟨n, k, h1, h2, rfl⟩ := split _ _ _ hw
    have ih := chars_of hl (fun c h => hne c (List.mem_cons_of_mem _ h)) h2
    have all : ∀ (a : List (List Char)) (n : Nat) (r : List (List Char)), Softs a n → a.mapM (decodeText m o) = some r →
        (r.map List.length).sum = n := by
      intro a
      induction a with
      | nil =>
        intro n r h1 h2
        rw [List.mapM_nil] at h2
        cases h2
        cases h1
        rfl
      | cons s a ih =>
        intro n r h1 h2
        cases h1 with
        | cons h1 h3 =>
          rw [List.mapM_cons] at h2
          simp only [Option.bind_eq_bind, Option.bind_eq_some_iff] at h2
          obtain ⟨t, ht, r', hr, h2⟩ := h2
          cases h2
          obtain ⟨t', ht', hlen⟩ := h1.decode m o
          rw [ht] at ht'
          cases ht'
          simp [ih _ _ h3 hr, hlen]
    have hc : (d.strings.map List.length).sum = n := by
      unfold nestedComp at hd
      split at hd
      · exact absurd rfl (hne _ List.mem_cons_self)
      · rw [Option.map_eq_some_iff] at hd
        obtain ⟨t, ht, rfl⟩ := hd
        exact all _ n [t] h1 (by simp [List.mapM_cons, ht])
      · rw [Option.map_eq_some_iff] at hd
        obtain ⟨t, ht, rfl⟩ := hd
        exact all _ n t h1 ht
    unfold chars at ih ⊢
    rw [List.flatMap_cons, List.map_append, List.sum_append, hc, ih]

theorem split_ne (pre : Option Char) (items : List (List Char)) (item s : List Char) :
    ∀ c ∈ splitNested pre items item s, c ≠ [] := by
  induction s generalizing pre items item with
  | nil => intro c hc; rw [splitNested, List.mem_singleton] at hc; subst hc; simp
  | cons a s ih =>
    intro c hc
    rw [splitNested] at hc
    split at hc
    · rcases List.mem_cons.mp hc with rfl | hc
      · simp
      · exact ih _ _ _ c hc
    · split at hc
      · exact ih _ _ _ c hc
      · exact ih _ _ _ c hc

end L24

/-- C24, exact range of validity: a structured value is restored exactly if no string but the last ends in a backslash.
Missing for C24: values where another string does. -/
theorem C24_exact_partial (data : List Comp) (hne : data ≠ []) (hp : ∀ c ∈ data, c.Proper) (colon other over : PMode) :
    parseNested colon other over data.length (generateNested data) = some data ↔
      ∀ s ∈ (data.flatMap Comp.strings).dropLast, ¬ EndsInBackslash s := by
  refine ⟨fun h s hs hbad => ?_, fun hb => C24_roundtrip_partial data hne hp hb colon other over⟩
  obtain ⟨c, data', rfl⟩ := List.exists_cons_of_ne_nil hne
  obtain ⟨s0, l0, hs0⟩ := List.exists_cons_of_ne_nil (hp c List.mem_cons_self).ne_nil
  have ht := L24.text_generate c (hp c List.mem_cons_self).ne_nil data' fun c h => (hp c (List.mem_cons_of_mem _ h)).ne_nil
  have hall : L24.allTokens (c :: data') = (';', s0) :: (l0.map (Prod.mk ',') ++ L24.allTokens data') := by
    simp [L24.allTokens, hs0, L24.tokens]
  have hsnd := L24.allTokens_snd (c :: data')
  have hsep := L24.allTokens_sep (c :: data')
  have hcount := L24.allTokens_count (c :: data')
  rw [hall] at ht hsnd hsep hcount
  generalize l0.map (Prod.mk ',') ++ L24.allTokens data' = ts at ht hsnd hsep hcount
  rw [L24.text, List.cons.injEq] at ht
  have hg := ht.2
  rw [List.countP_cons] at hcount
  simp only [decide_true, if_true, List.length_cons] at hcount
  rw [List.map_cons] at hsnd
  have hspl : splitNested none [] [] (generateNested (c :: data')) =
      splitNested ((escapeText s0).getLast?.or none) [] ([] ++ escapeText s0) (L24.text ts) := by
    rw [hg, splitNested_escaped (C20_escaped s0)]
  obtain ⟨w, h1, h2, h3, h4, h5⟩ := L24.split_count ts ((escapeText s0).getLast?.or none) [] ([] ++ escapeText s0) 0 s0.length
    (fun t h => hsep t (List.mem_cons_of_mem _ h)) .nil (by simpa using L24.soft_escape s0)
  rw [← hspl] at h1 h2 h3 h4 h5
  have hlt := h5 (by
    rw [← hsnd] at hs
    cases ts with
    | nil => simp at hs
    | cons t ts =>
      rw [List.map_cons, List.dropLast_cons₂] at hs
      rcases List.mem_cons.mp hs with rfl | hs
      · left
        refine ⟨?_, by simp⟩
        rw [← endsIn_escapeText] at hbad
        unfold EndsInBackslash at hbad
        rw [hbad]; rfl
      · right
        rw [← List.map_cons, ← List.map_dropLast] at hs
        obtain ⟨x, hx, rfl⟩ := List.mem_map.mp hs
        exact ⟨x, hx, hbad⟩)
  unfold parseNested at h
  split at h
  · cases h
  · next results hr =>
    have hlen := mapM_length hr
    have hw := L24.chars_of hr (L24.split_ne _ _ _ _) h1
    rw [if_neg (by simp; omega)] at h
    have hd := congrArg L24.chars (Option.some.inj h)
    have hpad : L24.chars (results ++ List.replicate ((c :: data').length - results.length) (.str [])) = w := by
      rw [← hw]
      unfold L24.chars
      have : ∀ n, ((List.replicate n (Comp.str [])).flatMap Comp.strings).map List.length = List.replicate n 0 := by
        intro n
        induction n with
        | zero => rfl
        | succ n ih => simp [List.replicate_succ, Comp.strings, ih]
      rw [List.flatMap_append, List.map_append, List.sum_append, this]
      simp
    rw [hpad] at hd
    have htotal : L24.chars (c :: data') = s0.length + (ts.map fun t => t.2.length).sum := by
      unfold L24.chars
      rw [← hsnd]
      simp [Function.comp_def]
    have hsum : ∀ ts : List (Char × List Char),
        (ts.map fun t => t.2.length + 1).sum = (ts.map fun t => t.2.length).sum + ts.length := by
      intro ts
      induction ts with
      | nil => rfl
      | cons t ts ih => simp [ih]; omega
    rw [hsum] at h2
    simp at h2 hlt
    omega

/-- C24 is false: `N` with a last name ending in a backslash. -/
theorem C24_fails : ∃ data : List Comp, data.length = 5 ∧ (∀ c ∈ data, c.Proper) ∧
    parseNested .fix .raise .fix 5 (generateNested data) ≠ some data := by
  refine ⟨[.str "a\\".toList, .str "b".toList, .str [], .str [], .str []], rfl, ?_, ?_⟩
  · intro c h; simp at h; rcases h with rfl | rfl | rfl <;> trivial
  · have : generateNested [.str "a\\".toList, .str "b".toList, .str [], .str [], .str []] =
        "a\\\\;b;;;".toList := by
      simp [generateNested, writeElement, joinSep, escapeText_cons, escapeText_nil, isEscapee,
        escapeLetter]
    rw [this]
    intro h
    unfold parseNested at h
    have hs : splitNested none [] [] "a\\\\;b;;;".toList = [["a\\\\;b".toList], [[]], [[]], [[]]] := by
      decide +kernel
    rw [hs] at h
    simp [List.mapM_cons, nestedComp, decodeText_nil, decodeText_plain, decodeText_esc, unescape] at h

example : ∀ s ∈ (([.str "O'Hara;x".toList, .tup ["a".toList, "b\\c".toList], .str [], .str [],
    .str "z\\".toList] : List Comp).flatMap Comp.strings).dropLast, ¬ EndsInBackslash s := by decide

end PyCal
