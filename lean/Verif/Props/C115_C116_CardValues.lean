import Mathlib.Data.List.Basic
import Verif.Model.CardValues
import Verif.Props.C23_C24_Lists
import Verif.Props.C95_ZoneLines
import Verif.Props.C85_PropertyJSON

/-!
# C115: structured values in jCard; C116: names and addresses as objects
-/

namespace PyCal
open CardVal

/-! ## C115 -/

theorem CardVal.not_upper (c : Char) : c.toLower.isUpper = false := by
  by_cases h : c.toNat < 128
  · rw [PJ.char_ofNat c]
    generalize c.toNat = n at h
    revert n
    decide +kernel
  · have hu : c.isUpper = false := by
      rw [Bool.eq_false_iff]
      intro h'
      simp only [Char.isUpper, Bool.and_eq_true, decide_eq_true_eq] at h'
      have := UInt32.le_iff_toNat_le.mp h'.2
      exact h (lt_of_le_of_lt this (by decide))
    have : c.toLower = c := by
      unfold Char.toLower
      split
      · rename_i h'
        exfalso
        have := UInt32.le_iff_toNat_le.mp h'.2
        exact h (lt_of_le_of_lt this (by decide))
      · rfl
    rw [this, hu]

/-- What RFC 7095 (3.3.1.3) has for a structured value: an array of the components, each a text or an array of texts. -/
def CardVal.Rfc7095 (v : List Comp) (j : Json) : Prop :=
  ∃ l, j = .arr l ∧ List.Forall₂ (fun c x => match c with
    | .str s => x = .str s
    | .tup t => x = .arr (t.map .str)) v l

/-- C115 (partial): the value that is written for a name or an address is the array that RFC 7095 has, and the name is in small
letters.

Missing: the type, `C115_fails_type`. -/
theorem C115_written_partial (name : List Char) (v : List Comp) : Rfc7095 v (writeCompsProp name v).value ∧
    PropText.upper (writeCompsProp name v).name = PropText.upper name ∧ ∀ c ∈ (writeCompsProp name v).name, c.isUpper = false := by
  refine ⟨⟨_, rfl, ?_⟩, PJ.upper_lower name, fun c hc => ?_⟩
  swap
  · obtain ⟨a, _, rfl⟩ := List.mem_map.1 hc
    exact CardVal.not_upper a
  rw [List.forall₂_map_right_iff]
  refine List.forall₂_same.2 fun c _ => ?_
  cases c <;> rfl

/-- C115 fails: no name, address or organisation that is written is read again: instead of the type `null` is written. -/
theorem C115_fails_type (name : List Char) (v : List Comp) (o : Comp) :
    readProp (writeCompsProp name v) = none ∧ readProp (writeOrgProp o) = none := ⟨rfl, rfl⟩

/-- C115 (partial): jCard data with texts as components is read as these components, whatever the case of the type.

Missing: components with several values, `C115_fails_several`. -/
theorem C115_read_partial (name type : List Char) (ht : PropText.upper type = "TEXT".toList) (v : List (List Char)) :
    readProp ⟨name, .str type, .arr (v.map .str)⟩ = some (some v) := by
  unfold readProp
  simp only [ht]
  rw [if_pos (by decide +kernel)]
  have : ∀ v : List (List Char), (v.map Json.str).mapM Json.text = some v := by
    intro v
    induction v with
    | nil => rfl
    | cons s v ih => rw [List.map_cons, List.mapM_cons, ih]; rfl
  rw [encodeAll, this]
  rfl

/-- The hypotheses can be met. -/
example : readProp ⟨"n".toList, .str "text".toList, .arr [.str "Doe".toList, .str "Jo".toList]⟩ =
    some (some ["Doe".toList, "Jo".toList]) :=
  C115_read_partial _ _ (by decide +kernel) ["Doe".toList, "Jo".toList]

/-- C115 fails: a component with several values, which is an array in the array, is not read. -/
theorem C115_fails_several (name type : List Char) (ht : PropText.upper type = "TEXT".toList) (v w : List Comp)
    (l : List (List Char)) : readProp ⟨name, .str type, writeComps (v ++ .tup l :: w)⟩ = none := by
  unfold readProp
  simp only [ht]
  rw [if_pos (by decide +kernel)]
  have : ∀ v : List Comp, ((v ++ .tup l :: w).map compJson).mapM
      Json.text = (none : Option (List (List Char))) := by
    intro v
    induction v with
    | nil => rw [List.nil_append, List.map_cons, List.mapM_cons]; rfl
    | cons c v ih =>
      rw [List.cons_append, List.map_cons, List.mapM_cons, ih]
      cases c <;> rfl
  rw [writeComps, encodeAll, this]
  rfl

/-- C115 fails: an organisation without units is written letter by letter, and the text that RFC 7095 has for it is taken
apart when it is read. -/
theorem C115_fails_org (s type : List Char) (ht : PropText.upper type = "TEXT".toList) :
    (writeOrgProp (.str s)).value = .arr (s.map fun c => .str [c]) ∧
    readProp ⟨"org".toList, .str type, .str s⟩ = some (some (s.map fun c => [c])) := by
  refine ⟨rfl, ?_⟩
  unfold readProp
  simp only [ht]
  rw [if_pos (by decide +kernel)]
  rfl

/-- C115 (partial): an organisation with units is written as the array of RFC 7095.

Missing: organisations without units, `C115_fails_org`. -/
theorem C115_org_partial (l : List (List Char)) : (writeOrgProp (.tup l)).value = .arr (l.map .str) := rfl

/-! ## C116 -/

namespace N116

/-- The single texts of a component. -/
def texts : Comp → List (List Char)
  | .str s => [s]
  | .tup l => l

/-- The words of a text: what is between its spaces, without nothing. -/
def words (s : List Char) : List (List Char) := (splitOn ' ' s).filter fun w => decide (w ≠ [])

theorem words_sep (a b : List Char) : words (a ++ ' ' :: b) = words a ++ words b := by
  unfold words
  rw [Zonal.L95.splitOn_sep, List.filter_append]

theorem words_join (l : List (List Char)) : words (joinSep ' ' l) = l.flatMap words := by
  induction l with
  | nil => rfl
  | cons a l ih =>
    cases l with
    | nil => simp [joinSep]
    | cons b l => rw [joinSep, words_sep, ih]; rfl

theorem words_comp (c : Comp) : words (stringOrList c) = (texts c).flatMap words := by
  cases c with
  | str s => simp [stringOrList, texts]
  | tup l => exact words_join l

theorem words_filter (l : List (List Char)) : (l.filter fun s => decide (s ≠ [])).flatMap words = l.flatMap words := by
  induction l with
  | nil => rfl
  | cons a l ih =>
    rw [List.filter_cons]
    by_cases h : a = []
    · subst h
      rw [if_neg (by simp), ih, List.flatMap_cons]
      rfl
    · rw [if_pos (by simp [h]), List.flatMap_cons, List.flatMap_cons, ih]

theorem join_append (sep : Char) {a b : List (List Char)} (ha : a ≠ []) (hb : b ≠ []) :
    joinSep sep (a ++ b) = joinSep sep a ++ sep :: joinSep sep b := by
  induction a with
  | nil => exact absurd rfl ha
  | cons x a ih =>
    cases a with
    | nil =>
      cases b with
      | nil => exact absurd rfl hb
      | cons y b => rfl
    | cons y a =>
      have := ih (by simp)
      simp only [List.cons_append, joinSep] at this ⊢
      rw [this]
      simp

theorem join_nil {l : List (List Char)} (h : ∀ s ∈ l, s ≠ []) : joinSep ' ' l = [] ↔ l = [] := by
  cases l with
  | nil => simp [joinSep]
  | cons a l =>
    have ha := h a (by simp)
    cases l <;> simp [joinSep, ha]

/-- The texts of a tuple are not empty. -/
def Filled : Comp → Prop
  | .str _ => True
  | .tup l => ∀ s ∈ l, s ≠ []

theorem join_filled (l : List Comp) (h : ∀ c ∈ l, Filled c) :
    joinSep ' ' ((l.map stringOrList).filter fun s => decide (s ≠ [])) =
      joinSep ' ' ((l.flatMap texts).filter fun s => decide (s ≠ [])) := by
  have key : ∀ c, Filled c → (stringOrList c = [] ∧ (texts c).filter (fun s => decide (s ≠ [])) = []) ∨
      (stringOrList c ≠ [] ∧ (texts c).filter (fun s => decide (s ≠ [])) ≠ [] ∧
        stringOrList c = joinSep ' ' ((texts c).filter fun s => decide (s ≠ []))) := by
    intro c hc
    cases c with
    | str s =>
      by_cases hs : s = []
      · left; simp [stringOrList, texts, hs]
      · right; simp [stringOrList, texts, hs, joinSep]
    | tup t =>
      have hf : t.filter (fun s => decide (s ≠ [])) = t := List.filter_eq_self.2 (by simpa [Filled] using hc)
      cases t with
      | nil => left; simp [stringOrList, texts, joinSep]
      | cons a t =>
        right
        refine ⟨?_, by rw [texts, hf]; simp, by rw [texts, hf]; rfl⟩
        have ha : a ≠ [] := hc a (by simp)
        cases t <;> simp [stringOrList, joinSep, ha]
  induction l with
  | nil => rfl
  | cons c l ih =>
    have ih := ih fun d hd => h d (List.mem_cons_of_mem _ hd)
    rw [List.map_cons, List.filter_cons, List.flatMap_cons, List.filter_append]
    rcases key c (h c (by simp)) with ⟨h1, h2⟩ | ⟨h1, h2, h3⟩
    · rw [h2, List.nil_append, if_neg (by simp [h1]), ih]
    · rw [if_pos (by simp [h1])]
      have hb' : ∀ s ∈ (l.flatMap texts).filter (fun s => decide (s ≠ [])), s ≠ [] :=
        fun s hs => by simpa using (List.mem_filter.1 hs).2
      generalize (l.flatMap texts).filter (fun s => decide (s ≠ [])) = b at ih hb'
      generalize hm : (l.map stringOrList).filter (fun s => decide (s ≠ [])) = m at ih
      have hm' : ∀ s ∈ m, s ≠ [] := by
        intro s hs
        rw [← hm] at hs
        simpa using (List.mem_filter.1 hs).2
      by_cases e : m = []
      · have hb : b = [] := (join_nil hb').1 (by rw [← ih, e]; rfl)
        rw [e, hb, List.append_nil, joinSep, h3]
      · have hb : b ≠ [] := fun hb => e ((join_nil hm').1 (by rw [ih, hb]; rfl))
        rw [join_append _ h2 hb, ← h3, ← ih]
        cases m with
        | nil => exact absurd rfl e
        | cons x m => rfl

end N116
open N116

/-- The words of the full name are the words of the prefixes, first, middle and last names and suffixes, in this order. -/
theorem C116_words (last first middle prefix' suffix : Comp) :
    ∃ s, fullName [last, first, middle, prefix', suffix] = some s ∧
      words s = ([prefix', first, middle, last, suffix].flatMap texts).flatMap words := by
  refine ⟨_, rfl, ?_⟩
  rw [words_join, words_filter]
  simp only [List.map_cons, List.map_nil, List.flatMap_cons, List.flatMap_nil, List.append_nil, List.flatMap_append, words_comp]

/-- C116 (partial): if no component has several texts of which one is empty, the full name has the texts that are not
empty, with one space between them.

Missing: other names, `C116_fails_empty`. -/
theorem C116_name_partial (last first middle prefix' suffix : Comp)
    (h : ∀ c ∈ [prefix', first, middle, last, suffix], Filled c) :
    fullName [last, first, middle, prefix', suffix] =
      some (joinSep ' ' (([prefix', first, middle, last, suffix].flatMap texts).filter fun s => decide (s ≠ []))) :=
  congrArg some (join_filled _ h)

/-- The hypotheses can be met. -/
example : fullName [.str "Public".toList, .str "John".toList, .tup ["Quinlan".toList, "Paul".toList], .str "Mr.".toList,
    .str []] = some "Mr. John Quinlan Paul Public".toList := by
  rw [C116_name_partial _ _ _ _ _ (by simp [Filled])]
  decide +kernel

/-- C116 fails: an empty text among several leaves a second space. -/
theorem C116_fails_empty (a b : List Char) :
    fullName [.tup [a, [], b], .str [], .str [], .str [], .str []] = some (a ++ ' ' :: ' ' :: b) := by
  simp [fullName, stringOrList, joinSep]

/-- C116 fails: no part of a name or address can be set: it raises and nothing is changed. -/
theorem C116_fails_set (i : Nat) (c : Comp) (v : List Comp) : (setItem i c v).1 = false ∧ (setItem i c v).2 = v := ⟨rfl, rfl⟩

/-- C116 (partial): the copy of a name or address that was read (too many components being cut off or refused) is the
same.

Missing: names with too many components, `C116_fails_many`, or too few from jCard, `C116_fails_short`. -/
theorem C116_duplicate_partial (colon other over : PMode) (ho : over = .fix ∨ over = .raise) (n : Nat) (data : List Char)
    (v : List Comp) (h : parseNested colon other over n data = some v) : duplicate n v = some v := by
  have hl : v.length = n := by
    unfold parseNested at h
    split at h
    · cases h
    · next results _ =>
      dsimp only at h
      have hlen : (results ++ List.replicate (n - results.length) (Comp.str [])).length =
          results.length + (n - results.length) := by simp
      split_ifs at h with hc
      · rcases ho with rfl | rfl
        · simp only [Option.some.injEq] at h
          rw [← h, List.length_take]
          omega
        · cases h
      · simp only [Option.some.injEq] at h
        rw [← h]
        omega
  unfold duplicate
  rw [if_pos (by omega), hl, Nat.sub_self]
  simp

/-- The hypotheses can be met. -/
example : (parseNested .fix .raise .fix 5 "Doe;Jo".toList).isSome = true := by decide +kernel

/-- C116 fails: if too many components are allowed, a name or address that has them cannot be copied. -/
theorem C116_fails_many (n : Nat) (v : List Comp) (h : n < v.length) : duplicate n v = none := by
  unfold duplicate
  rw [if_neg (by omega)]

/-- Such names are read: six components. -/
example : ∃ v, parseNested .fix .raise .allow 5 "a;b;c;d;e;f".toList = some v ∧ 5 < v.length :=
  ⟨["a", "b", "c", "d", "e", "f"].map fun s => .str s.toList, by decide +kernel, by decide⟩

/-- C116 fails: a name or address read from jCard with fewer components gets more of them when it is copied, so that the copy is
not equal to it; and it has no full name. -/
theorem C116_fails_short (v : List (List Char)) (hv : v.length < 5) :
    readProp ⟨"n".toList, .str "text".toList, .arr (v.map .str)⟩ = some (some v) ∧
      duplicate 5 (v.map .str) ≠ some (v.map .str) ∧ fullName (v.map .str) = none := by
  refine ⟨C115_read_partial _ _ (by decide +kernel) v, ?_, ?_⟩
  · unfold duplicate
    rw [if_pos (by simp; omega)]
    intro h
    simp only [Option.some.injEq] at h
    have := congrArg List.length h
    simp at this
    omega
  · match v, hv with
    | [], _ | [_], _ | [_, _], _ | [_, _, _], _ | [_, _, _, _], _ => rfl

end PyCal
