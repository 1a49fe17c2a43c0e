import Verif.Spec.PropertyJSON
import Verif.Props.C81_C82_DateTimeProperty
import Verif.Props.C83_RuleJSON
import Verif.Props.C69_C71_ZonalRules

/-!
# C85: properties in jCal
-/

namespace PyCal
open Spec.PropJSON PropText ValueType PropJSON

namespace PJ

/-! ### Upper and lower case -/

theorem char_ofNat (c : Char) : c = Char.ofNat c.toNat := (Char.ofNat_toNat c).symm

theorem up_lo (c : Char) : c.toLower.toUpper = c.toUpper := by
  by_cases h : c.toNat < 128
  · rw [char_ofNat c]
    generalize c.toNat = n at h
    revert n
    decide +kernel
  · have : c.toLower = c := by
      unfold Char.toLower
      split
      · rename_i h'
        have := h'.2
        exfalso
        apply h
        have := UInt32.le_iff_toNat_le.mp h'.2
        simp only [Char.toNat]
        exact lt_of_le_of_lt this (by decide)
      · rfl
    rw [this]

theorem lo_up (c : Char) : c.toUpper.toLower = c.toLower := by
  by_cases h : c.toNat < 128
  · rw [char_ofNat c]
    generalize c.toNat = n at h
    revert n
    decide +kernel
  · have : c.toUpper = c := by
      unfold Char.toUpper
      split
      · rename_i h'
        exfalso
        apply h
        have := UInt32.le_iff_toNat_le.mp h'.2
        simp only [Char.toNat]
        exact lt_of_le_of_lt this (by decide)
      · rfl
    rw [this]

theorem upper_lower (s : List Char) : upper (lower s) = upper s := by
  simp [upper, lower, Function.comp_def, up_lo]

theorem lower_upper (s : List Char) : lower (upper s) = lower s := by
  simp [upper, lower, Function.comp_def, lo_up]

theorem lower_eq_iff {a b : List Char} : lower a = lower b ↔ upper a = upper b := by
  constructor
  · intro h; rw [← upper_lower a, h, upper_lower]
  · intro h; rw [← lower_upper a, h, lower_upper]

theorem upper_upper (s : List Char) : upper (upper s) = upper s := by
  rw [← upper_lower (upper s), lower_upper, upper_lower]

theorem value_iff (s : List Char) : lower s = "value".toList ↔ upper s = "VALUE".toList := by
  have : "value".toList = lower "VALUE".toList := by decide
  rw [this, lower_eq_iff]
  have : upper "VALUE".toList = "VALUE".toList := by decide
  rw [this]

/-! ### Parameters -/

theorem setKey_new {k : List Char} {v : JParam} {d : List (List Char × JParam)}
    (h : k ∉ d.map Prod.fst) : setKey k v d = d ++ [(k, v)] := by
  induction d with
  | nil => rfl
  | cons m d ih =>
    simp only [List.map_cons, List.mem_cons, not_or] at h
    rw [setKey, if_neg (Ne.symm h.1), ih h.2]
    rfl

theorem setKey_keys (k : List Char) (v : JParam) (d : List (List Char × JParam)) :
    (setKey k v d).map Prod.fst =
      if k ∈ d.map Prod.fst then d.map Prod.fst else d.map Prod.fst ++ [k] := by
  induction d with
  | nil => simp [setKey]
  | cons m d ih =>
    rw [setKey]
    by_cases h : m.1 = k
    · simp [h]
    · rw [if_neg h]
      simp only [List.map_cons, ih, List.mem_cons, Ne.symm h, false_or]
      split <;> rfl

/-- What a fold of assignments does to the keys. -/
theorem fold_keys (ps : List Param) (d : List (List Char × JParam))
    (hn : (d.map Prod.fst).Nodup) :
    ((ps.foldl (fun d p => setKey (lower p.name) (paramJSON p) d) d).map Prod.fst).Nodup ∧
    ∀ k ∈ (ps.foldl (fun d p => setKey (lower p.name) (paramJSON p) d) d).map Prod.fst,
      k ∈ d.map Prod.fst ∨ ∃ p ∈ ps, k = lower p.name := by
  induction ps generalizing d with
  | nil => exact ⟨hn, fun k hk => .inl hk⟩
  | cons p ps ih =>
    simp only [List.foldl_cons]
    have hk := setKey_keys (lower p.name) (paramJSON p) d
    have hn' : ((setKey (lower p.name) (paramJSON p) d).map Prod.fst).Nodup := by
      rw [hk]
      split
      · exact hn
      · rename_i h
        rw [List.nodup_append]
        refine ⟨hn, by simp, ?_⟩
        intro a ha b hb
        simp only [List.mem_singleton] at hb
        rintro rfl
        exact h (hb ▸ ha)
    obtain ⟨h1, h2⟩ := ih _ hn'
    refine ⟨h1, fun k hk' => ?_⟩
    rcases h2 k hk' with h | ⟨q, hq, rfl⟩
    · rw [hk] at h
      split at h
      · exact .inl h
      · rcases List.mem_append.mp h with h | h
        · exact .inl h
        · simp only [List.mem_singleton] at h
          exact .inr ⟨p, by simp, h⟩
    · exact .inr ⟨q, by simp [hq], rfl⟩

theorem fold_new (ps : List Param) (d : List (List Char × JParam))
    (hn : (ps.map fun p => lower p.name).Nodup)
    (hd : ∀ p ∈ ps, lower p.name ∉ d.map Prod.fst) :
    ps.foldl (fun d p => setKey (lower p.name) (paramJSON p) d) d =
      d ++ ps.map fun p => (lower p.name, paramJSON p) := by
  induction ps generalizing d with
  | nil => simp
  | cons p ps ih =>
    simp only [List.map_cons, List.nodup_cons] at hn
    simp only [List.foldl_cons, List.map_cons]
    rw [setKey_new (hd p (by simp)), ih _ hn.2]
    · simp
    · intro q hq
      simp only [List.map_append, List.map_cons, List.map_nil, List.mem_append, List.mem_singleton,
        not_or]
      refine ⟨hd q (by simp [hq]), fun h => hn.1 ?_⟩
      rw [← h]
      exact List.mem_map_of_mem hq

/-- The parameters that are written. -/
def sel (ps : List Param) : List Param :=
  (ps.insertionSort fun a b => a.key ≤ b.key).filter fun p => lower p.name ≠ "value".toList

theorem sel_perm (ps : List Param) : (sel ps).Perm (ps.filter fun p => p.key ≠ "VALUE".toList) := by
  refine ((List.perm_insertionSort _ ps).filter _).trans (List.Perm.of_eq ?_)
  apply List.filter_congr
  intro p _
  rw [Bool.eq_iff_iff, decide_eq_true_iff, decide_eq_true_iff]
  exact not_congr (value_iff _)

theorem write_keys (ps : List Param) : ((writeParams ps).map Prod.fst).Nodup ∧
    ∀ k ∈ (writeParams ps).map Prod.fst, ∃ p ∈ ps, k = lower p.name ∧ p.key ≠ "VALUE".toList := by
  obtain ⟨h1, h2⟩ := fold_keys (sel ps) [] (by simp)
  refine ⟨h1, fun k hk => ?_⟩
  rcases h2 k hk with h | ⟨p, hp, rfl⟩
  · simp at h
  · have := (sel_perm ps).mem_iff.mp hp
    rw [List.mem_filter] at this
    exact ⟨p, this.1, rfl, by simpa using this.2⟩

/-- Each of the parameters but VALUE stands alone and has one value. -/
def Single (ps : List Param) : Prop :=
  (∀ p ∈ ps, p.key ≠ "VALUE".toList → p.values.length = 1) ∧
  ((ps.filter fun p => p.key ≠ "VALUE".toList).map Param.key).Nodup

instance (ps : List Param) : Decidable (Single ps) := by unfold Single; infer_instance

theorem write_single {ps : List Param} (h : Single ps) :
    writeParams ps = (sel ps).map fun p => (lower p.name, paramJSON p) := by
  have := fold_new (sel ps) [] ?_ (by simp)
  · rw [List.nil_append] at this
    exact this
  · have h1 : ((sel ps).map Param.key).Nodup := ((sel_perm ps).map _).nodup_iff.mpr h.2
    rw [List.Nodup, List.pairwise_map] at h1 ⊢
    exact h1.imp fun hab he => hab (lower_eq_iff.mp he)

theorem readParams_some {ms : List (List Char × JParam)} {qs : List Param}
    (h : readParams ms = some qs) :
    List.Forall₂ (fun m q => q.name = upper m.1 ∧ ∃ v, m.2 = .one v ∧ q.values = [v]) ms qs := by
  induction ms generalizing qs with
  | nil => simp [readParams] at h; subst h; exact .nil
  | cons m ms ih =>
    rw [readParams, List.mapM_cons] at h
    obtain ⟨k, v⟩ := m
    cases v with
    | many vs => simp at h
    | one v =>
      simp only [Option.pure_def, Option.bind_eq_bind, Option.bind_some] at h
      cases h' : readParams ms with
      | none => rw [readParams] at h'; simp [h'] at h
      | some qs' =>
        have h'' := h'
        rw [readParams] at h''
        simp only [h'', Option.bind_some, Option.some.injEq] at h
        subst h
        exact .cons ⟨rfl, v, rfl, rfl⟩ (ih h')

/-- The parameters that are read from those written. -/
theorem readParams_map {ps : List Param} (h : ∀ p ∈ ps, p.values.length = 1) :
    readParams (ps.map fun p => (lower p.name, paramJSON p)) =
      some (ps.map fun p => ⟨upper p.name, p.values⟩) := by
  induction ps with
  | nil => rfl
  | cons p ps ih =>
    have ih := ih fun q hq => h q (by simp [hq])
    rw [readParams] at ih ⊢
    rw [List.map_cons, List.mapM_cons, ih]
    obtain ⟨v, hv⟩ := List.length_eq_one_iff.mp (h p (by simp))
    simp [paramJSON, hv, upper_lower]

theorem readParams_perm {ms ms' : List (List Char × JParam)} {qs : List Param} (hp : ms'.Perm ms)
    (h : readParams ms = some qs) : ∃ qs', readParams ms' = some qs' ∧ qs'.Perm qs := by
  induction hp generalizing qs with
  | nil => exact ⟨qs, h, .rfl⟩
  | cons m hp ih =>
    rw [readParams, List.mapM_cons] at h
    simp only [Option.pure_def, Option.bind_eq_bind, Option.bind_eq_some_iff, Option.some.injEq] at h
    obtain ⟨q, hq, qs1, h1, rfl⟩ := h
    obtain ⟨qs2, h2, h3⟩ := ih h1
    refine ⟨q :: qs2, ?_, h3.cons _⟩
    rw [readParams] at h2 ⊢
    rw [List.mapM_cons, hq, h2]
    rfl
  | swap m m' l =>
    rw [readParams, List.mapM_cons, List.mapM_cons] at h
    simp only [Option.pure_def, Option.bind_eq_bind, Option.bind_eq_some_iff, Option.some.injEq] at h
    obtain ⟨q, hq, _, ⟨q', hq', qs1, h1, rfl⟩, rfl⟩ := h
    refine ⟨q' :: q :: qs1, ?_, .swap ..⟩
    rw [readParams, List.mapM_cons, List.mapM_cons, hq, hq', h1]
    rfl
  | trans _ _ ih1 ih2 =>
    obtain ⟨qs1, h1, h2⟩ := ih2 h
    obtain ⟨qs2, h3, h4⟩ := ih1 h1
    exact ⟨qs2, h3, h4.trans h2⟩

theorem forall₂_right {α β : Type} {R : α → β → Prop} {l : List α} {l' : List β}
    (h : List.Forall₂ R l l') {b : β} (hb : b ∈ l') : ∃ a ∈ l, R a b := by
  induction h with
  | nil => simp at hb
  | cons hd _ ih =>
    rcases List.mem_cons.mp hb with rfl | hb
    · exact ⟨_, by simp, hd⟩
    · obtain ⟨a, ha, h⟩ := ih hb
      exact ⟨a, by simp [ha], h⟩

theorem paramsOf_length {l : List Param} (hl : (l.map Param.key).Nodup) (key : List Char) :
    (paramsOf l key).length ≤ 1 := by
  unfold paramsOf
  rw [List.length_map]
  induction l with
  | nil => simp
  | cons p l ih =>
    simp only [List.map_cons, List.nodup_cons] at hl
    rw [List.filter_cons]
    split
    · rename_i hk
      have : l.filter (fun p => decide (upper p.name = key)) = [] := by
        rw [List.filter_eq_nil_iff]
        intro q hq hqk
        simp only [decide_eq_true_eq] at hk hqk
        exact hl.1 (List.mem_map.mpr ⟨q, hq, by rw [Param.key, Param.key, hqk, hk]⟩)
      rw [this]
      simp
    · exact ih hl.2

theorem nodup_of_length {ps : List Param}
    (h : ∀ key, key ≠ "VALUE".toList → (paramsOf ps key).length ≤ 1) :
    ((ps.filter fun p => p.key ≠ "VALUE".toList).map Param.key).Nodup := by
  induction ps with
  | nil => simp
  | cons p ps ih =>
    have ih := ih fun key hk => by
      refine le_trans ?_ (h key hk)
      unfold paramsOf
      rw [List.filter_cons]
      split <;> simp
    rw [List.filter_cons]
    split
    · rename_i hv
      have hv : p.key ≠ "VALUE".toList := by simpa using hv
      rw [List.map_cons, List.nodup_cons]
      refine ⟨fun hm => ?_, ih⟩
      obtain ⟨q, hq, he⟩ := List.mem_map.mp hm
      have hq := (List.mem_filter.mp hq).1
      have := h p.key hv
      unfold paramsOf at this
      rw [List.length_map, List.filter_cons, if_pos (by simp [Param.key]), List.length_cons] at this
      have h0 : ps.filter (fun q => decide (upper q.name = p.key)) = [] := by
        apply List.eq_nil_of_length_eq_zero
        omega
      rw [List.filter_eq_nil_iff] at h0
      exact h0 q hq (decide_eq_true he)
    · exact ih

/-- The parameters of a name when all keys are different. -/
theorem paramsOf_perm {ps qs : List Param} (hp : qs.Perm ps) (hn : (ps.map Param.key).Nodup)
    (key : List Char) : paramsOf qs key = paramsOf ps key := by
  have h2 := hp.filter (fun p => decide (upper p.name = key))
  have h3 := paramsOf_length hn key
  unfold paramsOf at h3 ⊢
  rw [List.length_map] at h3
  generalize hl : ps.filter (fun p => decide (upper p.name = key)) = l at h2 h3
  match l, h3 with
  | [], _ => rw [List.perm_nil.mp h2]
  | [x], _ => rw [List.perm_singleton.mp h2]

/-- What is read when every parameter is single. -/
theorem read_single {ps : List Param} (h : Single ps) {ms : List (List Char × JParam)}
    (hp : ms.Perm (writeParams ps)) : ∃ qs, readParams ms = some qs ∧
      (∀ q ∈ qs, q.key ≠ "VALUE".toList) ∧
      ∀ key, key ≠ "VALUE".toList → paramsOf qs key = paramsOf ps key := by
  rw [write_single h] at hp
  have hone : ∀ p ∈ sel ps, p.values.length = 1 := by
    intro p hp
    have := (sel_perm ps).mem_iff.mp hp
    rw [List.mem_filter] at this
    exact h.1 p this.1 (by simpa using this.2)
  obtain ⟨qs, h1, h2⟩ := readParams_perm hp (readParams_map hone)
  have hkey : ∀ p : Param, Param.key ⟨upper p.name, p.values⟩ = p.key := fun p => upper_upper _
  refine ⟨qs, h1, ?_, ?_⟩
  · intro q hq
    have := h2.mem_iff.mp hq
    obtain ⟨p, hp, rfl⟩ := List.mem_map.mp this
    rw [hkey]
    have := (sel_perm ps).mem_iff.mp hp
    rw [List.mem_filter] at this
    simpa using this.2
  · intro key hv
    have hn : ((sel ps).map Param.key).Nodup := ((sel_perm ps).map _).nodup_iff.mpr h.2
    rw [paramsOf_perm h2]
    · have : paramsOf ((sel ps).map fun p => ⟨upper p.name, p.values⟩) key = paramsOf (sel ps) key := by
        unfold paramsOf
        rw [List.filter_map, List.map_map]
        congr 1
        apply List.filter_congr
        intro p _
        simp [upper_upper]
      rw [this, paramsOf_perm (sel_perm ps) h.2]
      unfold paramsOf
      rw [List.filter_filter]
      congr 1
      apply List.filter_congr
      intro p _
      by_cases hk : upper p.name = key
      · have : p.key ≠ "VALUE".toList := by rw [Param.key, hk]; exact hv
        rw [decide_eq_true hk, decide_eq_true this]
        rfl
      · simp [hk]
    · rw [List.map_map]
      have : (Param.key ∘ fun p : Param => (⟨upper p.name, p.values⟩ : Param)) = Param.key := by
        funext p; exact hkey p
      rw [this]
      exact hn

end PJ

/-- C85, parameters, exactly: however the members of the object are ordered, they are read and give the
same parameters (VALUE aside), if and only if each parameter stands alone and has one value. -/
theorem C85_params_iff (ps : List Param) :
    (∀ ms, ms.Perm (writeParams ps) → ∃ qs, readParams ms = some qs ∧
      ∀ key, key ≠ "VALUE".toList → paramsOf qs key = paramsOf ps key) ↔ PJ.Single ps := by
  constructor
  · intro h
    obtain ⟨qs, h1, h2⟩ := h _ .rfl
    have h3 := PJ.readParams_some h1
    obtain ⟨hn, hk⟩ := PJ.write_keys ps
    -- the keys that are read are different
    have hq : (qs.map Param.key).Nodup := by
      have e : qs.map Param.key = (writeParams ps).map fun m => upper m.1 := by
        clear hn hk h2 h1
        generalize writeParams ps = ms at h3
        induction h3 with
        | nil => rfl
        | cons hd _ ih => simp [ih, Param.key, hd.1, PJ.upper_upper]
      rw [e]
      rw [List.Nodup, List.pairwise_map] at hn ⊢
      refine hn.imp_of_mem ?_
      intro a b ha hb hab he
      obtain ⟨p, -, hp, -⟩ := hk a.1 (List.mem_map_of_mem ha)
      obtain ⟨q, -, hq, -⟩ := hk b.1 (List.mem_map_of_mem hb)
      rw [hp, hq, PJ.upper_lower, PJ.upper_lower] at he
      exact hab (by rw [hp, hq, PJ.lower_eq_iff, he])
    have hone : ∀ q ∈ qs, q.values.length = 1 := by
      intro q hq
      obtain ⟨m, -, hm⟩ := PJ.forall₂_right h3 hq
      obtain ⟨-, v, -, hv⟩ := hm
      simp [hv]
    refine ⟨?_, ?_⟩
    · intro p hp hv
      have := h2 p.key hv
      have hm : p.values ∈ paramsOf ps p.key := by
        unfold paramsOf
        exact List.mem_map_of_mem (List.mem_filter.mpr ⟨hp, by simp [Param.key]⟩)
      rw [← this] at hm
      unfold paramsOf at hm
      obtain ⟨q, hq, he⟩ := List.mem_map.mp hm
      rw [← he]
      exact hone q (List.mem_filter.mp hq).1
    · have hl : ∀ key, key ≠ "VALUE".toList → (paramsOf ps key).length ≤ 1 := by
        intro key hv
        rw [← h2 key hv]
        exact PJ.paramsOf_length hq key
      exact PJ.nodup_of_length hl
  · intro h ms hp
    obtain ⟨qs, h1, -, h2⟩ := PJ.read_single h hp
    exact ⟨qs, h1, h2⟩


/-! ### Values -/

/-- The values that the classes for a type hold: texts, integers, floating point numbers, two coordinates, durations
without weeks beside other units, offsets of less than a hundred hours, request statuses of two or three texts, and
the rules that can be written (`Writable`, C44). -/
inductive Fits : VType → PVal → Prop
  | plain {t s} (h : t ∈ [VType.text, .uri, .unknown, .binary, .calAddress]) : Fits t (.plain s)
  | int {n} : Fits .integer (.int n)
  | float {x} : Fits .float (.float x)
  | geo {x y} : Fits .geo (.geo [x, y])
  | duration {d : Duration} (h : Duration.Unmixed d) : Fits .duration (.duration d)
  | offset {n : Int} (h : n.natAbs < 360000) : Fits .utcOffset (.offset n)
  | status {l} (h : l.length = 2 ∨ l.length = 3) : Fits .requestStatus (.status l)
  | recur {r} (h : Writable r) : Fits .recur (.recur r)

namespace PJ

theorem strings (l : List (List Char)) :
    ((l.map JItem.str).mapM fun i => match i with
      | JItem.str s => some s
      | JItem.num _ => none) = some l := by
  induction l with
  | nil => rfl
  | cons a l ih => rw [List.map_cons, List.mapM_cons, ih]; rfl

/-- A value is read from what is written for it. -/
theorem value_back (sr strict : Bool) {t : VType} {x : PVal} (h : Fits t x) :
    ∃ d y, writeValue x = some d ∧ SameVal x y ∧ ∀ d', SameData d d' → readValue sr strict t d' = some y := by
  cases h with
  | @plain t s ht =>
    refine ⟨_, _, rfl, .refl _, fun d' hd => ?_⟩
    cases hd
    simp only [List.mem_cons, List.not_mem_nil, or_false] at ht
    rcases ht with rfl | rfl | rfl | rfl | rfl <;> rfl
  | int => exact ⟨_, _, rfl, .refl _, fun d' hd => by cases hd; rfl⟩
  | float => exact ⟨_, _, rfl, .refl _, fun d' hd => by cases hd; rfl⟩
  | geo => exact ⟨_, _, rfl, .refl _, fun d' hd => by cases hd; rfl⟩
  | @duration d h =>
    obtain ⟨d1, h1, h2⟩ := Duration.C15_parse_grammar _ _ (Duration.C15_generate_grammar d h) strict
    refine ⟨_, _, rfl, .duration h2, fun d' hd => ?_⟩
    cases hd
    simp only [readValue, JItem.text, h1]
    rfl
  | @offset n hn =>
    refine ⟨_, _, rfl, .refl _, fun d' hd => ?_⟩
    cases hd
    simp only [readValue, JItem.text]
    rw [C26_roundtrip_partial n hn]
    rfl
  | @status l hl =>
    match l, hl with
    | [a, b], _ => 
      exact ⟨_, _, rfl, .refl _, fun d' hd => by cases hd; exact congrArg (Option.map _) (strings [a, b])⟩
    | [a, b, c], _ =>
      exact ⟨_, _, rfl, .refl _, fun d' hd => by cases hd; exact congrArg (Option.map _) (strings [a, b, c])⟩
  | @recur r hr =>
    obtain ⟨ms, h1, h2⟩ := C83_roundtrip_partial sr r hr
    refine ⟨.obj ms, _, by rw [writeValue, h1]; rfl, .refl _, fun d' hd => ?_⟩
    cases hd with
    | refl => simp only [readValue, h2 ms .rfl]; rfl
    | obj hp => simp only [readValue, h2 _ hp]; rfl

theorem values_back (sr strict : Bool) {t : VType} {xs : List PVal} (h : ∀ x ∈ xs, Fits t x) :
    ∃ ds ys, xs.mapM writeValue = some ds ∧ List.Forall₂ SameVal xs ys ∧
      ∀ ds', List.Forall₂ SameData ds ds' → ds'.mapM (readValue sr strict t) = some ys := by
  induction xs with
  | nil => exact ⟨[], [], rfl, .nil, fun ds' h => by cases h; rfl⟩
  | cons x xs ih =>
    obtain ⟨d, y, h1, h5, h2⟩ := value_back sr strict (h x (by simp))
    obtain ⟨ds, ys, h3, h6, h4⟩ := ih fun y hy => h y (by simp [hy])
    refine ⟨d :: ds, y :: ys, by rw [List.mapM_cons, h1, h3]; rfl, .cons h5 h6, fun ds' hs => ?_⟩
    cases hs with
    | cons hd ht => rw [List.mapM_cons, h2 _ hd, h4 _ ht]; rfl

theorem mapM_congr' {α β : Type} {f g : α → Option β} {l : List α} (h : ∀ a ∈ l, f a = g a) :
    l.mapM f = l.mapM g := by
  induction l with
  | nil => rfl
  | cons a l ih => rw [List.mapM_cons, List.mapM_cons, h a (by simp), ih fun b hb => h b (by simp [hb])]

/-- The class for a type that no class is registered for reads what the class for `UNKNOWN` reads. -/
theorem readValue_made (sr strict : Bool) {S : Tables} {name : String} {t0 t : VType} {x : PVal}
    (ht : valueType S name false t0 = t) (hx : Fits t x) (d : JData) :
    readValue sr strict t0 d = readValue sr strict t d := by
  unfold valueType at ht
  split at ht
  · rw [ht]
  · have : t ≠ .date ∧ t ≠ .dateTime := by
      cases hx with
      | plain h => constructor <;> rintro rfl <;> simp at h
      | _ => simp
    cases t0 <;> simp [madeType, registered] at ht <;> subst ht <;> first | rfl | simp at this | skip
    all_goals
      cases d with
      | item i => cases i <;> rfl
      | real x => rfl
      | reals l => rfl
      | arr l => rfl
      | obj ms => rfl

theorem find_value {ps : List Param} (h : ∀ q ∈ ps, q.key ≠ "VALUE".toList) :
    valueParam ps = none := by
  unfold valueParam
  have : ps.find? (fun p => p.key = "VALUE".toList) = none := by
    rw [List.find?_eq_none]
    intro q hq
    simpa using h q hq
  rw [this]
  rfl

theorem find_value_last {ps : List Param} (h : ∀ q ∈ ps, q.key ≠ "VALUE".toList) (v : List Char) :
    valueParam (ps ++ [⟨"VALUE".toList, [v]⟩]) = some v := by
  unfold valueParam
  have h1 : ps.find? (fun p => p.key = "VALUE".toList) = none := by
    rw [List.find?_eq_none]
    intro q hq
    simpa using h q hq
  rw [List.find?_append, h1]
  rfl

theorem paramsOf_append_value (ps : List Param) (v : List Char) {key : List Char}
    (hk : key ≠ "VALUE".toList) :
    paramsOf (ps ++ [⟨"VALUE".toList, [v]⟩]) key = paramsOf ps key := by
  unfold paramsOf
  have : upper "VALUE".toList ≠ key := by
    have e : upper "VALUE".toList = "VALUE".toList := by decide
    rw [e]
    exact hk.symm
  rw [List.filter_append, List.filter_cons, decide_eq_false this]
  simp

theorem not_lost {t : VType} {xs : List PVal} {c : Prop} (hv : ∀ x ∈ xs, Fits t x)
    (hm : c ∧ xs ≠ [] ∨ xs.length = 1) : t ∉ lost := by
  have h0 : xs ≠ [] := by
    rcases hm with h | h
    · exact h.2
    · rintro rfl; cases h
  obtain ⟨x, hx⟩ := List.exists_mem_of_ne_nil _ h0
  cases hv x hx with
  | plain h =>
    simp only [List.mem_cons, List.not_mem_nil, or_false] at h
    rcases h with rfl | rfl | rfl | rfl | rfl <;> decide
  | _ => decide

/-- The property as it is read. -/
theorem property_back {S : Tables} (sr strict : Bool) {p : Prop'} (hs : Single p.params)
    (hv : ∀ x ∈ p.values, Fits p.type x)
    (hm : String.ofList (upper p.name) ∈ S.multi ∨ p.values.length = 1)
    (ht : throughJSON S (String.ofList (upper p.name)) p.type false = some p.type) :
    ∃ j, writeProp p = some j ∧
      ∀ j', SameJSON j j' → ∃ q, readProp S sr strict j' = some q ∧ SameProp p q ∧ q.group = none := by
  obtain ⟨ds, ys, h1, hsame, h2⟩ := values_back sr strict hv
  unfold throughJSON at ht
  obtain ⟨ty, hty, ht⟩ := Option.bind_eq_some_iff.mp ht
  refine ⟨⟨lower p.name, writeParams p.params, ty, ds⟩, by rw [writeProp, hty, h1], fun j' hj => ?_⟩
  obtain ⟨jn, jp, jt, jd⟩ := j'
  obtain ⟨e1, e2, e3, e4⟩ := hj
  simp only at e1 e2 e3 e4
  subst e1 e3
  obtain ⟨qs, h3, h4, h5⟩ := read_single hs e2
  unfold readTypeJSON at ht
  cases jt with
  | none => cases ht
  | some v =>
    simp only [Option.map_some, Option.some.injEq] at ht
    unfold readProp
    simp only [h3, upper_lower]
    generalize hps : addValue qs (jsonValue S (String.ofList (upper p.name)) v) = ps'
    have hval : (valueParam ps').map String.ofList = jsonValue S (String.ofList (upper p.name)) v := by
      rw [← hps]
      cases jsonValue S (String.ofList (upper p.name)) v with
      | none => simp only [addValue, find_value h4]; rfl
      | some w => simp only [addValue, find_value_last h4]; simp
    have hpar : ∀ key, key ≠ "VALUE".toList → paramsOf ps' key = paramsOf p.params key := by
      intro key hk
      rw [← hps, ← h5 key hk]
      cases jsonValue S (String.ofList (upper p.name)) v with
      | none => rfl
      | some w => exact paramsOf_append_value _ _ hk
    rw [hval]
    generalize hT : determine S (String.ofList (upper p.name))
      (jsonValue S (String.ofList (upper p.name)) v) = t0 at ht ⊢
    have hread : ∀ x ∈ p.values, ∀ d, readValue sr strict t0 d = readValue sr strict p.type d :=
      fun x hx d => readValue_made sr strict ht (hv x hx) d
    have hvals : (if String.ofList (upper p.name) ∈ S.multi then jd.mapM (readValue sr strict t0)
        else jd.head?.bind fun d => (readValue sr strict t0 d).map fun x => [x]) = some ys := by
      have h6 := h2 jd e4
      cases hxs : p.values with
      | nil =>
        rw [hxs] at h1 hsame
        simp at h1
        subst h1
        cases hsame
        cases e4
        have : String.ofList (upper p.name) ∈ S.multi := by
          rcases hm with h | h
          · exact h
          · rw [hxs] at h; cases h
        rw [if_pos this]
        rfl
      | cons x xs =>
        have hr := hread x (by rw [hxs]; simp)
        rw [hxs] at hsame
        split
        · rw [← h6]
          exact mapM_congr' fun d _ => hr d
        · rename_i hno
          have hl : xs = [] := by
            rcases hm with h | h
            · exact absurd h hno
            · rw [hxs] at h; simpa using h
          subst hl
          cases hsame with
          | @cons _ y _ ys hy0 hnil =>
          cases hnil
          match jd, h6 with
          | [], h6 => simp at h6
          | d :: jd, h6 =>
            rw [List.mapM_cons] at h6
            simp only [Option.pure_def, Option.bind_eq_bind, Option.bind_eq_some_iff,
              Option.some.injEq, List.cons.injEq] at h6
            obtain ⟨z, hy, zs, hys, rfl, rfl⟩ := h6
            simp only [List.head?_cons, Option.bind_some, hr, hy, Option.map_some]
    rw [hvals]
    exact ⟨_, rfl, ⟨upper_upper _, ht, hsame, hpar⟩, rfl⟩

end PJ

/-- C85, where it holds in iCalendar: a property whose parameters each stand alone with one value, and
whose values are texts, numbers, coordinates, durations, offsets, request statuses or rules, comes back the same: name
(but for case), parameters, type and values.  Missing: parameters with several values, and a type asked for with VALUE
that the library has no class for; date-times are in C81. -/
theorem C85_ical_partial {T : Tables} (hT : Program ical T) (sr strict : Bool) (p : Prop')
    (value : Option String)
    (hty : p.type = readType T (String.ofList (upper p.name)) value false)
    (hu : p.type = .unknown → readType T (String.ofList (upper p.name)) none false = .unknown)
    (hs : PJ.Single p.params) (hv : ∀ x ∈ p.values, Fits p.type x)
    (hm : String.ofList (upper p.name) ∈ T.multi ∧ p.values ≠ [] ∨ p.values.length = 1) :
    ∃ j, writeProp p = some j ∧
      ∀ j', SameJSON j j' → ∃ q, readProp T sr strict j' = some q ∧ SameProp p q := by
  have hl : p.type ∉ lost := PJ.not_lost hv hm
  have ht := (C82_ical_partial hT (String.ofList (upper p.name)) value false).mpr (by
    rw [← hty]; exact ⟨hl, hu⟩)
  rw [← hty] at ht
  obtain ⟨j, h1, h2⟩ := PJ.property_back sr strict hs hv (hm.imp_left And.left) ht
  exact ⟨j, h1, fun j' hj => by obtain ⟨q, h3, h4, -⟩ := h2 j' hj; exact ⟨q, h3, h4⟩⟩

/-- C85, where it holds in vCards. Missing: parameters with several values, groups, and types that only
the VALUE parameter tells and that jCal does not keep (C82). -/
theorem C85_vcard_partial (sr strict : Bool) (p : Prop') (value : Option String)
    (hty : p.type = readType vcard (String.ofList (upper p.name)) value false)
    (hu : p.type = .unknown ∨ p.type = .utcOffset →
      readType vcard (String.ofList (upper p.name)) none false = p.type)
    (hs : PJ.Single p.params) (hv : ∀ x ∈ p.values, Fits p.type x)
    (hm : String.ofList (upper p.name) ∈ vcard.multi ∧ p.values ≠ [] ∨ p.values.length = 1) :
    ∃ j, writeProp p = some j ∧
      ∀ j', SameJSON j j' → ∃ q, readProp vcard sr strict j' = some q ∧ SameProp p q ∧ q.group = none := by
  have hl : p.type ∉ lost := PJ.not_lost hv hm
  have ht := (C82_vcard_partial (String.ofList (upper p.name)) value false).mpr (by
    rw [← hty]; exact ⟨hl, hu⟩)
  rw [← hty] at ht
  exact PJ.property_back sr strict hs hv (hm.imp_left And.left) ht

namespace PJ

theorem two_d2 {n : Nat} (h : n < 100) : d2 n = two n := by
  have : ∀ k < 10, digitChar k = Char.ofNat (48 + k) := by decide
  rw [d2, two, this _ (by omega), this _ (by omega)]

theorem offset_form {n : Int} (h : n.natAbs < 360000) : OffsetText (utcOffsetGenerate true n) n := by
  refine ⟨n.natAbs / 3600, n.natAbs / 60 % 60, n.natAbs % 60, by omega, by omega, by omega, by omega, ?_⟩
  have e1 : padInt 2 (n.natAbs / 3600 : Nat) = two (n.natAbs / 3600) := by
    rw [padInt2 (by omega) (by omega)]; exact two_d2 (by omega)
  have e2 : padInt 2 (n.natAbs / 60 % 60 : Nat) = two (n.natAbs / 60 % 60) := by
    rw [padInt2 (by omega) (by omega)]; exact two_d2 (by omega)
  have e3 : padInt 2 (n.natAbs % 60 : Nat) = two (n.natAbs % 60) := by
    rw [padInt2 (by omega) (by omega)]; exact two_d2 (by omega)
  unfold utcOffsetGenerate
  simp only [e1, e2, e3]
  by_cases hn : n < 0 <;> by_cases hs : n.natAbs % 60 = 0 <;> simp [hn, hs]

theorem value_form {t : VType} {x : PVal} (h : Fits t x) :
    ∃ d, writeValue x = some d ∧ ValueForm JUntilText x d := by
  cases h with
  | plain => exact ⟨_, rfl, .plain _⟩
  | int => exact ⟨_, rfl, .int _⟩
  | float => exact ⟨_, rfl, .float _⟩
  | geo => exact ⟨_, rfl, .geo _ _⟩
  | duration h => exact ⟨_, rfl, .duration (Duration.C15_generate_grammar _ h)⟩
  | offset hn => exact ⟨_, rfl, .offset (offset_form hn)⟩
  | @status l hl =>
    match l, hl with
    | [a, b], _ => exact ⟨_, rfl, .status [a, b]⟩
    | [a, b, c], _ => exact ⟨_, rfl, .status [a, b, c]⟩
  | @recur r hr =>
    obtain ⟨ms, ps, h1, h2, h3⟩ := C83_written r hr
    exact ⟨.obj ms, by rw [writeValue, h1]; rfl, h3 ▸ .recur h2⟩

theorem values_form {t : VType} {xs : List PVal} (h : ∀ x ∈ xs, Fits t x) :
    ∃ ds, xs.mapM writeValue = some ds ∧ List.Forall₂ (ValueForm JUntilText) xs ds := by
  induction xs with
  | nil => exact ⟨[], rfl, .nil⟩
  | cons x xs ih =>
    obtain ⟨d, h1, h2⟩ := value_form (h x (by simp))
    obtain ⟨ds, h3, h4⟩ := ih fun y hy => h y (by simp [hy])
    exact ⟨d :: ds, by rw [List.mapM_cons, h1, h3]; rfl, .cons h2 h4⟩

theorem fits_identifier {t : VType} {x : PVal} (h : Fits t x) :
    jsonName t = some (identifier t) ∧ (identifier t).isSome := by
  cases h with
  | plain h =>
    simp only [List.mem_cons, List.not_mem_nil, or_false] at h
    rcases h with rfl | rfl | rfl | rfl | rfl <;> exact ⟨rfl, rfl⟩
  | _ => exact ⟨rfl, rfl⟩

end PJ

/-- C85: what is written has the form of RFC 7265. -/
theorem C85_written (p : Prop') (hs : PJ.Single p.params) (hv : ∀ x ∈ p.values, Fits p.type x)
    (h0 : p.values ≠ []) :
    ∃ j, writeProp p = some j ∧ PropertyForm JUntilText p j := by
  obtain ⟨ds, h1, h2⟩ := PJ.values_form hv
  obtain ⟨x, hx⟩ := List.exists_mem_of_ne_nil _ h0
  obtain ⟨h3, h4⟩ := PJ.fits_identifier (hv x hx)
  refine ⟨⟨lower p.name, writeParams p.params, identifier p.type, ds⟩, by rw [writeProp, h3, h1],
    rfl, ?_, ⟨(PJ.write_keys _).1, ?_⟩, ⟨rfl, h4⟩, h2⟩
  · intro key v
    show _ ∈ writeParams p.params ↔ _
    rw [PJ.write_single hs, List.mem_map]
    constructor
    · rintro ⟨q, hq, he⟩
      have := (PJ.sel_perm _).mem_iff.mp hq
      rw [List.mem_filter] at this
      have hne : q.key ≠ "VALUE".toList := by simpa using this.2
      obtain ⟨w, hw⟩ := List.length_eq_one_iff.mp (hs.1 q this.1 hne)
      simp only [Prod.mk.injEq, paramJSON, hw, JParam.one.injEq] at he
      exact ⟨q, this.1, he.1.symm, hne, by rw [hw, he.2]⟩
    · rintro ⟨q, hq, rfl, hne, hw⟩
      refine ⟨q, (PJ.sel_perm _).mem_iff.mpr (List.mem_filter.mpr ⟨hq, decide_eq_true hne⟩), ?_⟩
      simp [paramJSON, hw, lower]
  · intro m hm
    have hm : m ∈ writeParams p.params := hm
    rw [PJ.write_single hs, List.mem_map] at hm
    obtain ⟨q, hq, rfl⟩ := hm
    have := (PJ.sel_perm _).mem_iff.mp hq
    rw [List.mem_filter] at this
    obtain ⟨w, hw⟩ := List.length_eq_one_iff.mp (hs.1 q this.1 (by simpa using this.2))
    exact ⟨w, by simp [paramJSON, hw]⟩

/-- `RRULE` with a parameter and a VALUE parameter. -/
def PJ.sample : Prop' where
  name := "Rrule".toList
  params := [⟨"VALUE".toList, ["RECUR".toList]⟩, ⟨"X-Foo".toList, ["a;b".toList]⟩]
  type := .recur
  values := [.recur RJson.sample]

/-- It meets the hypotheses. -/
example : PJ.sample.type = readType ical (String.ofList (upper PJ.sample.name)) (some "RECUR") false ∧
    PJ.Single PJ.sample.params ∧ (∀ x ∈ PJ.sample.values, Fits PJ.sample.type x) := by
  refine ⟨by decide +kernel, by decide +kernel, ?_⟩
  intro x hx
  simp only [PJ.sample, List.mem_singleton] at hx
  subst hx
  exact .recur RJson.sample_writable

/-- The same for a time zone's offset, and what is written for it. -/
example : Fits .utcOffset (.offset (-16200)) ∧
    writeProp ⟨none, "TZOFFSETTO".toList, [⟨"X-A".toList, ["1".toList]⟩], .utcOffset, [.offset (-16200)]⟩ =
      some ⟨"tzoffsetto".toList, [("x-a".toList, .one "1".toList)], some "utc-offset",
        [.item (.str "-04:30".toList)]⟩ :=
  ⟨.offset (by decide), by decide +kernel⟩

/-- A list of texts in `CATEGORIES`. -/
example : (writeProp ⟨none, "CATEGORIES".toList, [], .text, [.plain ['a'], .plain ['b', ',']]⟩).bind
    (readProp ical true true) =
      some ⟨none, "CATEGORIES".toList, [], .text, [.plain ['a'], .plain ['b', ',']]⟩ := by
  decide +kernel

/-- C85 fails: a parameter with two values is written as an array, which is not read. -/
theorem C85_fails_values :
    writeProp ⟨none, "ATTENDEE".toList, [⟨"MEMBER".toList, ["mailto:a".toList, "mailto:b".toList]⟩],
        .calAddress, [.plain "mailto:c".toList]⟩ =
      some ⟨"attendee".toList, [("member".toList, .many ["mailto:a".toList, "mailto:b".toList])],
        some "cal-address", [.item (.str "mailto:c".toList)]⟩ ∧
    ∀ (S : Tables) (sr strict : Bool) name k vs ty data,
      readProp S sr strict ⟨name, [(k, .many vs)], ty, data⟩ = none :=
  ⟨by decide +kernel, fun _ _ _ _ _ _ _ _ => rfl⟩

/-- C85 fails: of two parameters of the same name the first is lost, and so is the group. -/
theorem C85_fails_repeated :
    (writeProp ⟨some "item1".toList, "TEL".toList, [⟨"TYPE".toList, ["HOME".toList]⟩,
        ⟨"TYPE".toList, ["FAX".toList]⟩], .text, [.plain "1".toList]⟩).bind (readProp vcard true true) =
      some ⟨none, "TEL".toList, [⟨"TYPE".toList, ["FAX".toList]⟩], .text, [.plain "1".toList]⟩ := by
  decide +kernel

/-- C85 fails: a request status that is a text (as for the other properties of type text) is taken apart
into its characters. -/
theorem C85_fails_status :
    readProp ical true true ⟨"request-status".toList, [], some "text", [.item (.str "2.0;Ok".toList)]⟩ =
      some ⟨none, "REQUEST-STATUS".toList, [], .requestStatus,
        [.status [['2'], ['.'], ['0'], [';'], ['O'], ['k']]]⟩ := by
  decide +kernel

/-- C85: an integer that is given as a text is read as that integer. -/
theorem C85_integerText (sr strict : Bool) (n : Int) :
    readProp ical sr strict ⟨"priority".toList, [], some "integer", [.item (.str (decInt n))]⟩ =
      some ⟨none, "PRIORITY".toList, [], .integer, [.int n]⟩ := by
  have h : pyInt (decInt n) = some n := by
    unfold decInt
    split
    · rw [Zonal.pyInt_minus]
      congr 1
      omega
    · rw [Zonal.pyInt_decNat]
      congr 1
      omega
  have hr : ∀ d, readProp ical sr strict ⟨"priority".toList, [], some "integer", [d]⟩ =
      ((readValue sr strict .integer d).map fun x => [x]).map fun vs =>
        ⟨none, "PRIORITY".toList, [], .integer, vs⟩ := by
    intro d
    have h1 : upper "priority".toList = "PRIORITY".toList := by decide +kernel
    have h2 : jsonValue ical (String.ofList "PRIORITY".toList) "integer" = none := by decide +kernel
    have h3 : determine ical (String.ofList "PRIORITY".toList) none = .integer := by decide +kernel
    have h4 : String.ofList "PRIORITY".toList ∉ ical.multi := by decide +kernel
    have h5 : valueType ical (String.ofList "PRIORITY".toList) false .integer = .integer := by
      decide +kernel
    simp only [readProp, readParams, List.mapM_nil, pure, h1, h2, addValue, valueParam, List.find?_nil,
      Option.bind_none, Option.map_none, h3, if_neg h4, h5, List.head?_cons, Option.bind_some]
  rw [hr, readValue, h]
  rfl

/-- Coordinates and a duration that are written and read. -/
example : Fits .geo (.geo [.fin false (3 / 2), .fin true 122]) ∧ Fits .duration (.duration (.ofSeconds (-5400))) ∧
    writeProp ⟨none, "GEO".toList, [], .geo, [.geo [.fin false (3 / 2), .fin true 122]]⟩ =
      some ⟨"geo".toList, [], some "float", [.reals [.fin false (3 / 2), .fin true 122]]⟩ ∧
    (writeProp ⟨none, "TRIGGER".toList, [], .duration, [.duration (.ofSeconds (-5400))]⟩).bind
        (readProp ical true true) =
      some ⟨none, "TRIGGER".toList, [], .duration, [.duration (.ofSeconds (-5400))]⟩ :=
  ⟨.geo, .duration (Duration.unmixed_ofSeconds _), by decide +kernel, by decide +kernel⟩

/-- C85 fails: any number of numbers is accepted as coordinates, and written so. -/
theorem C85_fails_geo (sr strict : Bool) (l : List Num.PyNum) :
    readProp ical sr strict ⟨"geo".toList, [], some "float", [.reals l]⟩ =
      some ⟨none, "GEO".toList, [], .geo, [.geo l]⟩ ∧
    writeProp ⟨none, "GEO".toList, [], .geo, [.geo l]⟩ = some ⟨"geo".toList, [], some "float", [.reals l]⟩ := by
  constructor
  · have h1 : upper "geo".toList = "GEO".toList := by decide +kernel
    have h2 : jsonValue ical (String.ofList "GEO".toList) "float" = none := by decide +kernel
    have h3 : determine ical (String.ofList "GEO".toList) none = .geo := by decide +kernel
    have h4 : String.ofList "GEO".toList ∉ ical.multi := by decide +kernel
    have h5 : valueType ical (String.ofList "GEO".toList) false .geo = .geo := by decide +kernel
    simp only [readProp, readParams, List.mapM_nil, pure, h1, h2, addValue, valueParam, List.find?_nil,
      Option.bind_none, Option.map_none, h3, if_neg h4, h5, List.head?_cons, Option.bind_some]
    rfl
  · unfold writeProp
    have h1 : lower "GEO".toList = "geo".toList := by decide +kernel
    simp only [List.mapM_cons, List.mapM_nil, writeValue, h1]
    rfl

/-- C85 fails: a number with a fraction is accepted where an integer should be, and the fraction is lost. -/
theorem C85_fails_fraction : readProp ical true true ⟨"priority".toList, [], some "integer", [.real (.fin true (7 / 2))]⟩ =
    some ⟨none, "PRIORITY".toList, [], .integer, [.int (-3)]⟩ := by
  decide +kernel

/-- C85 fails: of a request status with more than three parts only the code and the description are
written. -/
theorem C85_fails_parts (sr strict : Bool) (a b c d : List Char) (l : List (List Char)) :
    (writeProp ⟨none, "REQUEST-STATUS".toList, [], .requestStatus, [.status (a :: b :: c :: d :: l)]⟩).bind
        (readProp ical sr strict) =
      some ⟨none, "REQUEST-STATUS".toList, [], .requestStatus, [.status [a, b]]⟩ := by
  have h : (c :: d :: l).length ≠ 1 := by simp
  have hw : writeProp ⟨none, "REQUEST-STATUS".toList, [], .requestStatus,
      [.status (a :: b :: c :: d :: l)]⟩ =
      some ⟨"request-status".toList, [], some "text", [.arr [.str a, .str b]]⟩ := by
    unfold writeProp
    have h1 : lower "REQUEST-STATUS".toList = "request-status".toList := by decide +kernel
    simp only [List.mapM_cons, List.mapM_nil, writeValue, if_neg h, h1]
    rfl
  rw [hw]
  have h1 : upper "request-status".toList = "REQUEST-STATUS".toList := by decide +kernel
  have h2 : jsonValue ical (String.ofList "REQUEST-STATUS".toList) "text" = none := by decide +kernel
  have h3 : determine ical (String.ofList "REQUEST-STATUS".toList) none = .requestStatus := by
    decide +kernel
  have h4 : String.ofList "REQUEST-STATUS".toList ∉ ical.multi := by decide +kernel
  have h5 : valueType ical (String.ofList "REQUEST-STATUS".toList) false .requestStatus =
      .requestStatus := by decide +kernel
  simp only [readProp, readParams, List.mapM_nil, pure, h1, h2, addValue, valueParam, List.find?_nil,
    Option.bind_none, Option.map_none, h3, if_neg h4, h5, List.head?_cons, Option.bind_some]
  rfl

end PyCal
