import Mathlib.Data.List.Induction
import Mathlib.Tactic.FinCases
import Mathlib.Tactic.Tauto
import Verif.Spec.Line
import Verif.Props.C20_C21_Escaping

/-!
# C46: what is generated for a property is read back as it was

Also C58: reading a property line ends.
-/

namespace PyCal
open PropText Spec

namespace Line46

theorem dupToken_token {e tokens : List Char} {d : Char} {r : List Char} (hd : d ∈ tokens)
    (hd1 : d ≠ ' ') (hd2 : d ≠ '"') (he : ∀ c ∈ e, c ∉ tokens) (hs : e.head? ≠ some ' ')
    (hq : '"' ∉ e) : dupToken (e ++ d :: r) tokens = some (some e, d :: r) := by
  have key : (e ++ d :: r).takeWhile (fun c => decide (c ∉ tokens)) = e ∧
      (e ++ d :: r).dropWhile (fun c => decide (c ∉ tokens)) = d :: r := by
    constructor
    · rw [List.takeWhile_append_of_pos (by simpa using he)]
      simp [hd]
    · rw [List.dropWhile_append_of_pos (by simpa using he)]
      simp [hd]
  cases e with
  | nil =>
    simp only [List.nil_append, dupToken, if_neg hd1]
    split
    · simp_all
    · simp_all
    · simp [hd]
  | cons c e =>
    have hc : c ≠ ' ' := by simpa using hs
    have hc2 : c ≠ '"' := by rintro rfl; simp at hq
    simp only [List.cons_append, dupToken, if_neg hc]
    split
    · simp_all
    · simp_all
    · rw [List.cons_append] at key
      rw [key.1, key.2]

/-- After a text read with `skip`, is the next character skipped? -/
def escState (skip : Bool) : List Char → Bool
  | [] => skip
  | c :: e => escState (!skip && decide (c = '\\')) e

theorem scanQuoted_append {e : List Char} (hq : '"' ∉ e) (r : List Char) : ∀ skip : Bool,
    scanQuoted skip (e ++ '"' :: r) =
      if escState skip e then (scanQuoted false r).map fun v => (e ++ '"' :: v.1, v.2)
      else some (e, r) := by
  induction e with
  | nil =>
    intro skip
    cases skip <;> simp [scanQuoted, escState]
  | cons c e ih =>
    intro skip
    have hc : c ≠ '"' := by rintro rfl; simp at hq
    have hq' : '"' ∉ e := fun h => hq (List.mem_cons_of_mem _ h)
    cases skip with
    | true =>
      simp only [List.cons_append, scanQuoted, if_true, escState, Bool.not_true, Bool.false_and]
      rw [ih hq' false]
      split <;> simp [Function.comp_def]
    | false =>
      simp only [List.cons_append, scanQuoted, escState, Bool.not_false, Bool.true_and, hc, if_false,
        Bool.false_eq_true]
      rw [ih hq']
      split <;> simp [Function.comp_def]

theorem escState_append (e f : List Char) (skip : Bool) :
    escState skip (e ++ f) = escState (escState skip e) f := by
  induction e generalizing skip with
  | nil => rfl
  | cons c e ih => exact ih _

theorem escState_encode (v : List Char) : ∀ (skip : Bool) (last : Option Char),
    (last = some '\r' → skip = false) → escState skip (encodeParamLoop last v) = escState skip v := by
  induction v with
  | nil => intros; rfl
  | cons c v ih =>
    intro skip last h
    rw [encodeParamLoop, escState_append]
    have hr : c = '\r' → (!skip && decide (c = '\\')) = false := by rintro rfl; simp
    have h1 : escState skip (if c = '\r' then ['^', 'n']
       else if c = '\n' then (if last ≠ some '\r' then ['^', 'n'] else [])
       else if c = '"' then ['^', '\'']
       else if c = '^' then ['^', '^']
       else [c]) = (!skip && decide (c = '\\')) := by
      split_ifs with h1 h2 h3 h4 h5
      all_goals try subst h1
      all_goals try subst h2
      all_goals try subst h4
      all_goals try subst h5
      all_goals simp_all [escState]
    rw [h1, ih _ (some c) (by simpa using hr)]
    rfl

theorem escState_trailing (v : List Char) :
    escState false v = decide (trailingBackslashes v % 2 = 1) := by
  induction v using List.reverseRecOn with
  | nil => rfl
  | append_singleton v c ih =>
    rw [escState_append, ih]
    unfold trailingBackslashes
    simp only [escState, List.reverse_append, List.reverse_cons, List.reverse_nil, List.nil_append,
      List.singleton_append, List.takeWhile_cons]
    by_cases hc : c = '\\'
    · simp only [hc, decide_true, Bool.and_true, if_true, List.length_cons]
      rw [← decide_not, decide_eq_decide]
      omega
    · simp [hc]

/-- The characters that the encoding leaves alone are there before and after. -/
theorem mem_encodeLoop {d : Char} (h : d ∉ ['\r', '\n', '"', '^', 'n', '\'']) (v : List Char) :
    ∀ last, d ∈ encodeParamLoop last v ↔ d ∈ v := by
  simp only [List.mem_cons, List.not_mem_nil, or_false, not_or] at h
  obtain ⟨h1, h2, h3, h4, h5, h6⟩ := h
  induction v with
  | nil => intro last; simp [encodeParamLoop]
  | cons c v ih =>
    intro last
    rw [encodeParamLoop, List.mem_append, ih, List.mem_cons]
    refine or_congr ?_ Iff.rfl
    split_ifs <;> simp_all

theorem head_encodeLoop (v : List Char) (last : Option Char) (hl : last = none ∨ v.head? ≠ some '\n')
     : (encodeParamLoop last v).head? = some ' ' ↔ v.head? = some ' ' := by
  cases v with
  | nil => simp [encodeParamLoop]
  | cons c v =>
    rw [encodeParamLoop]
    split_ifs <;> simp_all

theorem rfc_append (v t : List Char) : ∀ last,
    rfc6868Decode (encodeParamLoop last v ++ t) =
      rfc6868Decode (encodeParamLoop last v) ++ rfc6868Decode t := by
  induction v with
  | nil => intro last; rfl
  | cons c v ih =>
    intro last
    rw [encodeParamLoop, List.append_assoc]
    split_ifs with h1 h2 h3 h4 h5
    · simp only [List.cons_append, List.nil_append, rfc6868Decode, ih]
    · simp only [List.cons_append, List.nil_append, rfc6868Decode, ih]
    · exact ih _
    · simp only [List.cons_append, List.nil_append, rfc6868Decode, ih]
    · simp only [List.cons_append, List.nil_append, rfc6868Decode, ih]
    · have hp : ∀ l, rfc6868Decode (c :: l) = c :: rfc6868Decode l := by
        intro l
        rw [rfc6868Decode.eq_def]
        split <;> simp_all
      simp only [List.singleton_append, List.nil_append, List.cons_append, hp, ih]

theorem quoted_iff (v : List Char) :
    (':' ∈ encodeParam v ∨ ';' ∈ encodeParam v ∨ ',' ∈ encodeParam v) ↔
      (':' ∈ v ∨ ';' ∈ v ∨ ',' ∈ v) := by
  rw [encodeParam_eq, mem_encodeLoop (by decide), mem_encodeLoop (by decide),
    mem_encodeLoop (by decide)]

theorem noquote (v : List Char) : '"' ∉ encodeParam v := fun h => (C21_encoded_safe v _ h).1 rfl

/-- A generated value is read back in its encoded form. -/
theorem dupToken_value {v : List Char} (hv : ValueOk v) {d : Char} (hd : d ∈ [':', ';', ','])
    (r : List Char) :
    dupToken (genValue v ++ d :: r) [':', ';', ','] = some (some (encodeParam v), d :: r) := by
  unfold ValueOk at hv
  rw [genValue]
  simp only [quoted_iff]
  split_ifs at hv ⊢ with h
  · simp only [List.cons_append, dupToken, List.append_assoc, List.nil_append]
    rw [if_neg (by decide)]
    have hs := scanQuoted_append (noquote v) (d :: r) false
    rw [encodeParam_eq, escState_encode v _ _ (by simp), escState_trailing, ← encodeParam_eq] at hs
    rw [if_neg (by simp; omega)] at hs
    simp only [hs]
  · apply dupToken_token hd
    · rintro rfl; simp at hd
    · rintro rfl; simp at hd
    · intro c hc
      have := (quoted_iff v).not.mpr h
      simp only [not_or] at this
      simp only [List.mem_cons, List.not_mem_nil, or_false, not_or]
      refine ⟨?_, ?_, ?_⟩ <;> rintro rfl
      · exact this.1 hc
      · exact this.2.1 hc
      · exact this.2.2 hc
    · rw [encodeParam_eq]
      rwa [ne_eq, head_encodeLoop v none (Or.inl rfl)]
    · exact noquote v

theorem joinSep_cons (a : List Char) (l : List (List Char)) :
    joinSep ',' (a :: l) = a ++ l.flatMap fun v => ',' :: v := by
  induction l generalizing a with
  | nil => simp [joinSep]
  | cons b l ih => rw [joinSep, ih]; simp

theorem parseValues_eq {vs : List (List Char)} (hvs : ∀ v ∈ vs, ValueOk v) {d : Char}
    (hd : d ∈ [':', ';']) (r : List Char) :
    parseValues ((vs.map genValue).flatMap (fun v => ',' :: v) ++ d :: r) =
      some (vs.map normaliseBreaks, d :: r) := by
  induction vs with
  | nil =>
    rw [parseValues.eq_def]
    simp only [List.map_nil, List.flatMap_nil, List.nil_append]
    rw [if_neg (by rintro rfl; simp at hd)]
  | cons v vs ih =>
    rw [parseValues.eq_def]
    simp only [List.map_cons, List.flatMap_cons, List.cons_append, List.append_assoc, if_true]
    have hk : dupToken (genValue v ++ ((vs.map genValue).flatMap (fun v => ',' :: v) ++ d :: r))
        [':', ';', ','] = some (some (encodeParam v),
          (vs.map genValue).flatMap (fun v => ',' :: v) ++ d :: r) := by
      cases vs with
      | nil => exact dupToken_value (hvs v (by simp)) (by simp at hd ⊢; tauto) r
      | cons w vs =>
        simp only [List.map_cons, List.flatMap_cons, List.cons_append]
        exact dupToken_value (hvs v (by simp)) (by simp) _
    have ih' := ih fun w hw => hvs w (List.mem_cons_of_mem _ hw)
    split
    · rename_i v' t' hd'
      rw [hk] at hd'
      simp only [Option.some.injEq, Prod.mk.injEq] at hd'
      obtain ⟨rfl, rfl⟩ := hd'
      rw [ih', C21_roundtrip]
      rfl
    · rename_i hno
      exact absurd hk (hno _ _)

/-- What reading gives for a parameter. -/
def readBack (p : Param) : Param :=
  ⟨p.name, (p.values.insertionSort (· ≤ ·)).map normaliseBreaks⟩

/-- A parameter that is read back: the name is a token and each value `ValueOk`; only in vCard it may
have no values, if it is not called `BASE64`. -/
def ParamOk (vcard : Bool) (cfg : Config) (p : Param) : Prop :=
  Token p.name ∧ (∀ v ∈ p.values, ValueOk v) ∧
    (p.values = [] → vcard = true ∧ cfg.noValues = .allow ∧ upper p.name ≠ "BASE64".toList)

theorem token_dup {name : List Char} (h : Token name) {d : Char} {tokens : List Char}
    (hd : d ∈ tokens) (ht : ∀ c ∈ tokens, c ∈ ['=', ':', ';']) (r : List Char) :
    dupToken (name ++ d :: r) tokens = some (some name, d :: r) := by
  have hd' := ht d hd
  apply dupToken_token hd
  · rintro rfl; simp at hd'
  · rintro rfl; simp at hd'
  · intro c hc hc'
    have h1 := h.2 c hc
    have h2 := ht c hc'
    simp at h1 h2
    tauto
  · cases name with
    | nil => simp
    | cons c name =>
      have := h.2 c (by simp)
      simp at this ⊢
      tauto
  · intro hq
    have := h.2 _ hq
    simp at this

theorem parseParam_gen {vcard : Bool} {cfg : Config} {p : Param} (hp : ParamOk vcard cfg p)
    {d : Char} (hd : d ∈ [':', ';']) (r : List Char) :
    ∃ v t, parseParam vcard cfg (genParam p ++ d :: r) = some ((p.name, v), t, false) ∧
      ∃ vs, parseValues t = some (vs, d :: r) ∧ v.toList ++ vs = (readBack p).values := by
  obtain ⟨hn, hv, he⟩ := hp
  by_cases h0 : p.values = []
  · obtain ⟨rfl, ha, hb⟩ := he h0
    refine ⟨none, d :: r, ?_, [], ?_, ?_⟩
    · rw [parseParam, genParam, if_pos h0, List.append_nil, if_pos rfl,
        token_dup hn (by simp at hd ⊢; tauto) (by simp)]
      simp only
      split
      · simp_all
      · simp_all
      · rw [if_pos ha, if_neg (by tauto)]
    · exact parseValues_eq (vs := []) (by simp) hd r
    · simp [readBack, h0]
  · have hperm := List.perm_insertionSort (· ≤ ·) p.values
    rw [parseParam, genParam, if_neg h0]
    unfold readBack
    simp only
    generalize hs : p.values.insertionSort (· ≤ ·) = s at hperm
    cases s with
    | nil => exact absurd (List.nil_perm.mp hperm) h0
    | cons v vs =>
      have hv' : ∀ w ∈ v :: vs, ValueOk w := fun w hw => hv w (hperm.subset hw)
      have hval : dupToken (genValue v ++ ((vs.map genValue).flatMap (fun v => ',' :: v) ++ d :: r))
          [':', ';', ','] = some (some (encodeParam v),
            (vs.map genValue).flatMap (fun v => ',' :: v) ++ d :: r) := by
        cases vs with
        | nil => exact dupToken_value (hv' v (by simp)) (by simp at hd ⊢; tauto) r
        | cons w vs =>
          simp only [List.map_cons, List.flatMap_cons, List.cons_append]
          exact dupToken_value (hv' v (by simp)) (by simp) _
      refine ⟨some (normaliseBreaks v), (vs.map genValue).flatMap (fun v => ',' :: v) ++ d :: r, ?_,
        vs.map normaliseBreaks, parseValues_eq (fun w hw => hv' w (List.mem_cons_of_mem _ hw)) hd r, ?_⟩
      · simp only [List.map_cons, joinSep_cons, List.append_assoc, List.cons_append]
        rw [token_dup hn (by simp) (by simp), token_dup hn (by simp) (by simp)]
        simp only [List.tail_cons, hval, C21_roundtrip, ite_self]
      · simp

theorem parseParams_gen {vcard : Bool} {cfg : Config} {ps : List Param}
    (hp : ∀ p ∈ ps, ParamOk vcard cfg p) (value : List Char) :
    parseParams vcard cfg false ((ps.flatMap fun p => ';' :: genParam p) ++ ':' :: value) =
      .ok (ps.map readBack, some value) := by
  induction ps with
  | nil =>
    rw [parseParams.eq_def]
    simp
  | cons p ps ih =>
    have ih' := ih fun q hq => hp q (List.mem_cons_of_mem _ hq)
    have hd : ∃ d ∈ [':', ';'], ∃ r,
        (ps.flatMap fun p => ';' :: genParam p) ++ ':' :: value = d :: r := by
      cases ps with
      | nil => exact ⟨':', by simp, value, by simp⟩
      | cons q ps => exact ⟨';', by simp, _, by simp only [List.flatMap_cons, List.cons_append]; rfl⟩
    obtain ⟨d, hd, r, hr⟩ := hd
    obtain ⟨v, t, h1, vs, h2, h3⟩ := parseParam_gen (hp p (by simp)) hd r
    rw [parseParams.eq_def]
    simp only [List.flatMap_cons, List.cons_append, List.append_assoc, hr, if_true]
    split
    · rename_i hno
      rw [h1] at hno
      simp at hno
    · rename_i name v' t1 s hs
      rw [h1] at hs
      simp only [Option.some.injEq, Prod.mk.injEq] at hs
      obtain ⟨⟨rfl, rfl⟩, rfl, rfl⟩ := hs
      split
      · rename_i hno
        rw [h2] at hno
        simp at hno
      · rename_i vs' t2 hs
        rw [h2] at hs
        simp only [Option.some.injEq, Prod.mk.injEq] at hs
        obtain ⟨rfl, rfl⟩ := hs
        rw [← hr, Bool.or_self, ih', h3]
        rfl

theorem filter_insert (k : List Char) (p : Param) (l : List Param) :
    (l.orderedInsert (fun a b => a.key ≤ b.key) p).filter (fun p => decide (p.key = k)) =
      (p :: l).filter (fun p => decide (p.key = k)) := by
  induction l with
  | nil => rfl
  | cons q l ih =>
    rw [List.orderedInsert_cons]
    split
    · rfl
    · rename_i h
      rw [List.filter_cons, ih]
      by_cases h1 : p.key = k <;> by_cases h2 : q.key = k
      · exact absurd (le_of_eq (h1.trans h2.symm)) h
      all_goals simp [List.filter_cons, h1, h2]

theorem filter_sort (k : List Char) (l : List Param) :
    (l.insertionSort fun a b => a.key ≤ b.key).filter (fun p => decide (p.key = k)) =
      l.filter (fun p => decide (p.key = k)) := by
  induction l with
  | nil => rfl
  | cons p l ih =>
    rw [List.insertionSort_cons, filter_insert, List.filter_cons, List.filter_cons, ih]

theorem same_readBack (p : Param) : SameParam p (readBack p) := by
  refine ⟨rfl, (List.perm_insertionSort _ _).map _, fun h => ?_⟩
  show (p.values.insertionSort (· ≤ ·)).map normaliseBreaks = _
  rw [h.insertionSort_eq]

theorem same_sorted (ps : List Param) :
    SameParams ps ((ps.insertionSort fun a b => a.key ≤ b.key).map readBack) := by
  intro k
  have : ((ps.insertionSort fun a b => a.key ≤ b.key).map readBack).filter
      (fun p => decide (p.key = k)) = (ps.filter fun p => decide (p.key = k)).map readBack := by
    rw [List.filter_map, ← filter_sort k ps]
    rfl
  rw [this, List.forall₂_map_right_iff, List.forall₂_same]
  exact fun p _ => same_readBack p

end Line46
open Line46

/-- C46: the text generated for a property is read back as the same group, name, parameters and
value text, if the names are tokens and each parameter value is `ValueOk`.  Missing: values that are
not (`C46_value_iff`), values of one parameter come back in ascending order, and carriage returns as
line feeds. -/
theorem C46_roundtrip_partial (vcard : Bool) (cfg : Config) (l : Line) (hn : Token l.name)
    (hg : l.group = none ∨ vcard = true ∧ ∃ g, l.group = some g ∧ Token g)
    (hp : ∀ p ∈ l.params, Token p.name ∧ (∀ v ∈ p.values, ValueOk v) ∧
      (p.values = [] → vcard = true ∧ cfg.noValues = .allow ∧ upper p.name ≠ "BASE64".toList)) :
    ∃ ps, parseText vcard cfg (generate l) = .ok (l.group, l.name, ps, some l.value) ∧
      SameParams l.params ps := by
  obtain ⟨group, name, params, value⟩ := l
  simp only at hn hg hp
  refine ⟨(params.insertionSort fun a b => a.key ≤ b.key).map readBack, ?_, same_sorted params⟩
  have hps := parseParams_gen (vcard := vcard) (cfg := cfg)
    (ps := params.insertionSort fun a b => a.key ≤ b.key)
    (fun p h => hp p ((List.perm_insertionSort _ _).subset h)) value
  have hd : ∃ d ∈ [';', ':'], ∃ r,
      ((params.insertionSort fun a b => a.key ≤ b.key).flatMap fun p => ';' :: genParam p) ++
        ':' :: value = d :: r := by
    cases params.insertionSort fun a b => a.key ≤ b.key with
    | nil => exact ⟨':', by simp, value, by simp⟩
    | cons q ps => exact ⟨';', by simp, _, by simp only [List.flatMap_cons, List.cons_append]; rfl⟩
  obtain ⟨d, hd, r, hr⟩ := hd
  have hdot : ∀ {s}, Token s → '.' ∉ s := fun h hm => by simpa using h.2 _ hm
  rcases hg with rfl | ⟨rfl, g, rfl, hg⟩
  · simp only [parseText, generate, List.nil_append, List.append_assoc]
    rw [hr, token_dup hn hd (by simp), ← hr]
    simp only [if_neg hn.1, hps, splitGroup, if_neg (hdot hn), ite_self]
  · have hgn : dupToken ((g ++ '.' :: name) ++ d :: r) [';', ':'] =
        some (some (g ++ '.' :: name), d :: r) := by
      apply dupToken_token hd
      · rintro rfl; simp at hd
      · rintro rfl; simp at hd
      · intro c hc
        rw [List.mem_append, List.mem_cons] at hc
        rcases hc with hc | rfl | hc
        · have := hg.2 c hc; simp at this ⊢; tauto
        · decide
        · have := hn.2 c hc; simp at this ⊢; tauto
      · cases g with
        | nil => exact absurd rfl hg.1
        | cons c g =>
          have := hg.2 c (by simp)
          simp at this ⊢
          tauto
      · intro hc
        rw [List.mem_append, List.mem_cons] at hc
        rcases hc with hc | hc | hc
        · have := hg.2 _ hc; simp at this
        · simp at hc
        · have := hn.2 _ hc; simp at this
    simp only [parseText, generate, if_neg hg.1]
    have he : g ++ ['.'] ++ name ++ ((params.insertionSort fun a b => a.key ≤ b.key).flatMap
        fun p => ';' :: genParam p) ++ ':' :: value = (g ++ '.' :: name) ++ d :: r := by
      rw [← hr]; simp
    rw [he, hgn, ← hr]
    have hne : g ++ '.' :: name ≠ [] := by simp
    have hp : ∀ c ∈ g, decide (c ≠ '.') = true := by
      intro c hc
      simp only [decide_eq_true_eq]
      rintro rfl
      exact hdot hg hc
    simp only [if_neg hne, hps, splitGroup, if_true]
    rw [if_pos (by simp), List.takeWhile_append_of_pos hp, List.dropWhile_append_of_pos hp]
    simp

/-- A case with every feature: group, two parameters with the same key, a parameter without a value,
values that need quotes and encoding, and values out of order. -/
example : ∃ l : Line, Token l.name ∧ (l.group = none ∨ ∃ g, l.group = some g ∧ Token g) ∧
    (∀ p ∈ l.params, ParamOk true {} p) ∧ l.params.length = 4 ∧
    parseText true {} (generate l) = .ok (some "item1".toList, "TEL".toList,
      [⟨"Type".toList, ["cell".toList, "home;x".toList]⟩, ⟨"TYPE".toList, [['"', '\n', '^']]⟩,
       ⟨"X-A".toList, [[]]⟩, ⟨"x-b".toList, []⟩], some "1;2:3".toList) :=
  ⟨⟨some "item1".toList, "TEL".toList,
    [⟨"x-b".toList, []⟩, ⟨"Type".toList, ["home;x".toList, "cell".toList]⟩, ⟨"X-A".toList, [[]]⟩,
     ⟨"TYPE".toList, [['"', '\n', '^']]⟩], "1;2:3".toList⟩, by decide, by decide +kernel,
    by unfold ParamOk; decide +kernel, by decide, by decide +kernel⟩

/-! ## Which values survive -/

namespace Line46

theorem normaliseBreaks_length (v : List Char) : (normaliseBreaks v).length ≤ v.length := by
  induction v using normaliseBreaks.induct with
  | case1 s ih => simp only [normaliseBreaks, List.length_cons]; omega
  | case2 s _ ih => rw [normaliseBreaks]; simp only [List.length_cons]; omega; assumption
  | case3 c s _ _ ih => rw [normaliseBreaks]; simp only [List.length_cons]; omega; all_goals assumption
  | case4 => simp [normaliseBreaks]

theorem normaliseBreaks_prefix (v : List Char) :
    normaliseBreaks v <+: v → '\r' ∉ v := by
  induction v using normaliseBreaks.induct with
  | case1 s ih => intro h; simp [normaliseBreaks, List.cons_prefix_cons] at h
  | case2 s _ ih =>
    intro h
    rw [normaliseBreaks] at h
    · simp [List.cons_prefix_cons] at h
    · assumption
  | case3 c s h1 h2 ih =>
    intro h
    rw [normaliseBreaks] at h
    · rw [List.cons_prefix_cons] at h
      simp only [List.mem_cons, not_or]
      refine ⟨?_, ih h.2⟩
      rintro rfl
      exact h2 rfl
    · assumption
    · assumption
  | case4 => simp

theorem lstrip_encode (w : List Char) : ∀ last : Option Char, last ≠ some '\r' →
    ∃ last' w', last' ≠ some '\r' ∧ w' <:+ w ∧
      (encodeParamLoop last w).dropWhile isSpace = encodeParamLoop last' w' := by
  induction w with
  | nil => intro last h; exact ⟨last, [], h, List.suffix_refl _, rfl⟩
  | cons c w ih =>
    intro last h
    by_cases hc : isSpace c = true ∧ c ≠ '\r' ∧ c ≠ '\n'
    · obtain ⟨l', w', h1, h2, h3⟩ := ih (some c) (by simpa using hc.2.1)
      refine ⟨l', w', h1, h2.trans (List.suffix_cons _ _), ?_⟩
      rw [encodeParamLoop, if_neg hc.2.1, if_neg hc.2.2, if_neg (by rintro rfl; exact absurd hc.1 (by decide)),
        if_neg (by rintro rfl; exact absurd hc.1 (by decide)), List.singleton_append,
        List.dropWhile_cons_of_pos hc.1, h3]
    · refine ⟨last, c :: w, h, List.suffix_refl _, ?_⟩
      have hs : isSpace '^' = false := by decide
      rw [encodeParamLoop]
      split_ifs with h1 h2 h3 h4
      all_goals simp only [List.cons_append, List.nil_append, List.dropWhile_cons, hs]
      all_goals simp_all

theorem dropWhile_stop (p : Char → Bool) {d : Char} (hd : p d = false) (e r : List Char) :
    (e ++ d :: r).dropWhile p = e.dropWhile p ++ d :: r := by
  induction e with
  | nil => simp [hd]
  | cons c e ih =>
    simp only [List.cons_append, List.dropWhile_cons]
    split
    · exact ih
    · rfl

/-- If the token read for a generated value decodes to the value, the value is `ValueOk`. -/
theorem valueOk_of_read {v value tok t : List Char}
    (h : dupToken (genValue v ++ ':' :: value) [':', ';', ','] = some (some tok, t))
    (hd : decodeParam tok = v) : ValueOk v := by
  unfold ValueOk
  rw [genValue] at h
  simp only [quoted_iff] at h
  split_ifs at h ⊢ with hq
  · by_contra hodd
    have hs := scanQuoted_append (noquote v) (':' :: value) false
    rw [encodeParam_eq, escState_encode v _ _ (by simp), escState_trailing, ← encodeParam_eq,
      if_pos (by simp; omega)] at hs
    simp only [List.cons_append, dupToken, List.append_assoc, List.nil_append] at h
    rw [if_neg (by decide)] at h
    simp only [hs] at h
    cases hsc : scanQuoted false (':' :: value) with
    | none => rw [hsc] at h; simp at h
    | some r =>
      rw [hsc] at h
      simp only [Option.map_some, Option.some.injEq, Prod.mk.injEq] at h
      rw [← h.1, C21_decode_rfc, encodeParam_eq, rfc_append, (decode_encodeLoop v).1] at hd
      have hcr := normaliseBreaks_prefix v ⟨_, hd⟩
      have hex : normaliseBreaks v = v := by
        rw [← C21_roundtrip, C21_roundtrip_exact v hcr]
      rw [hex] at hd
      have hlen := congrArg List.length hd
      have hpos : (rfc6868Decode ('"' :: r.1)).length ≠ 0 := by
        rw [rfc6868Decode.eq_def]
        simp
      simp only [List.length_append] at hlen
      omega
  · intro hsp
    cases v with
    | nil => simp at hsp
    | cons c w =>
      simp only [List.head?_cons, Option.some.injEq] at hsp
      subst hsp
      have he : encodeParam (' ' :: w) = ' ' :: encodeParamLoop (some ' ') w := by
        rw [encodeParam_eq, encodeParamLoop]; rfl
      obtain ⟨l', w', h1, h2, h3⟩ := lstrip_encode w (some ' ') (by decide)
      rw [he] at h
      simp only [List.cons_append, dupToken, if_true] at h
      rw [List.dropWhile_cons_of_pos (by decide), dropWhile_stop isSpace (by decide), h3] at h
      have hno : ∀ d ∈ [':', ';', ','], d ∉ encodeParamLoop l' w' := by
        intro d hd hm
        rw [mem_encodeLoop (by fin_cases hd <;> decide)] at hm
        apply hq
        have := List.mem_cons_of_mem ' ' (h2.subset hm)
        fin_cases hd
        · exact Or.inl this
        · exact Or.inr (Or.inl this)
        · exact Or.inr (Or.inr this)
      have hl : encodeParamLoop l' w' = encodeParam w' := by
        rw [encodeParam_eq]
        exact encodeParamLoop_last (Or.inr h1)
      rw [hl] at h hno
      have htok : tok = encodeParam w' := by
        split at h
        · simp_all
        · rename_i rest heq
          exfalso
          cases hw : encodeParam w' with
          | nil => rw [hw] at heq; simp at heq
          | cons a b =>
            rw [hw] at heq
            simp only [List.cons_append, List.cons.injEq] at heq
            have := noquote w'
            rw [hw, heq.1] at this
            simp at this
        · simp only [Option.some.injEq, Prod.mk.injEq] at h
          rw [List.takeWhile_append_of_pos] at h
          · simpa using h.1.symm
          · intro c hc
            simp only [decide_eq_true_eq]
            exact fun hm => hno c hm hc
      rw [htok, C21_roundtrip] at hd
      have hlen := congrArg List.length hd
      have := normaliseBreaks_length w'
      have := h2.length_le
      simp only [List.length_cons] at hlen
      omega

theorem generate_one (name n v value : List Char) :
    generate ⟨none, name, [⟨n, [v]⟩], value⟩ =
      name ++ ';' :: (n ++ '=' :: (genValue v ++ ':' :: value)) := by
  simp [generate, genParam, joinSep]

theorem token_read {vcard : Bool} {cfg : Config} {name n v value : List Char} (hn : Token name)
    (hp : Token n) (h : parseText vcard cfg (generate ⟨none, name, [⟨n, [v]⟩], value⟩) =
      .ok (none, name, [⟨n, [v]⟩], some value)) :
    ∃ tok t, dupToken (genValue v ++ ':' :: value) [':', ';', ','] = some (some tok, t) ∧
      decodeParam tok = v := by
  rw [generate_one, parseText, token_dup hn (by simp) (by simp)] at h
  simp only [if_neg hn.1] at h
  rw [parseParams.eq_def] at h
  simp only [if_true] at h
  have hpp : ∀ x, parseParam vcard cfg (n ++ '=' :: (genValue v ++ ':' :: value)) = some x →
      ∃ tok t, dupToken (genValue v ++ ':' :: value) [':', ';', ','] = some (some tok, t) ∧
        x.1.2 = some (decodeParam tok) := by
    intro x hx
    rw [parseParam, token_dup hp (by simp) (by simp), token_dup hp (by simp) (by simp)] at hx
    simp only [List.tail_cons, ite_self] at hx
    split at hx
    · rename_i tok t hd
      simp only [Option.some.injEq] at hx
      exact ⟨tok, t, hd, by rw [← hx]⟩
    · simp at hx
  split at h
  · rename_i hps
    split at hps
    · simp at hps
    · rename_i hs
      obtain ⟨tok, t, hd, hx⟩ := hpp _ hs
      simp only at hx
      subst hx
      refine ⟨tok, t, hd, ?_⟩
      split at hps
      · simp at hps
      · split at hps
        · simp only [Parse.ok.injEq, Prod.mk.injEq] at hps h
          obtain ⟨rfl, rfl⟩ := hps
          have := h.2.2.1
          simp only [Option.toList_some, List.cons_append, List.nil_append, List.cons.injEq,
            Param.mk.injEq] at this
          exact this.1.2.1
        · simp at hps
        · simp at hps
  · simp at h
  · simp at h

end Line46

/-- C46: exactly which parameter values survive: those that are `ValueOk` and have no carriage
return. -/
theorem C46_value_iff (vcard : Bool) (cfg : Config) (name n v value : List Char) (hn : Token name)
    (hp : Token n) :
    parseText vcard cfg (generate ⟨none, name, [⟨n, [v]⟩], value⟩) =
      .ok (none, name, [⟨n, [v]⟩], some value) ↔ ValueOk v ∧ '\r' ∉ v := by
  constructor
  · intro h
    obtain ⟨tok, t, h1, h2⟩ := token_read hn hp h
    have hv := valueOk_of_read h1 h2
    refine ⟨hv, ?_⟩
    rw [dupToken_value hv (by simp)] at h1
    simp only [Option.some.injEq, Prod.mk.injEq] at h1
    rw [← h1.1, C21_roundtrip] at h2
    exact normaliseBreaks_prefix v (by rw [h2]; exact List.prefix_refl v)
  · rintro ⟨hv, hr⟩
    have hex : normaliseBreaks v = v := by rw [← C21_roundtrip, C21_roundtrip_exact v hr]
    have hps := parseParams_gen (vcard := vcard) (cfg := cfg) (ps := [⟨n, [v]⟩])
      (by simp only [List.mem_singleton, forall_eq]; exact ⟨hp, by simpa using hv, by simp⟩) value
    have hg : ([⟨n, [v]⟩] : List Param).flatMap (fun p => ';' :: genParam p) ++ ':' :: value =
        ';' :: (n ++ '=' :: (genValue v ++ ':' :: value)) := by
      simp [genParam, joinSep]
    have hdot : '.' ∉ name := fun hm => by simpa using hn.2 _ hm
    rw [hg] at hps
    rw [generate_one, parseText, token_dup hn (by simp) (by simp)]
    simp only [if_neg hn.1, hps, splitGroup, if_neg hdot, ite_self]
    simp [readBack, hex]

/-- C46 fails: a value that begins with a space loses it. -/
theorem C46_fails_space :
    generate ⟨none, "A".toList, [⟨"X".toList, [" b".toList]⟩], "1".toList⟩ = "A;X= b:1".toList ∧
    parseText false {} "A;X= b:1".toList =
      .ok (none, "A".toList, [⟨"X".toList, ["b".toList]⟩], some "1".toList) := by
  decide +kernel

/-- C46 fails: a quoted value that ends in a backslash makes the line unreadable. -/
theorem C46_fails_backslash :
    generate ⟨none, "A".toList, [⟨"X".toList, ["b:\\".toList]⟩], "1".toList⟩ =
      "A;X=\"b:\\\":1".toList ∧
    parseText false {} "A;X=\"b:\\\":1".toList = .invalid := by
  decide +kernel

/-- C46 fails: with a quote in the value text, part of the value becomes part of the parameter. -/
theorem C46_fails_swallow :
    parseText false {} (generate ⟨none, "A".toList, [⟨"X".toList, ["b:\\".toList]⟩],
        "say \"hi\":1".toList⟩) ≠
      .ok (none, "A".toList, [⟨"X".toList, ["b:\\".toList]⟩], some "say \"hi\":1".toList) := by
  decide +kernel

/-- C46 fails: the values of a parameter come back in another order, so that `Parameter.__eq__`,
which compares the lists, says they differ. -/
theorem C46_fails_order :
    parseText false {} (generate ⟨none, "A".toList, [⟨"X".toList, ["b".toList, "a".toList]⟩],
        "1".toList⟩) =
      .ok (none, "A".toList, [⟨"X".toList, ["a".toList, "b".toList]⟩], some "1".toList) := by
  decide +kernel

/-- C46 fails: in iCalendar a parameter without values makes the line unreadable, or swallows
part of the value. -/
theorem C46_fails_novalues :
    parseText false {} (generate ⟨none, "A".toList, [⟨"X".toList, []⟩], "1".toList⟩) = .invalid ∧
    parseText false {} (generate ⟨none, "A".toList, [⟨"X".toList, []⟩], "b=c:1".toList⟩) =
      .ok (none, "A".toList, [⟨"X:b".toList, ["c".toList]⟩], some "1".toList) :=
  ⟨by decide +kernel, by decide +kernel⟩

/-! ## C58: reading a property line ends -/

namespace Line46

theorem noHang (cfg : Config) (txt : List Char) : ∀ strip, parseParams false cfg strip txt ≠ .hang := by
  induction hn : txt.length using Nat.strong_induction_on generalizing txt with
  | _ n ih =>
    intro strip
    rw [parseParams.eq_def]
    split
    · simp
    · rename_i c t
      split
      · split
        · simp
        · rename_i h1
          split
          · simp
          · rename_i h2
            have l1 := parseParam_length h1
            have l2 := parseValues_length h2
            simp only [List.length_cons] at hn l1 l2
            split
            · simp
            · simp
            · rename_i h3
              exact absurd h3 (ih _ (by omega) _ rfl _)
      · split
        · simp
        · simp

end Line46

/-- C58: reading an iCalendar property line ends, whatever the line.

Missing: vCard lines, `C58_fails_vcard`. -/
theorem C58_ends_partial (cfg : Config) (data : List Char) : parseText false cfg data ≠ .hang := by
  rw [parseText]
  split
  · split
    · simp
    · split
      · simp
      · simp
      · rename_i h
        exact absurd h (Line46.noHang cfg _ _)
  · simp

namespace Line46

theorem dupToken_rest {txt tokens : List Char} {v : Option (List Char)} {t : List Char}
    (hq : '"' ∉ txt) (h : dupToken txt tokens = some (v, t)) :
    '"' ∉ t ∧ (∀ c, t.head? = some c → c ∈ tokens) := by
  cases txt with
  | nil => simp [dupToken] at h
  | cons c r =>
    simp only [dupToken] at h
    have hl : '"' ∉ (if c = ' ' then (c :: r).dropWhile isSpace else c :: r) := by
      split
      · exact fun hm => hq ((List.dropWhile_suffix _).subset hm)
      · exact hq
    generalize (if c = ' ' then (c :: r).dropWhile isSpace else c :: r) = d at h hl
    split at h
    · simp only [Option.some.injEq, Prod.mk.injEq] at h
      obtain ⟨-, rfl⟩ := h
      simp
    · simp at hl
    · simp only [Option.some.injEq, Prod.mk.injEq] at h
      obtain ⟨-, rfl⟩ := h
      refine ⟨fun hm => hl ((List.dropWhile_suffix _).subset hm), fun c hc => ?_⟩
      have := List.head?_dropWhile_not (fun c => decide (c ∉ tokens)) d
      rw [hc] at this
      simpa using this

theorem parseValues_rest {txt : List Char} {r : List (List Char) × List Char} (hq : '"' ∉ txt)
    (ht : ∀ c, txt.head? = some c → c ∈ [':', ';', ',']) (h : parseValues txt = some r) :
    '"' ∉ r.2 ∧ ∀ c, r.2.head? = some c → c ∈ [':', ';'] := by
  induction hn : txt.length using Nat.strong_induction_on generalizing txt r with
  | _ n ih =>
    rw [parseValues.eq_def] at h
    split at h
    · simp at h
    · rename_i c t
      split at h
      · split at h
        · rename_i v t' hd
          simp only [Option.map_eq_some_iff] at h
          obtain ⟨r', hr', rfl⟩ := h
          have h2 := dupToken_length hd
          simp only [List.length_cons] at hn
          have h3 := dupToken_rest (fun hm => hq (List.mem_cons_of_mem _ hm)) hd
          have := ih t'.length (by omega) h3.1 h3.2 hr' rfl
          exact this
        · simp at h
      · rename_i hc
        simp only [Option.some.injEq] at h
        subst h
        refine ⟨hq, ?_⟩
        intro d hd
        have := ht d hd
        simp only [List.head?_cons, Option.some.injEq] at hd
        subst hd
        simp at this ⊢
        tauto

theorem parseParam_rest {vcard : Bool} {cfg : Config} {txt : List Char} (hq : '"' ∉ txt)
    {r : (List Char × Option (List Char)) × List Char × Bool}
    (h : parseParam vcard cfg txt = some r) :
    '"' ∉ r.2.1 ∧ ∀ c, r.2.1.head? = some c → c ∈ [':', ';', ','] := by
  rw [parseParam] at h
  split at h
  · split at h
    · rename_i name t hd
      have h1 := dupToken_rest hq hd
      split at h
      · simp at h
      · rename_i t'
        split at h
        · rename_i v t'' hd'
          have h2 := dupToken_rest (fun hm => h1.1 (List.mem_cons_of_mem _ hm)) hd'
          simp only [Option.some.injEq] at h
          subst h
          exact h2
        · simp at h
      · rename_i hne hneq
        have h3 : ∀ c, t.head? = some c → c ∈ [':', ';', ','] := by
          intro c hc
          have := h1.2 c hc
          cases t with
          | nil => simp at hc
          | cons d t =>
            simp only [List.head?_cons, Option.some.injEq] at hc
            subst hc
            have hn : d ≠ '=' := by rintro rfl; exact hneq t rfl
            simp at this ⊢
            tauto
        split at h
        · split at h
          · simp only [Option.some.injEq] at h
            subst h
            exact ⟨h1.1, h3⟩
          · simp only [Option.some.injEq] at h
            subst h
            exact ⟨h1.1, h3⟩
        · simp at h
    · simp at h
  · split at h
    · rename_i name t hd
      have h1 := dupToken_rest hq hd
      split at h
      · rename_i v t'' hd'
        have h2 := dupToken_rest (fun hm => h1.1 (List.mem_of_mem_tail hm)) hd'
        simp only [Option.some.injEq] at h
        subst h
        exact h2
      · simp at h
    · simp at h

theorem noHang_vcard (cfg : Config) (txt : List Char) (hq : '"' ∉ txt)
    (ht : ∀ c, txt.head? = some c → c ∈ [':', ';']) : ∀ strip,
    parseParams true cfg strip txt ≠ .hang := by
  induction hn : txt.length using Nat.strong_induction_on generalizing txt with
  | _ n ih =>
    intro strip
    rw [parseParams.eq_def]
    split
    · simp
    · rename_i c t
      split
      · split
        · simp
        · rename_i h1
          split
          · simp
          · rename_i h2
            have l1 := parseParam_length h1
            have l2 := parseValues_length h2
            have r1 := parseParam_rest (fun hm => hq (List.mem_cons_of_mem _ hm)) h1
            have r2 := parseValues_rest r1.1 r1.2 h2
            simp only [List.length_cons] at hn l1 l2
            split
            · simp
            · simp
            · rename_i h3
              exact absurd h3 (ih _ (by simp only; omega) _ r2.1 r2.2 rfl _)
      · rename_i h1
        split
        · simp
        · rename_i h2
          have := ht c rfl
          simp at this
          tauto

end Line46

/-- C58: reading a vCard property line without double quotes ends.  Missing: lines with double
quotes, see `C58_fails_vcard`. -/
theorem C58_ends_vcard_partial (cfg : Config) (data : List Char) (hq : '"' ∉ data) :
    parseText true cfg data ≠ .hang := by
  rw [parseText]
  split
  · rename_i h
    have h1 := Line46.dupToken_rest hq h
    split
    · simp
    · split
      · simp
      · simp
      · rename_i h
        exact absurd h (Line46.noHang_vcard cfg _ h1.1
          (fun c hc => by have := h1.2 c hc; simp at this ⊢; tauto) _)
  · simp

/-- C58 fails: a vCard line with anything after a quoted parameter value is read forever. -/
theorem C58_fails_vcard : parseText true {} "TEL;TYPE=\"home\" :1".toList = .hang := by
  decide +kernel

end PyCal
