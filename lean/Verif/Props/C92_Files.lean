import Verif.Model.TextFile
import Verif.Props.C22_Folding
import Verif.Props.C41_Trees
import Verif.Props.C46_Lines
import Verif.Props.C90_XTrees

/-!
# C92: calendar data that is written and read
-/

namespace Spec

/-- A name of RFC 5545: letters, digits and hyphens. -/
def IsName (s : List Char) : Prop := s ≠ [] ∧ ∀ c ∈ s, c.isAlphanum = true ∨ c = '-'

instance (s : List Char) : Decidable (IsName s) := inferInstanceAs (Decidable (_ ∧ _))

open PyCal PropText

/-- A property that can be written in a line: names of RFC 5545 other than `BEGIN` and `END`, every
parameter with values that are read back as they were (`ValueOk`), and no line break in the value. -/
structure PlainLine (l : Line) : Prop where
  name : IsName l.name
  begin_ : l.name ≠ "BEGIN".toList
  end_ : l.name ≠ "END".toList
  group : l.group = none
  params : ∀ p ∈ l.params, IsName p.name ∧ p.values ≠ [] ∧ ∀ v ∈ p.values, ValueOk v
  value : '\n' ∉ l.value

end Spec

namespace PyCal
open Cont Spec PropText TextFile

namespace File92

/-! ### UTF-8 -/

/-- The bytes of a character are those Lean gives it. -/
theorem utf8Char_eq (c : Char) : utf8Char c = (String.utf8EncodeChar c).map UInt8.toNat := by
  have hlt : c.toNat < 0x110000 := by
    have h := c.valid
    have : c.toNat = c.val.toNat := rfl
    rcases h with h | h
    · have : c.val.toNat < 0xD800 := h
      omega
    · have : c.val.toNat < 0x110000 := h.2
      omega
  unfold utf8Char String.utf8EncodeChar
  have hm : c.val.toNat = c.toNat := rfl
  rw [hm]
  generalize c.toNat = n at hlt
  dsimp only
  by_cases h1 : n < 0x80
  · rw [if_pos h1, if_pos (show n ≤ 0x7f by omega)]
    simp only [List.map_cons, List.map_nil, UInt8.toNat_ofNat']
    congr 1; omega
  rw [if_neg h1, if_neg (show ¬ n ≤ 0x7f by omega)]
  by_cases h2 : n < 0x800
  · rw [if_pos h2, if_pos (show n ≤ 0x7ff by omega)]
    simp only [List.map_cons, List.map_nil, UInt8.toNat_ofNat']
    congr 1
    · omega
    · congr 1; omega
  rw [if_neg h2, if_neg (show ¬ n ≤ 0x7ff by omega)]
  by_cases h3 : n < 0x10000
  · rw [if_pos h3, if_pos (show n ≤ 0xffff by omega)]
    simp only [List.map_cons, List.map_nil, UInt8.toNat_ofNat']
    congr 1
    · omega
    · congr 1
      · omega
      · congr 1; omega
  rw [if_neg h3, if_neg (show ¬ n ≤ 0xffff by omega)]
  simp only [List.map_cons, List.map_nil, UInt8.toNat_ofNat']
  congr 1
  · omega
  · congr 1
    · omega
    · congr 1
      · omega
      · congr 1; omega

theorem utf8Char_shape (c : Char) : Utf8Char (utf8Char c) ∧ (∀ b ∈ utf8Char c, b < 256) ∧
    (10 ∈ utf8Char c ↔ c = '\n') := by
  have hlt : c.toNat < 0x110000 := by
    have h := c.valid
    have : c.toNat = c.val.toNat := rfl
    rcases h with h | h
    · have : c.val.toNat < 0xD800 := h
      omega
    · have : c.val.toNat < 0x110000 := h.2
      omega
  have hn : c = '\n' ↔ c.toNat = 10 := by
    constructor
    · rintro rfl; rfl
    · intro h
      apply Char.toNat_inj.1
      exact h
  rw [hn]
  generalize hm : c.toNat = n at hlt
  unfold utf8Char Utf8Char
  rw [hm]
  simp only
  split
  · exact ⟨⟨n, [], rfl, by omega, by simp, by simp⟩, by simp; omega, by simp; omega⟩
  · split
    · refine ⟨⟨_, _, rfl, by omega, by simp, ?_⟩, ?_, ?_⟩
      · simp only [List.mem_singleton, forall_eq]; omega
      · simp only [List.mem_cons, List.not_mem_nil, or_false, forall_eq_or_imp, forall_eq]; omega
      · simp only [List.mem_cons, List.not_mem_nil, or_false]; omega
    · split
      · refine ⟨⟨_, _, rfl, by omega, by simp, ?_⟩, ?_, ?_⟩
        · simp only [List.mem_cons, List.not_mem_nil, or_false, forall_eq_or_imp, forall_eq]; omega
        · simp only [List.mem_cons, List.not_mem_nil, or_false, forall_eq_or_imp, forall_eq]; omega
        · simp only [List.mem_cons, List.not_mem_nil, or_false]; omega
      · refine ⟨⟨_, _, rfl, by omega, by simp, ?_⟩, ?_, ?_⟩
        · simp only [List.mem_cons, List.not_mem_nil, or_false, forall_eq_or_imp, forall_eq]; omega
        · simp only [List.mem_cons, List.not_mem_nil, or_false, forall_eq_or_imp, forall_eq]; omega
        · simp only [List.mem_cons, List.not_mem_nil, or_false]; omega

theorem contentLine {l : List Char} (h0 : l ≠ []) (hn : '\n' ∉ l) : ContentLine (utf8 l) := by
  refine ⟨?_, ⟨l.map utf8Char, by rw [utf8, List.flatMap_def], ?_⟩, ?_, ?_⟩
  · intro b hb
    obtain ⟨c, -, hc⟩ := List.mem_flatMap.1 hb
    exact (utf8Char_shape c).2.1 b hc
  · intro b hb
    obtain ⟨c, -, rfl⟩ := List.mem_map.1 hb
    exact (utf8Char_shape c).1
  · intro hb
    obtain ⟨c, hcl, hc⟩ := List.mem_flatMap.1 hb
    exact hn ((utf8Char_shape c).2.2.1 hc ▸ hcl)
  · cases l with
    | nil => exact absurd rfl h0
    | cons c l =>
      obtain ⟨lead, conts, hs, -⟩ := (utf8Char_shape c).1
      rw [utf8, List.flatMap_cons, hs]
      simp

theorem starts {c : Char} {l : List Char} (hc : c.isAlphanum = true ∨ c = '-') :
    StartsNonSpace (utf8 (c :: l)) := by
  have hr : c.toNat = 45 ∨ 48 ≤ c.toNat ∧ c.toNat < 128 := by
    rcases hc with hc | rfl
    · right
      simp only [Char.isAlphanum, Char.isAlpha, Char.isUpper, Char.isLower, Char.isDigit, Bool.or_eq_true,
        Bool.and_eq_true, decide_eq_true_eq, ge_iff_le, UInt32.le_iff_toNat_le] at hc
      have e : c.toNat = c.val.toNat := rfl
      simp at hc
      omega
    · exact .inl rfl
  unfold StartsNonSpace
  have : utf8Char c = [c.toNat] := by
    unfold utf8Char
    simp only
    rw [if_pos (by omega)]
  rw [utf8, List.flatMap_cons, this]
  simp
  omega

/-! ### Lines -/

/-- A line and what is written for it: pieces with folds between them. -/
def Folded (t out : Bytes) : Prop :=
  ∃ p ps, out = joinPieces (p :: ps) ++ [13, 10] ∧ (p :: ps).flatten = t ∧
    ∀ q ∈ p :: ps, q ≠ [] ∧ 10 ∉ q

theorem lineText_folded {l : List Char} (h0 : l ≠ []) (hn : '\n' ∉ l) :
    ∃ out, lineText l = some out ∧ Folded (utf8 l) out := by
  have hc := contentLine h0 hn
  unfold lineText
  split
  · refine ⟨_, rfl, utf8 l, [], rfl, by simp, ?_⟩
    intro q hq
    simp only [List.mem_singleton] at hq
    subst hq
    exact ⟨hc.ne, hc.noLF⟩
  · obtain ⟨p, ps, e1, e2, e3, e4, e5⟩ := foldLine_pieces _ hc
    exact ⟨_, e1, p, ps, rfl, e2, fun q hq => ⟨(e5 q hq).1, noLF_pieces e2 hc.noLF q hq⟩⟩

theorem next {t out : Bytes} (h : Folded t out) (hs : StartsNonSpace t) (line rest : Bytes) :
    ∃ (p : Bytes) (ps : List Bytes), readAhead line (out ++ rest) =
        (line, some p, (ps.flatMap fun q => [32] ++ q ++ [13, 10]) ++ rest) ∧
      (∀ q ∈ ps, 10 ∉ q) ∧ p ++ ps.flatten = t ∧
      readline (out ++ rest) =
        (p ++ [13] ++ [10], (ps.flatMap fun q => [32] ++ q ++ [13, 10]) ++ rest) := by
  obtain ⟨p, ps, rfl, e2, e5⟩ := h
  have hLF : ∀ q ∈ p :: ps, 10 ∉ q := fun q hq => (e5 q hq).2
  have hp : 10 ∉ p ++ [13] := by have := hLF p (by simp); simp [this]
  have hrl : readline (joinPieces (p :: ps) ++ [13, 10] ++ rest) =
      ((p ++ [13]) ++ [10], (ps.flatMap fun q => [32] ++ q ++ [13, 10]) ++ rest) := by
    rw [joinPieces_eq, ← readline_noLF _ _ hp]; simp
  refine ⟨p, ps, ?_, fun q hq => hLF q (by simp [hq]), by simpa using e2, hrl⟩
  rw [readAhead, hrl, dif_neg (by simp)]
  have hch : chomp ((p ++ [13]) ++ [10]) = p := chomp_crlf p
  cases p with
  | nil => exact absurd rfl (e5 [] (by simp)).1
  | cons c p =>
    simp only [hch]
    have hc : isSpaceByte c = false := by
      rw [← e2] at hs; exact StartsNonSpace.first hs
    rw [if_neg (by simp [hc])]

/-- The lines are read back, with as much fuel as there are lines and one more. -/
theorem read_lines {ts outs : List Bytes} (h : List.Forall₂ Folded ts outs)
    (hs : ∀ t ∈ ts, StartsNonSpace t) :
    (∀ n, ts.length < n → readLines n none outs.flatten = some ts) ∧
    ∀ (p : Bytes) (ps : List Bytes), (∀ q ∈ ps, 10 ∉ q) → ∀ n, ts.length + 1 < n →
      readLines n (some p) ((ps.flatMap fun q => [32] ++ q ++ [13, 10]) ++ outs.flatten) =
        some ((p ++ ps.flatten) :: ts) := by
  induction h with
  | nil =>
    constructor
    · intro n hn
      cases n with
      | zero => simp at hn
      | succ n => simp [readLines, readFolded, readline]
    · intro p ps hps n hn
      match n with
      | 0 => omega
      | 1 => simp at hn
      | n + 2 =>
        rw [readLines]
        simp only [readFolded, List.flatten_nil]
        rw [readAhead_pieces _ _ _ hps, readAhead]
        simp [readline, readLines, readFolded]
  | @cons t out ts outs h1 _ ih =>
    obtain ⟨ih1, ih2⟩ := ih fun t ht => hs t (List.mem_cons_of_mem _ ht)
    have hst := hs t (by simp)
    constructor
    · intro n hn
      obtain ⟨p, ps, -, e2, e3, e4⟩ := next h1 hst [] outs.flatten
      have := ih2 p ps e2 n (by simpa using hn)
      rw [e3] at this
      rw [← this]
      cases n with
      | zero => rfl
      | succ n =>
        rw [readLines, readLines, List.flatten_cons]
        simp only [readFolded, e4]
        rw [if_neg (by simp), chomp_crlf]
    · intro p ps hps n hn
      obtain ⟨p', ps', e1, e2, e3, -⟩ := next h1 hst (p ++ ps.flatten) outs.flatten
      cases n with
      | zero => omega
      | succ n =>
        have := ih2 p' ps' e2 n (by simpa using hn)
        rw [e3] at this
        rw [readLines]
        simp only [readFolded, List.flatten_cons]
        rw [readAhead_pieces _ _ _ hps, e1]
        simp only [this]
        rfl

/-! ### The lines of a component -/

/-- The types of a component and of those in it. -/
inductive TypeIn (t : List Char) : Component → Prop
  | here {ps cs} : TypeIn t (.mk t ps cs)
  | sub {t' ps cs c} : c ∈ cs → TypeIn t c → TypeIn t (.mk t' ps cs)

theorem all_mem {o : Order} : ∀ {cs : List Component} {subs : List (List (List Char))},
    generateAll o cs = some subs → ∀ ls ∈ subs, ∃ c ∈ cs, Cont.generate o c = some ls := by
  intro cs
  induction cs with
  | nil => intro subs h; rw [generateAll] at h; cases h; simp
  | cons c cs ih =>
    intro subs h ls hls
    rw [generateAll] at h
    split at h
    · rename_i l ls' h1 h2
      cases h
      rcases List.mem_cons.1 hls with rfl | hls
      · exact ⟨c, by simp, h1⟩
      · obtain ⟨d, hd, h⟩ := ih h2 ls hls
        exact ⟨d, List.mem_cons_of_mem _ hd, h⟩
    · cases h

/-- Every line written is that of a property or the `BEGIN:` or `END:` of a component. -/
theorem lines_of {o : Order} (c : Component) : ∀ ls, Cont.generate o c = some ls → ∀ l ∈ ls,
    (∃ t, TypeIn t c ∧ (l = "BEGIN:".toList ++ t ∨ l = "END:".toList ++ t)) ∨
      ∃ p, X90.Within p c ∧ l = p.text := by
  induction c using Component.rec' with
  | h t ps cs ih =>
    intro ls h l hl
    rw [Cont.generate] at h
    split at h
    · rename_i subs tl h1 h2
      cases h
      simp only [List.mem_cons, List.mem_append, List.not_mem_nil, or_false] at hl
      rcases hl with rfl | (hl | hl) | rfl
      · exact .inl ⟨t, .here, .inl rfl⟩
      · obtain ⟨p, hp, rfl⟩ := List.mem_map.1 hl
        exact .inr ⟨p, .here ((C42_properties _ _).subset hp), rfl⟩
      · obtain ⟨x, -, hx⟩ := List.mem_flatMap.1 hl
        have hmem : subs.getD x.1 [] ∈ subs := by
          rw [List.getD_eq_getElem?_getD] at hx ⊢
          cases hg : subs[x.1]? with
          | none => rw [hg] at hx; simp at hx
          | some y => exact List.mem_of_getElem? hg
        obtain ⟨c, hc, hg⟩ := all_mem h1 _ hmem
        rcases ih c hc _ hg l hx with ⟨t', ht', h'⟩ | ⟨p, hp, h'⟩
        · exact .inl ⟨t', .sub hc ht', h'⟩
        · exact .inr ⟨p, .sub hc hp, h'⟩
      · exact .inl ⟨t, .here, .inr rfl⟩
    · cases h

/-! ### The text of a property -/

theorem token_of_name {s : List Char} (h : IsName s) : Token s := by
  refine ⟨h.1, fun c hc hm => ?_⟩
  have := h.2 c hc
  simp only [List.mem_cons, List.not_mem_nil, or_false] at hm
  rcases hm with rfl | rfl | rfl | rfl | rfl | rfl | rfl <;> revert this <;> decide

theorem name_noLF {s : List Char} (h : IsName s) : '\n' ∉ s := by
  intro hc
  have := h.2 _ hc
  revert this
  decide

theorem joinSep_noLF {vs : List (List Char)} (h : ∀ v ∈ vs, '\n' ∉ v) : '\n' ∉ joinSep ',' vs := by
  induction vs with
  | nil => simp [joinSep]
  | cons v vs ih =>
    have := ih fun w hw => h w (List.mem_cons_of_mem _ hw)
    cases vs with
    | nil => simpa [joinSep] using h v (by simp)
    | cons w vs =>
      simp only [joinSep, List.mem_append, List.mem_cons, not_or]
      exact ⟨h v (by simp), by decide, this⟩

theorem genValue_noLF (v : List Char) : '\n' ∉ genValue v := by
  have h : '\n' ∉ encodeParam v := fun hc => (C21_encoded_safe v _ hc).2.2 rfl
  unfold genValue
  simp only
  split
  · simp [h]
  · exact h

theorem generate_noLF {l : Line} (h : PlainLine l) : '\n' ∉ PropText.generate l := by
  unfold PropText.generate
  rw [h.group]
  simp only [List.nil_append, List.mem_append, List.mem_cons, List.mem_flatMap, not_or, not_exists, not_and]
  refine ⟨⟨name_noLF h.name, ?_⟩, by decide, h.value⟩
  intro p hp
  obtain ⟨h1, h2, h3⟩ := h.params p ((List.perm_insertionSort _ _).subset hp)
  refine ⟨by decide, ?_⟩
  unfold genParam
  rw [if_neg h2]
  simp only [List.mem_append, List.mem_cons, not_or]
  refine ⟨name_noLF h1, by decide, joinSep_noLF ?_⟩
  intro v hv
  obtain ⟨w, -, rfl⟩ := List.mem_map.1 hv
  exact genValue_noLF w

theorem generate_form {l : Line} (h : PlainLine l) : ∃ d r, PropText.generate l = l.name ++ d :: r ∧
    (d = ';' ∨ d = ':') := by
  unfold PropText.generate
  rw [h.group]
  cases hp : (l.params.insertionSort fun a b => a.key ≤ b.key) with
  | nil => exact ⟨':', l.value, by simp, .inr rfl⟩
  | cons p ps =>
    refine ⟨';', genParam p ++ (ps.flatMap (fun p => ';' :: genParam p) ++ ':' :: l.value), ?_, .inl rfl⟩
    simp only [List.nil_append, List.flatMap_cons, List.cons_append, List.append_assoc]

/-- If a text without the delimiter is a beginning of another, then the names are the same. -/
theorem prefix_name {w s r : List Char} {d e : Char} (hw : d ∉ w) (hw' : e ∉ w) (hs : d ∉ s)
    (h : w ++ [d] <+: s ++ e :: r) : w = s := by
  induction w generalizing s with
  | nil =>
    cases s with
    | nil => rfl
    | cons c s =>
      obtain ⟨x, hx⟩ := h
      simp only [List.nil_append, List.cons_append, List.cons.injEq] at hx
      simp [hx.1] at hs
  | cons a w ih =>
    cases s with
    | nil =>
      obtain ⟨x, hx⟩ := h
      simp only [List.nil_append, List.cons_append, List.cons.injEq] at hx
      simp [hx.1] at hw'
    | cons c s =>
      simp only [List.cons_append, List.cons_prefix_cons] at h
      simp only [List.mem_cons, not_or] at hw hw' hs
      rw [h.1, ih hw.2 hw'.2 hs.2 h.2]

theorem read_back {l : Line} (h : PlainLine l) :
    PropText.generate l ≠ [] ∧ ¬ Begins (PropText.generate l) ∧ ¬ Ends (PropText.generate l) ∧
      readProp (PropText.generate l) = some ⟨l.name, PropText.generate l⟩ := by
  obtain ⟨d, r, hg, hd⟩ := generate_form h
  have ht := token_of_name h.name
  have hc : ':' ∉ l.name := fun hc => ht.2 _ hc (by decide)
  refine ⟨by rw [hg]; simp, ?_, ?_, ?_⟩
  · intro hb
    rw [Begins, hg] at hb
    exact h.begin_ (prefix_name (w := "BEGIN".toList) (d := ':') (by decide)
      (by rcases hd with rfl | rfl <;> decide) hc hb).symm
  · intro hb
    rw [Ends, hg] at hb
    exact h.end_ (prefix_name (w := "END".toList) (d := ':') (by decide)
      (by rcases hd with rfl | rfl <;> decide) hc hb).symm
  · obtain ⟨ps, h1, -⟩ := C46_roundtrip_partial false {} l ht (.inl h.group) fun p hp => by
      obtain ⟨h1, h2, h3⟩ := h.params p hp
      exact ⟨token_of_name h1, h3, fun e => absurd e h2⟩
    rw [readProp, h1]

theorem writable {env : Env} (hr : env.parseProp = readProp) (c : Component) :
    (∀ p, X90.Within p c → ∃ l, PlainLine l ∧ p = ⟨l.name, PropText.generate l⟩) →
    (∀ t, TypeIn t c → t ≠ env.container ∧ t ≠ "UNKNOWN".toList) → Placed c → Spec.Writable env c := by
  induction c using Component.rec' with
  | h t ps cs ih =>
    intro hp ht ha
    cases ha with
    | mk ha hs =>
      refine .mk (ht t .here).1 (ht t .here).2 ?_ ha fun c hc =>
        ih c hc (fun p h => hp p (.sub hc h)) (fun t h => ht t (.sub hc h)) (hs c hc)
      intro p h
      obtain ⟨l, hl, rfl⟩ := hp p (.here h)
      obtain ⟨h1, h2, h3, h4⟩ := read_back hl
      exact ⟨h1, h2, h3, by rw [hr]; exact h4⟩

theorem lines_ok {ls : List (List Char)} (h : ∀ l ∈ ls, '\n' ∉ l ∧ ∃ c r, l = c :: r ∧
    (c.isAlphanum = true ∨ c = '-')) :
    ∃ outs, ls.mapM lineText = some outs ∧ List.Forall₂ Folded (ls.map utf8) outs ∧
      ∀ t ∈ ls.map utf8, StartsNonSpace t := by
  induction ls with
  | nil => exact ⟨[], rfl, .nil, by simp⟩
  | cons l ls ih =>
    obtain ⟨outs, h1, h2, h3⟩ := ih fun l hl => h l (List.mem_cons_of_mem _ hl)
    obtain ⟨hn, c, r, rfl, hc⟩ := h l (by simp)
    obtain ⟨out, e1, e2⟩ := lineText_folded (l := c :: r) (by simp) hn
    refine ⟨out :: outs, by rw [List.mapM_cons, e1, h1]; rfl, .cons e2 h2, ?_⟩
    intro t ht
    rcases List.mem_cons.1 ht with rfl | ht
    · exact starts hc
    · exact h3 t ht

end File92
open File92

/-- C92 (partial): the bytes written for a calendar are read as the same calendar, with the same group,
name, parameters and value in every property.  `PlainLine` says what a property must be like; components must
not have the type of the calendar or `UNKNOWN` and must be where they may be.  Missing: what is missing in
C41 and C46; the values are in the theorems about each type. -/
theorem C92_roundtrip_partial (env : Env) (o : Order) (heq : ∀ a b, o.eq a b = true → a.type = b.type)
    (hn : env.nested = true) (hf : Tree41.Sorts env) (hr : env.parseProp = readProp)
    (ps : List CProp) (cs : List Component)
    (hp : ∀ p, X90.Within p (.mk env.container ps cs) →
      ∃ l, PlainLine l ∧ p = ⟨l.name, PropText.generate l⟩)
    (ht : ∀ c ∈ cs, ∀ t, TypeIn t c → IsName t ∧ t ≠ env.container ∧ t ≠ "UNKNOWN".toList)
    (hn' : IsName env.container) (ha : Placed (.mk env.container ps cs))
    (hv : ∀ p ∈ ps, env.valid p = true) (hver : ∃ p ∈ ps, p.key = "VERSION".toList) :
    ∃ bytes lines c', writeText o (.mk env.container ps cs) = some bytes ∧
      (∀ n, lines.length < n → readLines n none bytes = some (lines.map utf8)) ∧
      parse env lines = .ok (some c') ∧ Same (.mk env.container ps cs) c' ∧
      ∀ l, PlainLine l → X90.Within ⟨l.name, PropText.generate l⟩ (.mk env.container ps cs) →
        ∃ params, parseText false {} (PropText.generate l) = .ok (none, l.name, params, some l.value) ∧
          SameParams l.params params := by
  cases ha with
  | mk ha hs =>
  obtain ⟨ls, c', h1, h2, h3⟩ := C41_roundtrip_partial env o heq hn hf ps cs (fun p h => by
      obtain ⟨l, hl, rfl⟩ := hp p (.here h)
      obtain ⟨e1, e2, e3, e4⟩ := read_back hl
      exact ⟨⟨e1, e2, e3, by rw [hr]; exact e4⟩, hv _ h⟩) hver fun c hc =>
    ⟨writable hr c (fun p h => hp p (.sub hc h)) (fun t h => (ht c hc t h).2) (hs c hc), ha c hc⟩
  have hls : ∀ l ∈ ls, '\n' ∉ l ∧ ∃ c r, l = c :: r ∧ (c.isAlphanum = true ∨ c = '-') := by
    intro l hl
    rcases lines_of _ ls h1 l hl with ⟨t, htt, hb⟩ | ⟨p, hpp, rfl⟩
    · have hname : IsName t := by
        cases htt with
        | here => exact hn'
        | sub hc h => exact (ht _ hc t h).1
      have := name_noLF hname
      rcases hb with rfl | rfl
      · exact ⟨by simpa using this, 'B', _, rfl, by decide⟩
      · exact ⟨by simpa using this, 'E', _, rfl, by decide⟩
    · obtain ⟨l, hpl, rfl⟩ := hp p hpp
      clear hl
      refine ⟨generate_noLF hpl, ?_⟩
      obtain ⟨d, r, hg, -⟩ := generate_form hpl
      have hn1 := hpl.name
      cases hnm : l.name with
      | nil => exact absurd hnm hn1.1
      | cons c s =>
        refine ⟨c, s ++ d :: r, by rw [hg, hnm]; rfl, hn1.2 c (by rw [hnm]; simp)⟩
  obtain ⟨outs, e1, e2, e3⟩ := lines_ok hls
  refine ⟨outs.flatten, ls, c', ?_, ?_, h2, h3, ?_⟩
  · rw [writeText, h1]
    simp only [e1]
    rfl
  · intro n hlt
    exact (read_lines e2 e3).1 n (by simpa using hlt)
  · intro l hl _
    have := C46_roundtrip_partial false {} l (token_of_name hl.name) (.inl hl.group) fun p hp => by
      obtain ⟨h1, h2, h3⟩ := hl.params p hp
      exact ⟨token_of_name h1, h3, fun e => absurd e h2⟩
    rwa [hl.group] at this

/-- C92 (partial), of `Calendar`: the same for `Calendar.parse`, if there is no component whose type differs from VTIMEZONE in
case (`C41_fails_zone`).  Missing: as in `C92_roundtrip_partial`. -/
theorem C92_calendar_partial (o : Order) (heq : ∀ a b, o.eq a b = true → a.type = b.type) (ps : List CProp) (cs : List Component)
    (hp : ∀ p, X90.Within p (.mk "VCALENDAR".toList ps cs) → ∃ l, PlainLine l ∧ p = ⟨l.name, PropText.generate l⟩)
    (ht : ∀ c ∈ cs, ∀ t, TypeIn t c → IsName t ∧ t ≠ "VCALENDAR".toList ∧ t ≠ "UNKNOWN".toList)
    (ha : Placed (.mk "VCALENDAR".toList ps cs)) (hv : ∀ p ∈ ps, calendarEnv.valid p = true)
    (hver : ∃ p ∈ ps, p.key = "VERSION".toList)
    (hz : ∀ c ∈ cs, PropText.upper c.type = "VTIMEZONE".toList → c.type = "VTIMEZONE".toList) :
    ∃ bytes lines c', writeText o (.mk "VCALENDAR".toList ps cs) = some bytes ∧
      (∀ n, lines.length < n → readLines n none bytes = some (lines.map utf8)) ∧
      parseCalendar calendarEnv lines = .ok (some c') ∧ Same (.mk "VCALENDAR".toList ps cs) c' := by
  obtain ⟨bytes, lines, c', h1, h2, h3, h4, -⟩ := C92_roundtrip_partial calendarEnv o heq rfl Tree41.sorts_calendar rfl ps cs hp ht
    (by decide) ha hv hver
  refine ⟨bytes, lines, c', h1, h2, (C40_calendar calendarEnv lines c').mpr ⟨h3, fun d hd hu => ?_⟩, h4⟩
  obtain ⟨c, hc, ht⟩ := Tree41.same_subs h4 d hd
  rw [← ht] at hu ⊢
  exact hz c hc hu

/-- C92: a text given to a property is, after all this, the text read, whatever it is. -/
theorem C92_text (l : Line) (hl : PlainLine l) (s : List Char) (hs : l.value = escapeText s) :
    textValue (PropText.generate l) = some s := by
  obtain ⟨ps, h1, -⟩ := C46_roundtrip_partial false {} l (token_of_name hl.name) (.inl hl.group) fun p hp => by
    obtain ⟨h1, h2, h3⟩ := hl.params p hp
    exact ⟨token_of_name h1, h3, fun e => absurd e h2⟩
  rw [textValue, h1]
  simp only [hs]
  exact C20_decode_escape s _ _

namespace File92

def version : Line := ⟨none, "VERSION".toList, [], "2.0".toList⟩

/-- A text of two lines that is too long for one line, with characters of more than one byte. -/
def summary : Line := ⟨none, "SUMMARY".toList, [⟨"LANGUAGE".toList, ["fr".toList]⟩,
  ⟨"ALTREP".toList, ["a:b;c".toList]⟩], escapeText ("a\n;".toList ++ List.replicate 60 'é')⟩

theorem version_plain : PlainLine version :=
  ⟨by decide, by decide, by decide, rfl, by simp [version], by decide⟩

theorem summary_plain : PlainLine summary := by
  refine ⟨by decide, by decide, by decide, rfl, ?_, (C20_no_linebreak _).2⟩
  intro p hp
  simp only [summary, List.mem_cons, List.not_mem_nil, or_false] at hp
  rcases hp with rfl | rfl <;> decide

def ofLine (l : Line) : CProp := ⟨l.name, PropText.generate l⟩

end File92

/-- The conditions hold for a calendar with an event that has such a text. -/
example : (∀ p, X90.Within p (.mk "VCALENDAR".toList [ofLine version]
        [.mk "VEVENT".toList [ofLine summary] []]) →
      ∃ l, PlainLine l ∧ p = ⟨l.name, PropText.generate l⟩) ∧
    (∀ c ∈ [Component.mk "VEVENT".toList [ofLine summary] []], ∀ t, TypeIn t c →
      IsName t ∧ t ≠ "VCALENDAR".toList ∧ t ≠ "UNKNOWN".toList) ∧
    Placed (.mk "VCALENDAR".toList [ofLine version] [.mk "VEVENT".toList [ofLine summary] []]) ∧
    calendarEnv.valid (ofLine version) = true ∧
    (∃ b, writeText Tree41.plain (.mk "VCALENDAR".toList [ofLine version]
      [.mk "VEVENT".toList [ofLine summary] []]) = some b ∧ b.length = 239) := by
  refine ⟨?_, ?_, ?_, by decide +kernel, ?_⟩
  · intro p h
    cases h with
    | here h =>
      rw [List.mem_singleton] at h
      exact ⟨version, version_plain, h⟩
    | sub hc h =>
      rw [List.mem_singleton] at hc
      subst hc
      cases h with
      | here h =>
        rw [List.mem_singleton] at h
        exact ⟨summary, summary_plain, h⟩
      | sub hc _ => simp at hc
  · intro c hc t h
    rw [List.mem_singleton] at hc
    subst hc
    cases h with
    | here => decide
    | sub hc _ => simp at hc
  · refine .mk (by decide) ?_
    intro c hc
    rw [List.mem_singleton] at hc
    subst hc
    exact .mk (by simp) (by simp)
  · have : (writeText Tree41.plain (.mk "VCALENDAR".toList [ofLine version]
        [.mk "VEVENT".toList [ofLine summary] []])).map List.length = some 239 := by decide +kernel
    rw [Option.map_eq_some_iff] at this
    exact this

/-- C92: the bytes that stand for a text are its UTF-8 encoding (the one of Lean's strings). -/
theorem C92_utf8 (s : List Char) :
    utf8 s = (String.ofList s).toUTF8.data.toList.map UInt8.toNat := by
  have h : ∀ l : List Char, utf8 l = (l.utf8Encode).data.toList.map UInt8.toNat := by
    intro l
    induction l with
    | nil => simp [utf8]
    | cons c l ih =>
      rw [List.utf8Encode_cons]
      simp only [utf8, List.flatMap_cons] at ih ⊢
      rw [ih, File92.utf8Char_eq]
      simp [List.utf8Encode_singleton]
  rw [h]
  rfl

end PyCal
