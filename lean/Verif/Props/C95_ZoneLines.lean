import Verif.Model.ZonalFile
import Verif.Props.C64_C68_Values
import Verif.Props.C69_C71_ZonalRules
import Verif.Props.C81_C82_DateTimeProperty

/-! # C95: lines of time zone data -/

namespace PyCal
namespace Zonal

/-! ## Specification: words in a line -/

/-- What stands between the fields of a line. -/
def Blank (c : Char) : Prop := c = ' ' ∨ c = '\t'

instance (c : Char) : Decidable (Blank c) := inferInstanceAs (Decidable (_ ∨ _))

/-- A field: a text that is not empty and has no blanks. -/
def Word (w : List Char) : Prop := w ≠ [] ∧ ∀ c ∈ w, ¬ Blank c

instance (w : List Char) : Decidable (Word w) := inferInstanceAs (Decidable (_ ∧ _))

/-- The line consists of these words, in this order, with blanks between them (and perhaps before and
after). -/
inductive Words : List Char → List (List Char) → Prop
  | nil {b : List Char} (hb : ∀ c ∈ b, Blank c) : Words b []
  | cons {b w s : List Char} {ws : List (List Char)} (hb : ∀ c ∈ b, Blank c) (hw : Word w)
      (hs : ∀ c ∈ s.head?, Blank c) (h : Words s ws) : Words (b ++ w ++ s) (w :: ws)

/-! ## Fields -/

namespace L95

theorem splitOn_sep (c : Char) : ∀ a b : List Char, splitOn c (a ++ c :: b) = splitOn c a ++ splitOn c b
  | [], b => by simp [splitOn]
  | x :: a, b => by
    simp only [List.cons_append, splitOn]
    rw [splitOn_sep c a b]
    split
    · simp
    · cases h : splitOn c a with
      | nil => exact absurd h (splitOn_nonempty c a)
      | cons p ps => simp

theorem fields_sep {c : Char} (hc : Blank c) (a b : List Char) : fields (a ++ c :: b) = fields a ++ fields b := by
  have : expandTabs (a ++ c :: b) = expandTabs a ++ ' ' :: expandTabs b := by
    rcases hc with rfl | rfl <;> simp [expandTabs]
  simp only [fields, this, splitOn_sep, List.filter_append]

theorem expandTabs_word {w : List Char} (h : ∀ c ∈ w, ¬ Blank c) : expandTabs w = w := by
  have : ∀ c ∈ w, (if c = '\t' then ' ' else c) = c := by
    intro c hc
    rw [if_neg]
    rintro rfl
    exact h _ hc (.inr rfl)
  calc expandTabs w = w.map id := List.map_congr_left this
    _ = w := by simp

theorem fields_word {w : List Char} (h : Word w) : fields w = [w] := by
  have hs : ' ' ∉ w := fun hc => h.2 _ hc (.inl rfl)
  simp [fields, expandTabs_word h.2, splitOn_none hs, h.1]

theorem fields_nil : fields [] = [] := rfl

theorem fields_blank {c : Char} (hc : Blank c) (s : List Char) : fields (c :: s) = fields s := by
  have := fields_sep hc [] s
  simpa [fields_nil] using this

theorem fields_blanks : ∀ {b : List Char}, (∀ c ∈ b, Blank c) → ∀ s, fields (b ++ s) = fields s
  | [], _, s => rfl
  | c :: b, h, s => by
    rw [List.cons_append, fields_blank (h c (by simp)), fields_blanks (fun x hx => h x (by simp [hx]))]

theorem fields_wordThen {w s : List Char} (h : Word w) (hs : ∀ c ∈ s.head?, Blank c) :
    fields (w ++ s) = w :: fields s := by
  cases s with
  | nil => simp [fields_word h, fields_nil]
  | cons c s =>
    have hc : Blank c := hs c (by simp)
    rw [fields_sep hc, fields_word h, fields_blank hc]; rfl

theorem words_fields {line : List Char} {ws : List (List Char)} (h : Words line ws) : fields line = ws := by
  induction h with
  | nil hb => rename_i b; have := fields_blanks hb []; simpa [fields_nil] using this
  | cons hb hw hs _ ih => rw [List.append_assoc, fields_blanks hb, fields_wordThen hw hs, ih]

theorem takeWhile_mem {p : Char → Bool} : ∀ {l : List Char} {c : Char}, c ∈ l.takeWhile p → p c = true
  | [], c, h => by simp at h
  | x :: l, c, h => by
    rw [List.takeWhile_cons] at h
    split at h
    · rcases List.mem_cons.1 h with rfl | h
      · assumption
      · exact takeWhile_mem h
    · simp at h

theorem words_exist : ∀ (n : Nat) (line : List Char), line.length ≤ n → ∃ ws, Words line ws
  | 0, line, h => ⟨[], by
      have : line = [] := List.length_eq_zero_iff.1 (by omega)
      subst this; exact .nil (by simp)⟩
  | n + 1, line, h => by
    have hb : ∀ c ∈ line.takeWhile (fun c => decide (Blank c)), Blank c := fun c hc => by
      have := takeWhile_mem hc; simpa using this
    cases hr : line.dropWhile (fun c => decide (Blank c)) with
    | nil =>
      refine ⟨[], .nil fun c hc => hb c ?_⟩
      have := List.takeWhile_append_dropWhile (p := fun c => decide (Blank c)) (l := line)
      rw [hr, List.append_nil] at this
      rw [this]; exact hc
    | cons c r =>
      have hc : ¬ Blank c := by
        have := List.head_dropWhile_not (fun c => decide (Blank c)) (l := line) (by simp [hr])
        simpa [hr] using this
      have hlen : r.length + 1 ≤ line.length := by
        have := (List.dropWhile_suffix (fun c => decide (Blank c)) (l := line)).length_le
        rw [hr] at this
        simpa using this
      obtain ⟨ws, hws⟩ := words_exist n (r.dropWhile fun c => decide (¬ Blank c)) (by
        have := (List.dropWhile_suffix (fun c => decide (¬ Blank c)) (l := r)).length_le
        omega)
      refine ⟨(c :: r.takeWhile fun c => decide (¬ Blank c)) :: ws, ?_⟩
      have e : line = line.takeWhile (fun c => decide (Blank c)) ++ (c :: r.takeWhile fun c => decide (¬ Blank c)) ++
          r.dropWhile fun c => decide (¬ Blank c) := by
        conv => lhs; rw [← List.takeWhile_append_dropWhile (p := fun c => decide (Blank c)) (l := line), hr]
        rw [List.append_assoc, List.cons_append, List.takeWhile_append_dropWhile]
      rw [e]
      refine .cons hb ⟨by simp, ?_⟩ ?_ hws
      · intro x hx
        rcases List.mem_cons.1 hx with rfl | hx
        · exact hc
        · have := takeWhile_mem hx; simpa using this
      · intro x hx
        have hne : r.dropWhile (fun c => decide (¬ Blank c)) ≠ [] := by
          intro h0; rw [h0] at hx; simp at hx
        have := List.head_dropWhile_not (fun c => decide (¬ Blank c)) (l := r) hne
        rw [List.head?_eq_some_head hne] at hx
        have hx' : (r.dropWhile fun c => decide (¬ Blank c)).head hne = x := by simpa using hx
        rw [hx'] at this
        simpa using this

theorem word_of_words {line : List Char} {ws : List (List Char)} (h : Words line ws) : ∀ w ∈ ws, Word w := by
  induction h with
  | nil _ => simp
  | cons _ hw _ _ ih => intro w hm; rcases List.mem_cons.1 hm with rfl | hm <;> [exact hw; exact ih w hm]

theorem chars_of_words {line : List Char} {ws : List (List Char)} (h : Words line ws) :
    ∀ w ∈ ws, ∀ c ∈ w, c ∈ line := by
  induction h with
  | nil _ => simp
  | cons _ hw _ _ ih =>
    intro w hm c hc
    rcases List.mem_cons.1 hm with rfl | hm
    · simp [hc]
    · simp [ih w hm c hc]

end L95
open L95

/-- The fields of a line are its words. -/
theorem C95_fields (line : List Char) (ws : List (List Char)) : fields line = ws ↔ Words line ws := by
  constructor
  · intro h
    obtain ⟨ws', h'⟩ := words_exist _ line (Nat.le_refl _)
    rw [words_fields h'] at h
    exact h ▸ h'
  · exact words_fields

theorem fields_words (line : List Char) : Words line (fields line) := (C95_fields line _).1 rfl

namespace L95

theorem fields_join {sep : Char} (hsep : Blank sep) : ∀ {l : List (List Char)}, (∀ w ∈ l, Word w) →
    fields (joinFields sep l) = l
  | [], _ => rfl
  | [a], h => by simp only [joinFields]; exact fields_word (h a (by simp))
  | a :: b :: r, h => by
    rw [joinFields, fields_sep hsep, fields_word (h a (by simp)), fields_join hsep (fun w hw => h w (by simp [hw]))]
    rfl

theorem joinFields_eq (sep : Char) : ∀ l : List (List Char), joinFields sep l = joinSep sep l
  | [] => rfl
  | [a] => rfl
  | a :: b :: r => by simp only [joinFields, joinSep, joinFields_eq sep (b :: r)]

theorem splitOn_join {sep : Char} {l : List (List Char)} (hl : l ≠ []) (h : ∀ s ∈ l, sep ∉ s) :
    splitOn sep (joinFields sep l) = l := by
  rw [joinFields_eq]
  exact splitOn_joinSep hl h

theorem split_chars {c : Char} : ∀ (s : List Char), ∀ l ∈ splitOn c s, c ∉ l
  | [], l, h => by simp [splitOn] at h; subst h; simp
  | x :: s, l, h => by
    have ih := split_chars (c := c) s
    simp only [splitOn] at h
    split at h
    · rcases List.mem_cons.1 h with rfl | h
      · simp
      · exact ih l h
    · rename_i hx
      cases hs : splitOn c s with
      | nil => simp [hs] at h; subst h; simpa using Ne.symm hx
      | cons p ps =>
        rw [hs] at h ih
        rcases List.mem_cons.1 h with rfl | h
        · simp only [List.mem_cons, not_or]
          exact ⟨Ne.symm hx, ih p (by simp)⟩
        · exact ih l (by simp [h])

end L95

/-! ## Rule lines -/

/-- A rule that can be written in a line. -/
def TzRule.Fine (r : TzRule) : Prop :=
  Word r.name ∧ Word r.fromYear ∧ Word r.toYear ∧ Word r.kind ∧ Word r.inMonth ∧ Word r.onDay ∧
    Word r.atTime ∧ Word r.saveTime ∧ Word r.letter

/-- A line is read as a rule exactly if it has at least ten words; the second to tenth are the fields of the
rule, and what follows is ignored. -/
theorem C95_rule_read (line : List Char) (r : TzRule) :
    TzRule.parse line = some r ↔ ∃ w more, Words line (w :: r.name :: r.fromYear :: r.toYear :: r.kind ::
      r.inMonth :: r.onDay :: r.atTime :: r.saveTime :: r.letter :: more) := by
  simp only [← C95_fields, TzRule.parse]
  generalize fields line = f
  constructor
  · intro h
    split at h
    · injection h with h; subst h; exact ⟨_, _, rfl⟩
    · cases h
  · rintro ⟨w, more, rfl⟩
    rfl

/-- What is written for a rule is read as the same rule, if and only if no field is empty or has blanks. -/
theorem C95_rule_write (r : TzRule) : r.Fine ↔ ∀ more, (∀ w ∈ more, Word w) →
    TzRule.parse (joinFields '\t' (r.generate :: more)) = some r := by
  constructor
  · rintro ⟨h1, h2, h3, h4, h5, h6, h7, h8, h9⟩ more hm
    rw [C95_rule_read]
    refine ⟨"Rule".toList, more, (C95_fields _ _).1 ?_⟩
    have e : fields r.generate = ["Rule".toList, r.name, r.fromYear, r.toYear, r.kind, r.inMonth, r.onDay, r.atTime,
        r.saveTime, r.letter] := by
      apply fields_join (.inr rfl)
      simp only [List.mem_cons, List.not_mem_nil, or_false]
      rintro w (rfl | rfl | rfl | rfl | rfl | rfl | rfl | rfl | rfl | rfl) <;> first | assumption | decide
    cases more with
    | nil => simpa [joinFields] using e
    | cons a more =>
      rw [joinFields, fields_sep (.inr rfl), e, fields_join (.inr rfl) hm]
      rfl
  · intro h
    have h := (C95_rule_read _ _).1 (h [] (by simp))
    obtain ⟨w, more, h⟩ := h
    have := word_of_words h
    exact ⟨this _ (by simp), this _ (by simp), this _ (by simp), this _ (by simp), this _ (by simp),
      this _ (by simp), this _ (by simp), this _ (by simp), this _ (by simp)⟩

/-- A rule that was read is written so that it is read as the same rule. -/
theorem C95_rule_again (line : List Char) (r : TzRule) (h : TzRule.parse line = some r) :
    TzRule.parse r.generate = some r := by
  obtain ⟨w, more, h⟩ := (C95_rule_read _ _).1 h
  have := word_of_words h
  have hf : r.Fine := ⟨this _ (by simp), this _ (by simp), this _ (by simp), this _ (by simp), this _ (by simp),
      this _ (by simp), this _ (by simp), this _ (by simp), this _ (by simp)⟩
  simpa [joinFields] using (C95_rule_write r).1 hf [] (by simp)

/-- A line of the time zone data, with several tabs, spaces and a remark. -/
example : TzRule.parse "Rule\tUS\t1918\t1919\t-\tMar  lastSun\t2:00\t1:00\tD # war time".toList =
    some ⟨"US".toList, "1918".toList, "1919".toList, "-".toList, "Mar".toList, "lastSun".toList,
      "2:00".toList, "1:00".toList, "D".toList⟩ := by decide +kernel

example : (⟨"US".toList, "1918".toList, "1919".toList, "-".toList, "Mar".toList, "lastSun".toList,
      "2:00".toList, "1:00".toList, "D".toList⟩ : TzRule).Fine := by
  unfold TzRule.Fine; decide

/-! ## Rule sets -/

namespace L95

theorem generate_split (r : TzRule) (h : r.Fine) : ∃ more, splitOn ' ' (expandTabs r.generate) =
    "Rule".toList :: r.name :: more := by
  obtain ⟨h1, h2, _⟩ := h
  have e : expandTabs r.generate = "Rule".toList ++ ' ' :: (r.name ++ ' ' :: expandTabs (joinFields '\t'
      [r.fromYear, r.toYear, r.kind, r.inMonth, r.onDay, r.atTime, r.saveTime, r.letter])) := by
    have hn := expandTabs_word h1.2
    simp only [expandTabs] at hn ⊢
    simp [TzRule.generate, joinFields, hn]
  rw [e, splitOn_sep, splitOn_none (by decide), splitOn_sep, splitOn_none (fun hc => h1.2 _ hc (.inl rfl))]
  exact ⟨_, rfl⟩

theorem loop_generate {n : List Char} (hn : n ≠ []) : ∀ (rs : List TzRule), (∀ r ∈ rs, r.Fine ∧ r.name = n) →
    ruleSetLoop n (rs.map TzRule.generate) = some (n, rs)
  | [], _ => rfl
  | r :: rs, h => by
    obtain ⟨more, hm⟩ := generate_split r (h r (by simp)).1
    have hname := (h r (by simp)).2
    have hp : TzRule.parse r.generate = some r := by
      simpa [joinFields] using (C95_rule_write r).1 (h r (by simp)).1 [] (by simp)
    simp only [List.map_cons, ruleSetLoop, hm, hname, hp, if_neg hn, ne_eq, not_true_eq_false, if_false,
      loop_generate hn rs (fun x hx => h x (by simp [hx]))]

end L95

/-- What is written for the rules of one name is read as the same rules. -/
theorem C95_ruleset_write (n : List Char) (rs : List TzRule) (hne : rs ≠ [])
    (h : ∀ r ∈ rs, r.Fine ∧ r.name = n ∧ '\n' ∉ r.generate) :
    ruleSetParse (ruleSetGenerate rs) = some (n, rs) := by
  unfold ruleSetParse ruleSetGenerate
  rw [splitOn_join (by simpa using hne) (by
    intro s hs
    obtain ⟨r, hr, rfl⟩ := List.mem_map.1 hs
    exact (h r hr).2.2)]
  cases rs with
  | nil => exact absurd rfl hne
  | cons r rs =>
    obtain ⟨more, hm⟩ := generate_split r (h r (by simp)).1
    have hname := (h r (by simp)).2.1
    have hn : n ≠ [] := hname ▸ (h r (by simp)).1.1.1
    have hp : TzRule.parse r.generate = some r := by
      simpa [joinFields] using (C95_rule_write r).1 (h r (by simp)).1 [] (by simp)
    simp only [List.map_cons, ruleSetLoop, hm, hname, hp, if_neg hn, ne_eq, not_true_eq_false, if_false, if_true,
      loop_generate hn rs (fun x hx => ⟨(h x (by simp [hx])).1, (h x (by simp [hx])).2.1⟩)]

/-- But a rule set cannot be read from a line that is a rule, if two blanks follow its first word. -/
theorem C95_fails_ruleset (w s : List Char) (b c : Char) (hw : Word w) (hb : Blank b) (hc : Blank c)
    (hn : '\n' ∉ w ++ b :: c :: s) : ruleSetParse (w ++ b :: c :: s) = none := by
  have e : expandTabs (w ++ b :: c :: s) = w ++ ' ' :: ([] ++ ' ' :: expandTabs s) := by
    have hw' := expandTabs_word hw.2
    simp only [expandTabs] at hw' ⊢
    rcases hb with rfl | rfl <;> rcases hc with rfl | rfl <;> simp [hw']
  simp only [ruleSetParse, splitOn_none hn, ruleSetLoop, e, splitOn_sep, splitOn_none (fun hc => hw.2 _ hc (.inl rfl))]
  simp [splitOn]

example : TzRule.parse "Rule\t\tUS\t1918\t1919\t-\tMar\tlastSun\t2:00\t1:00\tD".toList ≠ none ∧
    ruleSetParse "Rule\t\tUS\t1918\t1919\t-\tMar\tlastSun\t2:00\t1:00\tD".toList = none := by decide +kernel

/-! ## Zone lines -/

/-- A line of a zone that can be written: of UNTIL the words matter. -/
def ZoneRule.Fine (z : ZoneRule) : Prop :=
  Word z.gmtoff ∧ Word z.rule ∧ Word z.format ∧
    ∀ u, z.until_ = some u → ∃ ws, ws ≠ [] ∧ (∀ w ∈ ws, Word w) ∧ u = joinFields ' ' ws

/-- A zone that can be written: one line at least, no ends of lines in the fields, and no line but the first
with `#` for its offset. -/
def Zone.Fine (zn : Zone) : Prop :=
  Word zn.name ∧ zn.rules ≠ [] ∧ '\n' ∉ zn.name ∧
    (∀ z ∈ zn.rules, z.Fine ∧ '\n' ∉ z.generate) ∧ ∀ z ∈ zn.rules.tail, z.gmtoff ≠ "#".toList

namespace L95

/-- The words of a line of a zone. -/
def zoneWords (z : ZoneRule) : List (List Char) :=
  [z.gmtoff, z.rule, z.format] ++ (z.until_.map fields).getD []

theorem fields_generate {z : ZoneRule} (h : z.Fine) : fields z.generate = zoneWords z := by
  obtain ⟨h1, h2, h3, hu⟩ := h
  unfold ZoneRule.generate zoneWords
  cases he : z.until_ with
  | none =>
    simp only [List.append_nil, Option.map_none, Option.getD_none]
    exact fields_join (.inr rfl) (by simp; exact ⟨h1, h2, h3⟩)
  | some u =>
    obtain ⟨ws, hne, hw, rfl⟩ := hu u he
    have hj : joinFields ' ' ws ≠ [] := by
      intro h0
      have := fields_join (sep := ' ') (.inl rfl) hw
      rw [h0, fields_nil] at this
      exact hne this.symm
    simp only [if_neg hj, Option.map_some, Option.getD_some, List.cons_append, List.nil_append, joinFields,
      fields_sep (Or.inr rfl : Blank '\t'), fields_word h1, fields_word h2, fields_word h3]

theorem parse_of_fields {z : ZoneRule} (h : z.Fine) {line : List Char} {first : Bool}
    (hf : (if first then (fields line).drop 2 else fields line) = zoneWords z) :
    ZoneRule.parse line first = some z := by
  obtain ⟨h1, h2, h3, hu⟩ := h
  unfold ZoneRule.parse
  rw [hf]
  cases z with
  | mk g r f u =>
    cases u with
    | none => simp [zoneWords]
    | some u =>
      obtain ⟨ws, hne, hw, rfl⟩ := hu u rfl
      simp only [zoneWords, Option.map_some, Option.getD_some, fields_join (Or.inl rfl : Blank ' ') hw,
        List.cons_append, List.nil_append, if_neg hne, joinSpaces]

theorem fine_of_parse {line : List Char} {first : Bool} {z : ZoneRule} (h : ZoneRule.parse line first = some z) :
    z.Fine ∧ (if first then (fields line).drop 2 else fields line) = zoneWords z := by
  have hw := word_of_words (fields_words line)
  have hw : ∀ w ∈ (if first then (fields line).drop 2 else fields line), Word w := by
    intro w hm
    split at hm
    · exact hw w (List.mem_of_mem_drop hm)
    · exact hw w hm
  unfold ZoneRule.parse at h
  generalize (if first then (fields line).drop 2 else fields line) = f at *
  split at h
  · rename_i g r fm rest
    injection h with h
    subst h
    refine ⟨⟨hw _ (by simp), hw _ (by simp), hw _ (by simp), ?_⟩, ?_⟩
    · intro u hu
      simp only at hu
      split at hu
      · cases hu
      · rename_i hne
        injection hu with hu
        exact ⟨rest, hne, fun w hm => hw w (by simp [hm]), hu.symm⟩
    · unfold zoneWords
      simp only
      split
      · rename_i hr; simp [hr]
      · simp only [Option.map_some, Option.getD_some, joinSpaces]
        rw [fields_join (.inl rfl) (fun w hm => hw w (by simp [hm]))]
        rfl
  · cases h

theorem join3 (s : List Char) : joinFields '\t' [[], [], [], s] = '\t' :: '\t' :: '\t' :: s := by
  simp [joinFields]

theorem rest_generate : ∀ (zs : List ZoneRule), (∀ z ∈ zs, z.Fine) → (∀ z ∈ zs, z.gmtoff ≠ "#".toList) →
    Zone.parseRest (zs.map fun z => joinFields '\t' [[], [], [], z.generate]) = some zs
  | [], _, _ => rfl
  | z :: zs, h, h' => by
    have hf : fields (joinFields '\t' [[], [], [], z.generate]) = zoneWords z := by
      rw [join3, fields_blank (.inr rfl), fields_blank (.inr rfl), fields_blank (.inr rfl),
        fields_generate (h z (by simp))]
    have hp : ZoneRule.parse (joinFields '\t' [[], [], [], z.generate]) false = some z :=
      parse_of_fields (h z (by simp)) (by simpa using hf)
    have hne : joinFields '\t' [[], [], [], z.generate] ≠ [] := by rw [join3]; simp
    simp only [List.map_cons, Zone.parseRest, if_neg hne, hp,
      rest_generate zs (fun x hx => h x (by simp [hx])) (fun x hx => h' x (by simp [hx])),
      if_pos (h' z (by simp))]

theorem mem_joinFields {sep c : Char} : ∀ {l : List (List Char)}, c ∈ joinFields sep l → c = sep ∨ ∃ s ∈ l, c ∈ s
  | [], h => by simp [joinFields] at h
  | [a], h => .inr ⟨a, by simp, by simpa [joinFields] using h⟩
  | a :: b :: r, h => by
    simp only [joinFields, List.mem_append, List.mem_cons] at h
    rcases h with h | h | h
    · exact .inr ⟨a, by simp, h⟩
    · exact .inl h
    · rcases mem_joinFields h with h | ⟨s, hs, hc⟩
      · exact .inl h
      · exact .inr ⟨s, by simp [hs], hc⟩

theorem chars_zone {z : ZoneRule} (h : z.Fine) {line : List Char} (hl : '\n' ∉ line)
    (hw : ∀ w ∈ zoneWords z, ∀ c ∈ w, c ∈ line) : '\n' ∉ z.generate := by
  obtain ⟨_, _, _, hu⟩ := h
  intro hc
  unfold ZoneRule.generate at hc
  rcases mem_joinFields hc with hc | ⟨s, hs, hc⟩
  · exact absurd hc (by decide)
  · rcases List.mem_append.1 hs with hs | hs
    · exact hl (hw s (by simp only [zoneWords, List.mem_append]; exact .inl hs) _ hc)
    · cases he : z.until_ with
      | none => simp [he] at hs
      | some u =>
        simp only [he] at hs
        split at hs
        · simp at hs
        · obtain rfl := List.mem_singleton.1 hs
          obtain ⟨ws, _, hws, hj⟩ := hu s he
          rw [hj] at hc
          rcases mem_joinFields hc with hc | ⟨w, hm, hc⟩
          · exact absurd hc (by decide)
          · refine hl (hw w ?_ _ hc)
            simp only [zoneWords, he, Option.map_some, Option.getD_some, List.mem_append]
            refine .inr ?_
            rw [hj, fields_join (.inl rfl) hws]
            exact hm

theorem fine_of_rest : ∀ {ls : List (List Char)} {zs : List ZoneRule}, Zone.parseRest ls = some zs →
    (∀ l ∈ ls, '\n' ∉ l) → (∀ z ∈ zs, z.Fine ∧ '\n' ∉ z.generate) ∧ ∀ z ∈ zs, z.gmtoff ≠ "#".toList
  | [], zs, h, _ => by simp only [Zone.parseRest, Option.some.injEq] at h; subst h; simp
  | l :: ls, zs, h, hl => by
    unfold Zone.parseRest at h
    split at h
    · exact fine_of_rest h fun x hx => hl x (by simp [hx])
    · split at h
      · rename_i z zs' hz hzs
        have ih := fine_of_rest hzs fun x hx => hl x (by simp [hx])
        injection h with h
        obtain ⟨hf, hw⟩ := fine_of_parse hz
        split at h
        · rename_i hg
          subst h
          refine ⟨?_, ?_⟩
          · intro x hx
            rcases List.mem_cons.1 hx with rfl | hx
            · refine ⟨hf, chars_zone hf (hl l (by simp)) ?_⟩
              intro w hm c hc
              simp only [Bool.false_eq_true, if_false] at hw
              exact chars_of_words (fields_words l) w (hw ▸ hm) c hc
            · exact ih.1 x hx
          · intro x hx
            rcases List.mem_cons.1 hx with rfl | hx
            · exact hg
            · exact ih.2 x hx
        · subst h; exact ih
      · cases h

end L95

/-- What is written for a zone is read as the same zone. -/
theorem C95_zone_write (zn : Zone) (h : zn.Fine) : Zone.parse zn.generate = some zn := by
  obtain ⟨hn, hne, hnl, hz, ht⟩ := h
  obtain ⟨n, rules⟩ := zn
  cases rules with
  | nil => exact absurd rfl hne
  | cons z zs =>
    simp only [List.tail_cons] at ht hz hn hnl
    unfold Zone.parse Zone.generate
    have hfirst : joinFields '\t' ["Zone ".toList ++ n, z.generate] = "Zone".toList ++ ' ' :: (n ++ '\t' :: z.generate) := by
      simp [joinFields]
    have hf : fields (joinFields '\t' ["Zone ".toList ++ n, z.generate]) = "Zone".toList :: n :: zoneWords z := by
      rw [hfirst, fields_sep (.inl rfl), fields_sep (.inr rfl), fields_word hn, fields_word (by decide),
        fields_generate (hz z (by simp)).1]
      rfl
    have hp : ZoneRule.parse (joinFields '\t' ["Zone ".toList ++ n, z.generate]) true = some z :=
      parse_of_fields (hz z (by simp)).1 (by rw [if_pos rfl, hf]; rfl)
    simp only
    rw [splitOn_join (by simp) (by
      intro s hs
      rcases List.mem_cons.1 hs with rfl | hs
      · rw [hfirst]
        have := (hz z (by simp)).2
        simp [hnl, this]
      · obtain ⟨x, hx, rfl⟩ := List.mem_map.1 hs
        rw [join3]
        have := (hz x (by simp [hx])).2
        simp [this])]
    simp only [hf, hp, rest_generate zs (fun x hx => (hz x (by simp [hx])).1) ht]

/-- A zone that was read is written so that it is read as the same zone. -/
theorem C95_zone_again (text : List Char) (zn : Zone) (h : Zone.parse text = some zn) :
    zn.Fine ∧ Zone.parse zn.generate = some zn := by
  have hf : zn.Fine := by
    unfold Zone.parse at h
    have hs := split_chars (c := '\n') text
    generalize splitOn '\n' text = ls at *
    split at h
    · cases h
    · rename_i line ls'
      split at h
      · rename_i w n more z zs hw hz hr
        injection h with h
        subst h
        have hline : '\n' ∉ line := hs line (by simp)
        have hwords := fields_words line
        obtain ⟨zf, hzw⟩ := fine_of_parse hz
        obtain ⟨rf, rg⟩ := fine_of_rest hr fun l hl => hs l (by simp [hl])
        simp only [if_true] at hzw
        refine ⟨word_of_words hwords n (by simp [hw]), by simp, ?_, ?_, ?_⟩
        · intro hc
          exact hline (chars_of_words hwords n (by simp [hw]) _ hc)
        · intro x hx
          rcases List.mem_cons.1 hx with rfl | hx
          · refine ⟨zf, chars_zone zf hline ?_⟩
            intro v hm c hc
            rw [← hzw] at hm
            exact chars_of_words hwords v (List.mem_of_mem_drop hm) c hc
          · exact rf x hx
        · simpa using rg
      · cases h
  exact ⟨hf, C95_zone_write zn hf⟩

/-- A zone of the time zone data with a remark behind it. -/
example : Zone.parse "Zone America/New_York\t-4:56:02 -\tLMT\t1883 Nov 18 12:03:58\n\t\t\t-5:00\tUS\tE%sT\t1920\n\t\t\t-5:00\tUS\tE%sT # now".toList =
    some ⟨"America/New_York".toList,
      [⟨"-4:56:02".toList, "-".toList, "LMT".toList, some "1883 Nov 18 12:03:58".toList⟩,
       ⟨"-5:00".toList, "US".toList, "E%sT".toList, some "1920".toList⟩,
       ⟨"-5:00".toList, "US".toList, "E%sT".toList, some "# now".toList⟩]⟩ := by decide +kernel

end Zonal
end PyCal
