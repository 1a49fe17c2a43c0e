import Verif.Props.C95_ZoneLines

/-! # C96: files of time zone data -/

namespace PyCal
namespace Zonal
open L95

/-! ## Specification: what a file says -/

/-- A line between or in zones that says nothing. -/
def Remark (l : List Char) : Prop := l = [] ∨ ∃ s, l = '#' :: s

/-- A line that goes on with a zone: it begins with a blank. -/
def Indented (l : List Char) : Prop := ∃ c s, l = c :: s ∧ Blank c

/-- What a line with these words says about a zone: offset, rules, format and perhaps the end. -/
inductive ZoneWords : List (List Char) → ZoneRule → Prop
  | always (g r f : List Char) : ZoneWords [g, r, f] ⟨g, r, f, none⟩
  | upto (g r f : List Char) (u : List (List Char)) (hu : u ≠ []) :
      ZoneWords (g :: r :: f :: u) ⟨g, r, f, some (joinFields ' ' u)⟩

/-- The lines after the first one of a zone, and what they say: lines that go on with it, and remarks, which
begin with `#`, or with blanks and a `#` by itself and two words at least. -/
inductive Body : List (List Char) → List ZoneRule → Prop
  | nil : Body [] []
  | remark {l : List Char} {ls zs} (h : Remark l) (hb : Body ls zs) : Body (l :: ls) zs
  | note {l a b : List Char} {more ls zs} (hc : Indented l) (h : Words l ("#".toList :: a :: b :: more))
      (hb : Body ls zs) : Body (l :: ls) zs
  | line {l : List Char} {ws ls z zs} (hc : Indented l) (h : Words l ws) (hz : ZoneWords ws z)
      (hg : z.gmtoff ≠ "#".toList) (hb : Body ls zs) : Body (l :: ls) (z :: zs)

/-- What a part of a file says. -/
inductive Fact where
  | rule (r : TzRule)
  | zone (z : Zone)
  | link (target name : List Char)
deriving DecidableEq, Repr

/-- The lines of a file and what they say. -/
inductive Says : List (List Char) → List Fact → Prop
  | nil : Says [] []
  | remark {l : List Char} {ls fs} (h : Remark l) (hs : Says ls fs) : Says (l :: ls) fs
  | rule {l : List Char} {r : TzRule} {more ls fs} (hl : ∃ s, l = "Rule".toList ++ s)
      (h : Words l ("Rule".toList :: r.name :: r.fromYear :: r.toYear :: r.kind :: r.inMonth :: r.onDay :: r.atTime ::
        r.saveTime :: r.letter :: more)) (hs : Says ls fs) : Says (l :: ls) (.rule r :: fs)
  | link {l a b : List Char} {more ls fs} (hl : ∃ s, l = "Link".toList ++ s) (hr : '\r' ∉ l ∧ '\x0b' ∉ l ∧ '\x0c' ∉ l)
      (h : Words l ("Link".toList :: a :: b :: more)) (hs : Says ls fs) : Says (l :: ls) (.link a b :: fs)
  | zone {l n : List Char} {ws z body zs ls fs} (hl : ∃ s, l = "Zone".toList ++ s)
      (h : Words l ("Zone".toList :: n :: ws)) (hz : ZoneWords ws z) (hb : Body body zs) (hs : Says ls fs) :
      Says (l :: body ++ ls) (.zone ⟨n, z :: zs⟩ :: fs)

/-- The rules called `n`, in the order of the file. -/
def rulesSaid (n : List Char) (fs : List Fact) : List TzRule :=
  fs.filterMap fun f => match f with | .rule r => if r.name = n then some r else none | _ => none

/-- The zone called `n`: the last one. -/
def zoneSaid (n : List Char) (fs : List Fact) : Option Zone :=
  (fs.filterMap fun f => match f with | .zone z => if z.name = n then some z else none | _ => none).getLast?

/-- What `n` is another name for: the last link. -/
def linkSaid (n : List Char) (fs : List Fact) : Option (List Char) :=
  (fs.filterMap fun f => match f with | .link a b => if b = n then some a else none | _ => none).getLast?

/-- The text of a file with these lines. -/
def fileText (ls : List (List Char)) : List Char := ls.flatMap fun l => l ++ ['\n']

/-! ## Reading -/

namespace F96

theorem fileLines_line : ∀ (l s : List Char), '\n' ∉ l → fileLines (l ++ '\n' :: s) = (l ++ ['\n']) :: fileLines s
  | [], s, _ => by simp [fileLines]
  | c :: l, s, h => by
    simp only [List.mem_cons, not_or] at h
    rw [List.cons_append, fileLines, if_neg (Ne.symm h.1), fileLines_line l s h.2]
    rfl

theorem fileLines_text : ∀ (ls : List (List Char)), (∀ l ∈ ls, '\n' ∉ l) →
    (fileLines (fileText ls)).map List.dropLast = ls
  | [], _ => rfl
  | l :: ls, h => by
    have e : fileText (l :: ls) = l ++ '\n' :: fileText ls := by simp [fileText]
    rw [e, fileLines_line l _ (h l (by simp)), List.map_cons, fileLines_text ls fun x hx => h x (by simp [hx])]
    simp

theorem lookup_set {α : Type} (k k' : List Char) (v : α) : ∀ d : List (List Char × α),
    (setItem k v d).lookup k' = if k' = k then some v else d.lookup k'
  | [] => by
    simp only [setItem, List.lookup]
    by_cases h : k' = k
    · simp [h]
    · have : (k' == k) = false := by simpa using h
      simp [h, this]
  | x :: d => by
    simp only [setItem]
    by_cases hx : x.1 = k
    · rw [if_pos hx]
      simp only [List.lookup]
      by_cases h : k' = k
      · simp [h]
      · have h1 : (k' == k) = false := by simpa using h
        have h2 : (k' == x.1) = false := by rw [hx]; exact h1
        simp [h, h1, h2]
    · rw [if_neg hx]
      obtain ⟨a, b⟩ := x
      simp only at hx
      simp only [List.lookup, lookup_set k k' v d]
      by_cases h : k' = k
      · have : (k' == a) = false := by subst h; simpa using Ne.symm hx
        simp [h ▸ this, h]
      · simp [h]

/-- The data after a file that says this, read from before. -/
def After (st st' : TzData) (fs : List Fact) : Prop :=
  (∀ n, (st'.rules.lookup n).getD [] = (st.rules.lookup n).getD [] ++ rulesSaid n fs) ∧
    (∀ n, st'.zones.lookup n = (zoneSaid n fs).or (st.zones.lookup n)) ∧
    ∀ n, st'.links.lookup n = (linkSaid n fs).or (st.links.lookup n)

theorem getLast_cons {α : Type} (a : α) (l : List α) (o : Option α) :
    ((a :: l).getLast?).or o = l.getLast?.or (some a) := by
  cases l with
  | nil => simp
  | cons b l =>
    rw [List.getLast?_cons_cons]
    cases h : (b :: l).getLast? with
    | none => simp at h
    | some x => simp

theorem after_rule {st st' : TzData} {r : TzRule} {fs : List Fact} (h : After (st.addRule r) st' fs) :
    After st st' (.rule r :: fs) := by
  obtain ⟨h1, h2, h3⟩ := h
  refine ⟨?_, h2, h3⟩
  intro n
  rw [h1 n]
  simp only [TzData.addRule, lookup_set, rulesSaid, List.filterMap_cons]
  by_cases hn : r.name = n
  · subst hn; simp
  · rw [if_neg (Ne.symm hn), if_neg hn]

theorem after_zone {st st' : TzData} {z : Zone} {fs : List Fact}
    (h : After { st with zones := setItem z.name z st.zones } st' fs) : After st st' (.zone z :: fs) := by
  obtain ⟨h1, h2, h3⟩ := h
  refine ⟨h1, ?_, h3⟩
  intro n
  rw [h2 n]
  simp only [lookup_set, zoneSaid, List.filterMap_cons]
  by_cases hn : z.name = n
  · subst hn; simp only [if_true, getLast_cons]
  · rw [if_neg (Ne.symm hn), if_neg hn]

theorem after_link {st st' : TzData} {a b : List Char} {fs : List Fact}
    (h : After { st with links := setItem b a st.links } st' fs) : After st st' (.link a b :: fs) := by
  obtain ⟨h1, h2, h3⟩ := h
  refine ⟨h1, h2, ?_⟩
  intro n
  rw [h3 n]
  simp only [lookup_set, linkSaid, List.filterMap_cons]
  by_cases hn : b = n
  · subst hn; simp only [if_true, getLast_cons]
  · rw [if_neg (Ne.symm hn), if_neg hn]

theorem remark_iff {l : List Char} (h : Remark l) : ("#".toList.isPrefixOf l || l.isEmpty) = true := by
  rcases h with rfl | ⟨s, rfl⟩
  · rfl
  · have : "#".toList.isPrefixOf ('#' :: s) = true := by simp [List.isPrefixOf]
    simp [this]

theorem blank_iff {l : List Char} (h : Indented l) : ("\t".toList.isPrefixOf l || " ".toList.isPrefixOf l) = true := by
  obtain ⟨c, s, rfl, rfl | rfl⟩ := h <;> simp [List.isPrefixOf]

theorem not_blank {l : List Char} (h : ¬ Indented l) : ("\t".toList.isPrefixOf l || " ".toList.isPrefixOf l) = false := by
  cases l with
  | nil => rfl
  | cons c s =>
    have : ¬ Blank c := fun hb => h ⟨c, s, rfl, hb⟩
    simp only [Blank, not_or] at this
    simp [List.isPrefixOf, Ne.symm this.1, Ne.symm this.2]

/-- The lines of a zone that are given to `Zone.parse`. -/
theorem block_body {body : List (List Char)} {zs : List ZoneRule} (h : Body body zs) (ls : List (List Char)) :
    ∃ ks, zoneBlock (body ++ ls) = (ks ++ (zoneBlock ls).1, (zoneBlock ls).2) ∧ (∀ k ∈ ks, k ∈ body) ∧
      Zone.parseRest ks = some zs := by
  induction h with
  | nil => exact ⟨[], by simp, by simp, rfl⟩
  | remark hr hb ih =>
    rename_i l ls' zs'
    obtain ⟨ks, h1, h2, h3⟩ := ih
    refine ⟨ks, ?_, fun k hk => by simp [h2 k hk], h3⟩
    rw [List.cons_append, zoneBlock, not_blank, remark_iff hr]
    · simpa using h1
    · rintro ⟨c, s, rfl, hb⟩
      rcases hr with hr | ⟨s', hr⟩
      · cases hr
      · injection hr with hr1 hr2; subst hr1; exact absurd hb (by decide)
  | note hc hw hb ih =>
    rename_i l a b more ls' zs'
    obtain ⟨ks, h1, h2, h3⟩ := ih
    refine ⟨l :: ks, ?_, ?_, ?_⟩
    · rw [List.cons_append, zoneBlock, blank_iff hc, if_pos rfl, h1]; rfl
    · intro k hk; rcases List.mem_cons.1 hk with rfl | hk <;> simp_all
    · have hne : l ≠ [] := by obtain ⟨c, s, rfl, _⟩ := hc; simp
      have hf := words_fields hw
      simp only [Zone.parseRest, if_neg hne, ZoneRule.parse, Bool.false_eq_true, if_false, hf, h3, ne_eq,
        not_true_eq_false]
  | line hc hw hz hg hb ih =>
    rename_i l ws ls' z zs'
    obtain ⟨ks, h1, h2, h3⟩ := ih
    refine ⟨l :: ks, ?_, ?_, ?_⟩
    · rw [List.cons_append, zoneBlock, blank_iff hc, if_pos rfl, h1]; rfl
    · intro k hk; rcases List.mem_cons.1 hk with rfl | hk <;> simp_all
    · have hne : l ≠ [] := by obtain ⟨c, s, rfl, _⟩ := hc; simp
      have hf := words_fields hw
      cases hz with
      | always g r f =>
        simp only [Zone.parseRest, if_neg hne, ZoneRule.parse, Bool.false_eq_true, if_false, hf, h3, if_pos hg, if_true]
      | upto g r f u hu =>
        simp only [Zone.parseRest, if_neg hne, ZoneRule.parse, Bool.false_eq_true, if_false, hf, h3, if_pos hg,
          if_neg hu, joinSpaces]

theorem zoneWords_parse {l n : List Char} {ws : List (List Char)} {z : ZoneRule}
    (h : Words l ("Zone".toList :: n :: ws)) (hz : ZoneWords ws z) : ZoneRule.parse l true = some z := by
  have hf := words_fields h
  cases hz with
  | always g r f => simp only [ZoneRule.parse, hf, if_true, List.drop_succ_cons, List.drop_zero]
  | upto g r f u hu =>
    simp only [ZoneRule.parse, hf, if_true, List.drop_succ_cons, List.drop_zero, if_neg hu, joinSpaces]

/-- The first line after a zone is not one of it. -/
theorem block_says {ls : List (List Char)} {fs : List Fact} (h : Says ls fs) :
    (zoneBlock ls).1 = [] ∧ Says (zoneBlock ls).2 fs := by
  induction h with
  | nil => exact ⟨rfl, .nil⟩
  | remark hr hs ih =>
    rw [zoneBlock, not_blank, remark_iff hr]
    · simpa using ih
    · rintro ⟨c, s, rfl, hb⟩
      rcases hr with hr | ⟨s', hr⟩
      · cases hr
      · injection hr with hr1 hr2; subst hr1; exact absurd hb (by decide)
  | rule hl hw hs ih =>
    obtain ⟨s, rfl⟩ := hl
    rename_i ls' fs'
    have : zoneBlock (("Rule".toList ++ s) :: ls') = ([], ("Rule".toList ++ s) :: ls') := by
      simp [zoneBlock, List.isPrefixOf]
    rw [this]
    exact ⟨rfl, .rule ⟨s, rfl⟩ hw hs⟩
  | link hl hr hw hs ih =>
    obtain ⟨s, rfl⟩ := hl
    rename_i ls' fs'
    have : zoneBlock (("Link".toList ++ s) :: ls') = ([], ("Link".toList ++ s) :: ls') := by
      simp [zoneBlock, List.isPrefixOf]
    rw [this]
    exact ⟨rfl, .link ⟨s, rfl⟩ hr hw hs⟩
  | zone hl hw hz hb hs ih =>
    rename_i l n ws z body zs ls' fs'
    obtain ⟨s, rfl⟩ := hl
    have : zoneBlock (("Zone".toList ++ s) :: body ++ ls') = ([], ("Zone".toList ++ s) :: body ++ ls') := by
      simp [zoneBlock, List.isPrefixOf]
    rw [this]
    exact ⟨rfl, .zone ⟨s, rfl⟩ hw hz hb hs⟩

theorem wordsLoop_word : ∀ {w : List Char} (cur s : List Char), (∀ c ∈ w, isSpace c = false) →
    wordsLoop cur (w ++ s) = wordsLoop (cur ++ w) s
  | [], cur, s, _ => by simp
  | c :: w, cur, s, h => by
    rw [List.cons_append, wordsLoop, if_neg (by simp [h c (by simp)]), wordsLoop_word _ _ fun x hx => h x (by simp [hx])]
    simp

theorem wordsLoop_blanks : ∀ {b : List Char} (s : List Char), (∀ c ∈ b, Blank c) →
    wordsLoop [] (b ++ s) = wordsLoop [] s
  | [], s, _ => rfl
  | c :: b, s, h => by
    have hc : isSpace c = true := by rcases h c (by simp) with rfl | rfl <;> decide
    rw [List.cons_append, wordsLoop, if_pos hc, if_pos rfl, wordsLoop_blanks s fun x hx => h x (by simp [hx])]

theorem wordsLoop_words {l : List Char} {ws : List (List Char)} (h : Words l ws)
    (hr : '\n' ∉ l ∧ '\r' ∉ l ∧ '\x0b' ∉ l ∧ '\x0c' ∉ l) : wordsLoop [] l = ws := by
  induction h with
  | nil hb => rename_i b; have := wordsLoop_blanks [] hb; simpa [wordsLoop] using this
  | cons hb hw hs hrest ih =>
    rename_i b w s ws'
    have hsp : ∀ c ∈ w, isSpace c = false := by
      intro c hc
      have h1 := hw.2 c hc
      simp only [Blank, not_or] at h1
      have hm : c ∈ b ++ w ++ s := by simp [hc]
      have h2 : c ≠ '\n' := fun e => hr.1 (e ▸ hm)
      have h3 : c ≠ '\r' := fun e => hr.2.1 (e ▸ hm)
      have h4 : c ≠ '\x0b' := fun e => hr.2.2.1 (e ▸ hm)
      have h5 : c ≠ '\x0c' := fun e => hr.2.2.2 (e ▸ hm)
      simp [isSpace, h1.1, h1.2, h2, h3, h4, h5]
    have ih := ih ⟨fun h => hr.1 (by simp [h]), fun h => hr.2.1 (by simp [h]), fun h => hr.2.2.1 (by simp [h]),
      fun h => hr.2.2.2 (by simp [h])⟩
    rw [List.append_assoc, wordsLoop_blanks _ hb, wordsLoop_word _ _ hsp, List.nil_append]
    cases s with
    | nil =>
      have : ws' = [] := by rw [← ih]; rfl
      simp [wordsLoop, hw.1, this]
    | cons c s =>
      have hc : isSpace c = true := by rcases hs c (by simp) with rfl | rfl <;> decide
      rw [wordsLoop, if_pos hc, if_neg hw.1]
      rw [wordsLoop, if_pos hc, if_pos rfl] at ih
      rw [ih]

theorem parse_says : ∀ (k : Nat) {ls : List (List Char)} {fs : List Fact} (st : TzData), ls.length ≤ k → Says ls fs →
    (∀ l ∈ ls, '\n' ∉ l) → ∃ st', parseLoop st ls = some st' ∧ After st st' fs := by
  intro k
  induction k with
  | zero =>
    intro ls fs st hk h _
    have : ls = [] := List.length_eq_zero_iff.1 (by omega)
    subst this
    cases h with
    | nil => exact ⟨st, by rw [parseLoop], by intro n; simp [rulesSaid], by intro n; simp [zoneSaid], by intro n; simp [linkSaid]⟩
  | succ k ih =>
    intro ls fs st hk h hn
    cases h with
    | nil => exact ⟨st, by rw [parseLoop], by intro n; simp [rulesSaid], by intro n; simp [zoneSaid], by intro n; simp [linkSaid]⟩
    | remark hr hs =>
      rw [parseLoop, remark_iff hr, if_pos rfl]
      exact ih st (by simpa using hk) hs fun l hl => hn l (by simp [hl])
    | rule hl hw hs =>
      rename_i l r more ls fs
      obtain ⟨st', h1, h2⟩ := ih (st.addRule r) (by simpa using hk) hs fun l hl => hn l (by simp [hl])
      refine ⟨st', ?_, after_rule h2⟩
      have hp : TzRule.parse l = some r := (C95_rule_read _ _).2 ⟨_, _, hw⟩
      obtain ⟨s, rfl⟩ := hl
      have e1 : ("#".toList.isPrefixOf ("Rule".toList ++ s) || ("Rule".toList ++ s).isEmpty) = false := by
        simp [List.isPrefixOf]
      have e2 : "Rule".toList.isPrefixOf ("Rule".toList ++ s) = true := by simp [List.isPrefixOf]
      rw [parseLoop, e1, e2, if_neg (by simp), if_pos rfl, hp]
      exact h1
    | link hl hr hw hs =>
      rename_i l a b more ls fs
      obtain ⟨st', h1, h2⟩ := ih { st with links := setItem b a st.links } (by simpa using hk) hs
        fun l hl => hn l (by simp [hl])
      refine ⟨st', ?_, after_link h2⟩
      have hp := wordsLoop_words hw ⟨hn l (by simp), hr⟩
      obtain ⟨s, rfl⟩ := hl
      have e1 : ("#".toList.isPrefixOf ("Link".toList ++ s) || ("Link".toList ++ s).isEmpty) = false := by
        simp [List.isPrefixOf]
      have e2 : "Rule".toList.isPrefixOf ("Link".toList ++ s) = false := by simp [List.isPrefixOf]
      have e3 : "Zone".toList.isPrefixOf ("Link".toList ++ s) = false := by simp [List.isPrefixOf]
      have e4 : "Link".toList.isPrefixOf ("Link".toList ++ s) = true := by simp [List.isPrefixOf]
      rw [parseLoop, e1, e2, e3, e4, if_neg (by simp), if_neg (by simp), if_neg (by simp), if_pos rfl, hp]
      exact h1
    | zone hl hw hz hb hs =>
      rename_i l n ws z body zs ls fs
      obtain ⟨ks, hb1, hb2, hb3⟩ := block_body hb ls
      obtain ⟨hs1, hs2⟩ := block_says hs
      have hlen := zoneBlock_length ls
      have hsub : ∀ x ∈ (zoneBlock ls).2, x ∈ ls := by
        have : ∀ l : List (List Char), ∀ x ∈ (zoneBlock l).2, x ∈ l := by
          intro l
          induction l with
          | nil => simp [zoneBlock]
          | cons y l ih =>
            intro x hx
            unfold zoneBlock at hx
            split at hx
            · exact List.mem_cons_of_mem _ (ih x hx)
            · split at hx
              · exact List.mem_cons_of_mem _ (ih x hx)
              · exact hx
        exact this ls
      obtain ⟨st', h1, h2⟩ := ih { st with zones := setItem n ⟨n, z :: zs⟩ st.zones }
        (by simp only [List.cons_append, List.length_cons, List.length_append] at hk; omega) hs2
        fun l hl => hn l (by simp [hsub l hl])
      refine ⟨st', ?_, after_zone h2⟩
      have hp := zoneWords_parse hw hz
      have hf := words_fields hw
      have hz' : Zone.parse (joinFields '\n' (l :: ks)) = some ⟨n, z :: zs⟩ := by
        unfold Zone.parse
        rw [splitOn_join (by simp) (by
          intro s hs
          rcases List.mem_cons.1 hs with rfl | hs
          · exact hn s (by simp)
          · exact hn s (by simp [hb2 s hs]))]
        simp only [hf, hp, hb3]
      rw [hs1, List.append_nil] at hb1
      obtain ⟨s, rfl⟩ := hl
      have e1 : ("#".toList.isPrefixOf ("Zone".toList ++ s) || ("Zone".toList ++ s).isEmpty) = false := by
        simp [List.isPrefixOf]
      have e2 : "Rule".toList.isPrefixOf ("Zone".toList ++ s) = false := by simp [List.isPrefixOf]
      have e3 : "Zone".toList.isPrefixOf ("Zone".toList ++ s) = true := by simp [List.isPrefixOf]
      rw [List.cons_append, parseLoop, e1, e2, e3, if_neg (by simp), if_neg (by simp), if_pos rfl, hb1]
      simp only [hz']
      exact h1

end F96
open F96

/-- C96 (partial): a file of time zone data is read as what it says: the rules of each name in the order of the file,
behind those of earlier files, the last zone of each name, and the last link for each name.

Missing: files without an end of line at the end, `C96_fails_last`, and some lines that begin with blanks,
`C96_fails_short`, `C96_fails_note`. -/
theorem C96_read_partial (st : TzData) (ls : List (List Char)) (fs : List Fact) (h : Says ls fs)
    (hn : ∀ l ∈ ls, '\n' ∉ l) : ∃ st', st.parse (fileText ls) = some st' ∧
      (∀ n, (st'.rules.lookup n).getD [] = (st.rules.lookup n).getD [] ++ rulesSaid n fs) ∧
      (∀ n, st'.zones.lookup n = (zoneSaid n fs).or (st.zones.lookup n)) ∧
      ∀ n, st'.links.lookup n = (linkSaid n fs).or (st.links.lookup n) := by
  unfold TzData.parse
  rw [fileLines_text ls hn]
  exact parse_says _ st (Nat.le_refl _) h hn

/-- A file with remarks, two rules of one name, a zone with remarks in it, and a link. -/
def sampleLines : List (List Char) :=
  ["# Great Britain".toList,
   "Rule\tGB\t1972\t1980\t-\tMar\tSun>=16\t2:00s\t1:00\tBST".toList,
   "Rule\tGB\t1972\t1980\t-\tOct\tSun>=23\t2:00s\t0\tGMT # end".toList,
   [],
   "Zone\tEurope/London\t-0:01:15 -\tLMT\t1847 Dec  1".toList,
   "#".toList,
   "\t\t\t # this is a remark".toList,
   "\t\t\t 0:00\tGB\t%s".toList,
   [],
   "Link\tEurope/London\tEurope/Jersey".toList]

def sampleFacts : List Fact :=
  [.rule ⟨"GB".toList, "1972".toList, "1980".toList, "-".toList, "Mar".toList, "Sun>=16".toList, "2:00s".toList,
     "1:00".toList, "BST".toList⟩,
   .rule ⟨"GB".toList, "1972".toList, "1980".toList, "-".toList, "Oct".toList, "Sun>=23".toList, "2:00s".toList,
     "0".toList, "GMT".toList⟩,
   .zone ⟨"Europe/London".toList, [⟨"-0:01:15".toList, "-".toList, "LMT".toList, some "1847 Dec 1".toList⟩,
     ⟨"0:00".toList, "GB".toList, "%s".toList, none⟩]⟩,
   .link "Europe/London".toList "Europe/Jersey".toList]

example : Says sampleLines sampleFacts := by
  refine .remark (.inr ⟨_, rfl⟩) (.rule (more := []) ⟨_, rfl⟩ ((C95_fields _ _).1 (by decide +kernel))
    (.rule (more := ["#".toList, "end".toList]) ⟨_, rfl⟩ ((C95_fields _ _).1 (by decide +kernel))
    (.remark (.inl rfl)
    (.zone (body := ["#".toList, "\t\t\t # this is a remark".toList, "\t\t\t 0:00\tGB\t%s".toList])
      (ws := ["-0:01:15".toList, "-".toList, "LMT".toList, "1847".toList, "Dec".toList, "1".toList])
      ⟨_, rfl⟩ ((C95_fields _ _).1 (by decide +kernel)) (.upto _ _ _ ["1847".toList, "Dec".toList, "1".toList] (by simp))
      (.remark (.inr ⟨_, rfl⟩) (.note (a := "this".toList) (b := "is".toList) (more := ["a".toList, "remark".toList])
        ⟨_, _, rfl, .inr rfl⟩ ((C95_fields _ _).1 (by decide +kernel))
        (.line (ws := ["0:00".toList, "GB".toList, "%s".toList]) ⟨_, _, rfl, .inr rfl⟩
          ((C95_fields _ _).1 (by decide +kernel)) (.always _ _ _) (by decide) .nil)))
    (.remark (.inl rfl)
    (.link (more := []) ⟨_, rfl⟩ (by decide +kernel) ((C95_fields _ _).1 (by decide +kernel)) .nil))))))

example : ∀ l ∈ sampleLines, '\n' ∉ l := by decide +kernel

/-- A line of a file that is neither empty nor a remark, nor begins as a rule, a zone, a line of a zone or a link. -/
def Strange (l : List Char) : Prop :=
  l ≠ [] ∧ (∃ ws w, Words l (w :: ws)) ∧ ∀ p ∈ ["#".toList, "Rule".toList, "Zone".toList, "Link".toList,
    " ".toList, "\t".toList], ¬ ∃ s, l = p ++ s

namespace F96

theorem strange_prefix {l : List Char} (h : Strange l) {p : List Char} (hp : p ∈ ["#".toList, "Rule".toList, "Zone".toList,
    "Link".toList, " ".toList, "\t".toList]) : p.isPrefixOf l = false := by
  have := h.2.2 p hp
  cases e : p.isPrefixOf l with
  | false => rfl
  | true =>
    obtain ⟨s, hs⟩ := List.isPrefixOf_iff_prefix.1 e
    exact absurd ⟨s, hs.symm⟩ this

theorem strange_raises {l : List Char} (h : Strange l) (hr : '\n' ∉ l ∧ '\r' ∉ l ∧ '\x0b' ∉ l ∧ '\x0c' ∉ l) (st : TzData)
    (ls : List (List Char)) : parseLoop st (l :: ls) = none := by
  obtain ⟨ws, w, hw⟩ := h.2.1
  have hp := wordsLoop_words hw hr
  have e0 : l.isEmpty = false := by simpa using h.1
  rw [parseLoop, strange_prefix h (by simp), strange_prefix h (by simp), strange_prefix h (by simp),
    strange_prefix h (by simp), e0, if_neg (by simp), if_neg (by simp), if_neg (by simp), if_neg (by simp), hp,
    if_pos (by simp)]

theorem strange_block {l : List Char} (h : Strange l) : ∀ (pre post : List (List Char)),
    ∃ pre', (zoneBlock (pre ++ l :: post)).2 = pre' ++ l :: post ∧ pre'.length ≤ pre.length
  | [], post => by
    refine ⟨[], ?_, by simp⟩
    have e0 : l.isEmpty = false := by simpa using h.1
    rw [List.nil_append, zoneBlock, strange_prefix h (by simp), strange_prefix h (by simp),
      strange_prefix h (by simp), e0, if_neg (by simp), if_neg (by simp)]
  | x :: pre, post => by
    obtain ⟨pre', h1, h2⟩ := strange_block h pre post
    rw [List.cons_append, zoneBlock]
    split
    · exact ⟨pre', h1, by simp; omega⟩
    · split
      · exact ⟨pre', h1, by simp; omega⟩
      · exact ⟨x :: pre, rfl, by simp⟩

theorem strange_anywhere {l : List Char} (h : Strange l) (hr : '\n' ∉ l ∧ '\r' ∉ l ∧ '\x0b' ∉ l ∧ '\x0c' ∉ l) :
    ∀ (k : Nat) (pre post : List (List Char)) (st : TzData), pre.length ≤ k → parseLoop st (pre ++ l :: post) = none := by
  intro k
  induction k with
  | zero =>
    intro pre post st hk
    have : pre = [] := List.length_eq_zero_iff.1 (by omega)
    subst this
    exact strange_raises h hr st post
  | succ k ih =>
    intro pre post st hk
    cases pre with
    | nil => exact strange_raises h hr st post
    | cons x pre =>
      have hk : pre.length ≤ k := by simpa using hk
      obtain ⟨pre', h1, h2⟩ := strange_block h pre post
      rw [List.cons_append, parseLoop]
      split
      · exact ih _ _ _ hk
      · split
        · cases TzRule.parse x with
          | none => rfl
          | some r => exact ih _ _ _ hk
        · split
          · cases Zone.parse (joinFields '\n' (x :: (zoneBlock (pre ++ l :: post)).1)) with
            | none => rfl
            | some z =>
              simp only [h1]
              exact ih _ _ _ (by omega)
          · split
            · split
              · exact ih _ _ _ hk
              · rfl
            · split
              · rfl
              · exact ih _ _ _ hk

end F96

/-- A file with a line that is none of these, wherever it is and whatever the others are, is not read: an exception is
raised. -/
theorem C96_strange (st : TzData) (pre post : List (List Char)) (l : List Char) (h : Strange l)
    (hr : '\r' ∉ l ∧ '\x0b' ∉ l ∧ '\x0c' ∉ l) (hn : ∀ x ∈ pre ++ l :: post, '\n' ∉ x) :
    st.parse (fileText (pre ++ l :: post)) = none := by
  unfold TzData.parse
  rw [fileLines_text _ hn]
  exact strange_anywhere h ⟨hn l (by simp), hr⟩ _ _ _ _ (Nat.le_refl _)

example : Strange "Leap\t1972\tJun\t30\t23:59:60\t+\tS".toList :=
  ⟨by decide, ⟨["1972".toList, "Jun".toList, "30".toList, "23:59:60".toList, "+".toList, "S".toList], "Leap".toList,
    (C95_fields _ _).1 (by decide +kernel)⟩, by
    intro p hp ⟨s, hs⟩
    have : p.isPrefixOf "Leap\t1972\tJun\t30\t23:59:60\t+\tS".toList = true := by
      rw [hs]; exact List.isPrefixOf_iff_prefix.2 ⟨s, rfl⟩
    exact absurd this ((show ∀ p ∈ ["#".toList, "Rule".toList, "Zone".toList, "Link".toList, " ".toList, "\t".toList],
      ¬ p.isPrefixOf "Leap\t1972\tJun\t30\t23:59:60\t+\tS".toList = true by decide +kernel) p hp)⟩

/-! ## Where it goes wrong -/

namespace F96

theorem fileLines_ne : ∀ (t : List Char), ∀ l ∈ fileLines t, l ≠ []
  | [], l, h => by simp [fileLines] at h
  | z :: t, l, hl => by
    have iht := fileLines_ne t
    simp only [fileLines] at hl
    split at hl
    · rcases List.mem_cons.1 hl with rfl | hl
      · simp
      · exact iht l hl
    · split at hl
      · simp at hl; subst hl; simp
      · rename_i l' ls' hq
        rcases List.mem_cons.1 hl with rfl | hl
        · simp
        · exact iht l (by rw [hq]; simp [hl])

theorem fileLines_last (c : Char) : ∀ s : List Char, (fileLines (s ++ [c])).map List.dropLast =
    (fileLines (s ++ ['\n'])).map List.dropLast
  | [] => by
    by_cases h : c = '\n'
    · rw [h]
    · simp [fileLines, h]
  | x :: s => by
    have ih := fileLines_last c s
    have hne : ∀ d : Char, fileLines (s ++ [d]) ≠ [] := by
      intro d h0
      cases s with
      | nil => simp only [List.nil_append, fileLines] at h0; split at h0 <;> simp at h0
      | cons y s =>
        simp only [List.cons_append, fileLines] at h0
        split at h0
        · simp at h0
        · split at h0 <;> simp at h0
    simp only [List.cons_append, fileLines]
    split
    · simp only [List.map_cons, ih]
    · cases h1 : fileLines (s ++ [c]) with
      | nil => exact absurd h1 (hne c)
      | cons a as =>
        cases h2 : fileLines (s ++ ['\n']) with
        | nil => exact absurd h2 (hne _)
        | cons b bs =>
          rw [h1, h2] at ih
          simp only [List.map_cons, List.cons.injEq] at ih ⊢
          refine ⟨?_, ih.2⟩
          have ha : a ≠ [] := by
            intro h0
            subst h0
            exact fileLines_ne _ [] (by rw [h1]; simp) rfl
          have hb : b ≠ [] := by
            intro h0
            subst h0
            exact fileLines_ne _ [] (by rw [h2]; simp) rfl
          rw [List.dropLast_cons_of_ne_nil ha, List.dropLast_cons_of_ne_nil hb, ih.1]

theorem zone_step {st : TzData} {l : List Char} {ls : List (List Char)} (hl : ∃ s, l = "Zone".toList ++ s) :
    parseLoop st (l :: ls) = match Zone.parse (joinFields '\n' (l :: (zoneBlock ls).1)) with
      | some z => parseLoop { st with zones := setItem z.name z st.zones } (zoneBlock ls).2
      | none => none := by
  obtain ⟨s, rfl⟩ := hl
  have e1 : ("#".toList.isPrefixOf ("Zone".toList ++ s) || ("Zone".toList ++ s).isEmpty) = false := by
    simp [List.isPrefixOf]
  have e2 : "Rule".toList.isPrefixOf ("Zone".toList ++ s) = false := by simp [List.isPrefixOf]
  have e3 : "Zone".toList.isPrefixOf ("Zone".toList ++ s) = true := by simp [List.isPrefixOf]
  rw [parseLoop, e1, e2, e3, if_neg (by simp), if_neg (by simp), if_pos rfl]
  cases Zone.parse (joinFields '\n' (("Zone".toList ++ s) :: (zoneBlock ls).1)) <;> rfl

theorem joinFields_cons (sep : Char) (a b : List Char) (l : List (List Char)) :
    joinFields sep (a :: b :: l) = a ++ sep :: joinFields sep (b :: l) := rfl

theorem zone_split {l k : List Char} {ks : List (List Char)} (hl : '\n' ∉ l) (hk : '\n' ∉ k) :
    ∃ rest, splitOn '\n' (joinFields '\n' (l :: k :: ks)) = l :: k :: rest := by
  rw [joinFields_cons, splitOn_sep, splitOn_none hl]
  cases ks with
  | nil => exact ⟨[], by rw [show joinFields '\n' [k] = k from rfl, splitOn_none hk]; rfl⟩
  | cons x xs =>
    rw [joinFields_cons, splitOn_sep, splitOn_none hk]
    exact ⟨_, rfl⟩

theorem short_raises {st : TzData} {l k : List Char} {ls : List (List Char)} (hl : ∃ s, l = "Zone".toList ++ s)
    (hn : '\n' ∉ l ∧ '\n' ∉ k) (hk : Indented k) (hw : (fields k).length < 3) : parseLoop st (l :: k :: ls) = none := by
  rw [zone_step hl]
  have hb : (zoneBlock (k :: ls)).1 = k :: (zoneBlock ls).1 := by rw [zoneBlock, blank_iff hk, if_pos rfl]
  obtain ⟨rest, hr⟩ := zone_split (ks := (zoneBlock ls).1) hn.1 hn.2
  have hne : k ≠ [] := by obtain ⟨c, s, rfl, _⟩ := hk; simp
  have hp : ZoneRule.parse k false = none := by
    unfold ZoneRule.parse
    simp only [Bool.false_eq_true, if_false]
    generalize fields k = f at *
    match f, hw with
    | [], _ => rfl
    | [_], _ => rfl
    | [_, _], _ => rfl
    | _ :: _ :: _ :: _, h => simp at h; omega
  have hz : Zone.parse (joinFields '\n' (l :: (zoneBlock (k :: ls)).1)) = none := by
    rw [hb]
    unfold Zone.parse
    rw [hr]
    have : Zone.parseRest (k :: rest) = none := by simp only [Zone.parseRest, if_neg hne, hp]
    simp only [this]
    split
    · rename_i h; cases h
    · rfl
  rw [hz]

end F96

/-- But the last character of a file is dropped, even if it is not the end of a line. -/
theorem C96_fails_last (st : TzData) (s : List Char) (c : Char) : st.parse (s ++ [c]) = st.parse (s ++ ['\n']) := by
  unfold TzData.parse
  rw [fileLines_last]

/-- So a link at the end of a file without an end of line gets another name. -/
example : (({} : TzData).parse "Link\tEurope/London\tGB".toList).map TzData.links =
    some [("G".toList, "Europe/London".toList)] := by decide +kernel

/-- A line in a zone that begins with blanks and has fewer than three words, or none, is an exception: a line
of blanks only, or a remark of one word. -/
theorem C96_fails_short (st : TzData) (l k : List Char) (ws : List (List Char)) (ls : List (List Char))
    (hl : ∃ s, l = "Zone".toList ++ s) (hn : ∀ x ∈ l :: k :: ls, '\n' ∉ x) (hk : Indented k) (hw : Words k ws)
    (h3 : ws.length < 3) : st.parse (fileText (l :: k :: ls)) = none := by
  unfold TzData.parse
  rw [fileLines_text _ hn]
  exact short_raises hl ⟨hn l (by simp), hn k (by simp)⟩ hk (by rw [words_fields hw]; exact h3)

example : Indented "\t".toList ∧ Words "\t".toList [] ∧ Indented "\t\t# war".toList ∧
    Words "\t\t# war".toList ["#".toList, "war".toList] :=
  ⟨⟨_, _, rfl, .inr rfl⟩, (C95_fields _ _).1 (by decide +kernel), ⟨_, _, rfl, .inr rfl⟩,
    (C95_fields _ _).1 (by decide +kernel)⟩

/-- And a remark in a zone that begins with blanks is taken for a line of the zone if no blank follows the
`#`: the zone gets a line whose offset is that word. -/
theorem C96_fails_note (st : TzData) (l k n : List Char) (w : Char) (s a b : List Char) (ws : List (List Char))
    (z : ZoneRule) (hl : ∃ s, l = "Zone".toList ++ s) (hn : ∀ x ∈ [l, k], '\n' ∉ x)
    (h : Words l ("Zone".toList :: n :: ws)) (hz : ZoneWords ws z)
    (hk : Indented k) (hw : Words k [('#' :: w :: s), a, b]) :
    ∃ st', st.parse (fileText [l, k]) = some st' ∧
      st'.zones.lookup n = some ⟨n, [z, ⟨'#' :: w :: s, a, b, none⟩]⟩ := by
  have hb : Body [k] [⟨'#' :: w :: s, a, b, none⟩] := .line hk hw (.always _ _ _) (by simp) .nil
  obtain ⟨st', h1, h2, h3, h4⟩ := C96_read_partial st ([l] ++ [k] ++ []) _ (.zone hl h hz hb .nil) (by simpa using hn)
  refine ⟨st', by simpa using h1, ?_⟩
  rw [h3 n]
  simp [zoneSaid]

example : Words "\t\t#See the".toList ["#See".toList, "the".toList] ∧
    Words "\t\t#See the notes".toList ["#See".toList, "the".toList, "notes".toList] :=
  ⟨(C95_fields _ _).1 (by decide +kernel), (C95_fields _ _).1 (by decide +kernel)⟩

end Zonal
end PyCal
