import Verif.Props.C96_ZoneFiles

/-!
# Files of time zone data: blanks in links
-/

namespace PyCal
namespace Zonal

/-- The white space that separates the fields of a line, as zic(8) has it (a line end aside). -/
def Separates (c : Char) : Prop := c = ' ' ∨ c = '\t' ∨ c = '\r' ∨ c = Char.ofNat 11 ∨ c = Char.ofNat 12

/-- A word without white space. -/
def Unbroken (w : List Char) : Prop := w ≠ [] ∧ ∀ c ∈ w, ¬ Separates c ∧ c ≠ '\n'

namespace F96

theorem space_of {c : Char} (h : Separates c) : isSpace c = true := by
  rcases h with rfl | rfl | rfl | rfl | rfl <;> decide

theorem solid_of {w : List Char} (h : Unbroken w) : ∀ c ∈ w, isSpace c = false := by
  intro c hc
  obtain ⟨h1, h2⟩ := h.2 c hc
  simp only [Separates, not_or] at h1
  unfold isSpace
  rw [decide_eq_false h1.1, decide_eq_false h1.2.1, decide_eq_false h2, decide_eq_false h1.2.2.1]
  have a : ¬ c = '\x0b' := h1.2.2.2.1
  have b : ¬ c = '\x0c' := h1.2.2.2.2
  rw [decide_eq_false a, decide_eq_false b]
  rfl

/-- The end of a word. -/
theorem words_end {w : List Char} (h : Unbroken w) : wordsLoop [] w = [w] := by
  have := wordsLoop_word [] [] (solid_of h)
  rw [List.append_nil, List.nil_append] at this
  rw [this, wordsLoop, if_neg h.1]

theorem words_next {w : List Char} (h : Unbroken w) {c : Char} (hc : Separates c) (s : List Char) :
    wordsLoop [] (w ++ c :: s) = w :: wordsLoop [] s := by
  rw [wordsLoop_word [] _ (solid_of h), List.nil_append, wordsLoop, if_pos (space_of hc), if_neg h.1]

end F96
open F96

/-- C96, links: whatever white space of zic(8) is between the words, a link gives its last word as another name for the middle one. -/
theorem C96_links (st : TzData) (a b : List Char) (c d : Char) (ha : Unbroken a) (hb : Unbroken b) (hc : Separates c)
    (hd : Separates d) : ∃ st', st.parse ("Link".toList ++ c :: (a ++ d :: b) ++ ['\n']) = some st' ∧
      st'.links.lookup b = some a ∧ st'.rules = st.rules ∧ st'.zones = st.zones := by
  have hL : Unbroken "Link".toList := by
    refine ⟨by decide +kernel, fun x hx => ?_⟩
    rw [show "Link".toList = ['L', 'i', 'n', 'k'] by decide +kernel] at hx
    simp only [List.mem_cons, List.not_mem_nil, or_false] at hx
    unfold Separates
    rcases hx with rfl | rfl | rfl | rfl <;> decide
  have hn : ∀ {w : List Char}, Unbroken w → '\n' ∉ w := fun h hm => (h.2 _ hm).2 rfl
  have hs : ∀ {x : Char}, Separates x → '\n' ≠ x := by
    rintro x (rfl | rfl | rfl | rfl | rfl) <;> decide
  have hl : '\n' ∉ "Link".toList ++ c :: (a ++ d :: b) := by
    simp only [List.mem_append, List.mem_cons, not_or]
    exact ⟨hn hL, hs hc, hn ha, hs hd, hn hb⟩
  refine ⟨{ st with links := setItem b a st.links }, ?_, (lookup_set b b a st.links).trans (if_pos rfl), rfl, rfl⟩
  unfold TzData.parse
  rw [fileLines_line _ [] hl, fileLines, List.map_cons, List.dropLast_concat, List.map_nil]
  have hw : wordsLoop [] ("Link".toList ++ c :: (a ++ d :: b)) = ["Link".toList, a, b] := by
    rw [words_next hL hc, words_next ha hd, words_end hb]
  generalize e : "Link".toList ++ c :: (a ++ d :: b) = l at hw
  have p1 : "#".toList.isPrefixOf l = false := by
    rw [← e, show "Link".toList = 'L' :: ['i', 'n', 'k'] by decide +kernel, show "#".toList = ['#'] by decide +kernel]; rfl
  have p2 : "Rule".toList.isPrefixOf l = false := by
    rw [← e, show "Link".toList = 'L' :: ['i', 'n', 'k'] by decide +kernel, show "Rule".toList = 'R' :: ['u', 'l', 'e'] by decide +kernel]; rfl
  have p3 : "Zone".toList.isPrefixOf l = false := by
    rw [← e, show "Link".toList = 'L' :: ['i', 'n', 'k'] by decide +kernel, show "Zone".toList = 'Z' :: ['o', 'n', 'e'] by decide +kernel]; rfl
  have p4 : "Link".toList.isPrefixOf l = true := List.isPrefixOf_iff_prefix.2 ⟨_, e⟩
  have p5 : l.isEmpty = false := by rw [← e, show "Link".toList = 'L' :: ['i', 'n', 'k'] by decide +kernel]; rfl
  rw [parseLoop, p1, p2, p3, p4, p5, if_neg (by simp), if_neg (by simp), if_neg (by simp), if_pos rfl, hw]
  show parseLoop _ [] = _
  rw [parseLoop]

/-- C96 fails for other lines: a form feed between the words of a rule is taken for a part of a word. -/
theorem C96_fails_blank : TzData.parse {} ("Rule\x0cR 2010 only - Mar 1 2:00 1:00 D\n").toList = none ∧
    (TzData.parse {} ("Rule R\x0c2010 2010 only - Mar 1 2:00 1:00 D\n").toList).map (fun st => st.rules.map Prod.fst) =
      some ["R\x0c2010".toList] :=
  ⟨by decide +kernel, by decide +kernel⟩

end Zonal
end PyCal
