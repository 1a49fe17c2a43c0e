import Verif.Model.CardWrite
import Verif.Props.C22_Folding
import Verif.Props.C46_Lines
import Verif.Props.C92_Files

/-!
# C111: the photo of a card; C112: new cards
-/

namespace PyCal
open CardWrite

namespace W111
open TextFile (utf8)

/-- The pieces of a value, of 72 bytes and a last one. -/
def chunks (v : Bytes) : List Bytes := if v.length > 72 then v.take 72 :: chunks (v.drop 72) else [v]
termination_by v.length
decreasing_by simp; omega

theorem chunks_ne (v : Bytes) : chunks v ≠ [] := by
  rw [chunks]; split <;> simp

theorem chunks_flatten (v : Bytes) : (chunks v).flatten = v := by
  induction h : v.length using Nat.strong_induction_on generalizing v with
  | _ n ih =>
    rw [chunks]
    split
    · rw [List.flatten_cons, ih (v.drop 72).length (by simp; omega) _ rfl, List.take_append_drop]
    · simp

theorem chunks_length (v : Bytes) : ∀ q ∈ chunks v, q.length ≤ 72 := by
  induction h : v.length using Nat.strong_induction_on generalizing v with
  | _ n ih =>
    intro q hq
    rw [chunks] at hq
    split at hq
    · rcases List.mem_cons.mp hq with rfl | hq
      · simp
      · exact ih (v.drop 72).length (by simp; omega) _ rfl q hq
    · rw [List.mem_singleton] at hq
      subst hq
      omega

theorem photoLoop_eq (v : Bytes) : ∀ (n o : Nat), n = v.length - o → o ≤ v.length →
    photoLoop v o n ++ [13, 10] = (chunks (v.drop o)).flatMap fun q => [32] ++ q ++ [13, 10] := by
  intro n
  induction n using Nat.strong_induction_on with
  | _ n ih =>
    intro o hn ho
    rw [photoLoop, chunks, List.length_drop, ← hn]
    split
    · rw [List.flatMap_cons, List.append_assoc, ih (n - 72) (by omega) (o + 72) (by omega) (by omega), List.drop_drop]
    · simp

/-- The text of a photo: the head and the pieces, each on a line. -/
theorem photo_pieces (head v : Bytes) :
    photoText head v = joinPieces (head :: chunks v) ++ [13, 10] := by
  rw [joinPieces_eq, photoText]
  have := photoLoop_eq v v.length 0 (by simp) (by simp)
  rw [List.append_assoc, this, List.drop_zero]

theorem generate_value (l : PropText.Line) : PropText.generate l = PropText.generate { l with value := [] } ++ l.value := by
  simp [PropText.generate]

theorem utf8_append (a b : List Char) : utf8 (a ++ b) = utf8 a ++ utf8 b := by simp [utf8]

theorem noLF {l : List Char} (h : '\n' ∉ l) : 10 ∉ utf8 l := by
  cases l with
  | nil => simp [utf8]
  | cons c l => exact (File92.contentLine (by simp) h).noLF

end W111
open W111 TextFile PropText Spec

/-- C111: unfolded as in RFC 6350, the text of a photo is the line with name, parameters and value; after the first line no
line is longer than 75 octets. -/
theorem C111_unfold (l : Line) (novalue : Bool) (hn : upper l.name = "PHOTO".toList) (hl : '\n' ∉ PropText.generate l) :
    ∃ out, generateValue l true novalue = some out ∧ Spec.unfold out = utf8 (PropText.generate l) ++ [13, 10] ∧
      ∃ head ps, out = joinPieces (head :: ps) ++ [13, 10] ∧ head = utf8 (PropText.generate { l with value := [] }) ∧
        (∀ q ∈ head :: ps, 10 ∉ q) ∧ ∀ q ∈ ps, (32 :: q).length ≤ 75 := by
  have h1 : generateValue l true novalue = some (photoText (utf8 (PropText.generate { l with value := [] })) (utf8 l.value)) := by
    rw [CardWrite.generateValue, if_pos ⟨hn, rfl⟩]
  have hg := generate_value l
  rw [hg, List.mem_append, not_or] at hl
  have hLF : ∀ q ∈ utf8 (PropText.generate { l with value := [] }) :: chunks (utf8 l.value), 10 ∉ q := by
    intro q hq
    rcases List.mem_cons.mp hq with rfl | hq
    · exact noLF hl.1
    · exact noLF_pieces (chunks_flatten _) (noLF hl.2) q hq
  refine ⟨_, h1, ?_, _, _, photo_pieces _ _, rfl, hLF, fun q hq => ?_⟩
  · rw [photo_pieces, unfold_join _ _ hLF, List.flatten_cons, chunks_flatten, ← utf8_append, ← hg]
  · have := chunks_length _ q hq
    simp
    omega

/-- C111: the text of a photo, with any properties after it, is read as the line of the photo and the lines of the others. -/
theorem C111_read (l : Line) (novalue : Bool) (hn : upper l.name = "PHOTO".toList) (hl : '\n' ∉ PropText.generate l)
    (ts : List Bytes) (ht : ∀ t ∈ ts, ContentLine t ∧ StartsNonSpace t) :
    ∃ out outs, generateValue l true novalue = some out ∧ ts.mapM foldLine = some outs ∧
      Reads none (out ++ outs.flatten) (utf8 (PropText.generate l) :: ts) := by
  obtain ⟨out, h1, -, head, ps, h2, h3, h4, -⟩ := C111_unfold l novalue hn hl
  obtain ⟨outs, h5, -, h6⟩ := reads_after ts ht
  refine ⟨out, outs, h1, h5, ?_⟩
  have hf : head ++ ps.flatten = utf8 (PropText.generate l) := by
    have h7 := h1
    rw [CardWrite.generateValue, if_pos ⟨hn, rfl⟩, Option.some.injEq] at h7
    have h8 := congrArg Spec.unfold (h7.trans h2)
    rw [photo_pieces] at h8
    rw [unfold_join head ps h4, unfold_join] at h8
    · have h9 := List.append_cancel_right h8
      rw [List.flatten_cons, List.flatten_cons, chunks_flatten] at h9
      rw [← h9, ← utf8_append, ← generate_value]
    · have hg := generate_value l
      rw [hg, List.mem_append, not_or] at hl
      intro q hq
      rcases List.mem_cons.mp hq with rfl | hq
      · exact noLF hl.1
      · exact noLF_pieces (chunks_flatten _) (noLF hl.2) q hq
  have := h6 head ps fun q hq => h4 q (List.mem_cons_of_mem _ hq)
  rw [hf] at this
  cases this with
  | @step _ _ _ a' s' _ hr hrs =>
    refine .step (a' := a') (s' := s') ?_ hrs
    rw [← hr, h2, joinPieces_eq]
    have hh : 10 ∉ head ++ [13] := by
      have := h4 head List.mem_cons_self
      simp [this]
    have hrl : readline (head ++ [13, 10] ++ (ps.flatMap fun q => [32] ++ q ++ [13, 10]) ++ outs.flatten) =
        ((head ++ [13]) ++ [10], (ps.flatMap fun q => [32] ++ q ++ [13, 10]) ++ outs.flatten) := by
      rw [← readline_noLF _ _ hh]; simp
    simp only [readFolded, hrl]
    rw [if_neg (by simp), chomp_crlf]

/-- C111 (partial): the text of a photo is read as a property with the same group, name, parameters and value, with any
properties after it.  Missing: what is missing in C46 (parameter values that cannot be read back). -/
theorem C111_roundtrip_partial (cfg : Config) (l : Line) (novalue : Bool) (hn : upper l.name = "PHOTO".toList) (hn' : Token l.name)
    (hg : l.group = none ∨ ∃ g, l.group = some g ∧ Token g)
    (hp : ∀ p ∈ l.params, Token p.name ∧ (∀ v ∈ p.values, ValueOk v) ∧
      (p.values = [] → cfg.noValues = .allow ∧ upper p.name ≠ "BASE64".toList)) (hl : '\n' ∉ PropText.generate l)
    (ts : List Bytes) (ht : ∀ t ∈ ts, ContentLine t ∧ StartsNonSpace t) :
    ∃ out outs line params, generateValue l true novalue = some out ∧ ts.mapM foldLine = some outs ∧
      Reads none (out ++ outs.flatten) (utf8 line :: ts) ∧
      parseText true cfg line = .ok (l.group, l.name, params, some l.value) ∧ SameParams l.params params := by
  obtain ⟨out, outs, h1, h2, h3⟩ := C111_read l novalue hn hl ts ht
  obtain ⟨params, h4, h5⟩ := C46_roundtrip_partial true cfg l hn' (hg.imp id fun h => ⟨rfl, h⟩) fun p hp' =>
    ⟨(hp p hp').1, (hp p hp').2.1, fun h => ⟨rfl, (hp p hp').2.2 h⟩⟩
  exact ⟨out, outs, _, params, h1, h2, h3, h4, h5⟩

/-- C111 fails: name and parameters of a photo are one line, however long they are. -/
theorem C111_fails_long (l : Line) (novalue : Bool) (hn : upper l.name = "PHOTO".toList) (hl : '\n' ∉ PropText.generate l)
    (n : Nat) (h : n ≤ (utf8 (PropText.generate { l with value := [] })).length) :
    ∃ out first rest, generateValue l true novalue = some out ∧ out = first ++ [13, 10] ++ rest ∧ 10 ∉ first ∧
      n ≤ first.length := by
  obtain ⟨out, h1, -, head, ps, h2, rfl, h4, -⟩ := C111_unfold l novalue hn hl
  rw [joinPieces_eq] at h2
  exact ⟨out, _, _, h1, h2, h4 _ List.mem_cons_self, h⟩

/-- C111 fails: the value of a photo is written also when it is to be left out (by an output filter). -/
theorem C111_fails_novalue (l : Line) (hn : upper l.name = "PHOTO".toList) :
    generateValue l true true = generateValue l true false := by
  rw [CardWrite.generateValue, CardWrite.generateValue, if_pos ⟨hn, rfl⟩, if_pos ⟨hn, rfl⟩]

/-- A photo of 100 characters is on three lines. -/
example : let l : Line := ⟨some "item1".toList, "Photo".toList, [⟨"ENCODING".toList, ["B".toList]⟩], List.replicate 100 'A'⟩
    generateValue l true false =
      some (utf8 "item1.Photo;ENCODING=B:\r\n ".toList ++ List.replicate 72 65 ++ utf8 "\r\n ".toList ++
        List.replicate 28 65 ++ utf8 "\r\n".toList) := by
  have : chunks (utf8 (List.replicate 100 'A')) = [List.replicate 72 65, List.replicate 28 65] := by
    rw [chunks, if_pos (by decide +kernel), chunks, if_neg (by decide +kernel)]
    decide +kernel
  simp only [CardWrite.generateValue]
  rw [if_pos (by decide +kernel), photo_pieces, this]
  decide +kernel

/-- C112 fails: a new card has no VERSION and no PRODID, unless its product identifier is one of these words. -/
theorem C112_fails_new (prodid : List Char) (name : String) (hv : name = "VERSION" ∨ name = "PRODID")
    (h : upper prodid ≠ name.toList) : hasProperty (newCard prodid true) name.toList = false := by
  have h1 : upper name.toList = name.toList := by rcases hv with rfl | rfl <;> decide +kernel
  have h2 : upper "3.0".toList ≠ name.toList := by rcases hv with rfl | rfl <;> decide +kernel
  simp [hasProperty, newCard, defaultProperties, newProperty, h1, h] 
  exact h2

/-- C112 fails: the text of a new card cannot be read. -/
theorem C112_fails_text : cardLines (newCard "-//calendarserver.org//PyCalendar v1//EN".toList true) =
      ["BEGIN:VCARD".toList, "PRODID.-//calendarserver.org//PyCalendar v1//EN:".toList, "VERSION.3.0:".toList,
        "END:VCARD".toList] ∧
    Cards.parseMultiple Cards.cardEnv (cardLines (newCard "-//calendarserver.org//PyCalendar v1//EN".toList true)) =
      .invalidData :=
  ⟨by decide +kernel, by decide +kernel⟩

/-- C112 fails: a card made with default properties cannot be copied, whatever is added to it. -/
theorem C112_fails_duplicate (prodid : List Char) (more : List NewProp) :
    CardWrite.duplicate prodid (newCard prodid true ++ more) = none := by
  rfl

/-- C112 (partial): a card made without default properties has none; its text is the two lines of an empty card, and it can be
copied.

Missing: cards made with default properties, `C112_fails_new`, `C112_fails_text`. -/
theorem C112_empty_partial (prodid : List Char) :
    (∀ name, hasProperty (newCard prodid false) name = false) ∧
    cardLines (newCard prodid false) = ["BEGIN:VCARD".toList, "END:VCARD".toList] ∧
    CardWrite.duplicate prodid (newCard prodid false) = some (newCard prodid false) :=
  ⟨fun _ => rfl, rfl, rfl⟩

/-- C112 (partial): a card is copied exactly if every property has a value, and the copy has the same properties.  Missing:
cards made with default properties. -/
theorem C112_duplicate_partial (prodid : List Char) (card : List NewProp) :
    CardWrite.duplicate prodid card = if ∀ p ∈ card, p.value ≠ none then some card else none := by
  unfold CardWrite.duplicate
  induction card with
  | nil => simp
  | cons p card ih =>
    obtain ⟨g, n, v⟩ := p
    dsimp only at ih ⊢
    rw [List.mapM_cons, ih]
    cases v with
    | none => simp [NewProp.duplicate]
    | some v =>
      by_cases h : ∀ p ∈ card, p.value ≠ none
      · rw [if_pos h, if_pos (by simpa using h)]
        rfl
      · rw [if_neg h, if_neg (by simpa using h)]
        rfl

end PyCal
