import Verif.Model.Escape
import Verif.Spec.Escape
import Verif.Lemmas.Text

/-! # C20 (TEXT escaping) and C21 (RFC 6868 parameter encoding) -/

namespace PyCal
open Spec

/-! ## C20 -/

theorem escapeText_stop {s : List Char} (h : s.dropWhile (fun c => !isEscapee c) = []) :
    escapeText s = s.takeWhile (fun c => !isEscapee c) := by
  rw [escapeText]; split <;> simp_all

theorem escapeText_go {s : List Char} {c r} (h : s.dropWhile (fun c => !isEscapee c) = c :: r) :
    escapeText s = s.takeWhile (fun c => !isEscapee c) ++ '\\' :: escapeLetter c :: escapeText r := by
  rw [escapeText]; split <;> simp_all

theorem escapeText_nil : escapeText [] = [] := escapeText_stop rfl

theorem escapeText_cons (c : Char) (s : List Char) :
    escapeText (c :: s) =
      (if isEscapee c then ['\\', escapeLetter c] else [c]) ++ escapeText s := by
  cases hc : isEscapee c with
  | true => rw [escapeText_go (c := c) (r := s) (by simp [hc])]; simp [hc]
  | false =>
    cases hd : s.dropWhile (fun c => !isEscapee c) with
    | nil => rw [escapeText_stop hd, escapeText_stop (by simp [hc, hd])]; simp [hc]
    | cons d r => rw [escapeText_go hd, escapeText_go (c := d) (r := r) (by simp [hc, hd])]; simp [hc]

theorem decodeText_stop {m o : PMode} {s : List Char}
    (h : s.dropWhile (fun c => c ≠ '\\') = [] ∨ ∃ x, s.dropWhile (fun c => c ≠ '\\') = [x]) :
    decodeText m o s = some (s.takeWhile (fun c => c ≠ '\\')) := by
  rw [decodeText]
  split
  · rfl
  · rfl
  · rename_i h'; rw [h'] at h; simp at h

theorem decodeText_go {m o : PMode} {s : List Char} {x c r}
    (h : s.dropWhile (fun c => c ≠ '\\') = x :: c :: r) :
    decodeText m o s = (unescape m o c).bind fun w => (decodeText m o r).map
      (fun r => s.takeWhile (fun c => c ≠ '\\') ++ w ++ r) := by
  rw [decodeText]
  split
  · rename_i h'; rw [h'] at h; simp at h
  · rename_i h'; rw [h'] at h; simp at h
  · rename_i h'
    rw [h'] at h
    simp only [List.cons.injEq] at h
    obtain ⟨-, rfl, rfl⟩ := h
    split
    · rename_i h; rw [h]; rfl
    · rename_i h; rw [h]; rfl

theorem decodeText_nil (m o : PMode) : decodeText m o [] = some [] := decodeText_stop (Or.inl rfl)

theorem decodeText_plain (m o : PMode) {c : Char} (h : c ≠ '\\') (s : List Char) :
    decodeText m o (c :: s) = (decodeText m o s).map (c :: ·) := by
  have hd : (c :: s).dropWhile (fun c => c ≠ '\\') = s.dropWhile (fun c => c ≠ '\\') := by
    simp [h]
  have ht : (c :: s).takeWhile (fun c => c ≠ '\\') = c :: s.takeWhile (fun c => c ≠ '\\') := by
    simp [h]
  match hs : s.dropWhile (fun c => c ≠ '\\') with
  | [] => rw [decodeText_stop (Or.inl hs), decodeText_stop (Or.inl (hd.trans hs)), ht]; rfl
  | [x] =>
    rw [decodeText_stop (Or.inr ⟨x, hs⟩), decodeText_stop (Or.inr ⟨x, hd.trans hs⟩), ht]; rfl
  | x :: y :: r =>
    rw [decodeText_go hs, decodeText_go (hd.trans hs), ht]
    cases unescape m o y with
    | none => rfl
    | some w => simp [Option.map_map, Function.comp_def]

theorem decodeText_esc (m o : PMode) (c : Char) (s : List Char) {w : List Char}
    (h : unescape m o c = some w) :
    decodeText m o ('\\' :: c :: s) = (decodeText m o s).map (w ++ ·) := by
  rw [decodeText_go (x := '\\') (c := c) (r := s) (by simp), h]
  simp

theorem unescape_escapeLetter (m o : PMode) {c : Char} (h : isEscapee c = true) :
    unescape m o (escapeLetter c) = some [c] := by
  simp [isEscapee] at h
  rcases h with (((rfl | rfl) | rfl) | rfl) | rfl <;> rfl

/-- C20: decoding an escaped text gives the text back, whatever the parser is told to do with
invalid escapes. -/
theorem C20_decode_escape (s : List Char) (colon other : PMode) :
    decodeText colon other (escapeText s) = some s := by
  induction s with
  | nil => rw [escapeText_nil, decodeText_nil]
  | cons c s ih =>
    rw [escapeText_cons]
    cases hc : isEscapee c with
    | true =>
      simp only [if_true, List.cons_append, List.nil_append]
      rw [decodeText_esc _ _ _ _ (unescape_escapeLetter _ _ hc), ih]; rfl
    | false =>
      simp only [Bool.false_eq_true, if_false, List.cons_append, List.nil_append]
      rw [decodeText_plain _ _ _, ih]; · rfl
      rintro rfl; simp [isEscapee] at hc

/-- C20: the escaped form has no raw line break, comma or semicolon, and every backslash starts an
escape sequence. -/
theorem C20_escaped (s : List Char) : Escaped (escapeText s) := by
  induction s with
  | nil => rw [escapeText_nil]; exact .nil
  | cons c s ih =>
    rw [escapeText_cons]
    cases hc : isEscapee c with
    | true =>
      simp only [if_true, List.cons_append, List.nil_append]
      refine .esc _ _ ?_ ih
      simp [isEscapee] at hc
      rcases hc with (((rfl | rfl) | rfl) | rfl) | rfl <;> simp [escapeLetter]
    | false =>
      simp only [Bool.false_eq_true, if_false, List.cons_append, List.nil_append]
      refine .plain _ _ ?_ ih
      simp [isEscapee] at hc
      exact ⟨hc.1.1.1.1, hc.1.1.1.2, hc.2, hc.1.1.2, hc.1.2⟩

/-- C20: in particular there is no line break, which would end the content line. -/
theorem C20_no_linebreak (s : List Char) : '\r' ∉ escapeText s ∧ '\n' ∉ escapeText s := by
  have h := C20_escaped s
  generalize escapeText s = e at h
  induction h with
  | nil => simp
  | plain c s h _ ih => simp [ih.1, ih.2, Ne.symm h.1, Ne.symm h.2.1]
  | esc c s h _ ih =>
    have hc : c ≠ '\r' ∧ c ≠ '\n' := by rcases h with rfl | rfl | rfl | rfl | rfl <;> decide
    simp [ih.1, ih.2, Ne.symm hc.1, Ne.symm hc.2]

/-- C20: a text in which every backslash begins one of the escapes the RFCs define is decoded to
what the RFCs say it means; in particular `\\N` is a line break. -/
theorem C20_decode_rfc (e s : List Char) (h : Denotes e s) (colon other : PMode) :
    decodeText colon other e = some s := by
  induction h with
  | nil => exact decodeText_nil _ _
  | plain c h _ ih => rw [decodeText_plain _ _ h, ih]; rfl
  | break_ c h _ ih =>
    have hu : unescape colon other c = some ['\n'] := by rcases h with rfl | rfl <;> rfl
    rw [decodeText_esc _ _ _ _ hu, ih]; rfl
  | return_ _ ih =>
    have hu : unescape colon other 'r' = some ['\r'] := rfl
    rw [decodeText_esc _ _ _ _ hu, ih]; rfl
  | literal c h _ ih =>
    have hu : unescape colon other c = some [c] := by rcases h with rfl | rfl | rfl <;> rfl
    rw [decodeText_esc _ _ _ _ hu, ih]; rfl

example : Denotes "a\\N\\;b".toList "a\n;b".toList :=
  .plain 'a' (by decide) (.break_ 'N' (Or.inr rfl) (.literal ';' (Or.inr (Or.inl rfl))
    (.plain 'b' (by decide) .nil)))

/-- C20: every escaped text (of the strict grammar) is accepted by the decoder, and is the only
escaped text with that meaning up to the choice of the letter case of `\n`: decoding is inverted
by escaping. -/
theorem C20_escape_decode (e : List Char) (h : Escaped e) (colon other : PMode) :
    ∃ s, decodeText colon other e = some s ∧ escapeText s = e := by
  induction h with
  | nil => exact ⟨[], decodeText_nil _ _, escapeText_nil⟩
  | plain c s h _ ih =>
    obtain ⟨t, h1, h2⟩ := ih
    refine ⟨c :: t, by rw [decodeText_plain _ _ h.2.2.2.2, h1]; rfl, ?_⟩
    rw [escapeText_cons, h2]
    have : isEscapee c = false := by simp [isEscapee, h]
    simp [this]
  | esc c s h _ ih =>
    obtain ⟨t, h1, h2⟩ := ih
    rcases h with rfl | rfl | rfl | rfl | rfl
    · exact ⟨'\\' :: t, by rw [decodeText_esc _ _ _ _ rfl, h1]; rfl, by rw [escapeText_cons, h2]; rfl⟩
    · exact ⟨';' :: t, by rw [decodeText_esc _ _ _ _ rfl, h1]; rfl, by rw [escapeText_cons, h2]; rfl⟩
    · exact ⟨',' :: t, by rw [decodeText_esc _ _ _ _ rfl, h1]; rfl, by rw [escapeText_cons, h2]; rfl⟩
    · exact ⟨'\n' :: t, by rw [decodeText_esc _ _ _ _ rfl, h1]; rfl, by rw [escapeText_cons, h2]; rfl⟩
    · exact ⟨'\r' :: t, by rw [decodeText_esc _ _ _ _ rfl, h1]; rfl, by rw [escapeText_cons, h2]; rfl⟩

example : escapeText "a,b\\".toList = "a\\,b\\\\".toList := by
  simp [escapeText_cons, escapeText_nil, isEscapee, escapeLetter]

/-! ## C21 -/

theorem encodeParamLoop_last {last : Option Char} {s : List Char}
    (h : s.head? ≠ some '\n' ∨ last ≠ some '\r') :
    encodeParamLoop last s = encodeParamLoop none s := by
  cases s with
  | nil => rfl
  | cons c s =>
    simp only [encodeParamLoop]
    congr 1
    by_cases hc : c = '\n'
    · subst hc
      have : last ≠ some '\r' := by simpa using h
      simp [this]
    · simp [hc]

theorem encodeParam_eq (s : List Char) : encodeParam s = encodeParamLoop none s := by
  unfold encodeParam
  split
  · rfl
  · rename_i h
    have key : ∀ (s : List Char) last, ¬ (s.any (fun c => c = '\r' || c = '\n' || c = '"' || c = '^')
        = true) → s = encodeParamLoop last s := by
      intro s
      induction s with
      | nil => intros; rfl
      | cons c s ih =>
        intro last h
        simp only [List.any_cons, Bool.or_eq_true, decide_eq_true_eq, not_or] at h
        simp only [encodeParamLoop, h, if_false, List.cons_append, List.nil_append]
        rw [← ih (some c) (by simpa using h.2)]
    exact key s none h

theorem rfc_plain {c : Char} (h : c ≠ '^') (s : List Char) :
    rfc6868Decode (c :: s) = c :: rfc6868Decode s := by
  rw [rfc6868Decode.eq_def]
  split <;> simp_all

theorem decodeParamLoop_spec (s : List Char) :
    (∀ last, last ≠ some '^' → decodeParamLoop last s = rfc6868Decode s) ∧
    decodeParamLoop (some '^') s = rfc6868Decode ('^' :: s) := by
  induction s with
  | nil => exact ⟨fun last h => by simp [decodeParamLoop, rfc6868Decode, h], by rfl⟩
  | cons c s ih =>
    constructor
    · intro last h
      by_cases hc : c = '^'
      · subst hc
        simp only [decodeParamLoop, h, if_false, ne_eq, not_true_eq_false]
        exact ih.2
      · simp only [decodeParamLoop, h, if_false, ne_eq, hc, not_false_eq_true, if_true]
        rw [ih.1 _ (by simpa using hc)]
        rw [rfc6868Decode.eq_def (c :: s)]
        split <;> simp_all
    · simp only [decodeParamLoop, if_true]
      split
      · rename_i hc; subst hc
        rw [ih.1 _ (by decide)]; rfl
      · split
        · rename_i hc; subst hc
          rw [ih.1 _ (by decide)]; rfl
        · split
          · rename_i hc; subst hc
            rw [ih.1 _ (by decide)]; rfl
          · rename_i h1 h2 h3
            rw [ih.1 _ (by simpa using h3)]
            rw [rfc6868Decode.eq_def ('^' :: c :: s)]
            split <;> simp_all
            rename_i heq
            obtain ⟨rfl, rfl⟩ := heq
            rw [rfc_plain h3]
            exact ⟨rfl, rfl⟩

/-- C21: `decodeParameterValue` is the RFC 6868 decoding of every text, encoded or not. -/
theorem C21_decode_rfc (s : List Char) : decodeParam s = rfc6868Decode s := by
  unfold decodeParam
  split
  · exact (decodeParamLoop_spec s).1 none (by simp)
  · rename_i h
    symm
    induction s with
    | nil => rfl
    | cons c s ih =>
      simp at h
      rw [rfc6868Decode.eq_def]
      split <;> simp_all

theorem decode_encodeLoop (s : List Char) :
    rfc6868Decode (encodeParamLoop none s) = normaliseBreaks s ∧
    (∀ t, s = '\n' :: t → rfc6868Decode (encodeParamLoop (some '\r') s) = normaliseBreaks t) := by
  induction s with
  | nil => simp [encodeParamLoop, rfc6868Decode, normaliseBreaks]
  | cons c s ih =>
    constructor
    · by_cases h1 : c = '\r'
      · subst h1
        simp only [encodeParamLoop, if_true, List.cons_append, List.nil_append]
        show '\n' :: rfc6868Decode (encodeParamLoop (some '\r') s) = _
        cases s with
        | nil => rfl
        | cons d s =>
          by_cases hd : d = '\n'
          · subst hd
            rw [ih.2 s rfl]; rfl
          · rw [encodeParamLoop_last (by simp [hd]), ih.1]
            conv => rhs; rw [normaliseBreaks.eq_def]
            split
            · rename_i heq; simp at heq; exact absurd heq.1 hd
            · rename_i heq; simp at heq; rw [heq]
            · rename_i h heq
              simp only [List.cons.injEq] at heq
              exact absurd heq.1.symm (by simpa using h)
            · rename_i heq; simp at heq
      · have hl : encodeParamLoop (some c) s = encodeParamLoop none s :=
          encodeParamLoop_last (Or.inr (by simpa using h1))
        have hn : normaliseBreaks (c :: s) = c :: normaliseBreaks s := by
          conv => lhs; rw [normaliseBreaks.eq_def]
          split <;> simp_all
        rw [hn, ← ih.1]
        simp only [encodeParamLoop, h1, if_false, hl]
        by_cases h2 : c = '\n'
        · subst h2; rfl
        · by_cases h3 : c = '"'
          · subst h3; rfl
          · by_cases h4 : c = '^'
            · subst h4; rfl
            · simp only [h2, h3, h4, if_false, List.cons_append, List.nil_append]
              rw [rfc6868Decode.eq_def (c :: _)]
              split <;> simp_all
    · rintro t ⟨rfl, rfl⟩
      have : encodeParamLoop (some '\n') s = encodeParamLoop none s :=
        encodeParamLoop_last (Or.inr (by decide))
      simp only [encodeParamLoop, this]
      exact ih.1

/-- C21: decoding an encoded parameter value gives the original with line breaks as LF. -/
theorem C21_roundtrip (s : List Char) : decodeParam (encodeParam s) = normaliseBreaks s := by
  rw [C21_decode_rfc, encodeParam_eq]; exact (decode_encodeLoop s).1

/-- C21: a value without carriage returns is restored exactly. -/
theorem C21_roundtrip_exact (s : List Char) (h : '\r' ∉ s) : decodeParam (encodeParam s) = s := by
  rw [C21_roundtrip]
  induction s with
  | nil => rfl
  | cons c s ih =>
    simp at h
    rw [normaliseBreaks.eq_def]
    split <;> simp_all

/-- C21: the encoded form has no double quote and no line break. -/
theorem C21_encoded_safe (s : List Char) : ∀ c ∈ encodeParam s, c ≠ '"' ∧ c ≠ '\r' ∧ c ≠ '\n' := by
  rw [encodeParam_eq]
  generalize (none : Option Char) = last
  induction s generalizing last with
  | nil => simp [encodeParamLoop]
  | cons c s ih =>
    intro d hd
    simp only [encodeParamLoop, List.mem_append] at hd
    rcases hd with hd | hd
    · split at hd
      · simp at hd; rcases hd with rfl | rfl <;> decide
      · split at hd
        · split at hd
          · simp at hd; rcases hd with rfl | rfl <;> decide
          · simp at hd
        · split at hd
          · simp at hd; rcases hd with rfl | rfl <;> decide
          · split at hd
            · simp at hd; subst hd; decide
            · simp at hd; subst hd
              exact ⟨by assumption, by assumption, by assumption⟩
    · exact ih _ d hd

example : encodeParam "a\r\n\"^".toList = "a^n^'^^".toList := by decide +kernel
example : decodeParam (encodeParam "^n\"^'".toList) = "^n\"^'".toList := by decide +kernel

end PyCal
