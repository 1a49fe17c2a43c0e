import Verif.Model.Folding
import Verif.Spec.Folding

/-! # C22: line folding -/

namespace PyCal
open Spec

theorem isCont_iff {b : Nat} (h : b < 256) : isCont b = true ↔ b / 64 = 2 := by
  have : ∀ b : Fin 256, isCont b.1 = true ↔ b.1 / 64 = 2 := by decide +kernel
  exact this ⟨b, h⟩

/-- Near every position of a UTF-8 text a character starts. -/
theorem utf8_lead_near {cs : List Bytes} (hc : ∀ c ∈ cs, Utf8Char c) (o : Nat)
    (ho : o < cs.flatten.length) :
    ∃ k, k ≤ 3 ∧ k ≤ o ∧ cs.flatten.getD (o - k) 0 / 64 ≠ 2 := by
  induction cs generalizing o with
  | nil => simp at ho
  | cons c cs ih =>
    obtain ⟨lead, conts, rfl, h1, h2, h3⟩ := hc c (by simp)
    by_cases h : o < (lead :: conts).length
    · refine ⟨o, by simp at h; omega, by omega, by simpa using h1⟩
    · rw [List.flatten_cons, List.length_append] at ho
      obtain ⟨k, k1, k2, k3⟩ := ih (fun c h => hc c (by simp [h])) (o - (lead :: conts).length)
        (by omega)
      refine ⟨k, k1, by omega, ?_⟩
      rw [List.flatten_cons, List.getD_eq_getElem?_getD, List.getElem?_append_right (by omega),
        ← List.getD_eq_getElem?_getD]
      rwa [show o - k - (lead :: conts).length = o - (lead :: conts).length - k by omega]

theorem stepBack_le (t : Bytes) (o : Nat) : stepBack t o ≤ o := by
  induction o with
  | zero => simp [stepBack]
  | succ o ih => simp only [stepBack]; split <;> omega

theorem stepBack_spec (t : Bytes) (o k : Nat) (hk : k ≤ o) (h : isCont (t.getD (o - k) 0) = false) :
    o - k ≤ stepBack t o ∧ isCont (t.getD (stepBack t o) 0) = false := by
  induction o generalizing k with
  | zero => simp at hk; subst hk; simpa [stepBack] using h
  | succ o ih =>
    simp only [stepBack]
    split
    · rename_i hc
      have hk0 : k ≠ 0 := by rintro rfl; rw [Nat.sub_zero, hc] at h; simp at h
      have := ih (k - 1) (by omega) (by rwa [show o - (k - 1) = o + 1 - k by omega])
      exact ⟨by omega, this.2⟩
    · rename_i hc; exact ⟨by omega, by simpa using hc⟩

/-- The pieces written by the loop, put together. -/
def joinPieces : List Bytes → Bytes
  | [] => []
  | [p] => p
  | p :: q :: r => p ++ [13, 10, 32] ++ joinPieces (q :: r)

/-- What the fold loop produces: the pieces of the rest of the text; each fits and starts with a
lead byte. -/
theorem foldLoop_pieces (t : Bytes) (hb : ∀ b ∈ t, b < 256) (hu : Utf8 t) (start w : Nat)
    (hw : 73 ≤ w) (hs : start < t.length) (hlead : t.getD start 0 / 64 ≠ 2) :
    ∃ p ps, foldLoop t start w = some (joinPieces (p :: ps)) ∧ (p :: ps).flatten = t.drop start ∧
      p.length ≤ w ∧ (∀ q ∈ ps, q.length ≤ 73) ∧
      ∀ q ∈ p :: ps, q ≠ [] ∧ q.headD 0 / 64 ≠ 2 := by
  induction hn : t.length - start using Nat.strongRecOn generalizing start w with
  | _ n ih =>
    have hdrop : (t.drop start).headD 0 = t.getD start 0 := by
      rw [List.headD_eq_head?_getD, List.head?_drop]; rfl
    have hdne : t.drop start ≠ [] := by simp; omega
    rw [foldLoop]
    split
    · refine ⟨t.drop start, [], rfl, by simp, by simp; omega, by simp, ?_⟩
      intro q hq; simp at hq; subst hq; rw [hdrop]; exact ⟨hdne, hlead⟩
    · rename_i hlt
      have hlt : start + w < t.length := by omega
      obtain ⟨cs, rfl, hcs⟩ := hu
      obtain ⟨k, k1, k2, k3⟩ := utf8_lead_near hcs _ hlt
      generalize cs.flatten = t at *
      have hmem : ∀ i, t.getD i 0 < 256 := by
        intro i
        rw [List.getD_eq_getElem?_getD]
        cases hi : t[i]? with
        | none => simp
        | some b => exact hb b (List.mem_of_getElem? hi)
      have hnc : isCont (t.getD (start + w - k) 0) = false := by
        rw [Bool.eq_false_iff, ne_eq, isCont_iff (hmem _)]; exact k3
      obtain ⟨h1, h2⟩ := stepBack_spec t _ k k2 hnc
      have h3 := stepBack_le t (start + w)
      have hprog : start < stepBack t (start + w) ∧ stepBack t (start + w) < t.length := by omega
      rw [dif_pos hprog]
      generalize stepBack t (start + w) = o at *
      have h4 : t.getD o 0 / 64 ≠ 2 := by
        rw [Bool.eq_false_iff, ne_eq, isCont_iff (hmem _)] at h2; exact h2
      obtain ⟨p, ps, e1, e2, e3, e4, e5⟩ := ih (t.length - o) (by omega) o 73 (by omega) hprog.2 h4 rfl
      refine ⟨(t.drop start).take (o - start), p :: ps, ?_, ?_, ?_, ?_, ?_⟩
      · rw [e1]; rfl
      · rw [List.flatten_cons, e2]
        conv => rhs; rw [← List.take_append_drop (o - start) (t.drop start)]
        rw [List.drop_drop, show start + (o - start) = o by omega]
      · simp; omega
      · intro q hq
        simp at hq
        rcases hq with rfl | hq
        · exact e3
        · exact e4 q hq
      · intro q hq
        rw [List.mem_cons] at hq
        rcases hq with rfl | hq
        · have hne : (t.drop start).take (o - start) ≠ [] := by simp; omega
          refine ⟨hne, ?_⟩
          cases hd : t.drop start with
          | nil => exact absurd hd hdne
          | cons c r =>
            rw [hd] at hdrop
            obtain ⟨m, hm⟩ : ∃ m, o - start = m + 1 := ⟨o - start - 1, by omega⟩
            rw [hm]; simp at hdrop ⊢; rw [hdrop]; simpa using hlead
        · exact e5 q hq

/-- C22 setting: a content line in UTF-8 with no line feed. -/
structure ContentLine (t : Bytes) : Prop where
  bytes : ∀ b ∈ t, b < 256
  utf8 : Utf8 t
  noLF : 10 ∉ t
  ne : t ≠ []

theorem utf8_head {t : Bytes} (hu : Utf8 t) (hne : t ≠ []) : t.headD 0 / 64 ≠ 2 := by
  obtain ⟨cs, rfl, hc⟩ := hu
  cases cs with
  | nil => simp at hne
  | cons c cs => obtain ⟨lead, conts, rfl, h, _⟩ := hc c (by simp); simpa using h

theorem foldLine_pieces (t : Bytes) (h : ContentLine t) :
    ∃ p ps, foldLine t = some (joinPieces (p :: ps) ++ [13, 10]) ∧ (p :: ps).flatten = t ∧
      p.length ≤ 74 ∧ (∀ q ∈ ps, q.length ≤ 73) ∧
      ∀ q ∈ p :: ps, q ≠ [] ∧ q.headD 0 / 64 ≠ 2 := by
  have hh := utf8_head h.utf8 h.ne
  unfold foldLine
  split
  · refine ⟨t, [], rfl, by simp, by omega, by simp, ?_⟩
    intro q hq; simp at hq; subst hq; exact ⟨h.ne, hh⟩
  · have h0 : 0 < t.length := List.length_pos_iff.2 h.ne
    have hg : t.getD 0 0 / 64 ≠ 2 := by
      cases t with
      | nil => simp at h0
      | cons c t => simpa using hh
    obtain ⟨p, ps, e1, e2, e3, e4, e5⟩ :=
      foldLoop_pieces t h.bytes h.utf8 0 74 (by omega) h0 hg
    exact ⟨p, ps, by rw [e1]; rfl, by simpa using e2, e3, e4, e5⟩

/-- Cutting a UTF-8 text before a lead byte cuts between characters. -/
theorem utf8_cut {cs : List Bytes} (hc : ∀ c ∈ cs, Utf8Char c) (a b : Bytes)
    (h : cs.flatten = a ++ b) (hb : b ≠ [] → b.headD 0 / 64 ≠ 2) :
    Utf8 a ∧ Utf8 b := by
  induction cs generalizing a with
  | nil =>
    simp at h
    obtain ⟨rfl, rfl⟩ := h
    exact ⟨⟨[], rfl, by simp⟩, ⟨[], rfl, by simp⟩⟩
  | cons c cs ih =>
    rw [List.flatten_cons] at h
    rcases List.append_eq_append_iff.1 h with ⟨a', rfl, h'⟩ | ⟨c', h1, h2⟩
    · obtain ⟨⟨as, e1, e2⟩, hb'⟩ := ih (fun c h => hc c (by simp [h])) a' h'
      refine ⟨⟨c :: as, by simp [e1], ?_⟩, hb'⟩
      intro x hx; simp at hx
      rcases hx with rfl | hx
      · exact hc _ (by simp)
      · exact e2 x hx
    · obtain ⟨lead, conts, rfl, l1, l2, l3⟩ := hc c (by simp)
      cases a with
      | nil =>
        simp at h1
        refine ⟨⟨[], rfl, by simp⟩, ⟨(lead :: conts) :: cs, by simp [h2, h1], hc⟩⟩
      | cons x a =>
        rw [List.cons_append, List.cons.injEq] at h1
        obtain ⟨rfl, h1⟩ := h1
        cases c' with
        | nil =>
          simp at h1 h2
          subst h1
          refine ⟨⟨[lead :: conts], by simp, ?_⟩, ⟨cs, h2, fun c h => hc c (by simp [h])⟩⟩
          intro c h; simp at h; subst h; exact hc _ (by simp)
        | cons y c' =>
          exfalso
          have : y / 64 = 2 := l3 y (by simp [h1])
          have := hb (by simp [h2])
          rw [h2] at this
          simp at this
          contradiction

theorem utf8_pieces (ps : List Bytes) (hu : Utf8 ps.flatten)
    (h : ∀ q ∈ ps, q ≠ [] ∧ q.headD 0 / 64 ≠ 2) : ∀ q ∈ ps, Utf8 q := by
  induction ps with
  | nil => simp
  | cons p ps ih =>
    obtain ⟨cs, e, hcs⟩ := hu
    have := utf8_cut hcs p ps.flatten (by simpa using e.symm) (by
      intro hne
      cases ps with
      | nil => simp at hne
      | cons q ps =>
        have hq := h q (by simp)
        cases q with
        | nil => exact absurd rfl hq.1
        | cons c q => simpa using hq.2)
    intro q hq
    rw [List.mem_cons] at hq
    rcases hq with rfl | hq
    · exact this.1
    · exact ih this.2 (fun q h' => h q (by simp [h'])) q hq

/-! ## Reading back -/

theorem unfold_crlf_free (p s : Bytes) (hp : 10 ∉ p) (hs : s.head? ≠ some 10) :
    Spec.unfold (p ++ s) = p ++ Spec.unfold s := by
  induction p with
  | nil => rfl
  | cons c p ih =>
    simp at hp
    rw [List.cons_append, List.cons_append, ← ih (by simpa using hp.2)]
    rw [Spec.unfold.eq_def (c :: (p ++ s))]
    split
    · rename_i heq
      simp only [List.cons.injEq] at heq
      exfalso
      cases p with
      | nil => simp at heq; rw [heq.2] at hs; simp at hs
      | cons d p => simp at heq hp; omega
    · rename_i heq
      simp only [List.cons.injEq] at heq
      exfalso
      cases p with
      | nil => simp at heq; rw [heq.2] at hs; simp at hs
      | cons d p => simp at heq hp; omega
    · rename_i heq; simp only [List.cons.injEq] at heq; rw [heq.1, heq.2]
    · rename_i heq; simp at heq

theorem unfold_join (p : Bytes) (ps : List Bytes) (h : ∀ q ∈ p :: ps, 10 ∉ q) :
    Spec.unfold (joinPieces (p :: ps) ++ [13, 10]) = (p :: ps).flatten ++ [13, 10] := by
  induction ps generalizing p with
  | nil =>
    simp only [joinPieces]
    rw [unfold_crlf_free p _ (h p (by simp)) (by simp)]
    simp [Spec.unfold]
  | cons q ps ih =>
    simp only [joinPieces, List.append_assoc]
    rw [unfold_crlf_free p _ (h p (by simp)) (by simp)]
    show p ++ Spec.unfold (13 :: 10 :: 32 :: (joinPieces (q :: ps) ++ [13, 10])) = _
    rw [show Spec.unfold (13 :: 10 :: 32 :: (joinPieces (q :: ps) ++ [13, 10])) =
      Spec.unfold (joinPieces (q :: ps) ++ [13, 10]) from rfl]
    rw [ih q (fun x hx => h x (by simp at hx ⊢; right; exact hx))]
    simp

theorem noLF_pieces {ps : List Bytes} {t : Bytes} (h : ps.flatten = t) (ht : 10 ∉ t) :
    ∀ q ∈ ps, 10 ∉ q := by
  intro q hq hm
  exact ht (h ▸ List.mem_flatten.2 ⟨q, hq, hm⟩)

/-- C22: folding terminates for every UTF-8 content line; unfolding the output as in RFC 5545 gives
the content line; every output line is at most 75 octets (indeed 74); no character is split. -/
theorem C22_fold (t : Bytes) (h : ContentLine t) :
    ∃ out, foldLine t = some out ∧ Spec.unfold out = t ++ [13, 10] ∧
    ∃ ps : List Bytes, ps ≠ [] ∧ out = joinPieces ps ++ [13, 10] ∧ (∀ q ∈ ps, 10 ∉ q) ∧
      (ps.headD []).length ≤ 75 ∧ (∀ q ∈ ps.tail, (32 :: q).length ≤ 75) ∧ ∀ q ∈ ps, Utf8 q := by
  obtain ⟨p, ps, e1, e2, e3, e4, e5⟩ := foldLine_pieces t h
  refine ⟨_, e1, ?_, p :: ps, by simp, rfl, noLF_pieces e2 h.noLF, ?_, ?_, ?_⟩
  · rw [unfold_join p ps (noLF_pieces e2 h.noLF), e2]
  · simp; omega
  · intro q hq; have := e4 q hq; simp; omega
  · exact utf8_pieces _ (by rw [e2]; exact h.utf8) e5

theorem readline_noLF (a s : Bytes) (h : 10 ∉ a) : readline (a ++ 10 :: s) = (a ++ [10], s) := by
  induction a with
  | nil => rfl
  | cons c a ih =>
    simp at h
    simp only [List.cons_append, readline, Ne.symm h.1, if_false, ih (by simpa using h.2)]

theorem chomp_crlf (a : Bytes) : chomp (a ++ [13] ++ [10]) = a := by
  simp [chomp]

/-- Reading ahead over the remaining pieces. -/
theorem readAhead_pieces (line : Bytes) (ps : List Bytes) (rest : Bytes)
    (hLF : ∀ q ∈ ps, 10 ∉ q) :
    readAhead line ((ps.flatMap fun q => [32] ++ q ++ [13, 10]) ++ rest) =
      readAhead (line ++ ps.flatten) rest := by
  induction ps generalizing line with
  | nil => simp
  | cons q ps ih =>
    have hq : (10 : Nat) ∉ [32] ++ q ++ [13] := by have := hLF q (by simp); simp [this]
    have hrl : readline ((((q :: ps).flatMap fun q => [32] ++ q ++ [13, 10])) ++ rest) =
        (([32] ++ q ++ [13]) ++ [10], (ps.flatMap fun q => [32] ++ q ++ [13, 10]) ++ rest) := by
      rw [← readline_noLF _ _ hq]; simp
    have hch : chomp (([32] ++ q ++ [13]) ++ [10]) = 32 :: q := chomp_crlf ([32] ++ q)
    rw [readAhead, hrl]
    rw [dif_neg (by simp)]
    simp only [hch]
    rw [if_pos (by decide), ih _ (fun q h => hLF q (by simp [h]))]
    simp

theorem joinPieces_eq (p : Bytes) (ps : List Bytes) :
    joinPieces (p :: ps) ++ [13, 10] = p ++ [13, 10] ++ ps.flatMap fun q => [32] ++ q ++ [13, 10] := by
  induction ps generalizing p with
  | nil => simp [joinPieces]
  | cons q ps ih => simp only [joinPieces, List.append_assoc, ih]; simp

/-- Reading a sequence of content lines: the successive results of `readFoldedLine` until it
returns `False`, as in the loops of containerbase.py:118 and 135. -/
inductive Reads : Option Bytes → Bytes → List Bytes → Prop
  | done {a s} : readFolded a s = none → Reads a s []
  | step {a s l a' s' ls} : readFolded a s = some (l, a', s') → Reads a' s' ls → Reads a s (l :: ls)

/-- The first byte of a content line is part of a name, not white space. -/
def StartsNonSpace (t : Bytes) : Prop := t.headD 32 ≠ 32 ∧ ¬ (9 ≤ t.headD 32 ∧ t.headD 32 ≤ 13)

theorem StartsNonSpace.first {c : Nat} {l : Bytes} (h : StartsNonSpace (c :: l)) :
    isSpaceByte c = false := by
  have h1 : c ≠ 32 := h.1
  have h2 : ¬ (9 ≤ c ∧ c ≤ 13) := h.2
  unfold isSpaceByte
  rw [Bool.eq_false_iff]
  simp only [ne_eq, Bool.or_eq_true, beq_iff_eq, Bool.and_eq_true, decide_eq_true_eq]
  omega

theorem readAhead_next (line : Bytes) (t : Bytes) (h : ContentLine t) (hs : StartsNonSpace t)
    (out rest : Bytes) (hout : foldLine t = some out) :
    ∃ (p : Bytes) (ps : List Bytes), readAhead line (out ++ rest) =
        (line, some p, (ps.flatMap fun q => [32] ++ q ++ [13, 10]) ++ rest) ∧
      (∀ q ∈ ps, 10 ∉ q) ∧ p ++ ps.flatten = t ∧
      readline (out ++ rest) =
        (p ++ [13] ++ [10], (ps.flatMap fun q => [32] ++ q ++ [13, 10]) ++ rest) := by
  obtain ⟨p, ps, e1, e2, e3, e4, e5⟩ := foldLine_pieces t h
  rw [e1] at hout
  obtain rfl := Option.some.inj hout
  have hLF := noLF_pieces e2 h.noLF
  have hp : 10 ∉ p ++ [13] := by have := hLF p (by simp); simp [this]
  have hrl : readline (joinPieces (p :: ps) ++ [13, 10] ++ rest) =
      ((p ++ [13]) ++ [10], (ps.flatMap fun q => [32] ++ q ++ [13, 10]) ++ rest) := by
    rw [joinPieces_eq, ← readline_noLF _ _ hp]; simp
  refine ⟨p, ps, ?_, fun q hq => hLF q (by simp [hq]), by simpa using e2, hrl⟩
  rw [readAhead, hrl, dif_neg (by simp)]
  have hch : chomp ((p ++ [13]) ++ [10]) = p := chomp_crlf p
  cases p with
  | nil => exact absurd rfl (e5 [] (by simp)).1
  | cons c p =>
    simp only [hch]
    have hc : isSpaceByte c = false := by
      rw [← e2] at hs; exact StartsNonSpace.first hs
    rw [if_neg (by simp [hc])]

/-- What is written for content lines, also after a part of a line and its further pieces. -/
theorem reads_after (ts : List Bytes) : (∀ t ∈ ts, ContentLine t ∧ StartsNonSpace t) →
    ∃ outs : List Bytes, ts.mapM foldLine = some outs ∧ Reads none outs.flatten ts ∧
      ∀ (p : Bytes) (ps : List Bytes), (∀ q ∈ ps, 10 ∉ q) →
        Reads (some p) ((ps.flatMap fun q => [32] ++ q ++ [13, 10]) ++ outs.flatten)
          ((p ++ ps.flatten) :: ts) := by
  induction ts with
  | nil =>
    intro _
    refine ⟨[], rfl, .done (by simp [readFolded, readline]), fun p ps hps => ?_⟩
    refine .step (a' := none) (s' := []) ?_ (.done (by simp [readFolded, readline]))
    simp only [readFolded, List.flatten_nil]
    rw [readAhead_pieces _ _ _ hps, readAhead]
    simp [readline]
  | cons t ts ih =>
    intro h
    obtain ⟨outs, h1, h2, h3⟩ := ih (fun t ht => h t (by simp [ht]))
    have ht := h t (by simp)
    obtain ⟨out, ho, -⟩ := C22_fold t ht.1
    refine ⟨out :: outs, by simp [List.mapM_cons, ho, h1], ?_, fun p ps hps => ?_⟩
    · obtain ⟨p, ps, -, e2, e3, e4⟩ := readAhead_next [] t ht.1 ht.2 out outs.flatten ho
      rw [← e3]
      have := h3 p ps e2
      cases this with
      | @step _ _ _ a' s' _ hr hrs =>
        refine .step (a' := a') (s' := s') ?_ hrs
        rw [← hr, List.flatten_cons]
        simp only [readFolded, e4]
        rw [if_neg (by simp), chomp_crlf]
    · obtain ⟨p', ps', e1, e2, e3, -⟩ :=
        readAhead_next (p ++ ps.flatten) t ht.1 ht.2 out outs.flatten ho
      refine .step (a' := some p') (s' := (ps'.flatMap fun q => [32] ++ q ++ [13, 10]) ++
        outs.flatten) ?_ ?_
      · simp only [readFolded, List.flatten_cons]
        rw [readAhead_pieces _ _ _ hps, e1]
      · rw [← e3]; exact h3 p' ps' e2

/-- C22: writing any sequence of properties and reading the text with `readFoldedLine` gives back
exactly the sequence of content lines. -/
theorem C22_read_back (ts : List Bytes) (h : ∀ t ∈ ts, ContentLine t ∧ StartsNonSpace t) :
    ∃ outs : List Bytes, ts.mapM foldLine = some outs ∧ Reads none outs.flatten ts := by
  obtain ⟨outs, h1, h2, -⟩ := reads_after ts h
  exact ⟨outs, h1, h2⟩

/-- The result of reading is unique, so the previous theorem determines it. -/
theorem reads_unique {a s l l'} (h : Reads a s l) (h' : Reads a s l') : l = l' := by
  induction h generalizing l' with
  | done h1 => cases h' with
    | done => rfl
    | step h2 => rw [h1] at h2; simp at h2
  | step h1 _ ih => cases h' with
    | done h2 => rw [h1] at h2; simp at h2
    | step h2 h3 =>
      rw [h1] at h2
      simp at h2
      obtain ⟨rfl, rfl, rfl⟩ := h2
      rw [ih h3]

/-! ### Texts from elsewhere -/

/-- The end of a line: CR LF, or LF alone. -/
def eol (crlf : Bool) : Bytes := if crlf then [13, 10] else [10]

/-- A content line as it may stand in a text: its first part and the further ones, each with the white
space that marks it and the end of its line. -/
structure Spread where
  first : Bytes
  crlf : Bool
  more : List (Nat × Bytes × Bool)

/-- Its text. -/
def Spread.text (l : Spread) : Bytes :=
  l.first ++ eol l.crlf ++ l.more.flatMap fun q => q.1 :: (q.2.1 ++ eol q.2.2)

/-- The line that is meant. -/
def Spread.line (l : Spread) : Bytes := l.first ++ l.more.flatMap fun q => q.2.1

/-- The first part is empty or starts with something that is not white space; the others are marked by
a space or a tab; no part has a CR or LF in it. -/
def Spread.Ok (l : Spread) : Prop :=
  (l.first = [] ∨ StartsNonSpace l.first) ∧ (10 ∉ l.first ∧ 13 ∉ l.first) ∧
    ∀ q ∈ l.more, (q.1 = 32 ∨ q.1 = 9) ∧ 10 ∉ q.2.1 ∧ 13 ∉ q.2.1

theorem readline_eol (a s : Bytes) (b : Bool) (h : 10 ∉ a) :
    readline (a ++ eol b ++ s) = (a ++ eol b, s) := by
  cases b with
  | false =>
    show readline (a ++ [10] ++ s) = _
    rw [List.append_assoc]
    exact readline_noLF a s h
  | true =>
    have := readline_noLF (a ++ [13]) s (by simp [h])
    simpa [eol] using this

theorem chomp_eol (a : Bytes) (b : Bool) (h : 13 ∉ a) : chomp (a ++ eol b) = a := by
  cases b with
  | true => simpa [eol] using chomp_crlf a
  | false =>
    unfold chomp eol
    simp only [Bool.false_eq_true, if_false, List.reverse_append, List.reverse_singleton,
      List.singleton_append]
    cases hr : a.reverse with
    | nil => simpa using (List.reverse_eq_nil_iff.1 hr).symm
    | cons c r =>
      have hc : c ≠ 13 := by
        rintro rfl
        exact h (List.mem_reverse.1 (by rw [hr]; simp))
      have ha : a = (c :: r).reverse := by rw [← hr, List.reverse_reverse]
      rw [ha]
      split
      · next heq => simp only [List.cons.injEq, true_and] at heq; exact absurd heq.1 hc
      · next heq => simp only [List.cons.injEq, true_and] at heq; rw [heq]
      · next heq => simp at heq
      · next h1 h2 h3 => exact absurd rfl (h2 _)

theorem eol_ne (a : Bytes) (b : Bool) : a ++ eol b ≠ [] := by cases b <;> simp [eol]

theorem readAhead_more (line : Bytes) (ps : List (Nat × Bytes × Bool)) (rest : Bytes)
    (h : ∀ q ∈ ps, (q.1 = 32 ∨ q.1 = 9) ∧ 10 ∉ q.2.1 ∧ 13 ∉ q.2.1) :
    readAhead line ((ps.flatMap fun q => q.1 :: (q.2.1 ++ eol q.2.2)) ++ rest) =
      readAhead (line ++ ps.flatMap fun q => q.2.1) rest := by
  induction ps generalizing line with
  | nil => simp
  | cons q ps ih =>
    obtain ⟨hw, h10, h13⟩ := h q (by simp)
    have e : ((q :: ps).flatMap fun q => q.1 :: (q.2.1 ++ eol q.2.2)) ++ rest =
        (q.1 :: q.2.1) ++ eol q.2.2 ++ ((ps.flatMap fun q => q.1 :: (q.2.1 ++ eol q.2.2)) ++ rest) := by
      simp
    have hrl := readline_eol (q.1 :: q.2.1)
      ((ps.flatMap fun q => q.1 :: (q.2.1 ++ eol q.2.2)) ++ rest) q.2.2 (by
        rcases hw with hw | hw <;> simp [hw, h10])
    rw [e, readAhead, hrl, dif_neg (eol_ne _ _)]
    have hch := chomp_eol (q.1 :: q.2.1) q.2.2 (by rcases hw with hw | hw <;> simp [hw, h13])
    simp only [hch]
    rw [if_pos (by rcases hw with hw | hw <;> rw [hw] <;> decide),
      ih _ (fun q h' => h q (by simp [h']))]
    simp

theorem readAhead_line (line : Bytes) (l : Spread) (h : l.Ok) (rest : Bytes) :
    readAhead line (l.text ++ rest) =
      (line, some l.first, (l.more.flatMap fun q => q.1 :: (q.2.1 ++ eol q.2.2)) ++ rest) ∧
    readline (l.text ++ rest) =
      (l.first ++ eol l.crlf, (l.more.flatMap fun q => q.1 :: (q.2.1 ++ eol q.2.2)) ++ rest) := by
  obtain ⟨hs, ⟨h10, h13⟩, -⟩ := h
  have hrl : readline (l.text ++ rest) =
      (l.first ++ eol l.crlf, (l.more.flatMap fun q => q.1 :: (q.2.1 ++ eol q.2.2)) ++ rest) := by
    rw [← readline_eol _ _ _ h10, Spread.text]
    simp
  refine ⟨?_, hrl⟩
  rw [readAhead, hrl, dif_neg (eol_ne _ _)]
  simp only [chomp_eol _ _ h13]
  cases hf : l.first with
  | nil => rfl
  | cons c p =>
    rw [hf] at hs
    simp only
    rw [if_neg]
    rw [hs.resolve_left (by simp) |>.first]
    simp

theorem reads_spread (ls : List Spread) (h : ∀ l ∈ ls, l.Ok) :
    Reads none (ls.flatMap Spread.text) (ls.map Spread.line) ∧
    ∀ (p : Bytes) (ps : List (Nat × Bytes × Bool)),
      (∀ q ∈ ps, (q.1 = 32 ∨ q.1 = 9) ∧ 10 ∉ q.2.1 ∧ 13 ∉ q.2.1) →
      Reads (some p) ((ps.flatMap fun q => q.1 :: (q.2.1 ++ eol q.2.2)) ++ ls.flatMap Spread.text)
        ((p ++ ps.flatMap fun q => q.2.1) :: ls.map Spread.line) := by
  induction ls with
  | nil =>
    refine ⟨.done (by simp [readFolded, readline]), fun p ps hps => ?_⟩
    refine .step (a' := none) (s' := []) ?_ (.done (by simp [readFolded, readline]))
    simp only [readFolded, List.flatMap_nil]
    rw [readAhead_more _ _ _ hps, readAhead]
    simp [readline]
  | cons l ls ih =>
    obtain ⟨h2, h3⟩ := ih (fun l hl => h l (by simp [hl]))
    have hl := h l (by simp)
    constructor
    · obtain ⟨-, e4⟩ := readAhead_line [] l hl (ls.flatMap Spread.text)
      have := h3 l.first l.more hl.2.2
      cases this with
      | @step _ _ _ a' s' _ hr hrs =>
        refine .step (a' := a') (s' := s') ?_ hrs
        rw [List.flatMap_cons]
        simp only [readFolded, e4]
        rw [if_neg (eol_ne _ _), chomp_eol _ _ hl.2.1.2]
        exact hr
    · intro p ps hps
      obtain ⟨e1, -⟩ := readAhead_line (p ++ ps.flatMap fun q => q.2.1) l hl (ls.flatMap Spread.text)
      refine .step (a' := some l.first)
        (s' := (l.more.flatMap fun q => q.1 :: (q.2.1 ++ eol q.2.2)) ++ ls.flatMap Spread.text) ?_
        (h3 l.first l.more hl.2.2)
      simp only [readFolded, List.flatMap_cons]
      rw [readAhead_more _ _ _ hps, e1]

/-- C22: any text of lines that end with CR LF or with LF alone, in which a line that starts with a
space or a tab continues the one before it, is read as the lines that are meant. -/
theorem C22_unfold (ls : List Spread) (h : ∀ l ∈ ls, l.Ok) :
    Reads none (ls.flatMap Spread.text) (ls.map Spread.line) :=
  (reads_spread ls h).1

/-- `AB` LF tab `C` CR LF, an empty line, and `D` LF. -/
example : let ls : List Spread := [⟨[65, 66], false, [(9, [67], true)]⟩, ⟨[], false, []⟩, ⟨[68], false, []⟩]
    (∀ l ∈ ls, l.Ok) ∧ ls.flatMap Spread.text = [65, 66, 10, 9, 67, 13, 10, 10, 68, 10] ∧
    ls.map Spread.line = [[65, 66, 67], [], [68]] := by
  refine ⟨?_, by decide, by decide⟩
  intro l hl
  simp only [List.mem_cons, List.not_mem_nil, or_false] at hl
  unfold Spread.Ok StartsNonSpace
  rcases hl with rfl | rfl | rfl <;> decide

/-- C22 needs UTF-8: on other bytes the fold loop may never end (here an "X:" followed by 100
continuation bytes). -/
theorem C22_nontermination : ∃ t : Bytes, (∀ b ∈ t, b < 256) ∧ 10 ∉ t ∧ foldLine t = none := by
  refine ⟨[88, 58] ++ List.replicate 200 128, ?_, ?_, ?_⟩
  · decide +kernel
  · decide +kernel
  · decide +kernel

/-- A non-trivial content line: `SUMMARY:` and 40 copies of `é`. -/
example : ContentLine ("SUMMARY:".toList.map Char.toNat ++ (List.replicate 40 [0xC3, 0xA9]).flatten) := by
  refine ⟨by decide +kernel, ?_, by decide +kernel, by decide +kernel⟩
  refine ⟨("SUMMARY:".toList.map fun c => [c.toNat]) ++ List.replicate 40 [0xC3, 0xA9], by
    decide +kernel, ?_⟩
  intro c hc
  simp at hc
  rcases hc with rfl | rfl | rfl | rfl | rfl | rfl | rfl | rfl | rfl <;>
    exact ⟨_, _, rfl, by decide, by decide, by decide⟩

example : StartsNonSpace ("SUMMARY:".toList.map Char.toNat) := by unfold StartsNonSpace; decide

end PyCal
