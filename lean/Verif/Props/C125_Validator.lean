import Verif.Model.ParserContext

/-! # C125: the program that checks a file

C125: `validator.py` takes a file for a calendar if `BEGIN:VCALENDAR` is anywhere in it and else for a card if
`BEGIN:VCARD` is.  It prints only that there are no problems exactly if the file is read so with the strict settings,
its validation finds nothing and it has no control character; otherwise each control character of a file that is read
is named with its position, and no other character. -/

namespace PyCal
open ParserContext Validator

namespace V125

variable {E P Obj : Type}

/-- The characters that text must not have: all below the space but tab and the ends of lines. -/
def Forbidden (c : Char) : Prop := c.toNat < 32 ∧ c ≠ '\t' ∧ c ≠ '\n' ∧ c ≠ '\r'

instance (c : Char) : Decidable (Forbidden c) := by unfold Forbidden; infer_instance

/-- `pat` is somewhere in `s`. -/
def Inside (pat s : List Char) : Prop := ∃ a b, s = a ++ pat ++ b

theorem control_iff (c : Char) : isControl c = true ↔ Forbidden c := by
  have hc : ∀ d : Char, c = d ↔ c.toNat = d.toNat := fun d =>
    ⟨fun h => by rw [h], fun h => Char.ext (UInt32.toNat_inj.1 h)⟩
  have ht : ('\t' : Char).toNat = 9 := rfl
  have hn : ('\n' : Char).toNat = 10 := rfl
  have hr : ('\r' : Char).toNat = 13 := rfl
  unfold isControl Forbidden
  rw [ne_eq, ne_eq, ne_eq, hc, hc, hc, ht, hn, hr]
  simp only [decide_eq_true_eq, List.mem_cons, List.not_mem_nil, or_false]
  omega

theorem finds_iff (pat s : List Char) : finds pat s = true ↔ Inside pat s := by
  induction s with
  | nil =>
    simp only [finds, beq_iff_eq]
    constructor
    · rintro rfl; exact ⟨[], [], rfl⟩
    · rintro ⟨a, b, h⟩
      have : a ++ pat ++ b = [] := h.symm
      simp at this
      exact this.2.1
  | cons c s ih =>
    simp only [finds, Bool.or_eq_true, ih, List.isPrefixOf_iff_prefix]
    constructor
    · rintro (⟨b, h⟩ | ⟨a, b, h⟩)
      · exact ⟨[], b, by simpa using h.symm⟩
      · exact ⟨c :: a, b, by simp [h]⟩
    · rintro ⟨a, b, h⟩
      cases a with
      | nil => exact Or.inl ⟨b, by simpa using h.symm⟩
      | cons d a =>
        simp only [List.cons_append, List.cons.injEq] at h
        exact Or.inr ⟨a, b, h.2⟩

/-- The lines for the control characters of a text whose first character is at position `n`. -/
def Named (n : Nat) (s : List Char) : List (Line E P) :=
  (s.zipIdx n).filterMap (fun x => if Forbidden x.1 then some (.control x.1.toNat x.2) else none)

theorem loop_eq (s : List Char) (n : Nat) : controlLoop n s = (Named n s : List (Line E P)) := by
  induction s generalizing n with
  | nil => rfl
  | cons c s ih =>
    unfold controlLoop Named
    rw [ih]
    by_cases h : Forbidden c
    · rw [if_pos ((control_iff c).2 h)]
      simp [Named, List.zipIdx_cons, h]
    · rw [if_neg (fun h' => h ((control_iff c).1 h'))]
      simp [Named, List.zipIdx_cons, h]

theorem named_nil {s : List Char} {n : Nat} : (Named n s : List (Line E P)) = [] ↔ ∀ c ∈ s, ¬ Forbidden c := by
  induction s generalizing n with
  | nil => simp [Named]
  | cons c s ih =>
    have := ih (n := n + 1)
    unfold Named at this ⊢
    by_cases h : Forbidden c
    · simp [List.zipIdx_cons, h]
    · simp [List.zipIdx_cons, h, this]

theorem check_eq (s : List Char) : controlCheck s = (Named 0 s : List (Line E P)) := by
  unfold controlCheck
  split_ifs with h
  · exact loop_eq s 0
  · symm
    rw [named_nil]
    intro c hc hf
    apply h
    intro he
    have := List.length_filter_eq_length_iff.1 he c hc
    rw [(control_iff c).2 hf] at this
    cases this

end V125

open V125

variable {E P Obj : Type} [DecidableEq E] [DecidableEq P]

/-- C125: whenever the file is read, each control character is named with its code and position, in order, and no
other line about characters is printed; the rest is one line, whether there are problems. -/
theorem C125_control (ctx : ParserContext) (parseCal parseCard : ParserContext → List Char → Except E Obj)
    (check : Obj → List P) (data : List Char) (lines : List (Line E P))
    (h : validate ctx parseCal parseCard check data = (lines, false)) :
    ∃ first, lines = first :: (data.zipIdx.filterMap
        (fun x => if Forbidden x.1 then some (.control x.1.toNat x.2) else none)) ∧
      (first = .noProblems ∨ ∃ l, l ≠ [] ∧ first = .problems l) := by
  unfold validate at h
  split at h
  · simp at h
  · simp only [Prod.mk.injEq, and_true] at h
    refine ⟨_, by rw [← h, check_eq]; rfl, ?_⟩
    split
    · exact Or.inl rfl
    · rename_i l hl
      exact Or.inr ⟨_, fun e => hl e, rfl⟩

/-- C125, exactly: only `No problems` is printed exactly if the file has `BEGIN:VCALENDAR` somewhere and is read as
a calendar, or else has `BEGIN:VCARD` and is read as a card, both with the settings of `allRaise` whatever they were
before, and neither a problem nor a control character is in it. -/
theorem C125_clean (ctx : ParserContext) (parseCal parseCard : ParserContext → List Char → Except E Obj)
    (check : Obj → List P) (data : List Char) :
    validate ctx parseCal parseCard check data = ([.noProblems], false) ↔
      (∃ obj, ((Inside "BEGIN:VCALENDAR".toList data ∧ parseCal ctx.allRaise data = .ok obj) ∨
          (¬ Inside "BEGIN:VCALENDAR".toList data ∧ Inside "BEGIN:VCARD".toList data ∧
            parseCard ctx.allRaise data = .ok obj)) ∧ check obj = []) ∧
      ∀ c ∈ data, ¬ Forbidden c := by
  rw [← finds_iff, ← finds_iff]
  have key : ∀ obj, ((match check obj with | [] => Line.noProblems | l => Line.problems l) :: controlCheck data, false)
      = (([.noProblems], false) : List (Line E P) × Bool) ↔ check obj = [] ∧ ∀ c ∈ data, ¬ Forbidden c := by
    intro obj
    rw [check_eq]
    simp only [Prod.mk.injEq, and_true, List.cons.injEq, named_nil]
    split <;> simp_all
  unfold validate parsed
  by_cases h1 : finds "BEGIN:VCALENDAR".toList data = true
  · simp only [h1, if_true, true_and, not_true_eq_false, false_and, or_false]
    cases h2 : parseCal ctx.allRaise data with
    | ok o => exact (key o).trans (by simp)
    | error e => simp
  · by_cases h3 : finds "BEGIN:VCARD".toList data = true
    · simp only [h1, h3, if_true, true_and, not_false_eq_true, false_and, false_or, Bool.false_eq_true, if_false]
      cases h2 : parseCard ctx.allRaise data with
      | ok o => exact (key o).trans (by simp)
      | error e => simp
    · simp only [h1, h3, Bool.false_eq_true, if_false, false_and, not_false_eq_true, true_and, or_self, exists_false]
      simp

/-- The hypotheses can be met: a file that is read, with a control character at position 15. -/
example : validate defaults (fun _ _ => (.ok 0 : Except Nat Nat)) (fun _ _ => .error 1) (fun _ => ([] : List Nat))
    ("BEGIN:VCALENDAR".toList ++ ['\x07', '\n']) = ([.noProblems, .control 7 15], false) := by decide +kernel

/-- C125: a card is taken for a calendar if one of its texts has `BEGIN:VCALENDAR`: how it would be read as a card does
not matter. -/
theorem C125_card (ctx : ParserContext) (parseCal p q : ParserContext → List Char → Except E Obj)
    (check : Obj → List P) (a b : List Char) :
    validate ctx parseCal p check ("BEGIN:VCARD\nNOTE:".toList ++ a ++ "BEGIN:VCALENDAR".toList ++ b) =
      validate ctx parseCal q check ("BEGIN:VCARD\nNOTE:".toList ++ a ++ "BEGIN:VCALENDAR".toList ++ b) := by
  have h : finds "BEGIN:VCALENDAR".toList ("BEGIN:VCARD\nNOTE:".toList ++ a ++ "BEGIN:VCALENDAR".toList ++ b) = true :=
    (finds_iff _ _).2 ⟨_, _, rfl⟩
  unfold validate parsed
  rw [if_pos h, if_pos h]

end PyCal
