import Verif.Props.C44_C45_RuleText
import Mathlib.Tactic.Tauto
import Mathlib.Data.List.Induction

/-! # C56: the texts of the BYDAY part -/

namespace PyCal
open Spec Spec.Recur DateTime

theorem digits_of_all : ∀ (s : List Char), s ≠ [] → (∀ c ∈ s, isDigit c = true) → Dur.Digits s (readNat s) := by
  intro s
  induction s using List.reverseRecOn with
  | nil => intro h; exact absurd rfl h
  | append_singleton s c ih =>
    intro _ h
    have hc := h c (by simp)
    have hk : digitVal c < 10 := by unfold isDigit at hc; unfold digitVal; simp at hc; omega
    have e : Char.ofNat (48 + digitVal c) = c := by
      unfold isDigit at hc; simp at hc
      have : 48 + digitVal c = c.toNat := by unfold digitVal; omega
      rw [this, Char.ofNat_toNat]
    cases s with
    | nil =>
      have := Dur.Digits.one (digitVal c) hk
      rw [e] at this
      simpa [readNat] using this
    | cons a s =>
      have := Dur.Digits.snoc (digitVal c) _ hk _ (ih (by simp) fun x hx => h x (by simp at hx ⊢; tauto))
      rw [e] at this
      rwa [readNat_append_digit, Nat.mul_comm]

theorem digits_of_read {s : List Char} {n : Nat} (h : readDigits s = some n) : Dur.Digits s n := by
  unfold readDigits at h
  split at h
  · next hs =>
    simp only [Option.some.injEq] at h
    rw [← h]
    exact digits_of_all s hs.1 (by simpa using hs.2)
  · simp at h

theorem number_of_pyInt {s : List Char} {n : Int} (hs : ∀ c ∈ s, Rule.isNumChar c = true)
    (h : pyInt s = some n) : Number s n := by
  have hsp : ∀ c ∈ s, isSpace c = false := by
    intro c hc
    have := hs c hc
    unfold Rule.isNumChar at this
    simp only [Bool.or_eq_true, decide_eq_true_eq] at this
    rcases this with (rfl | rfl) | h
    · decide
    · decide
    · exact isSpace_digit h
  unfold pyInt at h
  rw [strip_solid hsp] at h
  split at h
  all_goals
    simp only [Option.map_eq_some_iff, Option.bind_eq_bind, Option.bind_eq_some_iff, Option.pure_def,
      Option.some.injEq] at h
    obtain ⟨_, ⟨k, hk, rfl⟩, rfl⟩ := h
  · exact .minus (digits_of_read hk)
  · exact .plus (digits_of_read hk)
  · exact .plain (digits_of_read hk)

theorem dayWord_of {s : List Char} {d : Int} (h : Rule.weekdayOf s = some d) : DayWord s d := by
  unfold Rule.weekdayOf at h
  split at h <;> simp only [Option.some.injEq, reduceCtorEq] at h <;> subst h
  · exact .su
  · exact .mo
  · exact .tu
  · exact .we
  · exact .th
  · exact .fr
  · exact .sa

theorem dayNum_of_parse {s : List Char} {v : Int × Int} (h : Rule.parseDay s = some v) : DayNum s v := by
  unfold Rule.parseDay at h
  split at h
  · simp only [Option.map_eq_some_iff] at h
    obtain ⟨d, hd, rfl⟩ := h
    exact .every (dayWord_of hd)
  · split at h
    · simp at h
    · next n hn =>
      split at h
      · simp at h
      · next h1 =>
        simp only [Option.map_eq_some_iff] at h
        obtain ⟨d, hd, rfl⟩ := h
        have := DayNum.nth (number_of_pyInt (fun c hc => List.all_eq_true.1 List.all_takeWhile c hc) hn)
          (by omega) (dayWord_of hd)
        rwa [List.takeWhile_append_dropWhile] at this

theorem sep_of_split {α : Type} {c : Char} {P : List Char → α → Prop} :
    ∀ (k : Nat) (s : List Char) (l : List α), s.length ≤ k → List.Forall₂ P (splitOn c s) l → Sep c P s l := by
  intro k
  induction k with
  | zero =>
    intro s l hk h
    rw [List.eq_nil_of_length_eq_zero (by omega : s.length = 0)] at h ⊢
    rw [splitOn] at h
    cases h with | cons h h' => cases h'; exact .one h
  | succ k ih =>
    intro s l hk h
    by_cases hc : c ∈ s
    · obtain ⟨p, r, rfl, hp⟩ := List.eq_append_cons_of_mem hc
      rw [splitOn_append hp] at h
      cases h with
      | cons h h' => exact .more h (ih r _ (by simp at hk; omega) h')
    · rw [splitOn_free hc] at h
      cases h with | cons h h' => cases h'; exact .one h

theorem mapM_forall_text {α : Type} {f : List Char → Option α} {P : List Char → α → Prop}
    (hf : ∀ s a, f s = some a → P s a) : ∀ {ss : List (List Char)} {l : List α},
    ss.mapM f = some l → List.Forall₂ P ss l
  | [], l, h => by simp at h; simp [h]
  | s :: ss, l, h => by
    rw [List.mapM_cons] at h
    cases h1 : f s with
    | none => rw [h1] at h; simp at h
    | some a =>
      cases h2 : ss.mapM f with
      | none => rw [h1, h2] at h; simp at h
      | some l' =>
        rw [h1, h2] at h
        simp at h
        subst h
        exact .cons (hf _ _ h1) (mapM_forall_text hf h2)

theorem parseListDW_text {s : List Char} {l : List (Int × Int)} (h : Rule.parseListDW s = some l) :
    Sep ',' DayNum s l :=
  sep_of_split _ _ _ le_rfl (mapM_forall_text (fun _ _ => dayNum_of_parse) h)

/-- The days stay once they are set. -/
theorem parsePart_byDay {sr : Bool} {r r' : Rule} {name value : List Char}
    (h : Rule.parsePart sr r name value = some r') :
    if name = "BYDAY".toList then r.byDay = [] ∧ Sep ',' DayNum value r'.byDay
    else r'.byDay = r.byDay := by
  unfold Rule.parsePart at h
  by_cases hn : name = "BYDAY".toList
  · subst hn
    rw [if_pos rfl]
    rw [if_neg (by decide), if_neg (by decide), if_neg (by decide), if_neg (by decide), if_neg (by decide),
      if_neg (by decide), if_neg (by decide), if_pos rfl] at h
    unfold Rule.setOnce at h
    split at h
    · next h0 =>
      simp only [Option.map_eq_some_iff] at h
      obtain ⟨l, hl, rfl⟩ := h
      exact ⟨h0, parseListDW_text hl⟩
    · simp at h
  · rw [if_neg hn]
    rcases ite_or h with h | h
    · simp only [Option.map_eq_some_iff] at h; obtain ⟨_, _, rfl⟩ := h; rfl
    rcases ite_or h with h | h
    · split at h
      · simp at h
      · simp only [Option.map_eq_some_iff] at h; obtain ⟨_, _, rfl⟩ := h; rfl
    rcases ite_or h with h | h
    · split at h
      · simp at h
      · rw [Option.bind_eq_some_iff] at h
        obtain ⟨_, _, h⟩ := h
        split at h
        · simp at h
        · simp only [Option.some.injEq] at h; rw [← h]
    rcases ite_or h with h | h
    · rw [Option.bind_eq_some_iff] at h
      obtain ⟨_, _, h⟩ := h
      split at h
      · simp at h
      · simp only [Option.some.injEq] at h; rw [← h]
    rcases ite_or h with h | h
    · obtain ⟨_, _, rfl⟩ := setOnce_some h; rfl
    rcases ite_or h with h | h
    · obtain ⟨_, _, rfl⟩ := setOnce_some h; rfl
    rcases ite_or h with h | h
    · obtain ⟨_, _, rfl⟩ := setOnce_some h; rfl
    rw [if_neg hn] at h
    rcases ite_or h with h | h
    · obtain ⟨_, _, rfl⟩ := setOnce_some h; rfl
    rcases ite_or h with h | h
    · obtain ⟨_, _, rfl⟩ := setOnce_some h; rfl
    rcases ite_or h with h | h
    · obtain ⟨_, _, rfl⟩ := setOnce_some h; rfl
    rcases ite_or h with h | h
    · obtain ⟨_, _, rfl⟩ := setOnce_some h; rfl
    rcases ite_or h with h | h
    · obtain ⟨_, _, rfl⟩ := setOnce_some h; rfl
    rcases ite_or h with h | h
    · simp only [Option.map_eq_some_iff] at h; obtain ⟨_, _, rfl⟩ := h; rfl
    simp at h

/-- C56, for BYDAY: a rule that has been parsed from a text with a part `BYDAY=...` has the days that part
says by the grammar: a list of weekdays, each with no number or one that is not zero. -/
theorem C56_days (sr : Bool) (s value : List Char) (r : Rule) (h : Rule.parse sr s = some r)
    (hp : "BYDAY=".toList ++ value ∈ splitOn ';' s) : Sep ',' DayNum value r.byDay := by
  have sep_ne : ∀ {v l}, Sep ',' DayNum v l → l ≠ [] := by
    intro v l h; cases h <;> simp
  have key : ∀ (ss : List (List Char)) (r0 : Rule), ss.foldlM (Rule.parseToken sr) r0 = some r →
      (r0.byDay ≠ [] → r.byDay = r0.byDay) ∧
      ("BYDAY=".toList ++ value ∈ ss → Sep ',' DayNum value r.byDay) := by
    intro ss
    induction ss with
    | nil => intro r0 h; simp at h; simp [h]
    | cons t ss ih =>
      intro r0 h
      rw [List.foldlM_cons] at h
      cases ht : Rule.parseToken sr r0 t with
      | none => rw [ht] at h; simp at h
      | some r1 =>
        rw [ht] at h
        obtain ⟨i1, i2⟩ := ih r1 h
        unfold Rule.parseToken at ht
        split at ht
        · next name v hsp =>
          have hb := parsePart_byDay ht
          refine ⟨?_, ?_⟩
          · intro h0
            split at hb
            · exact absurd hb.1 h0
            · rw [i1 (by rwa [hb]), hb]
          · intro hm
            rcases List.mem_cons.1 hm with e | hm
            · rw [← e, show "BYDAY=".toList ++ value = "BYDAY".toList ++ '=' :: value from rfl,
                splitOn_append (by decide)] at hsp
              simp only [List.cons.injEq] at hsp
              obtain ⟨rfl, hv⟩ := hsp
              have hve : '=' ∉ value := by
                intro hc
                obtain ⟨p, q, rfl, hp'⟩ := List.eq_append_cons_of_mem hc
                rw [splitOn_append hp'] at hv
                have := congrArg List.length hv
                have h1 : (splitOn '=' q).length ≠ 0 := by
                  cases q with
                  | nil => simp [splitOn]
                  | cons x q => rw [splitOn]; split; · simp
                                split <;> simp
                simp at this
                exact h1 (by simp [this])
              rw [splitOn_free hve] at hv
              simp only [List.cons.injEq, and_true] at hv
              subst hv
              rw [if_pos rfl] at hb
              rw [i1 (sep_ne hb.2)]
              exact hb.2
            · exact i2 hm
        · simp at ht
  exact (key _ _ h).2 hp

example : Rule.parse true "FREQ=MONTHLY;BYDAY=-1MO,TU,+2WE".toList =
      some { freq := .monthly, byDay := [(-1, 1), (0, 2), (2, 3)] } ∧
    "BYDAY=".toList ++ "-1MO,TU,+2WE".toList ∈ splitOn ';' "FREQ=MONTHLY;BYDAY=-1MO,TU,+2WE".toList := by
  decide +kernel

end PyCal
