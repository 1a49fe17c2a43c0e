import Mathlib.Data.List.TakeWhile
import Mathlib.Tactic.Linarith
import Mathlib.Tactic.Ring
import Verif.Spec.Reading
import Verif.Model.DateTimeText
import Verif.Props.C44_C45_RuleText
import Verif.Props.C124_Strict
import Verif.Props.C114_Numbers

/-!
# C135: exactly these texts are read as numbers and date-times
-/

namespace PyCal
open Spec Spec.Reading DateTime

namespace L135

theorem blank_iff (c : Char) : isSpace c = true ↔ c = ' ' ∨ c = '\t' ∨ c = '\n' ∨ c = '\r' ∨ c = Char.ofNat 11 ∨ c = Char.ofNat 12 := by
  have h : ∀ k, (Char.ofNat k).toNat = k → (c.toNat = k ↔ c = Char.ofNat k) := by
    intro k hk
    constructor
    · rintro rfl; exact (Char.ofNat_toNat c).symm
    · rintro rfl; exact hk
  unfold isSpace
  simp [h 11 (by decide), h 12 (by decide), or_assoc]

theorem strip_form (s : List Char) : ∃ a b, s = a ++ strip s ++ b ∧ Blank a ∧ Blank b := by
  refine ⟨s.takeWhile isSpace, ((s.dropWhile isSpace).reverse.takeWhile isSpace).reverse, ?_, ?_, ?_⟩
  · unfold strip
    rw [List.append_assoc, ← List.reverse_append, List.takeWhile_append_dropWhile, List.reverse_reverse,
      List.takeWhile_append_dropWhile]
  · intro c hc; exact (blank_iff c).mp (List.mem_takeWhile_imp hc)
  · intro c hc; exact (blank_iff c).mp (List.mem_takeWhile_imp (List.mem_reverse.mp hc))

theorem strip_blank {a t b : List Char} (ha : Blank a) (hb : Blank b) (ht : ∀ c ∈ t, isSpace c = false) (hn : t ≠ []) :
    strip (a ++ t ++ b) = t := by
  have hdrop : ∀ (a t : List Char), (∀ c ∈ a, isSpace c = true) → (∀ c ∈ t.head?, isSpace c = false) → t ≠ [] →
      (a ++ t).dropWhile isSpace = t := by
    intro a t h1 h2 h3
    rw [List.dropWhile_append_of_pos h1]
    cases t with
    | nil => exact absurd rfl h3
    | cons c t => simp [h2 c (by simp)]
  unfold strip
  rw [List.append_assoc, hdrop a (t ++ b) (fun c hc => (blank_iff c).mpr (ha c hc)) _ (by simp [hn]), List.reverse_append,
    hdrop b.reverse t.reverse (fun c hc => (blank_iff c).mpr (hb c (List.mem_reverse.mp hc))) _ (by simp [hn]), List.reverse_reverse]
  · intro c hc
    exact ht c (List.mem_reverse.mp (List.mem_of_mem_head? hc))
  · intro c hc
    cases t with
    | nil => exact absurd rfl hn
    | cons d t => simp at hc; exact ht c (by simp [hc])

theorem readDigits_iff (s : List Char) (n : Nat) : readDigits s = some n ↔ Dur.Digits s n := by
  unfold readDigits
  constructor
  · intro h
    split at h
    · next hc =>
      cases h
      exact Strict124.digits_of (by simpa using hc.2) hc.1
    · cases h
  · intro h
    have h1 := h.value
    rw [if_pos, h1]
    exact ⟨h.ne_nil, by simpa using h.allDigits⟩

theorem number_solid {s : List Char} {n : Int} (h : Recur.Number s n) : (∀ c ∈ s, isSpace c = false) ∧ s ≠ [] := by
  have hd : ∀ {s n}, Dur.Digits s n → ∀ c ∈ s, isSpace c = false := by
    intro s n h c hc
    have := h.allDigits c hc
    simp only [isDigit, Bool.and_eq_true, decide_eq_true_eq] at this
    rw [← Bool.not_eq_true, blank_iff]
    rintro (rfl | rfl | rfl | rfl | rfl | rfl) <;> revert this <;> decide
  cases h with
  | plain h => exact ⟨hd h, h.ne_nil⟩
  | plus h => exact ⟨by intro c hc; rcases List.mem_cons.mp hc with rfl | hc; decide; exact hd h c hc, by simp⟩
  | minus h => exact ⟨by intro c hc; rcases List.mem_cons.mp hc with rfl | hc; decide; exact hd h c hc, by simp⟩

theorem pyInt_iff (s : List Char) (n : Int) : pyInt s = some n ↔ Number s n := by
  constructor
  · intro h
    obtain ⟨a, b, hs, ha, hb⟩ := strip_form s
    refine ⟨a, strip s, b, hs, ha, hb, ?_⟩
    unfold pyInt at h
    split at h
    · next ds e =>
      rw [e]
      cases hm : readDigits ds with
      | none => simp [hm] at h
      | some m => simp [hm] at h; subst h; exact .minus ((readDigits_iff _ _).mp hm)
    · next ds e =>
      rw [e]
      cases hm : readDigits ds with
      | none => simp [hm] at h
      | some m => simp [hm] at h; subst h; exact .plus ((readDigits_iff _ _).mp hm)
    · cases hm : readDigits (strip s) with
      | none => simp [hm] at h
      | some m => simp [hm] at h; subst h; exact .plain ((readDigits_iff _ _).mp hm)
  · rintro ⟨a, t, b, rfl, ha, hb, ht⟩
    obtain ⟨h1, h2⟩ := number_solid ht
    have hp := ht.pyInt
    unfold pyInt at hp ⊢
    rw [strip_blank ha hb h1 h2]
    rw [strip_solid h1] at hp
    exact hp

theorem field_iff (data : List Char) (i w : Nat) (n : Int) (rest : List Char) :
    Reading.Field w (data.drop i) n rest ↔ pyInt (slice data i (i + w)) = some n ∧ rest = data.drop (i + w) := by
  unfold Reading.Field slice
  rw [pyInt_iff, List.drop_drop, Nat.add_sub_cancel_left]

theorem sep_of {data : List Char} {iso : Bool} {c : Char} {i j : Nat} (h : skipSep data iso c i = some j) :
    Sep iso c (data.drop i) (data.drop j) := by
  unfold skipSep at h
  split at h
  · next hi =>
    split at h
    · cases h
    · next d hd =>
      have hl : i < data.length := (List.getElem?_eq_some_iff.mp hd).1
      have e : data.drop i = d :: data.drop (i + 1) := by
        rw [List.drop_eq_getElem_cons hl, (List.getElem?_eq_some_iff.mp hd).2]
      rw [e]
      cases h
      split
      · next hc => subst hc; exact .skip hi
      · next hc => rw [e]; exact .other hc
  · next hi => cases h; exact .short (by simpa using hi)

theorem sep_to {data rest : List Char} {iso : Bool} {c : Char} {i : Nat} (h : Sep iso c (data.drop i) rest) :
    ∃ j, skipSep data iso c i = some j ∧ data.drop j = rest := by
  have hget : ∀ {d s}, data.drop i = d :: s → data[i]? = some d ∧ s = data.drop (i + 1) := by
    intro d s e
    have h1 := congrArg List.head? e
    rw [List.head?_drop] at h1
    refine ⟨by simpa using h1, ?_⟩
    have := congrArg List.tail e
    simpa using this.symm
  generalize hs : data.drop i = s at h
  unfold skipSep
  cases h with
  | skip hi =>
    obtain ⟨a, b⟩ := hget hs
    exact ⟨i + 1, by simp [hi, a], b.symm⟩
  | other hd =>
    obtain ⟨a, b⟩ := hget hs
    cases iso
    · exact ⟨i, by simp, hs⟩
    · exact ⟨i, by simp [a, hd], hs⟩
  | short hi => exact ⟨i, by simp [hi], hs⟩

/-- Three fields in terms of indices. -/
theorem three_iff {data : List Char} {iso : Bool} {c : Char} {w i : Nat} {x y z : Int} {rest : List Char} :
    Three iso c w (data.drop i) x y z rest ↔ ∃ j k, pyInt (slice data i (i + w)) = some x ∧
      skipSep data iso c (i + w) = some j ∧ pyInt (slice data j (j + 2)) = some y ∧ skipSep data iso c (j + 2) = some k ∧
      pyInt (slice data k (k + 2)) = some z ∧ rest = data.drop (k + 2) := by
  constructor
  · rintro ⟨f1, s1, f2, s2, f3⟩
    obtain ⟨a1, rfl⟩ := (field_iff _ _ _ _ _).mp f1
    obtain ⟨j, b1, rfl⟩ := sep_to s1
    obtain ⟨a2, rfl⟩ := (field_iff _ _ _ _ _).mp f2
    obtain ⟨k, b2, rfl⟩ := sep_to s2
    obtain ⟨a3, rfl⟩ := (field_iff _ _ _ _ _).mp f3
    exact ⟨j, k, a1, b1, a2, b2, a3, rfl⟩
  · rintro ⟨j, k, a1, b1, a2, b2, a3, rfl⟩
    exact .mk ((field_iff _ _ _ _ _).mpr ⟨a1, rfl⟩) (sep_of b1) ((field_iff _ _ _ _ _).mpr ⟨a2, rfl⟩) (sep_of b2)
      ((field_iff _ _ _ _ _).mpr ⟨a3, rfl⟩)

theorem date_of {strict iso : Bool} {self t : DateTime} {data : List Char} {i : Nat}
    (h : parseDate strict self data iso = some (t, i)) :
    ∃ y m d, Reading.Date strict iso data y m d (data.drop i) ∧ t = { self with year := y, month := m, day := d } := by
  unfold parseDate at h
  simp only [Option.bind_eq_bind, Option.bind_eq_some_iff] at h
  obtain ⟨y, h1, j, h2, m, h3, k, h4, d, h5, h6⟩ := h
  split at h6
  · cases h6
  · next hs =>
    split at h6
    · cases h6
    · next hn =>
      cases h6
      refine ⟨y, m, d, ?_, rfl⟩
      have e : data = data.take (k + 2) ++ data.drop (k + 2) := (List.take_append_drop _ _).symm
      have h3' : Three iso '-' 4 data y m d (data.drop (k + 2)) := by
        have := three_iff (data := data) (iso := iso) (c := '-') (w := 4) (i := 0) (x := y) (y := m) (z := d)
          (rest := data.drop (k + 2))
        rw [List.drop_zero] at this
        exact this.mpr ⟨j, k, h1, h2, h3, h4, h5, rfl⟩
      have : Reading.Date strict iso (data.take (k + 2) ++ data.drop (k + 2)) y m d (data.drop (k + 2)) := by
        refine .mk (by rw [← e]; exact h3') (by omega) (by omega) (by omega) ?_
        intro hst hc
        apply hs
        simp [hst, hc]
      rw [← e] at this
      exact this

theorem date_to {strict iso : Bool} {data rest : List Char} {y m d : Int} (h : Reading.Date strict iso data y m d rest)
    (self : DateTime) :
    ∃ i, parseDate strict self data iso = some ({ self with year := y, month := m, day := d }, i) ∧ data.drop i = rest := by
  cases h with
  | mk h3 hy hm hd hs =>
    rename_i p
    rw [show p ++ rest = (p ++ rest).drop 0 from rfl] at h3
    obtain ⟨j, k, h1, h2, h4, h5, h6, h7⟩ := three_iff.mp h3
    refine ⟨k + 2, ?_, h7.symm⟩
    have htake : (p ++ rest).take (k + 2) = p := by
      have := List.take_append_drop (k + 2) (p ++ rest)
      rw [← h7] at this
      exact List.append_cancel_right this
    unfold parseDate
    simp only [Option.bind_eq_bind]
    simp only [Nat.zero_add] at h1 h2
    rw [h1, Option.bind_some, h2, Option.bind_some, h4, Option.bind_some, h5, Option.bind_some, h6, Option.bind_some,
      if_neg, if_neg (by omega)]
    rw [htake]
    simp only [Bool.and_eq_true, List.contains_iff_mem, not_and]
    intro a b
    exact hs b a

theorem time_iff {iso : Bool} {self t : DateTime} {data rest : List Char} {i : Nat} :
    (∃ j, parseTime self data i iso = some (t, j) ∧ rest = data.drop j) ↔
      ∃ h m s, Three iso ':' 2 (data.drop i) h m s rest ∧ t = { self with hours := h, minutes := m, seconds := s } := by
  simp only [three_iff]
  unfold parseTime
  simp only [Option.bind_eq_bind, Option.bind_eq_some_iff, Option.some.injEq, Prod.mk.injEq]
  constructor
  · rintro ⟨_, ⟨h, h1, j, h2, m, h3, k, h4, s, h5, rfl, rfl⟩, rfl⟩
    exact ⟨h, m, s, ⟨j, k, h1, h2, h3, h4, h5, rfl⟩, rfl⟩
  · rintro ⟨h, m, s, ⟨j, k, h1, h2, h3, h4, h5, rfl⟩, rfl⟩
    exact ⟨k + 2, ⟨h, h1, j, h2, m, h3, k, h4, s, h5, rfl, rfl⟩, rfl⟩

theorem drop_of {data : List Char} {i : Nat} {d : Char} (h : data[i]? = some d) : data.drop i = d :: data.drop (i + 1) := by
  have hl : i < data.length := (List.getElem?_eq_some_iff.mp h).1
  rw [List.drop_eq_getElem_cons hl, (List.getElem?_eq_some_iff.mp h).2]

theorem get_of {data s : List Char} {i : Nat} {d : Char} (e : data.drop i = d :: s) :
    data[i]? = some d ∧ s = data.drop (i + 1) := by
  have h1 := congrArg List.head? e
  rw [List.head?_drop] at h1
  refine ⟨by simpa using h1, ?_⟩
  have := congrArg List.tail e
  simpa using this.symm

theorem isDigit_char {k : Nat} (h : k < 10) : isDigit (Char.ofNat (48 + k)) = true := by
  have : ∀ k : Fin 10, isDigit (Char.ofNat (48 + k)) = true := by decide
  exact this ⟨k, h⟩

theorem char_of {c : Char} (h : isDigit c = true) : ∃ k < 10, c = Char.ofNat (48 + k) := by
  simp only [isDigit, Bool.and_eq_true, decide_eq_true_eq] at h
  exact ⟨c.toNat - 48, by omega, by rw [show 48 + (c.toNat - 48) = c.toNat by omega, Char.ofNat_toNat]⟩

theorem notDigit_iff (s : List Char) :
    (∀ k < 10, s.head? ≠ some (Char.ofNat (48 + k))) ↔ ∀ c ∈ s.head?, isDigit c = false := by
  constructor
  · intro h c hc
    rw [← Bool.not_eq_true]
    intro hd
    obtain ⟨k, hk, rfl⟩ := char_of hd
    exact h k hk hc
  · intro h k hk hc
    have := h _ hc
    rw [isDigit_char hk] at this
    cases this

theorem drop_takeWhile (l : List Char) : l.drop (l.takeWhile isDigit).length = l.dropWhile isDigit := by
  induction l with
  | nil => rfl
  | cons c l ih => by_cases h : isDigit c = true <;> simp [h, ih]

theorem fraction_of {data : List Char} {i j : Nat} (h : skipFraction data i = some j) : Fraction (data.drop i) (data.drop j) := by
  unfold skipFraction at h
  split at h
  · cases h
  · next hc =>
    split at h
    · cases h
    · next d hd =>
      split at h
      · next hdig =>
        cases h
        rw [drop_of hc]
        have e := List.takeWhile_append_dropWhile (p := isDigit) (l := data.drop (i + 1))
        have hdr : data.drop (i + 1 + ((data.drop (i + 1)).takeWhile isDigit).length) = (data.drop (i + 1)).dropWhile isDigit := by
          rw [← List.drop_drop]
          exact drop_takeWhile _
        rw [hdr]
        conv => arg 1; rw [← e]
        rw [← List.cons_append]
        refine .some (n := readNat ((data.drop (i + 1)).takeWhile isDigit)) (Strict124.digits_of (fun c hc => List.mem_takeWhile_imp hc) ?_) ?_
        · rw [drop_of hd]; simp [hdig]
        · rw [notDigit_iff]
          intro c hc
          have := List.head?_dropWhile_not isDigit (data.drop (i + 1))
          rw [Option.mem_def.mp hc] at this
          simpa using this
      · cases h
  · next c hne hc =>
    cases h
    rw [drop_of hc]
    exact .none (by rintro rfl; exact hne rfl)

theorem fraction_to {data rest : List Char} {i : Nat} (h : Fraction (data.drop i) rest) :
    ∃ j, skipFraction data i = some j ∧ data.drop j = rest := by
  generalize hs : data.drop i = s at h
  unfold skipFraction
  cases h with
  | some hd hr =>
    rename_i ds n
    rw [List.cons_append] at hs
    obtain ⟨a, b⟩ := get_of hs
    have hall := hd.allDigits
    rw [notDigit_iff] at hr
    have htw : (ds ++ rest).takeWhile isDigit = ds := by
      rw [List.takeWhile_append_of_pos hall]
      cases rest with
      | nil => simp
      | cons c r => simp [hr c (by simp)]
    obtain ⟨c, r, e, hc⟩ := hd.head
    have a2 : data[i + 1]? = some c := (get_of (by rw [← b, e]; rfl)).1
    refine ⟨i + 1 + ds.length, ?_, ?_⟩
    · rw [a]
      simp only [a2, hc, if_true, ← b, htw]
    · rw [← List.drop_drop, ← b]; simp
  | none hne =>
    obtain ⟨a, b⟩ := get_of hs
    rw [a]
    refine ⟨i, ?_, hs⟩
    split
    · next h => cases h
    · next h => cases h; exact absurd rfl hne
    · rfl

theorem offset_of {data : List Char} {sign n : Int} {i j : Nat} (h : parseOffset sign data i = some (n, j))
    (hj : data.length ≤ j) : ∃ m, Offset (data.drop i) m ∧ n = sign * m := by
  unfold parseOffset at h
  simp only [Option.bind_eq_bind, Option.bind_eq_some_iff, Option.some.injEq, Prod.mk.injEq] at h
  obtain ⟨a, h1, k, h2, b, h3, rfl, rfl⟩ := h
  refine ⟨60 * (60 * a + b), .mk ((field_iff _ _ _ _ _).mpr ⟨h1, rfl⟩) (sep_of h2)
    ((field_iff _ _ _ _ _).mpr ⟨h3, (List.drop_eq_nil_of_le hj).symm⟩), by ring⟩

theorem offset_to {data : List Char} {m : Int} {i : Nat} (h : Offset (data.drop i) m) (sign : Int) :
    ∃ j, parseOffset sign data i = some (sign * m, j) ∧ data.length ≤ j := by
  cases h with
  | mk f1 s f2 =>
    obtain ⟨a1, rfl⟩ := (field_iff _ _ _ _ _).mp f1
    obtain ⟨j, b1, rfl⟩ := sep_to s
    obtain ⟨a2, e⟩ := (field_iff _ _ _ _ _).mp f2
    refine ⟨j + 2, ?_, List.drop_eq_nil_iff.mp e.symm⟩
    unfold parseOffset
    simp only [Option.bind_eq_bind]
    rw [a1, Option.bind_some, b1, Option.bind_some, a2, Option.bind_some]
    congr 2
    ring

theorem frac_of {self t : DateTime} {data : List Char} {i j : Nat} (h : parseFracOffset self data i = some (t, j)) :
    ∃ u z, Zone true (self.utc, self.tzid) (data.drop i) (u, z) ∧ t = { self with utc := u, tzid := z } := by
  unfold parseFracOffset at h
  split at h
  · cases h
  · next k hk =>
    have hf := fraction_of hk
    split at h
    · next hn =>
      cases h
      rw [List.drop_eq_nil_of_le (List.getElem?_eq_none_iff.mp hn)] at hf
      exact ⟨_, _, .fraction rfl hf, rfl⟩
    · next c hc =>
      rw [drop_of hc] at hf
      split at h
      · next hz =>
        subst hz
        split at h
        · cases h
        · next hl =>
          cases h
          rw [List.drop_eq_nil_of_le (i := k + 1) (by omega)] at hf
          exact ⟨_, _, .fractionUtc rfl hf, rfl⟩
      · split at h
        · next hs =>
          split at h
          · cases h
          · next n k' ho =>
            split at h
            · cases h
            · next hl =>
              cases h
              obtain ⟨m, hm, rfl⟩ := offset_of ho (by omega)
              rcases hs with rfl | rfl
              · exact ⟨_, _, .plus rfl hf hm, by simp⟩
              · exact ⟨_, _, .minus rfl hf hm, by simp⟩
        · cases h

theorem frac_to {self : DateTime} {data : List Char} {i : Nat} {u : Bool} {z : Option TzId}
    (h : Zone true (self.utc, self.tzid) (data.drop i) (u, z)) (hi : i < data.length) :
    ∃ j, parseFracOffset self data i = some ({ self with utc := u, tzid := z }, j) := by
  have key : ∀ {r}, Fraction (data.drop i) ('Z' :: r) → r = [] →
      ∃ j, parseFracOffset self data i = some ({ self with utc := true }, j) := by
    intro r hf hr
    obtain ⟨k, h1, h2⟩ := fraction_to hf
    obtain ⟨a, b⟩ := get_of h2
    rw [hr] at b
    unfold parseFracOffset
    simp only [h1, a, if_true]
    rw [if_neg (by have := List.drop_eq_nil_iff.mp b.symm; omega)]
    exact ⟨_, rfl⟩
  have keyO : ∀ {c r m}, Fraction (data.drop i) (c :: r) → Offset r m → c = '+' ∨ c = '-' →
      ∃ j, parseFracOffset self data i = some ({ self with tzid := some (.fixed ((if c = '+' then 1 else -1) * m)) }, j) := by
    intro c r m hf ho hc
    obtain ⟨k, h1, h2⟩ := fraction_to hf
    obtain ⟨a, b⟩ := get_of h2
    rw [b] at ho
    obtain ⟨j, c1, c2⟩ := offset_to ho (if c = '+' then 1 else -1)
    unfold parseFracOffset
    simp only [h1, a]
    rw [if_neg (by rcases hc with rfl | rfl <;> decide), if_pos hc, c1]
    simp only
    rw [if_neg (by omega)]
    exact ⟨_, rfl⟩
  generalize hs : data.drop i = s at h
  cases h with
  | none => exact absurd (List.drop_eq_nil_iff.mp hs) (by omega)
  | utc => exact key (r := []) (by rw [hs]; exact .none (by decide)) rfl
  | fraction _ hf =>
    rw [← hs] at hf
    obtain ⟨k, h1, h2⟩ := fraction_to hf
    have : data[k]? = none := List.getElem?_eq_none_iff.mpr (List.drop_eq_nil_iff.mp h2)
    unfold parseFracOffset
    simp only [h1, this]
    exact ⟨_, rfl⟩
  | fractionUtc _ hf => exact key (by rw [hs]; exact hf) rfl
  | plus _ hf ho =>
    obtain ⟨j, hj⟩ := keyO (by rw [hs]; exact hf) ho (.inl rfl)
    exact ⟨j, by simpa using hj⟩
  | minus _ hf ho =>
    obtain ⟨j, hj⟩ := keyO (by rw [hs]; exact hf) ho (.inr rfl)
    exact ⟨j, by simpa using hj⟩

end L135

open L135

/-- C135, numbers: the texts read as an integer (`int` of Python 2) are exactly the numbers of RFC 5545 with blanks around them. -/
theorem C135_number (s : List Char) (n : Int) : pyInt s = some n ↔ Number s n := pyInt_iff s n

/-- C135, date-times: the texts that are read as a date or date-time, and what they are read as, are exactly those of the grammar
`Reads`; all others raise `ValueError`. -/
theorem C135_dateTime (strict iso : Bool) (self : DateTime) (data : List Char) (t : DateTime) :
    parse strict self data iso = some t ↔ Reads strict iso self data t := by
  unfold parse
  constructor
  · intro h
    split at h
    · cases h
    · next t0 i hd =>
      obtain ⟨y, m, d, hdate, rfl⟩ := date_of hd
      split at h
      · next hn =>
        cases h
        rw [List.drop_eq_nil_of_le (List.getElem?_eq_none_iff.mp hn)] at hdate
        exact .date hdate
      · next c hc =>
        split at h
        · cases h
        · next hT =>
          have hT : c = 'T' := by simpa using hT
          subst hT
          rw [drop_of hc] at hdate
          split at h
          · cases h
          · next t1 j ht =>
            obtain ⟨hh, mi, se, h3, rfl⟩ := time_iff.mp ⟨j, ht, rfl⟩
            dsimp only at h
            split at h
            · next hl =>
              split at h
              · next hiso =>
                subst hiso
                obtain ⟨⟨t2, k⟩, hf, rfl⟩ := Option.map_eq_some_iff.mp h
                obtain ⟨u, z, hz, rfl⟩ := frac_of hf
                exact .time hdate h3 hz
              · split at h
                · cases h
                · next hz =>
                  split at h
                  · cases h
                  · next hl2 =>
                    cases h
                    have hz : data[j]? = some 'Z' := by simpa using hz
                    rw [drop_of hz, List.drop_eq_nil_of_le (i := j + 1) (by omega)] at h3
                    exact .time hdate h3 .utc
            · next hl =>
              cases h
              rw [List.drop_eq_nil_of_le (i := j) (by omega)] at h3
              exact .time hdate h3 .none
  · intro h
    cases h with
    | date hd =>
      obtain ⟨i, h1, h2⟩ := date_to hd self
      have : data[i]? = none := List.getElem?_eq_none_iff.mpr (List.drop_eq_nil_iff.mp h2)
      simp only [h1, this]
    | time hd ht hz =>
      obtain ⟨i, h1, h2⟩ := date_to hd self
      obtain ⟨a, b⟩ := get_of h2
      rw [b] at ht
      rename_i y m d r hh mi se r' u z
      obtain ⟨j, h3, rfl⟩ := (time_iff (self := { self with year := y, month := m, day := d })).mpr ⟨hh, mi, se, ht, rfl⟩
      simp only [h1, a, h3, ne_eq, not_true_eq_false, if_false]
      by_cases hl : j < data.length
      · rw [if_pos hl]
        cases iso
        · simp only [Bool.false_eq_true, if_false]
          generalize hs : data.drop j = s at hz
          cases hz with
          | none => exact absurd (List.drop_eq_nil_iff.mp hs) (by omega)
          | utc =>
            obtain ⟨c1, c2⟩ := get_of hs
            rw [if_neg (by simp [c1]), if_neg (by have := List.drop_eq_nil_iff.mp c2.symm; omega)]
          | fraction h => cases h
          | fractionUtc h => cases h
          | plus h => cases h
          | minus h => cases h
        · simp only [if_true]
          obtain ⟨k, hk⟩ := frac_to (self := ⟨y, m, d, hh, mi, se, false, self.utc, self.tzid⟩) hz hl
          rw [hk]
          rfl
      · rw [if_neg hl]
        rw [List.drop_eq_nil_of_le (by omega)] at hz
        have hnf : ∀ {r}, ¬ Fraction [] r := by intro r h; cases h
        cases hz with
        | none => rfl
        | fraction _ h => exact absurd h hnf
        | fractionUtc _ h => exact absurd h hnf
        | plus _ h => exact absurd h hnf
        | minus _ h => exact absurd h hnf

/-- C135, UTC offsets: the texts that are read as a UTC offset are exactly those of the grammar `UtcOffset`. -/
theorem C135_utcOffset (iso : Bool) (data : List Char) (n : Int) : utcOffsetParse iso data = some n ↔ UtcOffset iso data n := by
  constructor
  · intro h
    unfold utcOffsetParse at h
    dsimp only at h
    by_cases hl : if iso = true then data.length = 6 ∨ data.length = 9 else data.length = 5 ∨ data.length = 7
    swap
    · rw [if_pos hl] at h; cases h
    · rw [if_neg (not_not.mpr hl)] at h
      cases hc : data[0]? with
      | none => rw [hc] at h; cases h
      | some c =>
        rw [hc] at h
        dsimp only at h
        by_cases hs : c ≠ '+' ∧ c ≠ '-'
        · rw [if_pos hs] at h; cases h
        · rw [if_neg hs] at h
          simp only [Option.bind_eq_some_iff, Option.some.injEq, pyInt_iff] at h
          obtain ⟨hh, h1, mm, h2, ss, h3, h4⟩ := h
          have hs : ∃ neg : Bool, c = if neg then '-' else '+' := by
            by_cases h : c = '+'
            · exact ⟨false, by simp [h]⟩
            · exact ⟨true, by simp only [if_true]; by_contra hc; exact hs ⟨h, hc⟩⟩
          obtain ⟨neg, rfl⟩ := hs
          have hn : n = (if neg then -1 else 1) * (60 * (60 * hh + mm) + ss) := by
            cases neg <;> simp at h4 <;> simp <;> linarith
          subst hn
          cases iso
          · simp only [Bool.false_eq_true, if_false] at hl h1 h2 h3
            rcases hl with hl | hl
            · match data, hl with
              | [c0, c1, c2, c3, c4], _ =>
                simp at hc; subst hc
                have h3 : ss = 0 := by simpa using h3.symm
                subst h3
                have := UtcOffset.minutes (iso := false) (a := [c1, c2]) (x := []) (b := [c3, c4]) neg rfl rfl rfl h1 h2
                simpa using this
            · match data, hl with
              | [c0, c1, c2, c3, c4, c5, c6], _ =>
                simp at hc; subst hc
                have h3 : Number [c5, c6] ss := by simpa [pyInt_iff] using h3
                exact UtcOffset.seconds (iso := false) (a := [c1, c2]) (x := []) (b := [c3, c4]) (y := []) (c := [c5, c6]) neg rfl rfl
                  rfl rfl rfl h1 h2 h3
          · simp only [if_true] at hl h1 h2 h3
            rcases hl with hl | hl
            · match data, hl with
              | [c0, c1, c2, c3, c4, c5], _ =>
                simp at hc; subst hc
                have h3 : ss = 0 := by simpa using h3.symm
                subst h3
                have := UtcOffset.minutes (iso := true) (a := [c1, c2]) (x := [c3]) (b := [c4, c5]) neg rfl rfl rfl h1 h2
                simpa using this
            · match data, hl with
              | [c0, c1, c2, c3, c4, c5, c6, c7, c8], _ =>
                simp at hc; subst hc
                have h3 : Number [c7, c8] ss := by simpa [pyInt_iff] using h3
                exact UtcOffset.seconds (iso := true) (a := [c1, c2]) (x := [c3]) (b := [c4, c5]) (y := [c6]) (c := [c7, c8]) neg rfl rfl
                  rfl rfl rfl h1 h2 h3
  · intro h
    have hsgn : ∀ neg : Bool, ¬ ((if neg then '-' else '+') ≠ '+' ∧ (if neg then '-' else '+') ≠ '-') := by decide
    have hplus : ∀ neg : Bool, ((if neg then '-' else '+') = '+') ↔ neg = false := by decide
    cases h with
    | minutes neg ha hb hx h1 h2 =>
      rename_i a x b hh mm
      rw [← pyInt_iff] at h1 h2
      match a, ha, b, hb with
      | [a1, a2], _, [b1, b2], _ =>
        cases iso
        · match x, hx with
          | [], _ =>
            simp only [utcOffsetParse, slice, List.cons_append, List.nil_append, List.append_nil, List.length_cons, List.length_nil,
              List.getElem?_cons_zero, Bool.false_eq_true, if_false, List.drop_succ_cons, List.drop_zero, List.take_succ_cons,
              List.take_zero, h1, h2, Option.bind_some]
            rw [if_neg (by simp), if_neg (hsgn neg)]
            cases neg <;> simp <;> ring
        · match x, hx with
          | [x1], _ =>
            simp only [utcOffsetParse, slice, List.cons_append, List.nil_append, List.append_nil, List.length_cons, List.length_nil,
              List.getElem?_cons_zero, if_true, List.drop_succ_cons, List.drop_zero, List.take_succ_cons,
              List.take_zero, h1, h2, Option.bind_some]
            rw [if_neg (by simp), if_neg (hsgn neg)]
            cases neg <;> simp <;> ring
    | seconds neg ha hb hc hx hy h1 h2 h3 =>
      rename_i a x b y c hh mm ss
      rw [← pyInt_iff] at h1 h2 h3
      match a, ha, b, hb, c, hc with
      | [a1, a2], _, [b1, b2], _, [c1, c2], _ =>
        cases iso
        · match x, hx, y, hy with
          | [], _, [], _ =>
            simp only [utcOffsetParse, slice, List.cons_append, List.nil_append, List.append_nil, List.length_cons, List.length_nil,
              List.getElem?_cons_zero, Bool.false_eq_true, if_false, List.drop_succ_cons, List.drop_zero, List.take_succ_cons,
              List.take_zero, h1, h2, Option.bind_some]
            rw [if_neg (by simp), if_neg (hsgn neg)]
            cases neg <;> simp [h3] <;> ring
        · match x, hx, y, hy with
          | [x1], _, [y1], _ =>
            simp only [utcOffsetParse, slice, List.cons_append, List.nil_append, List.append_nil, List.length_cons, List.length_nil,
              List.getElem?_cons_zero, if_true, List.drop_succ_cons, List.drop_zero, List.take_succ_cons,
              List.take_zero, h1, h2, Option.bind_some]
            rw [if_neg (by simp), if_neg (hsgn neg)]
            cases neg <;> simp [h3] <;> ring

namespace L135

theorem field_bound {w : Nat} {s rest : List Char} {n : Int} (h : Reading.Field (w + 1) s n rest) :
    -(10 ^ w : Int) < n ∧ n < 10 ^ (w + 1) := by
  obtain ⟨⟨a, t, b, e, _, _, ht⟩, _⟩ := h
  have hlen : t.length ≤ w + 1 := by
    have := congrArg List.length e
    simp only [List.length_append, List.length_take] at this
    omega
  have key : ∀ {d : List Char} {m k : Nat}, Dur.Digits d m → d.length ≤ k → (m : Int) < 10 ^ k := by
    intro d m k hd hk
    have h1 := F114.readNat_lt hd.allDigits
    rw [hd.value] at h1
    have h2 := Nat.pow_le_pow_right (n := 10) (by omega) hk
    exact_mod_cast lt_of_lt_of_le h1 h2
  have hpos : (0 : Int) < 10 ^ w := by positivity
  cases ht with
  | plain hd => exact ⟨by omega, key hd hlen⟩
  | plus hd => exact ⟨by omega, key hd (by simp at hlen; omega)⟩
  | minus hd =>
    have := key hd (k := w) (by simp at hlen; omega)
    exact ⟨by omega, by have : (0 : Int) < 10 ^ (w + 1) := by positivity
                        omega⟩

end L135

/-- C135, what is read: the fields of a date-time that was read are in these bounds, whatever the text.  They need not be in the
bounds of a calendar (`C135_fails_range`). -/
theorem C135_bounds {strict iso : Bool} {data : List Char} {t : DateTime} (h : parseText strict data iso = some t) :
    (0 ≤ t.year ∧ t.year ≤ 9999) ∧ (0 ≤ t.month ∧ t.month ≤ 99) ∧ (0 ≤ t.day ∧ t.day ≤ 99) ∧
    (-9 ≤ t.hours ∧ t.hours ≤ 99) ∧ (-9 ≤ t.minutes ∧ t.minutes ≤ 99) ∧ (-9 ≤ t.seconds ∧ t.seconds ≤ 99) ∧
    (t.dateOnly = true → t.hours = 0 ∧ t.minutes = 0 ∧ t.seconds = 0 ∧ t.utc = false ∧ t.tzid = none) := by
  have hdate : ∀ {s y m d rest}, Reading.Date strict iso s y m d rest →
      (0 ≤ y ∧ y ≤ 9999) ∧ (0 ≤ m ∧ m ≤ 99) ∧ (0 ≤ d ∧ d ≤ 99) := by
    rintro s y m d rest ⟨⟨f1, _, f2, _, f3⟩, hy, hm, hd, _⟩
    have := field_bound f1
    have := field_bound f2
    have := field_bound f3
    omega
  have h := (C135_dateTime strict iso {} data t).mp h
  cases h with
  | date hd =>
    obtain ⟨a, b, c⟩ := hdate hd
    exact ⟨a, b, c, by simp, by simp, by simp, by simp⟩
  | time hd ht _ =>
    obtain ⟨a, b, c⟩ := hdate hd
    obtain ⟨f1, _, f2, _, f3⟩ := ht
    have := field_bound f1
    have := field_bound f2
    have := field_bound f3
    exact ⟨a, b, c, by dsimp only; omega, by dsimp only; omega, by dsimp only; omega, by simp⟩

/-- C135 fails: texts that no standard allows are read without complaint: a month 13 with a day 99. -/
theorem C135_fails_range (strict iso : Bool) : parseText strict "20201399T996199".toList iso =
    some ⟨2020, 13, 99, 99, 61, 99, false, false, none⟩ := by
  revert strict iso; decide +kernel

/-- C135 fails: the last field may be cut short, so that the text of a date that lost its last character is read as another date. -/
theorem C135_fails_short (strict iso : Bool) : parseText strict "2020011".toList iso =
    some ⟨2020, 1, 1, 0, 0, 0, true, false, none⟩ := by
  revert strict iso; decide +kernel

/-- C135 fails: a sign or a blank is read in the place of a digit, and hours may be negative. -/
theorem C135_fails_sign (strict : Bool) : parseText strict "2020+1+1T-1 5\t7Z".toList false =
    some ⟨2020, 1, 1, -1, 5, 7, false, true, none⟩ := by
  revert strict; decide +kernel

/-- C135 fails: in the longer format of a UTC offset any character separates the hours from the minutes, also a digit. -/
theorem C135_fails_separator : utcOffsetParse true "+05730".toList = some 19800 := by decide +kernel

/-- C135 is about something: a text of the longer format with a fraction and an offset. -/
example : Reads true true {} "2020-02-03T04:05:06,789-07:30".toList ⟨2020, 2, 3, 4, 5, 6, false, false, some (.fixed (-27000))⟩ :=
  (C135_dateTime _ _ _ _ _).mp (by decide +kernel)

end PyCal
