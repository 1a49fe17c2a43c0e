import Verif.Model.Text

/-! Helper lemmas: printing and reading decimal numbers. -/

namespace PyCal

theorem digitChar_toNat {n : Nat} (h : n < 10) : (digitChar n).toNat = 48 + n := by
  have : ∀ n : Fin 10, (digitChar n.1).toNat = 48 + n.1 := by decide
  exact this ⟨n, h⟩

theorem isDigit_digitChar {n : Nat} (h : n < 10) : isDigit (digitChar n) = true := by
  unfold isDigit; rw [digitChar_toNat h]; simp; omega

theorem digitVal_digitChar {n : Nat} (h : n < 10) : digitVal (digitChar n) = n := by
  unfold digitVal; rw [digitChar_toNat h]; omega

theorem decNat_ne_nil (n : Nat) : decNat n ≠ [] := by
  unfold decNat; split <;> simp

theorem decNat_all_digits (n : Nat) : ∀ c ∈ decNat n, isDigit c = true := by
  induction n using decNat.induct with
  | case1 n h =>
    rw [decNat, if_pos h]; intro c hc; simp at hc; subst hc; exact isDigit_digitChar h
  | case2 n h ih =>
    rw [decNat, if_neg h]; intro c hc
    simp at hc
    rcases hc with hc | rfl
    · exact ih c hc
    · exact isDigit_digitChar (Nat.mod_lt _ (by omega))

theorem readNat_append_digit (s : List Char) (c : Char) :
    readNat (s ++ [c]) = readNat s * 10 + digitVal c := by
  simp [readNat]

theorem readNat_decNat (n : Nat) : readNat (decNat n) = n := by
  induction n using decNat.induct with
  | case1 n h => rw [decNat, if_pos h]; simp [readNat, digitVal_digitChar h]
  | case2 n h ih =>
    rw [decNat, if_neg h, readNat_append_digit, ih,
      digitVal_digitChar (Nat.mod_lt _ (by omega))]
    omega

theorem takeWhile_append_stop {p : Char → Bool} {a b : List Char} (ha : ∀ c ∈ a, p c = true)
    (hb : ∀ c ∈ b.head?, p c = false) : (a ++ b).takeWhile p = a := by
  induction a with
  | nil => cases b with
    | nil => rfl
    | cons c b => simp at hb; simp [List.takeWhile, hb]
  | cons x a ih =>
    simp only [List.cons_append, List.takeWhile]
    rw [ha x (by simp)]
    simp [ih fun c hc => ha c (by simp [hc])]

theorem dropWhile_append_stop {p : Char → Bool} {a b : List Char} (ha : ∀ c ∈ a, p c = true)
    (hb : ∀ c ∈ b.head?, p c = false) : (a ++ b).dropWhile p = b := by
  induction a with
  | nil => cases b with
    | nil => rfl
    | cons c b => simp at hb; simp [List.dropWhile, hb]
  | cons x a ih =>
    simp only [List.cons_append, List.dropWhile]
    rw [ha x (by simp)]
    simp [ih fun c hc => ha c (by simp [hc])]

/-- Reading a printed number followed by something that is not a digit. -/
theorem strtoul_decNat (n : Nat) (rest : List Char) (h : ∀ c ∈ rest.head?, isDigit c = false) :
    strtoul (decNat n ++ rest) = some (n, rest) := by
  unfold strtoul
  rw [takeWhile_append_stop (decNat_all_digits n) h, dropWhile_append_stop (decNat_all_digits n) h]
  simp [decNat_ne_nil, readNat_decNat]

theorem decNat_head_digit (n : Nat) : ∃ c s, decNat n = c :: s ∧ isDigit c = true := by
  cases h : decNat n with
  | nil => exact absurd h (decNat_ne_nil n)
  | cons c s => exact ⟨c, s, rfl, decNat_all_digits n c (by simp [h])⟩

end PyCal
