import Mathlib.Data.List.TakeWhile
import Mathlib.Tactic.Linarith
import Mathlib.Tactic.FieldSimp
import Mathlib.Tactic.Ring
import Mathlib.Tactic.NormNum
import Verif.Lemmas.Text
import Verif.Props.C56_Days
import Verif.Props.C95_ZoneLines
import Verif.Model.Numbers

/-!
# C114: numbers and coordinates are restored
-/

/-- A FLOAT of RFC 5545 (3.3.7) without its sign, and the number it stands for. -/
def Spec.UnsignedFloat (s : List Char) (q : ℚ) : Prop :=
  (∃ m, Spec.Dur.Digits s m ∧ q = m) ∨
  ∃ a b m n, Spec.Dur.Digits a m ∧ Spec.Dur.Digits b n ∧ s = a ++ '.' :: b ∧ q = m + n / 10 ^ b.length

/-- A FLOAT of RFC 5545, its sign and its magnitude. -/
def Spec.FloatText (s : List Char) (neg : Bool) (q : ℚ) : Prop :=
  ∃ u, Spec.UnsignedFloat u q ∧ (neg = false ∧ (s = u ∨ s = '+' :: u) ∨ neg = true ∧ s = '-' :: u)

namespace PyCal
open Num
open Spec (UnsignedFloat FloatText)
open Spec.Dur (Digits)

namespace F114

theorem round_near (x : ℚ) : |(roundEven x : ℚ) - x| ≤ 1 / 2 := by
  have h1 := Int.floor_le x
  have h2 := Int.lt_floor_add_one x
  unfold roundEven
  rw [abs_le]
  split
  · constructor <;> linarith
  · split
    · push_cast; constructor <;> linarith
    · split
      · constructor <;> linarith
      · push_cast; constructor <;> linarith

theorem round_unique {x : ℚ} {k : ℤ} (h : |x - k| < 1 / 2) : roundEven x = k := by
  have h1 := round_near x
  rw [abs_le] at h1
  rw [abs_lt] at h
  have a : (roundEven x : ℚ) < k + 1 := by linarith
  have b : (k : ℚ) < roundEven x + 1 := by linarith
  have a' : roundEven x < k + 1 := by exact_mod_cast a
  have b' : k < roundEven x + 1 := by exact_mod_cast b
  omega

theorem double_near {q : ℚ} (hq : 0 ≤ q) : |double q - q| ≤ q / 2 ^ 53 := by
  unfold double
  split
  · next h => rw [h]; norm_num
  · next h =>
    have hq : 0 < q := lt_of_le_of_ne hq (Ne.symm h)
    generalize he : Int.log 2 q - 52 = e
    have hp : (0 : ℚ) < 2 ^ e := zpow_pos (by norm_num) _
    have hl : (2 : ℚ) ^ Int.log 2 q ≤ q := by exact_mod_cast Int.zpow_log_le_self (b := 2) (by norm_num) hq
    have hl' : (2 : ℚ) ^ e * 2 ^ 52 ≤ q := by
      have : Int.log 2 q = e + 52 := by omega
      rw [this, zpow_add₀ (by norm_num)] at hl
      exact_mod_cast hl
    have h1 := round_near (q / 2 ^ e)
    have h2 : (roundEven (q / 2 ^ e) : ℚ) * 2 ^ e - q = (roundEven (q / 2 ^ e) - q / 2 ^ e) * 2 ^ e := by
      field_simp
    rw [h2, abs_mul, abs_of_pos hp]
    have h3 : |(roundEven (q / 2 ^ e) : ℚ) - q / 2 ^ e| * 2 ^ e ≤ 1 / 2 * 2 ^ e := mul_le_mul_of_nonneg_right h1 hp.le
    refine h3.trans ?_
    rw [le_div_iff₀ (by norm_num)]
    calc 1 / 2 * (2 : ℚ) ^ e * 2 ^ 53 = 2 ^ e * 2 ^ 52 := by ring
      _ ≤ q := hl'

theorem log_unique {x : ℚ} {e : ℤ} (h1 : (10 : ℚ) ^ e ≤ x) (h2 : x < 10 ^ (e + 1)) : Int.log 10 x = e := by
  have hx : 0 < x := lt_of_lt_of_le (zpow_pos (by norm_num) _) h1
  have a := (Int.zpow_le_iff_le_log (b := 10) (by norm_num) hx).1 (by exact_mod_cast h1 : ((10 : ℕ) : ℚ) ^ e ≤ x)
  have b := (Int.lt_zpow_iff_log_lt (b := 10) (by norm_num) hx).1 (by exact_mod_cast h2 : x < ((10 : ℕ) : ℚ) ^ (e + 1))
  omega

/-- The double nearest to a decimal of twelve digits has these as its first twelve digits. -/
theorem digits_double {k : ℤ} {e : ℤ} (hk : 10 ^ 11 ≤ k) (hk' : k < 10 ^ 12) {x : ℚ}
    (hx : |x - k * 10 ^ (e - 11)| ≤ k * 10 ^ (e - 11) / 2 ^ 53) : digits12 x = (k, e) := by
  have hkq : (10 : ℚ) ^ 11 ≤ k := by exact_mod_cast hk
  have hkq' : (k : ℚ) + 1 ≤ 10 ^ 12 := by exact_mod_cast hk'
  have hp : (0 : ℚ) < 10 ^ (e - 11) := zpow_pos (by norm_num) _
  generalize hP : (10 : ℚ) ^ (e - 11) = P at *
  have e0 : (10 : ℚ) ^ e = P * 10 ^ 11 := by
    rw [← hP, ← zpow_natCast, ← zpow_add₀ (by norm_num)]; congr 1; push_cast; ring
  have e1 : (10 : ℚ) ^ (e + 1) = P * 10 ^ 12 := by
    rw [← hP, ← zpow_natCast, ← zpow_add₀ (by norm_num)]; congr 1; push_cast; ring
  have em : (10 : ℚ) ^ (e - 1) = P * 10 ^ 10 := by
    rw [← hP, ← zpow_natCast, ← zpow_add₀ (by norm_num)]; congr 1; push_cast; ring
  have em' : (10 : ℚ) ^ (e - 1 - 11) = P / 10 := by
    rw [← hP, show e - 1 - 11 = (e - 11) - 1 by ring, zpow_sub_one₀ (by norm_num)]; rfl
  obtain ⟨y, rfl⟩ : ∃ y, x = y * P := ⟨x / P, by field_simp⟩
  have hy : |y - k| ≤ k / 2 ^ 53 := by
    have : y * P - k * P = (y - k) * P := by ring
    rw [this, abs_mul, abs_of_pos hp] at hx
    have h2 : (k : ℚ) * P / 2 ^ 53 = k / 2 ^ 53 * P := by ring
    rw [h2] at hx
    exact le_of_mul_le_mul_right hx hp
  have hs : (k : ℚ) / 2 ^ 53 < 1 / 1000 := by
    rw [div_lt_div_iff₀ (by norm_num) (by norm_num)]
    norm_num
    norm_num at hkq'
    linarith
  rw [abs_le] at hy
  unfold digits12
  dsimp only
  by_cases h : (10 : ℚ) ^ 11 ≤ y
  · have hlog : Int.log 10 (y * P) = e := by
      refine log_unique ?_ ?_
      · rw [e0, mul_comm]; exact mul_le_mul_of_nonneg_right h hp.le
      · rw [e1, mul_comm P]; exact mul_lt_mul_of_pos_right (by linarith) hp
    rw [hlog, hP, mul_div_assoc, div_self hp.ne', mul_one]
    have : roundEven y = k := round_unique (by rw [abs_lt]; constructor <;> linarith)
    rw [this, if_neg (by omega)]
  · have hlt : y < 10 ^ 11 := not_le.1 h
    have hk1 : k = 10 ^ 11 := by
      have : (k : ℚ) < 10 ^ 11 + 1 := by linarith
      have : k < 10 ^ 11 + 1 := by exact_mod_cast this
      omega
    subst hk1
    push_cast at hy hs
    have hlog : Int.log 10 (y * P) = e - 1 := by
      refine log_unique ?_ ?_
      · rw [em, mul_comm]; refine mul_le_mul_of_nonneg_right ?_ hp.le
        norm_num at hs hy ⊢; linarith
      · rw [sub_add_cancel, e0, mul_comm P]; exact mul_lt_mul_of_pos_right hlt hp
    rw [hlog, em']
    have e2 : y * P / (P / 10) = y * 10 := by field_simp
    rw [e2]
    have : roundEven (y * 10) = 10 ^ 12 := by
      refine round_unique ?_
      push_cast
      rw [abs_lt]
      norm_num at hs hy ⊢
      constructor <;> linarith
    rw [this, if_pos rfl, sub_add_cancel]

theorem digits_range {x : ℚ} (hx : 0 < x) : 10 ^ 11 ≤ (digits12 x).1 ∧ (digits12 x).1 < 10 ^ 12 := by
  unfold digits12
  dsimp only
  generalize he : Int.log 10 x = e
  have h1 : (10 : ℚ) ^ e ≤ x := by
    rw [← he]; exact_mod_cast Int.zpow_log_le_self (b := 10) (by norm_num) hx
  have h2 : x < (10 : ℚ) ^ (e + 1) := by
    rw [← he]; exact_mod_cast Int.lt_zpow_succ_log_self (b := 10) (by norm_num) x
  have hp : (0 : ℚ) < 10 ^ (e - 11) := zpow_pos (by norm_num) _
  have e0 : (10 : ℚ) ^ e = 10 ^ 11 * 10 ^ (e - 11) := by
    rw [← zpow_natCast, ← zpow_add₀ (by norm_num)]; congr 1; push_cast; ring
  have e1 : (10 : ℚ) ^ (e + 1) = 10 ^ 12 * 10 ^ (e - 11) := by
    rw [← zpow_natCast, ← zpow_add₀ (by norm_num)]; congr 1; push_cast; ring
  rw [e0, ← le_div_iff₀ hp] at h1
  rw [e1, ← div_lt_iff₀ hp] at h2
  have h3 := round_near (x / 10 ^ (e - 11))
  generalize x / 10 ^ (e - 11) = y at *
  rw [abs_le] at h3
  have a : (10 : ℚ) ^ 11 < roundEven y + 1 := by linarith
  have b : (roundEven y : ℚ) < 10 ^ 12 + 1 := by linarith
  have a' : 10 ^ 11 < roundEven y + 1 := by exact_mod_cast a
  have b' : roundEven y < 10 ^ 12 + 1 := by exact_mod_cast b
  split
  · norm_num
  · constructor <;> dsimp only <;> omega

/-! ### Digits -/

theorem readNat_cons_append (a b : List Char) : readNat (a ++ b) = readNat a * 10 ^ b.length + readNat b := by
  induction b using List.reverseRecOn with
  | nil => simp [readNat]
  | append_singleton b c ih =>
    rw [← List.append_assoc, readNat_append_digit, ih, readNat_append_digit, List.length_append, List.length_singleton,
      Nat.pow_succ]
    ring

theorem readNat_zeros (n : Nat) : readNat (List.replicate n '0') = 0 := by
  induction n with
  | zero => rfl
  | succ n ih =>
    rw [List.replicate_succ', readNat_append_digit, ih]; rfl

theorem readNat_lt {b : List Char} (hb : ∀ c ∈ b, isDigit c = true) : readNat b < 10 ^ b.length := by
  induction b using List.reverseRecOn with
  | nil => simp [readNat]
  | append_singleton b c ih =>
    have h1 := ih fun c hc => hb c (by simp [hc])
    have hc := hb c (by simp)
    have hk : digitVal c < 10 := by unfold isDigit at hc; unfold digitVal; simp at hc; omega
    rw [readNat_append_digit, List.length_append, List.length_singleton, Nat.pow_succ]
    omega

theorem le_readNat {c : Char} {s : List Char} (h : isDigit c = true) (hc : c ≠ '0') : 10 ^ s.length ≤ readNat (c :: s) := by
  have e := readNat_cons_append [c] s
  rw [List.singleton_append] at e
  rw [e]
  have : 1 ≤ readNat [c] := by
    unfold isDigit at h
    simp at h
    have : c.toNat ≠ 48 := by
      intro e
      apply hc
      rw [← Char.ofNat_toNat c, e]
    simp [readNat, digitVal]
    omega
  have := Nat.mul_le_mul_right (10 ^ s.length) this
  omega

/-- A digit string without a needless zero at its start is the text of its number. -/
theorem decNat_readNat {c : Char} {s : List Char} (hs : ∀ x ∈ c :: s, isDigit x = true) (hc : c ≠ '0') :
    decNat (readNat (c :: s)) = c :: s := by
  induction s using List.reverseRecOn with
  | nil =>
    have h := hs c (by simp)
    unfold isDigit at h
    simp at h
    have e : readNat [c] = digitVal c := by simp [readNat]
    rw [e, decNat, if_pos (by unfold digitVal; omega)]
    unfold digitChar digitVal
    rw [show 48 + (c.toNat - 48) = c.toNat by omega, Char.ofNat_toNat]
  | append_singleton s x ih =>
    have ih := ih fun y hy => hs y (by simp at hy ⊢; tauto)
    have hx := hs x (by simp)
    have h1 : 1 ≤ readNat (c :: s) := Nat.le_trans (Nat.one_le_pow _ _ (by norm_num)) (le_readNat (hs c (by simp)) hc)
    have hk : digitVal x < 10 := by unfold isDigit at hx; unfold digitVal; simp at hx; omega
    have e : readNat (c :: (s ++ [x])) = readNat (c :: s) * 10 + digitVal x := by
      rw [← List.cons_append, readNat_append_digit]
    rw [e, decNat, if_neg (by omega), show (readNat (c :: s) * 10 + digitVal x) / 10 = readNat (c :: s) by omega,
      show (readNat (c :: s) * 10 + digitVal x) % 10 = digitVal x by omega, ih, List.cons_append]
    congr 3
    unfold isDigit at hx
    simp at hx
    unfold digitChar digitVal
    rw [show 48 + (x.toNat - 48) = x.toNat by omega, Char.ofNat_toNat]

theorem decNat_head {n : Nat} (h : 0 < n) : ∃ c s, decNat n = c :: s ∧ c ≠ '0' := by
  induction n using decNat.induct with
  | case1 n h' =>
    rw [decNat, if_pos h']
    refine ⟨_, _, rfl, ?_⟩
    intro e
    have := digitChar_toNat h'
    rw [e] at this
    have : (48 : Nat) = 48 + n := this
    omega
  | case2 n h' ih =>
    obtain ⟨c, s, e, hc⟩ := ih (by omega)
    rw [decNat, if_neg h', e]
    exact ⟨c, _, rfl, hc⟩

theorem decNat_length {k n : Nat} (h1 : 10 ^ n ≤ k) (h2 : k < 10 ^ (n + 1)) : (decNat k).length = n + 1 := by
  have hk : 0 < k := Nat.lt_of_lt_of_le (Nat.pow_pos (by norm_num)) h1
  obtain ⟨c, s, e, hc⟩ := decNat_head hk
  have hd := decNat_all_digits k
  have a := readNat_lt hd
  rw [readNat_decNat] at a
  have b := le_readNat (s := s) (hd c (by simp [e])) hc
  rw [← e, readNat_decNat] at b
  have hl : (decNat k).length = s.length + 1 := by rw [e]; rfl
  rw [hl] at a ⊢
  have x := (Nat.pow_lt_pow_iff_right (a := 10) (by norm_num)).1 (Nat.lt_of_le_of_lt h1 a)
  have y := (Nat.pow_lt_pow_iff_right (a := 10) (by norm_num)).1 (Nat.lt_of_le_of_lt b h2)
  omega

/-- The digits without the zeros at the end. -/
theorem strip_form (s : List Char) :
    ∃ n, s = stripZeros s ++ List.replicate n '0' ∧ (stripZeros s).getLast? ≠ some '0' := by
  unfold stripZeros
  refine ⟨(s.reverse.takeWhile fun c => decide (c = '0')).length, ?_, ?_⟩
  · have h1 : s.reverse = _ := (List.takeWhile_append_dropWhile (p := fun c => decide (c = '0'))).symm
    have h2 : s.reverse.takeWhile (fun c => decide (c = '0')) =
        List.replicate (s.reverse.takeWhile fun c => decide (c = '0')).length '0' :=
      List.eq_replicate_iff.2 ⟨rfl, fun c hc => by simpa using List.mem_takeWhile_imp hc⟩
    have h3 := congrArg List.reverse h1
    rw [List.reverse_reverse, List.reverse_append] at h3
    rw [h2, List.reverse_replicate] at h3
    exact h3
  · rw [List.getLast?_reverse]
    intro h
    have := List.head?_dropWhile_not (fun c => decide (c = '0')) s.reverse
    rw [h] at this
    simp at this

/-! ### Texts -/

/-- A text with a point that has no digits it could do without. -/
def Short (s : List Char) : Prop :=
  ∃ m b n, s = decNat m ++ '.' :: b ∧ Digits b n ∧ (b = ['0'] ∨ b.getLast? ≠ some '0')

theorem pow_shift (k : ℚ) (p : ℤ) (n : ℕ) : k * 10 ^ p = k * 10 ^ n * 10 ^ (p - n) := by
  rw [mul_assoc, ← zpow_natCast, ← zpow_add₀ (by norm_num)]
  congr 2
  ring

theorem positional_form {ds : List Char} (hd : ∀ c ∈ ds, isDigit c = true) {c : Char} {r : List Char} (hc : ds = c :: r)
    (hc0 : c ≠ '0') (hl : ds.getLast? ≠ some '0') (n : ℤ) :
    UnsignedFloat (positional ds n) (readNat ds * 10 ^ (n - ds.length)) ∧ Short (positional ds n) := by
  have hne : ds ≠ [] := by rw [hc]; simp
  unfold positional
  split
  · next hn =>
    have hb : ∀ c ∈ List.replicate (-n).toNat '0' ++ ds, isDigit c = true := by
      intro c hc
      rcases List.mem_append.1 hc with h | h
      · rw [(List.mem_replicate.1 h).2]; decide
      · exact hd c h
    have h0 : Digits ['0'] 0 := Digits.one 0 (by norm_num)
    refine ⟨Or.inr ⟨['0'], _, 0, _, h0, digits_of_all _ (by simp [hne]) hb, rfl, ?_⟩, 0, List.replicate (-n).toNat '0' ++ ds, _, ?_,
      digits_of_all _ (by simp [hne]) hb, Or.inr ?_⟩
    · rw [readNat_cons_append, readNat_zeros, Nat.zero_mul, Nat.zero_add, List.length_append, List.length_replicate,
        div_eq_mul_inv, ← zpow_natCast, ← zpow_neg]
      push_cast
      rw [zero_add]
      congr 2
      omega
    · rw [decNat, if_pos (by norm_num)]
      rfl
    · rw [List.getLast?_append]
      cases h : ds.getLast? with
      | none => exact absurd (List.getLast?_eq_none_iff.1 h) hne
      | some x => rw [h] at hl; simpa using hl
  · next hn =>
    obtain ⟨n, rfl⟩ : ∃ m : ℕ, n = m := ⟨n.toNat, by omega⟩
    have hn : 0 < n := by omega
    rw [Int.toNat_natCast]
    have ha : ∀ c ∈ ds.take n ++ List.replicate (n - ds.length) '0', isDigit c = true := by
      intro c hc
      rcases List.mem_append.1 hc with h | h
      · exact hd c (List.mem_of_mem_take h)
      · rw [(List.mem_replicate.1 h).2]; decide
    have hane : ds.take n ++ List.replicate (n - ds.length) '0' ≠ [] := by
      rw [hc]
      obtain ⟨m, rfl⟩ : ∃ m, n = m + 1 := ⟨n - 1, by omega⟩
      simp
    have hdec : decNat (readNat (ds.take n ++ List.replicate (n - ds.length) '0')) =
        ds.take n ++ List.replicate (n - ds.length) '0' := by
      obtain ⟨m, rfl⟩ : ∃ m, n = m + 1 := ⟨n - 1, by omega⟩
      have e : ds.take (m + 1) ++ List.replicate (m + 1 - ds.length) '0' =
          c :: (r.take m ++ List.replicate (m + 1 - ds.length) '0') := by
        conv_lhs => rw [hc]
        simp [hc]
      rw [e] at ha ⊢
      exact decNat_readNat ha hc0
    have hA := digits_of_all _ hane ha
    split
    · next hle =>
      have h0 : Digits ['0'] 0 := Digits.one 0 (by norm_num)
      refine ⟨Or.inr ⟨_, _, _, _, hA, h0, rfl, ?_⟩, _, _, _, by rw [hdec], h0, Or.inl rfl⟩
      rw [readNat_cons_append, readNat_zeros, List.length_replicate, List.take_of_length_le hle]
      push_cast
      rw [← zpow_natCast, Nat.cast_sub hle]
      simp
    · next hle =>
      have hb : ∀ c ∈ ds.drop n, isDigit c = true := fun c h => hd c (List.mem_of_mem_drop h)
      have hbne : ds.drop n ≠ [] := by
        intro h
        have := List.drop_eq_nil_iff.1 h
        omega
      refine ⟨Or.inr ⟨_, _, _, _, hA, digits_of_all _ hbne hb, rfl, ?_⟩, _, _, _, by rw [hdec],
        digits_of_all _ hbne hb, Or.inr ?_⟩
      · have e := readNat_cons_append (ds.take n) (ds.drop n)
        rw [List.take_append_drop] at e
        rw [e, show n - ds.length = 0 by omega, List.replicate_zero, List.append_nil, List.length_drop]
        push_cast
        have hp : (10 : ℚ) ^ (ds.length - n) ≠ 0 := pow_ne_zero _ (by norm_num)
        have e2 : (10 : ℚ) ^ ((n : ℤ) - ds.length) = ((10 : ℚ) ^ (ds.length - n))⁻¹ := by
          rw [← zpow_natCast, ← zpow_neg, Nat.cast_sub (by omega)]
          congr 1
          ring
        rw [e2]
        field_simp
      · rw [List.getLast?_drop, if_neg (by omega)]
        exact hl

theorem take_digits {a r : List Char} (ha : ∀ c ∈ a, isDigit c = true) (hr : ∀ c ∈ r.head?, isDigit c = false) :
    (a ++ r).takeWhile isDigit = a ∧ (a ++ r).dropWhile isDigit = r :=
  ⟨takeWhile_append_stop ha hr, dropWhile_append_stop ha hr⟩

theorem decimal_frac {a b r : List Char} (ha : ∀ c ∈ a, isDigit c = true) (hne : a ≠ []) (hb : ∀ c ∈ b, isDigit c = true)
    (hr : ∀ c ∈ r.head?, isDigit c = false) :
    readDecimal (a ++ '.' :: (b ++ r)) = (readExp r).map fun x => (readNat (a ++ b) : ℚ) * 10 ^ (x - (b.length : ℤ)) := by
  unfold readDecimal
  have h1 := take_digits (r := '.' :: (b ++ r)) ha (by simp [isDigit])
  rw [h1.1, h1.2]
  simp only [readFrac]
  rw [(take_digits hb hr).1, (take_digits hb hr).2]
  simp [hne]

theorem decimal_int {a r : List Char} (ha : ∀ c ∈ a, isDigit c = true) (hne : a ≠ []) (hr : ∀ c ∈ r.head?, isDigit c = false)
    (hp : r.head? ≠ some '.') :
    readDecimal (a ++ r) = (readExp r).map fun x => (readNat a : ℚ) * 10 ^ x := by
  unfold readDecimal
  have h1 := take_digits ha hr
  rw [h1.1, h1.2]
  have h2 : readFrac r = ([], r) := by
    unfold readFrac
    split
    · next r => simp at hp
    · rfl
  rw [h2]
  simp [hne]

theorem decimal_unsigned {s : List Char} {q : ℚ} (h : UnsignedFloat s q) : readDecimal s = some q := by
  rcases h with ⟨m, h, rfl⟩ | ⟨a, b, m, n, ha, hb, rfl, rfl⟩
  · have := decimal_int (r := []) h.allDigits h.ne_nil (by simp) (by simp)
    rw [List.append_nil] at this
    rw [this, h.value]
    simp [readExp]
  · have := decimal_frac (r := []) ha.allDigits ha.ne_nil hb.allDigits (by simp)
    rw [List.append_nil] at this
    rw [this, readNat_cons_append, ha.value, hb.value]
    simp only [readExp, Option.map_some, Option.some.injEq, zero_sub, zpow_neg, zpow_natCast]
    push_cast
    have hp : (10 : ℚ) ^ b.length ≠ 0 := pow_ne_zero _ (by norm_num)
    field_simp

theorem unsigned_head {s : List Char} {q : ℚ} (h : UnsignedFloat s q) : ∃ c r, s = c :: r ∧ isDigit c = true := by
  rcases h with ⟨m, h, -⟩ | ⟨a, b, m, n, ha, -, rfl, -⟩
  · cases e : s with
    | nil => exact absurd e h.ne_nil
    | cons c r => exact ⟨c, r, rfl, h.allDigits c (by simp [e])⟩
  · cases e : a with
    | nil => exact absurd e ha.ne_nil
    | cons c r => exact ⟨c, _, rfl, ha.allDigits c (by simp [e])⟩

theorem unsigned_chars {s : List Char} {q : ℚ} (h : UnsignedFloat s q) : ∀ c ∈ s, isDigit c = true ∨ c = '.' := by
  rcases h with ⟨m, h, -⟩ | ⟨a, b, m, n, ha, hb, rfl, -⟩
  · exact fun c hc => Or.inl (h.allDigits c hc)
  · intro c hc
    rcases List.mem_append.1 hc with hc | hc
    · exact Or.inl (ha.allDigits c hc)
    · rcases List.mem_cons.1 hc with hc | hc
      · exact Or.inr hc
      · exact Or.inl (hb.allDigits c hc)

theorem text_chars {s : List Char} {neg : Bool} {q : ℚ} (h : FloatText s neg q) :
    ∀ c ∈ s, isDigit c = true ∨ c = '.' ∨ c = '+' ∨ c = '-' := by
  obtain ⟨u, hu, h⟩ := h
  have := unsigned_chars hu
  intro c hc
  rcases h with ⟨-, rfl | rfl⟩ | ⟨-, rfl⟩
  · rcases this c hc with h | h <;> simp [h]
  · rcases List.mem_cons.1 hc with h | h
    · simp [h]
    · rcases this c h with h | h <;> simp [h]
  · rcases List.mem_cons.1 hc with h | h
    · simp [h]
    · rcases this c h with h | h <;> simp [h]

theorem sign_unsigned {s : List Char} {q : ℚ} (h : UnsignedFloat s q) : readSign s = (false, s) := by
  obtain ⟨c, r, rfl, hc⟩ := unsigned_head h
  unfold readSign
  split
  · next e => simp at e; rw [e.1] at hc; exact absurd hc (by decide)
  · next e => simp at e; rw [e.1] at hc; exact absurd hc (by decide)
  · rfl

theorem sign_text {s : List Char} {neg : Bool} {q : ℚ} (h : FloatText s neg q) :
    ∃ u, UnsignedFloat u q ∧ readSign s = (neg, u) := by
  obtain ⟨u, hu, h⟩ := h
  refine ⟨u, hu, ?_⟩
  rcases h with ⟨rfl, rfl | rfl⟩ | ⟨rfl, rfl⟩
  · exact sign_unsigned hu
  · rfl
  · rfl

/-- A text stands for one number only. -/
theorem text_unique {s : List Char} {neg neg' : Bool} {q q' : ℚ} (h : FloatText s neg q) (h' : FloatText s neg' q') :
    neg = neg' ∧ q = q' := by
  obtain ⟨u, hu, e⟩ := sign_text h
  obtain ⟨u', hu', e'⟩ := sign_text h'
  rw [e] at e'
  obtain ⟨rfl, rfl⟩ := Prod.mk.inj e'
  have a := decimal_unsigned hu
  rw [decimal_unsigned hu'] at a
  exact ⟨rfl, (Option.some.inj a).symm⟩

theorem read_text {s : List Char} {neg : Bool} {q : ℚ} (h : FloatText s neg q) :
    readFloat s = some (.fin neg (double q)) := by
  have hs : strip s = s := by
    refine strip_solid fun c hc => ?_
    rcases text_chars h c hc with h | h | h | h
    · exact isSpace_digit h
    all_goals rw [h]; decide
  obtain ⟨u, hu, e⟩ := sign_text h
  unfold readFloat
  rw [hs, e]
  dsimp only
  obtain ⟨c, r, rfl, hc⟩ := unsigned_head hu
  have low : ∀ x ∈ ['i', 'n'], (PropJSON.lower (c :: r)).head? ≠ some x := by
    intro x hx e
    simp only [PropJSON.lower, List.map_cons, List.head?_cons, Option.some.injEq] at e
    have : Char.toLower c = c := by
      unfold isDigit at hc
      simp at hc
      unfold Char.toLower
      rw [dif_neg]
      intro h
      have h1 : 65 ≤ c.toNat := h.1
      omega
    rw [this] at e
    subst e
    revert hc
    rcases List.mem_cons.1 hx with rfl | hx
    · decide
    · rw [List.mem_singleton.1 hx]; decide
  rw [if_neg (by
    rintro (h | h)
    · exact low 'i' (by simp) (by rw [h]; rfl)
    · exact low 'i' (by simp) (by rw [h]; rfl)),
    if_neg fun h => low 'n' (by simp) (by rw [h]; rfl), decimal_unsigned hu]
  rfl

theorem readExp_e (neg : Bool) (n : Nat) :
    readExp ('e' :: (if neg then '-' else '+') :: padNat 2 n) = some (if neg then -(n : ℤ) else n) := by
  have hd : ∀ c ∈ padNat 2 n, isDigit c = true := by
    intro c hc
    rcases List.mem_append.1 hc with h | h
    · rw [(List.mem_replicate.1 h).2]; decide
    · exact decNat_all_digits n c h
  have hr : readDigits (padNat 2 n) = some n := by
    unfold readDigits
    rw [if_pos ⟨by simp [padNat, decNat_ne_nil], by simpa using hd⟩]
    unfold padNat
    rw [readNat_cons_append, readNat_zeros, readNat_decNat, Nat.zero_mul, Nat.zero_add]
  cases neg <;> simp [readExp, hr]

theorem exponential_form {ds : List Char} (hd : ∀ c ∈ ds, isDigit c = true) (hne : ds ≠ []) (e : ℤ) :
    readDecimal (exponential ds e) = some ((readNat ds : ℚ) * 10 ^ (e + 1 - (ds.length : ℤ))) := by
  have hE : (if e < 0 then '-' else '+') = if decide (e < 0) = true then '-' else '+' := by simp
  have hv : (if decide (e < 0) = true then -(e.natAbs : ℤ) else e.natAbs) = e := by
    by_cases h : e < 0
    · rw [if_pos (decide_eq_true h)]; omega
    · rw [if_neg (by simpa using h)]; omega
  unfold exponential
  rw [hE]
  obtain ⟨c, r, rfl⟩ := List.exists_cons_of_ne_nil hne
  cases r with
  | nil =>
    have := decimal_int (a := [c]) (r := 'e' :: (if decide (e < 0) = true then '-' else '+') :: padNat 2 e.natAbs) hd
      (by simp) (by simp [isDigit]) (by simp)
    simp only [List.take_succ_cons, List.take_zero, List.length_singleton, le_refl, if_true, List.append_nil]
    rw [this, readExp_e, hv]
    simp
  | cons d r =>
    have := decimal_frac (a := [c]) (b := d :: r) (r := 'e' :: (if decide (e < 0) = true then '-' else '+') :: padNat 2 e.natAbs)
      (fun x hx => hd x (by simp at hx ⊢; tauto)) (by simp) (fun x hx => hd x (List.mem_cons_of_mem _ hx)) (by simp [isDigit])
    simp only [List.take_succ_cons, List.take_zero, List.length_cons, List.drop_succ_cons, List.drop_zero]
    rw [if_neg (by omega)]
    simp only [List.cons_append, List.nil_append] at this ⊢
    rw [this, readExp_e, hv]
    simp only [Option.map_some, Option.some.injEq, List.length_cons]
    congr 2
    push_cast
    ring

/-- The digits of what is written. -/
theorem stripped {k : ℤ} (h1 : 10 ^ 11 ≤ k) (h2 : k < 10 ^ 12) :
    ∃ c r, stripZeros (decNat k.toNat) = c :: r ∧ c ≠ '0' ∧ (∀ x ∈ c :: r, isDigit x = true) ∧
      (c :: r).getLast? ≠ some '0' ∧ ∀ e : ℤ, (readNat (c :: r) : ℚ) * 10 ^ (e + 1 - ((c :: r).length : ℤ)) = k * 10 ^ (e - 11) := by
  obtain ⟨n, hn, hl⟩ := strip_form (decNat k.toNat)
  obtain ⟨c, s, hs, hc⟩ := decNat_head (n := k.toNat) (by omega)
  have hlen : (decNat k.toNat).length = 12 := decNat_length (n := 11) (by omega) (by omega)
  cases e : stripZeros (decNat k.toNat) with
  | nil =>
    rw [e, List.nil_append, hs] at hn
    have : c ∈ List.replicate n '0' := by rw [← hn]; simp
    exact absurd (List.mem_replicate.1 this).2 hc
  | cons d r =>
    rw [e] at hn hl
    refine ⟨d, r, rfl, ?_, fun x hx => decNat_all_digits k.toNat x (by rw [hn]; exact List.mem_append_left _ hx), hl, ?_⟩
    · rw [hs, List.cons_append] at hn
      rw [← (List.cons.inj hn).1]
      exact hc
    · intro e
      have hv := congrArg readNat hn
      rw [readNat_decNat, readNat_cons_append, readNat_zeros, Nat.add_zero, List.length_replicate] at hv
      have hL := congrArg List.length hn
      rw [hlen, List.length_append, List.length_replicate] at hL
      have hk : (k : ℚ) = readNat (d :: r) * 10 ^ n := by
        have : (k : ℚ) = (k.toNat : ℕ) := by
          have : k = (k.toNat : ℤ) := by omega
          conv_lhs => rw [this]
          exact Int.cast_natCast _
        rw [this, hv]
        push_cast
        rfl
      rw [hk, pow_shift _ _ n]
      congr 2
      omega

theorem write_zero (neg : Bool) : FloatText (writeFloat (.fin neg 0)) neg 0 ∧
    ∃ u, writeFloat (.fin neg 0) = (if neg then ['-'] else []) ++ u ∧ Short u := by
  have h0 : Digits ['0'] 0 := Digits.one 0 (by norm_num)
  have hu : UnsignedFloat "0.0".toList 0 := Or.inr ⟨['0'], ['0'], 0, 0, h0, h0, rfl, by simp⟩
  have hw : writeFloat (.fin neg 0) = (if neg then ['-'] else []) ++ "0.0".toList := by simp [writeFloat]
  rw [hw]
  refine ⟨⟨_, hu, ?_⟩, _, rfl, 0, ['0'], 0, ?_, h0, Or.inl rfl⟩
  · cases neg <;> simp
  · rw [decNat, if_pos (by norm_num)]; rfl

/-- What is written for a number that is not 0. -/
theorem write_form (neg : Bool) {x : ℚ} (hx : 0 < x) :
    ∃ u, writeFloat (.fin neg x) = (if neg then ['-'] else []) ++ u ∧
      readDecimal u = some (((digits12 x).1 : ℚ) * 10 ^ ((digits12 x).2 - 11)) ∧
      (-4 ≤ (digits12 x).2 ∧ (digits12 x).2 ≤ 10 →
        UnsignedFloat u ((digits12 x).1 * 10 ^ ((digits12 x).2 - 11)) ∧ Short u) ∧
      (¬ (-4 ≤ (digits12 x).2 ∧ (digits12 x).2 ≤ 10) → 'e' ∈ u) := by
  obtain ⟨h1, h2⟩ := digits_range hx
  have hw : writeFloat (.fin neg x) = (if neg then ['-'] else []) ++
      (if -4 < (digits12 x).2 + 1 ∧ (digits12 x).2 + 1 ≤ 11 then
        positional (stripZeros (decNat (digits12 x).1.toNat)) ((digits12 x).2 + 1)
      else exponential (stripZeros (decNat (digits12 x).1.toNat)) (digits12 x).2) := by
    simp [writeFloat, hx.ne']
  rw [hw]
  generalize (digits12 x).1 = k at *
  generalize (digits12 x).2 = e at *
  refine ⟨_, rfl, ?_⟩
  obtain ⟨c, r, hs, hc, hd, hl, hv⟩ := stripped h1 h2
  rw [hs]
  by_cases h : -4 < e + 1 ∧ e + 1 ≤ 11
  · have hf := positional_form hd rfl hc hl (e + 1)
    rw [hv e] at hf
    rw [if_pos h]
    exact ⟨decimal_unsigned hf.1, fun _ => hf, fun h' => absurd (by omega) h'⟩
  · rw [if_neg h, exponential_form hd (by simp), hv e]
    refine ⟨rfl, fun h' => absurd (by omega) h, fun _ => ?_⟩
    unfold exponential
    simp

theorem digits_inj : ∀ (a b : List Char), (∀ c ∈ a, isDigit c = true) → (∀ c ∈ b, isDigit c = true) → a.length = b.length →
    readNat a = readNat b → a = b := by
  intro a
  induction a using List.reverseRecOn with
  | nil => intro b _ _ hl _; exact (List.length_eq_zero_iff.1 hl.symm).symm
  | append_singleton a x ih =>
    intro b ha hb hl hv
    cases b using List.reverseRecOn with
    | nil => simp at hl
    | append_singleton b y =>
      rw [readNat_append_digit, readNat_append_digit] at hv
      have hx := ha x (by simp)
      have hy := hb y (by simp)
      unfold isDigit at hx hy
      simp at hx hy
      have e1 : digitVal x < 10 ∧ digitVal y < 10 := by unfold digitVal; omega
      rw [ih b (fun c hc => ha c (by simp [hc])) (fun c hc => hb c (by simp [hc])) (by simpa using hl) (by omega)]
      have e2 : digitVal x = digitVal y := by omega
      unfold digitVal at e2
      have e3 : x.toNat = y.toNat := by omega
      rw [← Char.ofNat_toNat x, e3, Char.ofNat_toNat]

theorem frac_lt {b : List Char} {n : Nat} (h : Digits b n) : (n : ℚ) / 10 ^ b.length < 1 := by
  have := readNat_lt h.allDigits
  rw [h.value] at this
  rw [div_lt_one (by positivity)]
  exact_mod_cast this

theorem last_zero {b : List Char} {n : Nat} (h : Digits b n) (hn : n % 10 = 0) : b.getLast? = some '0' := by
  cases h with
  | one k hk =>
    have : n = 0 := by omega
    subst this
    rfl
  | snoc k m hk s _ =>
    have : k = 0 := by omega
    subst this
    simp

/-- Two texts without needless digits that stand for the same number are the same. -/
theorem short_unique {u v : List Char} {q : ℚ} (hu : UnsignedFloat u q) (hv : UnsignedFloat v q) (su : Short u) (sv : Short v) :
    u = v := by
  obtain ⟨m, b, n, rfl, hb, lb⟩ := su
  obtain ⟨m', b', n', rfl, hb', lb'⟩ := sv
  have eq : ∀ {m : Nat} {b : List Char} {n : Nat}, UnsignedFloat (decNat m ++ '.' :: b) q → Digits b n →
      q = m + n / 10 ^ b.length := by
    intro m b n h hb
    have h' : UnsignedFloat (decNat m ++ '.' :: b) (m + n / 10 ^ b.length) :=
      Or.inr ⟨_, _, _, _, Duration.digits_decNat m, hb, rfl, rfl⟩
    have := decimal_unsigned h
    rw [decimal_unsigned h'] at this
    exact (Option.some.inj this).symm
  have e := eq hu hb
  rw [eq hv hb'] at e
  have f := frac_lt hb
  have f' := frac_lt hb'
  have p : (0 : ℚ) ≤ n / 10 ^ b.length := by positivity
  have p' : (0 : ℚ) ≤ n' / 10 ^ b'.length := by positivity
  have hm : m = m' := by
    have a : (m : ℚ) < m' + 1 := by linarith
    have b : (m' : ℚ) < m + 1 := by linarith
    have a' : m < m' + 1 := by exact_mod_cast a
    have b' : m' < m + 1 := by exact_mod_cast b
    omega
  subst hm
  have e' : (n : ℚ) / 10 ^ b.length = n' / 10 ^ b'.length := by linarith
  rw [div_eq_div_iff (by positivity) (by positivity)] at e'
  have e : n * 10 ^ b'.length = n' * 10 ^ b.length := by exact_mod_cast e'
  have key : ∀ {b b' : List Char} {n n' : Nat}, Digits b n → Digits b' n' → (b' = ['0'] ∨ b'.getLast? ≠ some '0') →
      n * 10 ^ b'.length = n' * 10 ^ b.length → ¬ b.length < b'.length := by
    intro b b' n n' hb hb' lb' e hlt
    have hd : n' = n * 10 ^ (b'.length - b.length) := by
      have : 10 ^ b'.length = 10 ^ (b'.length - b.length) * 10 ^ b.length := by
        rw [← Nat.pow_add]; congr 1; omega
      rw [this, ← Nat.mul_assoc] at e
      exact (Nat.eq_of_mul_eq_mul_right (Nat.pow_pos (by norm_num)) e).symm
    have h10 : n' % 10 = 0 := by
      obtain ⟨j, hj⟩ : ∃ j, b'.length - b.length = j + 1 := ⟨b'.length - b.length - 1, by omega⟩
      rw [hd, hj, Nat.pow_succ, ← Nat.mul_assoc]
      exact Nat.mul_mod_left _ _
    rcases lb' with h | h
    · have : 0 < b.length := List.length_pos_of_ne_nil hb.ne_nil
      rw [h] at hlt
      simp at hlt
      exact hb.ne_nil hlt
    · exact h (last_zero hb' h10)
  have k1 := key hb hb' lb' e
  have k2 := key hb' hb lb e.symm
  have hl : b.length = b'.length := by omega
  rw [hl] at e
  have hn : n = n' := Nat.eq_of_mul_eq_mul_right (Nat.pow_pos (by norm_num)) e
  rw [digits_inj b b' hb.allDigits hb'.allDigits hl (by rw [hb.value, hb'.value, hn])]

end F114
open F114

namespace Num

/-- A number that is written without a change: zero, or a decimal of at most twelve digits that is neither too small nor too
large. -/
def Fits (q : ℚ) : Prop :=
  q = 0 ∨ (∃ (k : ℕ) (p : ℤ), k < 10 ^ 12 ∧ q = k * 10 ^ p) ∧ 1 / 10 ^ 4 ≤ q ∧ q < 10 ^ 11

end Num

namespace F114

theorem fits_form {q : ℚ} (h : Fits q) (h0 : q ≠ 0) :
    ∃ k e : ℤ, 10 ^ 11 ≤ k ∧ k < 10 ^ 12 ∧ -4 ≤ e ∧ e ≤ 10 ∧ q = k * 10 ^ (e - 11) := by
  rcases h with h | ⟨⟨k, p, hk, rfl⟩, h1, h2⟩
  · exact absurd h h0
  · have hk0 : k ≠ 0 := by rintro rfl; simp at h0
    have l1 := Nat.pow_log_le_self 10 hk0
    have l2 := Nat.lt_pow_succ_log_self (b := 10) (by norm_num) k
    generalize Nat.log 10 k = l at *
    have hl : l < 12 := (Nat.pow_lt_pow_iff_right (a := 10) (by norm_num)).1 (Nat.lt_of_le_of_lt l1 hk)
    obtain ⟨j, hj⟩ : ∃ j, l + j = 11 := ⟨11 - l, by omega⟩
    have a : 10 ^ 11 ≤ k * 10 ^ j := by
      rw [← hj, Nat.pow_add]; exact Nat.mul_le_mul_right _ l1
    have b : k * 10 ^ j < 10 ^ 12 := by
      rw [show 12 = l + 1 + j by omega, Nat.pow_add]
      exact Nat.mul_lt_mul_of_pos_right l2 (Nat.pow_pos (by norm_num))
    have e0 : (k : ℚ) * 10 ^ p = ((k * 10 ^ j : ℕ) : ℤ) * 10 ^ ((p - j + 11) - 11 : ℤ) := by
      rw [pow_shift _ p j]
      push_cast
      rw [add_sub_cancel_right]
    generalize hK : k * 10 ^ j = K at *
    rw [e0] at h1 h2 ⊢
    generalize p - (j : ℤ) + 11 = e at *
    have aq : (10 : ℚ) ^ 11 ≤ ((K : ℤ) : ℚ) := by exact_mod_cast a
    have bq : ((K : ℤ) : ℚ) < 10 ^ 12 := by exact_mod_cast b
    have hp : (0 : ℚ) < 10 ^ (e - 11) := zpow_pos (by norm_num) _
    refine ⟨K, e, by exact_mod_cast a, by exact_mod_cast b, ?_, ?_, rfl⟩
    · have : (10 : ℚ) ^ (-4 : ℤ) < 10 ^ (e + 1) := by
        calc (10 : ℚ) ^ (-4 : ℤ) = 1 / 10 ^ 4 := by norm_num
          _ ≤ _ := h1
          _ < 10 ^ 12 * 10 ^ (e - 11) := mul_lt_mul_of_pos_right bq hp
          _ = 10 ^ (e + 1) := by
            rw [← zpow_natCast, ← zpow_add₀ (by norm_num)]; congr 1; push_cast; ring
      have := (zpow_lt_zpow_iff_right₀ (by norm_num : (1 : ℚ) < 10)).1 this
      omega
    · have : (10 : ℚ) ^ e < 10 ^ (11 : ℤ) := by
        calc (10 : ℚ) ^ e = 10 ^ 11 * 10 ^ (e - 11) := by
              rw [← zpow_natCast, ← zpow_add₀ (by norm_num)]; congr 1; push_cast; ring
          _ ≤ _ := mul_le_mul_of_nonneg_right aq hp.le
          _ < 10 ^ 11 := h2
          _ = 10 ^ (11 : ℤ) := by norm_num
      have := (zpow_lt_zpow_iff_right₀ (by norm_num : (1 : ℚ) < 10)).1 this
      omega

theorem text_nonneg {s : List Char} {neg : Bool} {q : ℚ} (h : FloatText s neg q) : 0 ≤ q := by
  obtain ⟨u, h | h, -⟩ := h
  · obtain ⟨m, -, rfl⟩ := h; positivity
  · obtain ⟨a, b, m, n, -, -, -, rfl⟩ := h; positivity

theorem double_pos {q : ℚ} (h : 0 < q) : 0 < double q := by
  have := double_near h.le
  rw [abs_le] at this
  have h2 : q / 2 ^ 53 < q := div_lt_self h (by norm_num)
  linarith

/-- What is written for a number that fits. -/
theorem write_fits {q : ℚ} (neg : Bool) (hq : 0 ≤ q) (h : Fits q) :
    FloatText (writeFloat (.fin neg (double q))) neg q ∧
    ∃ u, writeFloat (.fin neg (double q)) = (if neg then ['-'] else []) ++ u ∧ UnsignedFloat u q ∧ Short u := by
  by_cases h0 : q = 0
  · subst h0
    have hd : double 0 = 0 := by simp [double]
    rw [hd]
    obtain ⟨hz, u, e, hu⟩ := write_zero neg
    refine ⟨hz, u, e, ?_, hu⟩
    obtain ⟨v, hv, hv'⟩ := hz
    rw [e] at hv'
    obtain ⟨m, b, n, rfl, hb, lb⟩ := hu
    obtain ⟨c, r, hc⟩ := List.exists_cons_of_ne_nil (decNat_ne_nil m)
    have hcd := decNat_all_digits m c (by simp [hc])
    cases neg
    · rcases hv' with ⟨-, h | h⟩ | ⟨h, -⟩
      · rw [← h] at hv; exact hv
      · rw [hc] at h; simp at h; rw [h.1] at hcd; exact absurd hcd (by decide)
      · cases h
    · rcases hv' with ⟨h, -⟩ | ⟨-, h⟩
      · cases h
      · simp at h; rw [← h] at hv; exact hv
  · obtain ⟨k, e, h1, h2, h3, h4, rfl⟩ := fits_form h h0
    have hpos : (0 : ℚ) < k * 10 ^ (e - 11) := lt_of_le_of_ne hq (Ne.symm h0)
    have hd := digits_double h1 h2 (double_near hq)
    obtain ⟨u, hw, -, hu, -⟩ := write_form neg (double_pos hpos)
    rw [hd] at hu
    obtain ⟨hu, hs⟩ := hu ⟨h3, h4⟩
    rw [hw]
    refine ⟨⟨u, hu, ?_⟩, u, rfl, hu, hs⟩
    cases neg <;> simp

end F114

/-- C114 (partial): a text is written for what was read from the text of a number, and stands for that number, with
the same sign, just if the number has at most twelve significant digits and is 0 or from 0.0001 to less than
100000000000.

Missing: the other numbers, `C114_fails_digits` and `C114_fails_exponent`. -/
theorem C114_float_partial {s : List Char} {neg : Bool} {q : ℚ} (h : FloatText s neg q) :
    (∃ t, (parseFloat s).map generateFloat = some t ∧ FloatText t neg q) ↔ Fits q := by
  have hq := text_nonneg h
  unfold parseFloat
  rw [read_text h]
  constructor
  · rintro ⟨t, ht, h'⟩
    rw [Option.map_some, Option.some.injEq] at ht
    subst ht
    unfold generateFloat at h'
    by_cases h0 : q = 0
    · exact Or.inl h0
    · have hpos : 0 < q := lt_of_le_of_ne hq (Ne.symm h0)
      obtain ⟨h1, h2⟩ := digits_range (double_pos hpos)
      obtain ⟨u, hw, -, hu, hu'⟩ := write_form neg (double_pos hpos)
      by_cases hr : -4 ≤ (digits12 (double q)).2 ∧ (digits12 (double q)).2 ≤ 10
      · obtain ⟨hu, -⟩ := hu hr
        have hx : FloatText (writeFloat (.fin neg (double q))) neg
            ((digits12 (double q)).1 * 10 ^ ((digits12 (double q)).2 - 11)) := by
          rw [hw]
          refine ⟨u, hu, ?_⟩
          cases neg <;> simp
        have hE := (text_unique h' hx).2
        generalize (digits12 (double q)).1 = k at *
        generalize (digits12 (double q)).2 = e at *
        have h1q : (10 : ℚ) ^ 11 ≤ k := by exact_mod_cast h1
        have h2q : (k : ℚ) < 10 ^ 12 := by exact_mod_cast h2
        have hp : (0 : ℚ) < 10 ^ (e - 11) := zpow_pos (by norm_num) _
        refine Or.inr ⟨⟨k.toNat, e - 11, by omega, ?_⟩, ?_, ?_⟩
        · have : ((k.toNat : ℕ) : ℚ) = k := by
            have : k = (k.toNat : ℤ) := by omega
            conv_rhs => rw [this]
            exact (Int.cast_natCast _).symm
          rw [this]; exact hE
        · calc (1 : ℚ) / 10 ^ 4 = 10 ^ (-4 : ℤ) := by norm_num
            _ ≤ 10 ^ e := zpow_le_zpow_right₀ (by norm_num) hr.1
            _ = 10 ^ 11 * 10 ^ (e - 11) := by
              rw [← zpow_natCast, ← zpow_add₀ (by norm_num)]; congr 1; push_cast; ring
            _ ≤ k * 10 ^ (e - 11) := mul_le_mul_of_nonneg_right h1q hp.le
            _ = q := hE.symm
        · calc q = k * 10 ^ (e - 11) := hE
            _ < 10 ^ 12 * 10 ^ (e - 11) := mul_lt_mul_of_pos_right h2q hp
            _ = 10 ^ (e + 1) := by
              rw [← zpow_natCast, ← zpow_add₀ (by norm_num)]; congr 1; push_cast; ring
            _ ≤ 10 ^ (11 : ℤ) := zpow_le_zpow_right₀ (by norm_num) (by omega)
            _ = 10 ^ 11 := by norm_num
      · have he := hu' hr
        have : 'e' ∈ writeFloat (.fin neg (double q)) := by rw [hw]; exact List.mem_append_right _ he
        exact absurd (text_chars h' 'e' this) (by decide)
  · intro hf
    exact ⟨_, rfl, (write_fits neg hq hf).1⟩

/-- If the number is such a one, what is written is read as the same float. -/
theorem C114_again {s : List Char} {neg : Bool} {q : ℚ} (h : FloatText s neg q) (hf : Fits q) :
    ((parseFloat s).map generateFloat).bind parseFloat = parseFloat s ∧ (parseFloat s).isSome = true := by
  unfold parseFloat
  rw [read_text h]
  exact ⟨read_text (write_fits neg (text_nonneg h) hf).1, rfl⟩

/-- And if the text has a point and no needless digits or sign, it is written letter by letter. -/
theorem C114_text {u : List Char} {q : ℚ} (neg : Bool) (hu : UnsignedFloat u q) (hs : Short u) (hf : Fits q) :
    (parseFloat ((if neg then ['-'] else []) ++ u)).map generateFloat = some ((if neg then ['-'] else []) ++ u) := by
  have h : FloatText ((if neg then ['-'] else []) ++ u) neg q := ⟨u, hu, by cases neg <;> simp⟩
  unfold parseFloat
  rw [read_text h]
  obtain ⟨-, v, hv, hv', hvs⟩ := write_fits neg (text_nonneg h) hf
  rw [Option.map_some, generateFloat, hv, short_unique hv' hu hvs hs]

namespace F114

theorem example_text : UnsignedFloat "37.386013".toList (37 + 386013 / 10 ^ 6) ∧ Short "37.386013".toList := by
  have ha : decNat 37 = "37".toList := by decide +kernel
  have hb : decNat 386013 = "386013".toList := by decide +kernel
  have da := Duration.digits_decNat 37
  have db := Duration.digits_decNat 386013
  rw [ha] at da
  rw [hb] at db
  refine ⟨Or.inr ⟨_, _, _, _, da, db, rfl, rfl⟩, 37, "386013".toList, 386013, ?_, db, Or.inr (by decide +kernel)⟩
  rw [ha]; rfl

end F114

/-- The hypotheses can be met: the latitude of the example of RFC 5545. -/
example : (parseFloat "37.386013".toList).map generateFloat = some "37.386013".toList := by
  refine C114_text false example_text.1 example_text.2 (Or.inr ⟨⟨37386013, -6, by norm_num, ?_⟩, ?_, ?_⟩) <;> norm_num

/-- C114 fails: a number with more than twelve significant digits is not restored. -/
theorem C114_fails_digits {s : List Char} {neg : Bool} {q : ℚ} (h : FloatText s neg q) (h0 : q ≠ 0)
    (hd : ∀ (k : ℕ) (p : ℤ), k < 10 ^ 12 → q ≠ k * 10 ^ p) :
    ∀ t, (parseFloat s).map generateFloat = some t → ¬ FloatText t neg q := by
  intro t ht h'
  rcases (C114_float_partial h).1 ⟨t, ht, h'⟩ with h | ⟨⟨k, p, hk, e⟩, -⟩
  · exact h0 h
  · exact hd k p hk e

/-- The hypotheses can be met: 37.1234567890123 has fifteen digits. -/
example : (37 + 1234567890123 / 10 ^ 13 : ℚ) ≠ 0 ∧
    ∀ (k : ℕ) (p : ℤ), k < 10 ^ 12 → (37 + 1234567890123 / 10 ^ 13 : ℚ) ≠ k * 10 ^ p := by
  refine ⟨by norm_num, fun k p hk e => ?_⟩
  by_cases hp : p ≤ -13
  · obtain ⟨j, rfl⟩ : ∃ j : ℕ, p = -13 - j := ⟨(-13 - p).toNat, by omega⟩
    rw [zpow_sub₀ (by norm_num), zpow_natCast] at e
    have hj : (0 : ℚ) < 10 ^ j := by positivity
    have h1 : (371234567890123 : ℚ) * 10 ^ j = k := by
      field_simp at e
      norm_num at e
      linarith
    have h2 : 371234567890123 * 10 ^ j = k := by exact_mod_cast h1
    have h3 : 1 ≤ 10 ^ j := Nat.one_le_pow _ _ (by norm_num)
    omega
  · obtain ⟨j, rfl⟩ : ∃ j : ℕ, p = j + 1 - 13 := ⟨(p + 12).toNat, by omega⟩
    rw [zpow_sub₀ (by norm_num), zpow_add_one₀ (by norm_num), zpow_natCast] at e
    have h1 : (371234567890123 : ℚ) = k * 10 ^ j * 10 := by
      field_simp at e
      norm_num at e
      linarith
    have h2 : 371234567890123 = k * 10 ^ j * 10 := by exact_mod_cast h1
    omega

namespace F114

/-- A number of at most twelve digits as one of just twelve. -/
theorem norm_form {k : ℕ} {p : ℤ} (hk0 : k ≠ 0) (hk : k < 10 ^ 12) :
    ∃ K e : ℤ, 10 ^ 11 ≤ K ∧ K < 10 ^ 12 ∧ (k : ℚ) * 10 ^ p = K * 10 ^ (e - 11) := by
  have l1 := Nat.pow_log_le_self 10 hk0
  have l2 := Nat.lt_pow_succ_log_self (b := 10) (by norm_num) k
  generalize Nat.log 10 k = l at *
  have hl : l < 12 := (Nat.pow_lt_pow_iff_right (a := 10) (by norm_num)).1 (Nat.lt_of_le_of_lt l1 hk)
  obtain ⟨j, hj⟩ : ∃ j, l + j = 11 := ⟨11 - l, by omega⟩
  have a : 10 ^ 11 ≤ k * 10 ^ j := by
    rw [← hj, Nat.pow_add]; exact Nat.mul_le_mul_right _ l1
  have b : k * 10 ^ j < 10 ^ 12 := by
    rw [show 12 = l + 1 + j by omega, Nat.pow_add]
    exact Nat.mul_lt_mul_of_pos_right l2 (Nat.pow_pos (by norm_num))
  refine ⟨(k * 10 ^ j : ℕ), p - j + 11, by exact_mod_cast a, by exact_mod_cast b, ?_⟩
  rw [pow_shift _ p j]
  push_cast
  rw [add_sub_cancel_right]

end F114

/-- C114 fails: what is written for a number below 0.0001 or from 100000000000 on is no FLOAT of RFC 5545 at all: it has an
exponent. -/
theorem C114_fails_exponent {s : List Char} {neg : Bool} {k : ℕ} {p : ℤ} (hk0 : k ≠ 0) (hk : k < 10 ^ 12)
    (h : FloatText s neg (k * 10 ^ p)) (hr : (k : ℚ) * 10 ^ p < 1 / 10 ^ 4 ∨ 10 ^ 11 ≤ (k : ℚ) * 10 ^ p) :
    ∃ t, (parseFloat s).map generateFloat = some t ∧ 'e' ∈ t ∧ ∀ neg' q', ¬ FloatText t neg' q' := by
  unfold parseFloat
  rw [read_text h]
  have hq := text_nonneg h
  have hpos : (0 : ℚ) < k * 10 ^ p :=
    mul_pos (by exact_mod_cast Nat.pos_of_ne_zero hk0) (zpow_pos (by norm_num) _)
  obtain ⟨K, e, h1, h2, hE⟩ := norm_form (p := p) hk0 hk
  rw [hE] at hpos hq hr ⊢
  have hd := digits_double h1 h2 (double_near hq)
  obtain ⟨u, hw, -, -, hu⟩ := write_form neg (double_pos hpos)
  rw [hd] at hu
  have h1q : (10 : ℚ) ^ 11 ≤ K := by exact_mod_cast h1
  have h2q : (K : ℚ) < 10 ^ 12 := by exact_mod_cast h2
  have hp : (0 : ℚ) < 10 ^ (e - 11) := zpow_pos (by norm_num) _
  have he : 'e' ∈ writeFloat (.fin neg (double (K * 10 ^ (e - 11)))) := by
    rw [hw]
    refine List.mem_append_right _ (hu ?_)
    rintro ⟨a, b⟩
    rcases hr with hr | hr
    · have : (1 : ℚ) / 10 ^ 4 ≤ K * 10 ^ (e - 11) := by
        calc (1 : ℚ) / 10 ^ 4 = 10 ^ (-4 : ℤ) := by norm_num
            _ ≤ 10 ^ e := zpow_le_zpow_right₀ (by norm_num) a
            _ = 10 ^ 11 * 10 ^ (e - 11) := by
              rw [← zpow_natCast, ← zpow_add₀ (by norm_num)]; congr 1; push_cast; ring
            _ ≤ K * 10 ^ (e - 11) := mul_le_mul_of_nonneg_right h1q hp.le
      linarith
    · have : (K : ℚ) * 10 ^ (e - 11) < 10 ^ 11 := by
        calc (K : ℚ) * 10 ^ (e - 11) < 10 ^ 12 * 10 ^ (e - 11) := mul_lt_mul_of_pos_right h2q hp
            _ = 10 ^ (e + 1) := by
              rw [← zpow_natCast, ← zpow_add₀ (by norm_num)]; congr 1; push_cast; ring
            _ ≤ 10 ^ (11 : ℤ) := zpow_le_zpow_right₀ (by norm_num) (by omega)
            _ = 10 ^ 11 := by norm_num
      linarith
  exact ⟨_, rfl, he, fun neg' q' h' => absurd (text_chars h' 'e' he) (by decide)⟩

/-- The hypotheses can be met: 0.00001. -/
example : ((1 : ℕ) : ℚ) * 10 ^ (-5 : ℤ) < 1 / 10 ^ 4 ∧ FloatText "0.00001".toList false (((1 : ℕ) : ℚ) * 10 ^ (-5 : ℤ)) := by
  refine ⟨by norm_num, "0.00001".toList, Or.inr ⟨['0'], "00001".toList, 0, 1, Digits.one 0 (by norm_num), ?_, rfl, ?_⟩,
    Or.inl ⟨rfl, Or.inl rfl⟩⟩
  · have := digits_of_all "00001".toList (by simp) (by decide +kernel)
    exact this
  · rw [show "00001".toList.length = 5 from rfl]; norm_num

/-- C114 fails: texts that are no FLOAT of RFC 5545 are read. -/
theorem C114_fails_nan : parseFloat "nan".toList = some .nan ∧ parseFloat "-Infinity".toList = some (.inf true) ∧
    ∀ neg q, ¬ FloatText "nan".toList neg q := by
  refine ⟨by decide +kernel, by decide +kernel, fun neg q h => ?_⟩
  exact absurd (text_chars h 'n' (by decide)) (by decide)

/-- An INTEGER is restored: what is read is the number that the text stands for, and what is written for a number is a text
that stands for it. -/
theorem C114_integer {s : List Char} {n : Int} (h : Spec.Recur.Number s n) :
    parseInteger s = some n ∧ Spec.Recur.Number (writeInteger n) n ∧ parseInteger (writeInteger n) = some n :=
  ⟨h.pyInt, number_decInt n, (number_decInt n).pyInt⟩

namespace F114

theorem free_text {s : List Char} {neg : Bool} {q : ℚ} (h : FloatText s neg q) : ';' ∉ s := fun hc =>
  absurd (text_chars h ';' hc) (by decide)

theorem splitOn_free {s : List Char} (h : ';' ∉ s) : splitOn ';' s = [s] := by
  induction s with
  | nil => rfl
  | cons c s ih =>
    have h1 : c ≠ ';' := fun e => h (by simp [e])
    have h2 : ';' ∉ s := fun e => h (by simp [e])
    simp [splitOn, h1, ih h2]

theorem split_two {a b : List Char} (ha : ';' ∉ a) (hb : ';' ∉ b) : splitOn ';' (a ++ ';' :: b) = [a, b] := by
  rw [Zonal.L95.splitOn_sep, splitOn_free ha, splitOn_free hb]
  rfl

/-- A backslash after the text of a number. -/
theorem read_backslash {s : List Char} {neg : Bool} {q : ℚ} (h : FloatText s neg q) : readFloat (s ++ ['\\']) = none := by
  have hs : strip (s ++ ['\\']) = s ++ ['\\'] := by
    refine strip_solid fun c hc => ?_
    rcases List.mem_append.1 hc with hc | hc
    · rcases text_chars h c hc with h | h | h | h
      · exact isSpace_digit h
      all_goals rw [h]; decide
    · rw [List.mem_singleton.1 hc]; decide
  have hl : ∀ u : List Char, PropJSON.lower (u ++ ['\\']) = PropJSON.lower u ++ ['\\'] := by
    intro u; simp [PropJSON.lower]
  have hn : ∀ u t : List Char, t.getLast? ≠ some '\\' → PropJSON.lower (u ++ ['\\']) ≠ t := by
    intro u t ht e
    rw [hl] at e
    rw [← e] at ht
    simp at ht
  have hd : ∀ u, UnsignedFloat u q → readDecimal (u ++ ['\\']) = none := by
    rintro u (⟨m, hm, -⟩ | ⟨a, b, m, n, ha, hb, rfl, -⟩)
    · rw [decimal_int hm.allDigits hm.ne_nil (by simp [isDigit]) (by simp)]
      simp [readExp]
    · rw [List.append_assoc, List.cons_append, decimal_frac ha.allDigits ha.ne_nil hb.allDigits (by simp [isDigit])]
      simp [readExp]
  obtain ⟨u, hu, hx⟩ := h
  have hsign : readSign (s ++ ['\\']) = (neg, u ++ ['\\']) := by
    rcases hx with ⟨rfl, rfl | rfl⟩ | ⟨rfl, rfl⟩
    · obtain ⟨c, r, rfl, hc⟩ := unsigned_head hu
      unfold readSign
      split
      · next e => simp at e; rw [e.1] at hc; exact absurd hc (by decide)
      · next e => simp at e; rw [e.1] at hc; exact absurd hc (by decide)
      · rfl
    · rfl
    · rfl
  unfold readFloat
  rw [hs, hsign]
  dsimp only
  rw [if_neg (by rintro (e | e) <;> exact hn _ _ (by decide) e), if_neg (hn _ _ (by decide)), hd u hu]
  rfl

end F114

/-- C114 (partial): coordinates: the two numbers are read, and what is written for numbers as above has texts of these
numbers and is read as the same floats.

Missing: the other numbers, `C114_fails_digits`, and texts without the first number, `C114_fails_index`. -/
theorem C114_geo_partial {s t : List Char} {neg neg' : Bool} {q q' : ℚ} (hs : FloatText s neg q) (ht : FloatText t neg' q') :
    ∃ x y, parseGeo (s ++ ';' :: t) = .ok x y ∧ parseFloat s = some x ∧ parseFloat t = some y ∧
      (Fits q → Fits q' → ∃ s' t', writeGeo x y = s' ++ ';' :: t' ∧ FloatText s' neg q ∧ FloatText t' neg' q' ∧
        parseGeo (writeGeo x y) = .ok x y) := by
  have key : ∀ {s t : List Char}, FloatText s neg q → FloatText t neg' q' →
      parseGeo (s ++ ';' :: t) = .ok (.fin neg (double q)) (.fin neg' (double q')) := by
    intro s t hs ht
    unfold parseGeo
    rw [split_two (free_text hs) (free_text ht)]
    simp only [twoFloats, read_text hs, read_text ht]
  refine ⟨_, _, key hs ht, read_text hs, read_text ht, fun h h' => ?_⟩
  have a := (write_fits neg (text_nonneg hs) h).1
  have b := (write_fits neg' (text_nonneg ht) h').1
  exact ⟨_, _, rfl, a, b, key a b⟩

/-- Coordinates with a backslash before the semicolon are read as those without. -/
theorem C114_geo_backslash {s t : List Char} {neg neg' : Bool} {q q' : ℚ} (hs : FloatText s neg q) (ht : FloatText t neg' q') :
    parseGeo (s ++ '\\' :: ';' :: t) = parseGeo (s ++ ';' :: t) := by
  have e : s ++ '\\' :: ';' :: t = (s ++ ['\\']) ++ ';' :: t := by simp
  have hf : ';' ∉ s ++ ['\\'] := by
    intro h
    rcases List.mem_append.1 h with h | h
    · exact free_text hs h
    · simp at h
  unfold parseGeo
  rw [e, split_two hf (free_text ht), split_two (free_text hs) (free_text ht)]
  simp [twoFloats, read_backslash hs, read_text hs, read_text ht]

/-- The hypotheses can be met: the example of RFC 5545. -/
example : ∃ q q', FloatText "37.386013".toList false q ∧ FloatText "-122.082932".toList true q' := by
  refine ⟨_, _, ⟨_, example_text.1, Or.inl ⟨rfl, Or.inl rfl⟩⟩, "122.082932".toList, Or.inr ⟨"122".toList, "082932".toList, _, _,
    digits_of_all _ (by simp) (by decide +kernel), digits_of_all _ (by simp) (by decide +kernel), rfl, rfl⟩, Or.inr ⟨rfl, rfl⟩⟩

/-- C114 fails: a text of coordinates without the first number does not raise `InvalidData` but `IndexError`. -/
theorem C114_fails_index (t : List Char) (ht : ';' ∉ t) : parseGeo (';' :: t) = .index := by
  have : parseGeo (';' :: t) = parseGeo ([] ++ ';' :: t) := rfl
  rw [this]
  unfold parseGeo
  rw [split_two (by simp) ht]
  have h : readFloat [] = none := by decide +kernel
  simp [twoFloats, h]

end PyCal
