import Verif.Model.PackedDate

/-!
# C117: a packed date is the date
-/

namespace PyCal
open Packed

namespace P117

theorem pack_nat (y m c : Nat) (hm : m < 256) (hc : c < 256) :
    packDate y m ((c : Int) - 128) = ((y * 65536 + m * 256 + c : Nat) : Int) := by
  have h1 : (y <<< 16) ||| (m <<< 8) = y <<< 16 + m <<< 8 := by
    rw [← Nat.shiftLeft_add_eq_or_of_lt]
    rw [Nat.shiftLeft_eq]; omega
  have h2 : (y <<< 16 + m <<< 8) ||| c = y <<< 16 + m <<< 8 + c := by
    have e : y <<< 16 + m <<< 8 = (y * 256 + m) <<< 8 := by simp only [Nat.shiftLeft_eq]; omega
    rw [e, ← Nat.shiftLeft_add_eq_or_of_lt]
    omega
  have : packDate y m ((c : Int) - 128) = (((y <<< 16 ||| m <<< 8) ||| c : Nat) : Int) := by
    unfold packDate
    rw [Int.sub_add_cancel]
    rfl
  rw [this, h1, h2]
  simp only [Nat.shiftLeft_eq]

theorem pack_eq (y m d : Int) (hy : 0 ≤ y) (hm : 0 ≤ m ∧ m < 256) (hd : -128 ≤ d ∧ d < 128) :
    packDate y m d = y * 65536 + m * 256 + (d + 128) := by
  have := pack_nat y.toNat m.toNat (d + 128).toNat (by omega) (by omega)
  rw [Int.toNat_of_nonneg hy, Int.toNat_of_nonneg hm.1, Int.toNat_of_nonneg (by omega), Int.add_sub_cancel] at this
  rw [this]
  omega

theorem year_nat (x : Nat) : unpackYear x = ((x / 65536 % 65536 : Nat) : Int) := by
  have : unpackYear x = ((x &&& 0xFFFF0000) >>> 16 : Nat) := rfl
  rw [this, Nat.shiftRight_and_distrib]
  have e : (0xFFFF0000 : Nat) >>> 16 = 2 ^ 16 - 1 := rfl
  rw [e, Nat.and_two_pow_sub_one_eq_mod, Nat.shiftRight_eq_div_pow]

theorem month_nat (x : Nat) : unpackMonth x = ((x / 256 % 256 : Nat) : Int) := by
  have : unpackMonth x = ((x &&& 0xFF00) >>> 8 : Nat) := rfl
  rw [this, Nat.shiftRight_and_distrib]
  have e : (0xFF00 : Nat) >>> 8 = 2 ^ 8 - 1 := rfl
  rw [e, Nat.and_two_pow_sub_one_eq_mod, Nat.shiftRight_eq_div_pow]

theorem day_nat (x : Nat) : unpackDay x = ((x % 256 : Nat) : Int) - 128 := by
  have : unpackDay x = ((x &&& 0xFF : Nat) : Int) - 128 := rfl
  rw [this]
  have e : (0xFF : Nat) = 2 ^ 8 - 1 := rfl
  rw [e, Nat.and_two_pow_sub_one_eq_mod]

end P117
open P117

/-- What is unpacked is what was packed, the year modulo 65536: for days in the month and, as in the table of a month, minus
such days. -/
theorem C117_unpack (y m d : Int) (hy : 0 ≤ y) (hm : 0 ≤ m ∧ m < 256) (hd : -128 ≤ d ∧ d < 128) :
    unpackDate (packDate y m d) = (y % 65536, m, d) := by
  have e : packDate y m d = ((y.toNat * 65536 + m.toNat * 256 + (d + 128).toNat : Nat) : Int) := by
    rw [pack_eq y m d hy hm hd]; omega
  unfold unpackDate
  rw [e, year_nat, month_nat, day_nat]
  refine Prod.ext ?_ (Prod.ext ?_ ?_) <;> dsimp only <;> omega

/-- C117 (partial): a date in the years before 65536 is restored.

Missing: other years, `C117_fails_year` and `C117_fails_negative`. -/
theorem C117_restored_partial (y m d : Int) (hy : 0 ≤ y ∧ y < 65536) (hm : 1 ≤ m ∧ m ≤ 12) (hd : 1 ≤ d ∧ d ≤ 31) :
    unpackDate (packDate y m d) = (y, m, d) ∧ unpackDate (packDate y m (-d)) = (y, m, -d) := by
  rw [C117_unpack y m d hy.1 (by omega) (by omega), C117_unpack y m (-d) hy.1 (by omega) (by omega),
    Int.emod_eq_of_lt hy.1 hy.2]
  exact ⟨rfl, rfl⟩

/-- The hypotheses can be met. -/
example : unpackDate (packDate 2026 11 17) = (2026, 11, 17) ∧ unpackDate (packDate 2026 11 (-17)) = (2026, 11, -17) :=
  C117_restored_partial 2026 11 17 (by decide) (by decide) (by decide)

/-- Of two dates the earlier one is the smaller integer. -/
theorem C117_order (y m d y' m' d' : Int) (hy : 0 ≤ y) (hy' : 0 ≤ y') (hm : 1 ≤ m ∧ m ≤ 12) (hm' : 1 ≤ m' ∧ m' ≤ 12)
    (hd : 1 ≤ d ∧ d ≤ 31) (hd' : 1 ≤ d' ∧ d' ≤ 31) :
    packDate y m d < packDate y' m' d' ↔ y < y' ∨ y = y' ∧ (m < m' ∨ m = m' ∧ d < d') := by
  rw [pack_eq y m d hy (by omega) (by omega), pack_eq y' m' d' hy' (by omega) (by omega)]
  omega

/-- Different dates are different integers. -/
theorem C117_injective (y m d y' m' d' : Int) (hy : 0 ≤ y) (hy' : 0 ≤ y') (hm : 1 ≤ m ∧ m ≤ 12) (hm' : 1 ≤ m' ∧ m' ≤ 12)
    (hd : 1 ≤ d ∧ d ≤ 31) (hd' : 1 ≤ d' ∧ d' ≤ 31) (h : packDate y m d = packDate y' m' d') :
    y = y' ∧ m = m' ∧ d = d' := by
  rw [pack_eq y m d hy (by omega) (by omega), pack_eq y' m' d' hy' (by omega) (by omega)] at h
  omega

/-- The hypotheses can be met. -/
example : packDate 2025 12 31 < packDate 2026 1 1 :=
  (C117_order 2025 12 31 2026 1 1 (by decide) (by decide) (by decide) (by decide) (by decide) (by decide)).2 (by decide)

/-- C117 fails: a year from 65536 on is another year when it is unpacked. -/
theorem C117_fails_year (y m d : Int) (hy : 65536 ≤ y) (hm : 1 ≤ m ∧ m ≤ 12) (hd : 1 ≤ d ∧ d ≤ 31) :
    (unpackDate (packDate y m d)).1 ≠ y := by
  rw [C117_unpack y m d (by omega) (by omega) (by omega)]
  show y % 65536 ≠ y
  omega

/-- C117 fails: no year before 0 is restored, as the unpacked one is not negative. -/
theorem C117_fails_negative (x : Int) : 0 ≤ unpackYear x := by
  unfold unpackYear
  have h : ∀ x : Int, ∃ n : Nat, Int.land x 0xFFFF0000 = n := by
    intro x
    cases x with
    | ofNat a => exact ⟨_, rfl⟩
    | negSucc a => exact ⟨_, rfl⟩
  obtain ⟨n, hn⟩ := h x
  rw [hn]
  exact Int.natCast_nonneg (n >>> 16)

/-- C117 fails: there is no table of any month of any year, whatever the first day of the week. -/
theorem C117_fails_table (month year : Int) (hm : 1 ≤ month ∧ month ≤ 12) (col : Nat) :
    monthTable month year col = none := by
  unfold monthTable
  have h := DateTime.daysInMonth_pos (y := year) hm.1 hm.2
  obtain ⟨n, hn⟩ : ∃ n, (daysInMonth month year).toNat = n + 1 := ⟨(daysInMonth month year).toNat - 1, by omega⟩
  rw [hn]
  unfold fill
  simp [setCell, List.getElem?_append]

end PyCal
