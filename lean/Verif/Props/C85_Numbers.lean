import Verif.Props.C85_PropertyJSON
import Verif.Props.C114_Numbers

/-!
# Properties in jCal: numbers in other forms
-/

namespace PyCal
open Num PropJSON ValueType

/-- The float with the value of a whole number. -/
def wholeNum (n : Int) : PyNum := .fin (decide (n < 0)) |(n : ℚ)|

namespace N85

theorem round_int (m : ℤ) : roundEven (m : ℚ) = m := F114.round_unique (by norm_num)

/-- Whole numbers up to 2⁵³ are doubles. -/
theorem double_nat (k : ℕ) (h : k ≤ 2 ^ 53) : double (k : ℚ) = k := by
  unfold double
  split
  · next h0 => exact h0.symm
  · next h0 =>
    have hk : (0 : ℚ) < k := lt_of_le_of_ne (by positivity) (Ne.symm h0)
    generalize he : Int.log 2 (k : ℚ) = e
    have h1 : ((2 : ℕ) : ℚ) ^ e ≤ k := (Int.zpow_le_iff_le_log (b := 2) (by norm_num) hk).2 (by rw [he])
    have h2 : e ≤ 53 := by
      have : ((2 : ℕ) : ℚ) ^ e ≤ ((2 : ℕ) : ℚ) ^ (53 : ℤ) := h1.trans (by exact_mod_cast h)
      exact (zpow_le_zpow_iff_right₀ (by norm_num)).1 this
    have h3 : ∃ m : ℤ, (k : ℚ) / 2 ^ (e - 52) = m := by
      rcases Int.lt_or_eq_of_le h2 with h2 | rfl
      · obtain ⟨j, hj⟩ := Int.eq_ofNat_of_zero_le (show 0 ≤ 52 - e by omega)
        refine ⟨k * 2 ^ j, ?_⟩
        rw [show e - 52 = -(j : ℤ) by omega, zpow_neg, zpow_natCast]
        push_cast
        field_simp
      · have h4 : k = 2 ^ 53 := by
          have : (2 : ℚ) ^ 53 ≤ k := by exact_mod_cast h1
          have : 2 ^ 53 ≤ k := by exact_mod_cast this
          omega
        refine ⟨2 ^ 52, ?_⟩
        rw [h4]
        push_cast
        norm_num
    obtain ⟨m, hm⟩ := h3
    rw [hm, round_int, ← hm]
    field_simp

theorem ofInt_exact (n : ℤ) (h : n.natAbs ≤ 2 ^ 53) : ofInt n = wholeNum n := by
  unfold ofInt wholeNum
  rw [double_nat _ h]
  congr 1
  rw [← Int.cast_natCast, Int.natCast_natAbs, Int.cast_abs]

/-- One value in the place of another, which is read as the same. -/
theorem swap {T : Tables} {sr strict : Bool} {name : List Char} {ms : List (List Char × JParam)} {ty : Option String} {d d' : JData}
    {q : Prop'} (h : ∀ t x, q.values = [x] → readValue sr strict t d = some x → readValue sr strict t d' = some x)
    (hq : readProp T sr strict ⟨name, ms, ty, [d]⟩ = some q) : readProp T sr strict ⟨name, ms, ty, [d']⟩ = some q := by
  unfold readProp at hq ⊢
  dsimp only at hq ⊢
  cases hp : readParams ms with
  | none => rw [hp] at hq; cases hq
  | some ps =>
    cases ty with
    | none => rw [hp] at hq; cases hq
    | some v =>
      rw [hp] at hq
      dsimp only at hq ⊢
      rw [Option.map_eq_some_iff] at hq ⊢
      obtain ⟨vs, h1, rfl⟩ := hq
      refine ⟨vs, ?_, rfl⟩
      split at h1
      · rename_i hm
        rw [if_pos hm]
        simp only [List.mapM_cons, List.mapM_nil, Option.pure_def, Option.bind_eq_bind, Option.bind_eq_some_iff,
          Option.bind_some, Option.some.injEq] at h1 ⊢
        obtain ⟨x, hx, h3⟩ := h1
        exact ⟨x, h _ _ h3.symm hx, h3⟩
      · rename_i hm
        rw [if_neg hm]
        simp only [List.head?_cons, Option.bind_some, Option.map_eq_some_iff] at h1 ⊢
        obtain ⟨x, hx, h3⟩ := h1
        exact ⟨x, h _ _ h3.symm hx, h3⟩

theorem float_type {sr strict : Bool} {t : VType} {x y : PyNum} (h : readValue sr strict t (.real x) = some (.float y)) :
    t = .float ∧ y = x := by
  unfold readValue at h
  split at h <;> simp_all

theorem geo_type {sr strict : Bool} {t : VType} {l : List PyNum} {y : PVal} (h : readValue sr strict t (.reals l) = some y) :
    t = .geo ∧ y = .geo l := by
  unfold readValue at h
  split at h <;> simp_all

end N85
open N85

/-- C85, numbers without a fraction: where a FLOAT with the value `n` is read, the whole number `n` is read as the same. -/
theorem C85_wholeNumber (T : Tables) (sr strict : Bool) (name : List Char) (ms : List (List Char × JParam)) (ty : Option String) (n : Int)
    (hn : n.natAbs ≤ 2 ^ 53) (q : Prop') (hq : readProp T sr strict ⟨name, ms, ty, [.real (wholeNum n)]⟩ = some q)
    (hf : ∃ x, q.values = [.float x]) : readProp T sr strict ⟨name, ms, ty, [.item (.num n)]⟩ = some q := by
  refine swap (fun t x hx h => ?_) hq
  obtain ⟨y, hy⟩ := hf
  rw [hy, List.cons.injEq] at hx
  obtain ⟨rfl, -⟩ := hx
  obtain ⟨rfl, rfl⟩ := float_type h
  show some (PVal.float (ofInt n)) = _
  rw [ofInt_exact n hn]

/-- C85, coordinates without a fraction: likewise. -/
theorem C85_wholeGeo (T : Tables) (sr strict : Bool) (name : List Char) (ms : List (List Char × JParam)) (ty : Option String) (ns : List Int)
    (hn : ∀ n ∈ ns, n.natAbs ≤ 2 ^ 53) (q : Prop')
    (hq : readProp T sr strict ⟨name, ms, ty, [.reals (ns.map wholeNum)]⟩ = some q) :
    readProp T sr strict ⟨name, ms, ty, [.arr (ns.map .num)]⟩ = some q := by
  refine swap (fun t x _ h => ?_) hq
  obtain ⟨rfl, rfl⟩ := geo_type h
  have : ∀ (f : JItem → Option PyNum) (ns : List Int), (∀ n ∈ ns, f (.num n) = some (wholeNum n)) →
      (ns.map JItem.num).mapM f = some (ns.map wholeNum) := by
    intro f ns hn
    induction ns with
    | nil => rfl
    | cons n ns ih =>
      rw [List.map_cons, List.mapM_cons, ih fun m hm => hn m (by simp [hm]), hn n (by simp)]
      rfl
  show Option.map _ _ = _
  rw [this _ ns fun n hm => congrArg some (ofInt_exact n (hn n hm))]
  rfl

/-- C85, numbers as texts: where a FLOAT is read, a FLOAT of RFC 5545 as a text is read as the double next to the number it says. -/
theorem C85_floatText (T : Tables) (sr strict : Bool) (name : List Char) (ms : List (List Char × JParam)) (ty : Option String)
    (s : List Char) (neg : Bool) (r : ℚ) (hs : Spec.FloatText s neg r) (q : Prop')
    (hq : readProp T sr strict ⟨name, ms, ty, [.real (.fin neg (double r))]⟩ = some q) (hf : ∃ x, q.values = [.float x]) :
    readProp T sr strict ⟨name, ms, ty, [.item (.str s)]⟩ = some q := by
  refine swap (fun t x hx h => ?_) hq
  obtain ⟨y, hy⟩ := hf
  rw [hy, List.cons.injEq] at hx
  obtain ⟨rfl, -⟩ := hx
  obtain ⟨rfl, rfl⟩ := float_type h
  show Option.map _ (readFloat s) = _
  rw [F114.read_text hs]
  rfl

/-- The conditions are met: a FLOAT, and what is read for -3 in the three forms. -/
example : readProp ical true true ⟨"x-a".toList, [], some "float", [.real (.fin true 3)]⟩ =
      some ⟨none, "X-A".toList, [⟨"VALUE".toList, ["FLOAT".toList]⟩], .float, [.float (.fin true 3)]⟩ ∧
    readProp ical true true ⟨"x-a".toList, [], some "float", [.item (.num (-3))]⟩ =
      some ⟨none, "X-A".toList, [⟨"VALUE".toList, ["FLOAT".toList]⟩], .float, [.float (.fin true 3)]⟩ ∧
    readProp ical true true ⟨"x-a".toList, [], some "float", [.item (.str "-3.0".toList)]⟩ =
      some ⟨none, "X-A".toList, [⟨"VALUE".toList, ["FLOAT".toList]⟩], .float, [.float (.fin true 3)]⟩ := by
  have h : ∀ x, readProp ical true true ⟨"x-a".toList, [], some "float", [.real x]⟩ =
      some ⟨none, "X-A".toList, [⟨"VALUE".toList, ["FLOAT".toList]⟩], .float, [.float x]⟩ := by
    intro x
    have h1 : PropText.upper "x-a".toList = "X-A".toList := by decide +kernel
    have h2 : jsonValue ical (String.ofList "X-A".toList) "float" = some "FLOAT" := by decide +kernel
    have h3 : determine ical (String.ofList "X-A".toList) (some "FLOAT") = .float := by decide +kernel
    have h4 : String.ofList "X-A".toList ∉ ical.multi := by decide +kernel
    have h5 : valueType ical (String.ofList "X-A".toList) false .float = .float := by decide +kernel
    have h6 : addValue [] (some "FLOAT") = [⟨"VALUE".toList, ["FLOAT".toList]⟩] := by decide +kernel
    have h7 : (valueParam [⟨"VALUE".toList, ["FLOAT".toList]⟩]).map String.ofList = some "FLOAT" := by decide +kernel
    simp only [readProp, readParams, List.mapM_nil, pure, h1, h2, h6, h7, h3, if_neg h4, h5, List.head?_cons, Option.bind_some]
    rfl
  refine ⟨h _, C85_wholeNumber _ _ _ _ _ _ (-3) (by decide) _ ?_ ⟨_, rfl⟩, C85_floatText _ _ _ _ _ _ _ true 3 ?_ _ ?_ ⟨_, rfl⟩⟩
  · rw [h, wholeNum]; norm_num
  · exact ⟨"3.0".toList, .inr ⟨['3'], ['0'], 3, 0, .one 3 (by decide), .one 0 (by decide), rfl, by norm_num⟩, .inr ⟨rfl, rfl⟩⟩
  · rw [h, show double 3 = 3 from double_nat 3 (by norm_num)]

end PyCal
