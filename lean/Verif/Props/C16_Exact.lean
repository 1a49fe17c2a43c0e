import Verif.Props.C124_Strict

/-! # C16: what parsing into an object that already holds a duration gives -/

namespace PyCal.Duration
open Spec.Dur

namespace Exact16

/-- The amounts a text names. -/
structure Amounts where
  w : Option Nat := none
  d : Option Nat := none
  h : Option Nat := none
  m : Option Nat := none
  s : Option Nat := none

/-- The object with the amounts named put in. -/
def fill (a : Amounts) (x : Duration) : Duration where
  forward := x.forward
  weeks := a.w.getD x.weeks
  days := a.d.getD x.days
  hours := a.h.getD x.hours
  minutes := a.m.getD x.minutes
  seconds := a.s.getD x.seconds

/-- The text names the amounts: the letter of a unit is in it exactly if the amount is given. -/
structure Names (t : List Char) (a : Amounts) : Prop where
  w : a.w.isSome ↔ 'W' ∈ t
  d : a.d.isSome ↔ 'D' ∈ t
  h : a.h.isSome ↔ 'H' ∈ t
  m : a.m.isSome ↔ 'M' ∈ t
  s : a.s.isSome ↔ 'S' ∈ t

/-- What a stage does: it fails for all objects, or puts in the amounts named by `t`. -/
def Puts (t : List Char) (f : Duration → Option Duration) : Prop :=
  (∀ x, f x = none) ∨ ∃ a, Names t a ∧ ∀ x, f x = some (fill a x)

theorem notMem {t : List Char} {n : Nat} (h : Digits t n) (c : Char) (hc : isDigit c = false) : c ∉ t := by
  intro hm
  rw [h.allDigits c hm] at hc
  cases hc

/-- The letters other than digits of `t ++ r` are those of `r`. -/
theorem Names.prepend {t r : List Char} {n : Nat} {a : Amounts} (h : Digits t n) (ha : Names r a) : Names (t ++ r) a := by
  constructor <;> rw [List.mem_append]
  · rw [ha.w]; simp [notMem h 'W' (by decide)]
  · rw [ha.d]; simp [notMem h 'D' (by decide)]
  · rw [ha.h]; simp [notMem h 'H' (by decide)]
  · rw [ha.m]; simp [notMem h 'M' (by decide)]
  · rw [ha.s]; simp [notMem h 'S' (by decide)]

theorem sec (n : Nat) (t : List Char) : Puts t fun x => parseSec x n t := by
  unfold parseSec
  split
  · exact Or.inr ⟨{ s := some n }, ⟨by simp, by simp, by simp, by simp, by simp⟩, fun x => rfl⟩
  · exact Or.inl fun x => rfl

/-- Reading a number first. -/
theorem Puts.number {t r : List Char} {n : Nat} {f : Duration → Option Duration} (h : Digits t n) (hf : Puts r f) :
    Puts (t ++ r) f := by
  rcases hf with hf | ⟨a, ha, hf⟩
  · exact Or.inl hf
  · exact Or.inr ⟨a, ha.prepend h, hf⟩

theorem sec_only {n : Nat} {t : List Char} {x r : Duration} (h : parseSec x n t = some r) : t = ['S'] := by
  unfold parseSec at h
  split at h
  · rfl
  · cases h

theorem min (n : Nat) (t : List Char) : Puts t fun x => parseMin x n t := by
  unfold parseMin
  split
  · rename_i t
    by_cases ht : t = []
    · subst ht
      exact Or.inr ⟨{ m := some n }, ⟨by simp, by simp, by simp, by simp, by simp⟩, fun x => rfl⟩
    · simp only [ht, if_false]
      cases hs : strtoul t with
      | none => exact Or.inl fun x => rfl
      | some p =>
        obtain ⟨k, r⟩ := p
        obtain ⟨u, hu, rfl⟩ := Strict124.strtoul_inv hs
        by_cases hr : r = ['S']
        · subst hr
          refine Or.inr ⟨{ m := some n, s := some k }, ?_, fun x => rfl⟩
          have := notMem hu
          constructor <;> simp [this 'W' (by decide), this 'D' (by decide), this 'H' (by decide)]
        · refine Or.inl fun x => ?_
          simp only
          cases he : parseSec { x with minutes := n } k r with
          | none => rfl
          | some y => exact absurd (sec_only he) hr
  · exact sec n t

theorem min_only {n : Nat} {t : List Char} {x r : Duration} (h : parseMin x n t = some r) : 'H' ∉ t ∧ 'D' ∉ t ∧ 'W' ∉ t := by
  unfold parseMin at h
  split at h
  · rename_i t
    by_cases ht : t = []
    · subst ht; simp
    · simp only [ht, if_false] at h
      cases hs : strtoul t with
      | none => rw [hs] at h; cases h
      | some p =>
        obtain ⟨k, r⟩ := p
        rw [hs] at h
        obtain ⟨u, hu, rfl⟩ := Strict124.strtoul_inv hs
        have := notMem hu
        rw [sec_only h]
        simp [this 'W' (by decide), this 'D' (by decide), this 'H' (by decide)]
  · rw [sec_only h]; simp

theorem time (strict : Bool) (t : List Char) : Puts t fun x => parseTime strict x t := by
  unfold parseTime
  by_cases ht : t = []
  · subst ht
    cases strict
    · exact Or.inr ⟨{}, ⟨by simp, by simp, by simp, by simp, by simp⟩, fun x => rfl⟩
    · exact Or.inl fun x => rfl
  · simp only [ht, if_false]
    cases hs : strtoul t with
    | none => exact Or.inl fun x => rfl
    | some p =>
      obtain ⟨n, r⟩ := p
      obtain ⟨u, hu, rfl⟩ := Strict124.strtoul_inv hs
      refine Puts.number hu ?_
      by_cases hr : ∃ q, r = 'H' :: q
      · obtain ⟨q, rfl⟩ := hr
        by_cases hq : q = []
        · subst hq
          exact Or.inr ⟨{ h := some n }, ⟨by simp, by simp, by simp, by simp, by simp⟩, fun x => rfl⟩
        · simp only [hq, if_false]
          cases hs' : strtoul q with
          | none => exact Or.inl fun x => rfl
          | some p =>
            obtain ⟨k, r⟩ := p
            obtain ⟨v, hv, rfl⟩ := Strict124.strtoul_inv hs'
            have hv' := notMem hv
            rcases min k r with hm | ⟨a, ha, hm⟩
            · exact Or.inl fun x => hm _
            · have h3 := min_only (hm (ofSeconds 0))
              have h4 : a.h = none := by
                have := ha.h
                cases ha' : a.h
                · rfl
                · rw [ha'] at this; exact absurd (this.1 rfl) h3.1
              refine Or.inr ⟨{ a with h := some n }, ?_, fun x => ?_⟩
              · constructor <;> simp [ha.w, ha.d, ha.m, ha.s, hv' 'W' (by decide), hv' 'D' (by decide),
                  hv' 'M' (by decide), hv' 'S' (by decide)]
              · rw [hm]; simp [fill, h4]
      · have : (fun x : Duration => match (some (n, r) : Option (Nat × List Char)) with
            | none => none
            | some (num, 'H' :: s') =>
              let d := { x with hours := num }
              if s' = [] then some d
              else match strtoul s' with
                | none => none
                | some (num', s'') => parseMin d num' s''
            | some (num, s') => parseMin x num s') = fun x => parseMin x n r := by
          funext x
          split
          · rename_i h; cases h
          · rename_i h; cases h; exact absurd ⟨_, rfl⟩ hr
          · rename_i h; cases h; rfl
        have k := min n r
        rw [← this] at k
        exact k

theorem time_only {strict : Bool} {t : List Char} {x r : Duration} (h : parseTime strict x t = some r) :
    'D' ∉ t ∧ 'W' ∉ t := by
  rcases time strict t with ht | ⟨a, ha, ht⟩
  · cases (ht x).symm.trans h
  · have hd : ∀ y, (fill a y).days = y.days ∧ (fill a y).weeks = y.weeks := by
      intro y
      have hm : ∀ (z : Duration) k u w, parseMin z k u = some w → w.days = z.days ∧ w.weeks = z.weeks := by
        intro z k u w hw
        have hsec : ∀ (z : Duration) k u w, parseSec z k u = some w → w.days = z.days ∧ w.weeks = z.weeks := by
          intro z k u w hw
          unfold parseSec at hw
          split at hw
          · cases hw; exact ⟨rfl, rfl⟩
          · cases hw
        unfold parseMin at hw
        split at hw
        · simp only at hw
          split at hw
          · cases hw; exact ⟨rfl, rfl⟩
          · split at hw
            · cases hw
            · have := hsec _ _ _ _ hw
              exact this
        · exact hsec _ _ _ _ hw
      have hy := ht y
      unfold parseTime at hy
      split at hy
      · split at hy
        · cases hy
        · simp only [Option.some.injEq] at hy
          rw [← hy]; exact ⟨rfl, rfl⟩
      · split at hy
        · cases hy
        · simp only at hy
          split at hy
          · simp only [Option.some.injEq] at hy
            rw [← hy]; exact ⟨rfl, rfl⟩
          · split at hy
            · cases hy
            · have := hm _ _ _ _ hy
              exact this
        · exact hm _ _ _ _ hy
    refine ⟨fun hD => ?_, fun hW => ?_⟩
    · obtain ⟨n, hn⟩ := Option.isSome_iff_exists.1 (ha.d.2 hD)
      have := (hd ⟨true, 0, n + 1, 0, 0, 0⟩).1
      simp [fill, hn] at this
    · obtain ⟨n, hn⟩ := Option.isSome_iff_exists.1 (ha.w.2 hW)
      have := (hd ⟨true, n + 1, 0, 0, 0, 0⟩).2
      simp [fill, hn] at this

theorem date (strict : Bool) (n : Nat) (t : List Char) (hs : strict = true ∨ 'W' ∉ t) :
    Puts t fun x => parseDate strict x n t := by
  unfold parseDate
  split
  · rename_i t
    have hst : strict = true := by simpa using hs
    subst hst
    by_cases ht : t = []
    · subst ht
      exact Or.inr ⟨{ w := some n }, ⟨by simp, by simp, by simp, by simp, by simp⟩, fun x => rfl⟩
    · exact Or.inl fun x => by simp [ht]
  · exact Or.inr ⟨{ d := some n }, ⟨by simp, by simp, by simp, by simp, by simp⟩, fun x => rfl⟩
  · rename_i t
    rcases time strict t with ht | ⟨a, ha, ht⟩
    · exact Or.inl fun x => ht _
    · have h3 := time_only (ht (ofSeconds 0))
      have h4 : a.d = none := by
        have := ha.d
        cases ha' : a.d
        · rfl
        · rw [ha'] at this; exact absurd (this.1 rfl) h3.1
      refine Or.inr ⟨{ a with d := some n }, ?_, fun x => ?_⟩
      · constructor <;> simp [ha.w, ha.h, ha.m, ha.s]
      · rw [ht]; simp [fill, h4]
  · exact Or.inl fun x => rfl

theorem body (strict : Bool) (t : List Char) (hs : strict = true ∨ 'W' ∉ t) : Puts t fun x => parseBody strict x t := by
  have cons : ∀ {c : Char} {t : List Char} {f : Duration → Option Duration}, c ∉ ['W', 'D', 'H', 'M', 'S'] →
      Puts t f → Puts (c :: t) f := by
    intro c t f hc hf
    simp only [List.mem_cons, List.not_mem_nil, or_false, not_or] at hc
    obtain ⟨h1, h2, h3, h4, h5⟩ := hc
    rcases hf with hf | ⟨a, ha, hf⟩
    · exact Or.inl hf
    · refine Or.inr ⟨a, ?_, hf⟩
      constructor <;> simp [ha.w, ha.d, ha.h, ha.m, ha.s, Ne.symm h1, Ne.symm h2, Ne.symm h3, Ne.symm h4, Ne.symm h5]
  unfold parseBody
  split
  · exact cons (by decide) (cons (by decide) (time strict _))
  · refine cons (by decide) ?_
    rename_i t _
    cases h : strtoul t with
    | none => exact Or.inl fun x => rfl
    | some p =>
      obtain ⟨n, r⟩ := p
      obtain ⟨u, hu, rfl⟩ := Strict124.strtoul_inv h
      refine Puts.number hu (date strict n r ?_)
      rcases hs with hs | hs
      · exact Or.inl hs
      · exact Or.inr fun hw => hs (by simp [hw])
  · exact Or.inl fun x => rfl

end Exact16
open Exact16

/-- C16 (partial): what parsing gives for every prior state.  A text is refused whatever the object held, or it gives the
direction and amounts for the units whose letter is in it, and the object keeps what it held of the other units.

Needed: strict parsing, or a text without weeks (after a number of weeks anything is accepted, `C124_fails_duration`). -/
theorem C16_exact_partial (strict : Bool) (t : List Char) (hs : strict = true ∨ 'W' ∉ t) :
    (∀ x, parse strict x t = none) ∨
    ∃ w d h m s : Option Nat,
      (w.isSome ↔ 'W' ∈ t) ∧ (d.isSome ↔ 'D' ∈ t) ∧ (h.isSome ↔ 'H' ∈ t) ∧ (m.isSome ↔ 'M' ∈ t) ∧
      (s.isSome ↔ 'S' ∈ t) ∧
      ∀ x, parse strict x t = some ⟨t.head? != some '-', w.getD x.weeks, d.getD x.days, h.getD x.hours,
        m.getD x.minutes, s.getD x.seconds⟩ := by
  have key : ∀ (f : Bool) (t' : List Char), (strict = true ∨ 'W' ∉ t') →
      (∀ x : Duration, parseBody strict { x with forward := f } t' = none) ∨
      ∃ a, Names t' a ∧ ∀ x : Duration, parseBody strict { x with forward := f } t' = some (fill a { x with forward := f }) := by
    intro f t' h
    rcases body strict t' h with hb | ⟨a, ha, hb⟩
    · exact Or.inl fun x => hb _
    · exact Or.inr ⟨a, ha, fun x => hb _⟩
  unfold parse
  split
  · rename_i t
    rcases key false t (by simpa using hs) with h | ⟨a, ha, h⟩
    · exact Or.inl h
    · refine Or.inr ⟨a.w, a.d, a.h, a.m, a.s, ?_⟩
      exact ⟨by simp [ha.w], by simp [ha.d], by simp [ha.h], by simp [ha.m], by simp [ha.s], fun x => h x⟩
  · rename_i t
    rcases key true t (by simpa using hs) with h | ⟨a, ha, h⟩
    · exact Or.inl h
    · refine Or.inr ⟨a.w, a.d, a.h, a.m, a.s, ?_⟩
      exact ⟨by simp [ha.w], by simp [ha.d], by simp [ha.h], by simp [ha.m], by simp [ha.s], fun x => h x⟩
  · rename_i h1 h2
    rcases key true t hs with h | ⟨a, ha, h⟩
    · exact Or.inl h
    · refine Or.inr ⟨a.w, a.d, a.h, a.m, a.s, ha.w, ha.d, ha.h, ha.m, ha.s, fun x => ?_⟩
      have : (t.head? != some '-') = true := by
        cases t with
        | nil => rfl
        | cons c t =>
          simp only [List.head?_cons, bne_iff_ne, ne_eq, Option.some.injEq]
          rintro rfl
          exact h1 t rfl
      rw [this]
      exact h x

/-- A text with hours, read into an object that holds a day and a minute. -/
example : parse true ⟨true, 0, 1, 0, 1, 0⟩ "-PT2H".toList = some ⟨false, 0, 1, 2, 1, 0⟩ ∧
    'W' ∉ "-PT2H".toList := by decide +kernel

end PyCal.Duration
