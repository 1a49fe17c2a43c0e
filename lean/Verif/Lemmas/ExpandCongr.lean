import Verif.Props.C54_Spans
import Verif.Props.C28_Expansion

/-!
# What an expansion depends on

The expansion of a rule depends on the range and on UNTIL only through the comparisons with the dates it meets.
-/

namespace PyCal.Rule
open DateTime

variable {env : TzEnv} {r : Rule} {s : DateTime} {range range' : Period}

/-- The dates that expansions give. -/
def Meets (s t : DateTime) : Prop := t.Valid ∧ SameKind t s

theorem meets_raw (hv : s.Valid) {k : Nat} (h : (r.raw s k).invalid = false) : Meets s (r.raw s k) :=
  ⟨(raw_valid_iff hv k).mp h, r.raw_kind s k⟩

/-- The loop of the simple expansion. -/
theorem simpleLoop_congr (hv : s.Valid) {l l' : Option DateTime} {max : Option Int}
    (hA : ∀ t, Meets s t → range.isDateAfter env t = range'.isDateAfter env t)
    (hU : ∀ t, Meets s t → pastUntil env l t = pastUntil env l' t) :
    ∀ (fuel k : Nat) (ctr : Int) (items : List DateTime), (r.raw s k).invalid = false →
      simpleLoop env r l range max fuel (r.raw s k) ctr items = simpleLoop env r l' range' max fuel (r.raw s k) ctr items
  | 0, _, _, _, _ => rfl
  | n + 1, k, ctr, items, hk => by
    rw [simpleLoop, simpleLoop, hA _ (meets_raw hv hk)]
    cases hn : r.nextValid n (r.raw s k) with
    | none => rfl
    | some t' =>
      obtain ⟨k', _, rfl, hi, _⟩ := nextValid_spec n k t' hn
      simp only [hU _ (meets_raw hv hi), simpleLoop_congr hv hA hU n k' _ _ hi]

theorem simpleLoop_meets (hv : s.Valid) {l : Option DateTime} {max : Option Int} :
    ∀ (fuel k : Nat) (ctr : Int) (items items' : List DateTime) (full : Bool), (r.raw s k).invalid = false →
      (∀ t ∈ items, Meets s t) → simpleLoop env r l range max fuel (r.raw s k) ctr items = some (.done items' full) →
      ∀ t ∈ items', Meets s t
  | 0, _, _, _, _, _, _, _, h => by simp [simpleLoop] at h
  | n + 1, k, ctr, items, items', full, hk, hi, h => by
    have hm := meets_raw hv hk
    have hi' : ∀ t ∈ items ++ [r.raw s k], Meets s t := by
      intro t ht
      rcases List.mem_append.mp ht with h | h
      · exact hi t h
      · rw [List.mem_singleton.mp h]; exact hm
    rw [simpleLoop] at h
    split at h
    · cases h; exact hi
    · split at h
      · cases h
      · split at h
        · cases h
        · next t' hn =>
          obtain ⟨k', _, rfl, hi2, _⟩ := nextValid_spec n k t' hn
          split at h
          · split at h
            · cases h; exact hi'
            · exact simpleLoop_meets hv n k' _ _ _ _ hi2 hi' h
          · split at h
            · cases h; exact hi'
            · exact simpleLoop_meets hv n k' _ _ _ _ hi2 hi' h

/-- The inner loop. -/
theorem setLoop_congr {l l' : Option DateTime} {max : Option Int}
    (hA : ∀ t, Meets s t → range.isDateAfter env t = range'.isDateAfter env t)
    (hU : ∀ t, Meets s t → pastUntil env l t = pastUntil env l' t) :
    ∀ (ts : List DateTime) (ctr : Int) (items : List DateTime), (∀ t ∈ ts, Meets s t) →
      setLoop env r l s range max ts ctr items = setLoop env r l' s range' max ts ctr items
  | [], _, _, _ => rfl
  | t :: ts, ctr, items, h => by
    have ih := setLoop_congr (l := l) (l' := l') (max := max) hA hU ts
    have ht := h t (by simp)
    have hts : ∀ t ∈ ts, Meets s t := fun t ht => h t (by simp [ht])
    rw [setLoop, setLoop, hA t ht, hU t ht]
    simp only [ih _ _ hts]

/-- What the inner loop gives. -/
def SetResult.items : SetResult → List DateTime
  | .next _ items => items
  | .stop (.done items _) => items
  | .stop (.tooMany items) => items

theorem setLoop_meets {l : Option DateTime} {max : Option Int} :
    ∀ (ts : List DateTime) (ctr : Int) (items : List DateTime), (∀ t ∈ ts, Meets s t) → (∀ t ∈ items, Meets s t) →
      ∀ t ∈ (setLoop env r l s range max ts ctr items).items, Meets s t
  | [], _, _, _, hi => hi
  | t :: ts, ctr, items, h, hi => by
    have ih := fun c i => setLoop_meets (l := l) (max := max) ts c i (fun t ht => h t (by simp [ht]))
    have hi' : ∀ x ∈ items ++ [t], Meets s x := by
      intro x hx
      rcases List.mem_append.mp hx with hx | hx
      · exact hi x hx
      · rw [List.mem_singleton.mp hx]; exact h t (by simp)
    rw [setLoop]
    split
    · exact ih _ _ hi
    · split
      · exact hi
      · split
        · exact hi
        · split
          · exact ih _ _ hi
          · split
            · exact hi'
            · split
              · split
                · exact hi'
                · exact ih _ _ hi'
              · exact ih _ _ hi'

theorem meets_sorted (hT : Tame r s) (k : Nat) : ∀ t ∈ sortByPosix env (r.candidates env (r.raw s k)), Meets s t := by
  intro t ht
  have ht : t ∈ r.candidates env (r.raw s k) := by
    unfold sortByPosix at ht
    exact (List.mem_insertionSort _).mp ht
  obtain ⟨a, b, _⟩ := cand_spec hT ht
  exact ⟨a, b⟩

theorem complexLoop_congr (hT : Tame r s) {l l' : Option DateTime} {max : Option Int}
    (hA : ∀ t, Meets s t → range.isDateAfter env t = range'.isDateAfter env t)
    (hR : ∀ k, range.isDateAfter env (r.raw s k) = range'.isDateAfter env (r.raw s k))
    (hU : ∀ t, Meets s t → pastUntil env l t = pastUntil env l' t) :
    ∀ (fuel k : Nat) (ctr : Int) (items : List DateTime),
      complexLoop env r l s range max fuel (r.raw s k) ctr items = complexLoop env r l' s range' max fuel (r.raw s k) ctr items
  | 0, _, _, _ => rfl
  | n + 1, k, ctr, items => by
    rw [complexLoop, complexLoop, setLoop_congr hA hU _ _ _ (meets_sorted hT k), hR k]
    have : r.step (r.raw s k) = r.raw s (k + 1) := rfl
    simp only [this, complexLoop_congr hT hA hR hU n (k + 1)]

theorem complexLoop_meets (hT : Tame r s) {l : Option DateTime} {max : Option Int} :
    ∀ (fuel k : Nat) (ctr : Int) (items items' : List DateTime) (full : Bool), (∀ t ∈ items, Meets s t) →
      complexLoop env r l s range max fuel (r.raw s k) ctr items = some (.done items' full) → ∀ t ∈ items', Meets s t
  | 0, _, _, _, _, _, _, h => by simp [complexLoop] at h
  | n + 1, k, ctr, items, items', full, hi, h => by
    have hm := setLoop_meets (env := env) (range := range) (r := r) (l := l) (max := max) _ ctr items
      (meets_sorted (env := env) hT k) hi
    rw [complexLoop] at h
    split at h
    · next o ho =>
      rw [ho] at hm
      cases h
      exact hm
    · next c i ho =>
      rw [ho] at hm
      split at h
      · cases h; exact hm
      · exact complexLoop_meets hT n (k + 1) _ _ _ _ hm h

/-- The rule with another UNTIL. -/
def withUntil (r : Rule) (u : Option DateTime) : Rule := { r with untilDate := u }

theorem nextValid_withUntil (u : Option DateTime) : ∀ n t, (r.withUntil u).nextValid n t = r.nextValid n t
  | 0, _ => rfl
  | n + 1, t => by
    have e : (r.withUntil u).step t = r.step t := rfl
    rw [nextValid, nextValid, e, nextValid_withUntil u n]

theorem simpleLoop_withUntil (u : Option DateTime) (l : Option DateTime) (max : Option Int) :
    ∀ fuel t ctr items, simpleLoop env (r.withUntil u) l range max fuel t ctr items = simpleLoop env r l range max fuel t ctr items
  | 0, _, _, _ => rfl
  | n + 1, t, ctr, items => by
    have e1 : (r.withUntil u).useCount = r.useCount := rfl
    have e2 : (r.withUntil u).count = r.count := rfl
    rw [simpleLoop, simpleLoop, nextValid_withUntil, e1, e2]
    simp only [simpleLoop_withUntil u l max n]

theorem setLoop_withUntil (u : Option DateTime) (l : Option DateTime) (max : Option Int) :
    ∀ ts ctr items, setLoop env (r.withUntil u) l s range max ts ctr items = setLoop env r l s range max ts ctr items
  | [], _, _ => rfl
  | t :: ts, ctr, items => by
    have e1 : (r.withUntil u).useCount = r.useCount := rfl
    have e2 : (r.withUntil u).count = r.count := rfl
    rw [setLoop, setLoop, e1, e2]
    simp only [setLoop_withUntil u l max ts]

theorem complexLoop_withUntil (u : Option DateTime) (l : Option DateTime) (max : Option Int) :
    ∀ fuel t ctr items, complexLoop env (r.withUntil u) l s range max fuel t ctr items =
      complexLoop env r l s range max fuel t ctr items
  | 0, _, _, _ => rfl
  | n + 1, t, ctr, items => by
    have e1 : (r.withUntil u).candidates env t = r.candidates env t := rfl
    have e2 : (r.withUntil u).step t = r.step t := rfl
    rw [complexLoop, complexLoop, e1, e2, setLoop_withUntil]
    simp only [complexLoop_withUntil u l max n]

/-- Expansions with comparisons that give the same are the same. -/
theorem expandFresh_congr (hT : Tame r s) {off : Int} {u : Option DateTime}
    (hA : ∀ t, Meets s t → range.isDateAfter env t = range'.isDateAfter env t)
    (hW : ∀ t, Meets s t → range.isDateWithin env t = range'.isDateWithin env t)
    (hR : r.hasBy = true → ∀ k, range.isDateAfter env (r.raw s k) = range'.isDateAfter env (r.raw s k))
    (hU : ∀ z, tzTruthy z = false → ∀ t, Meets s t →
      pastUntil env (r.untilLimit s off z) t = pastUntil env ((r.withUntil u).untilLimit s off z) t) (fuel : Nat) :
    r.expandFresh env fuel s range off = (r.withUntil u).expandFresh env fuel s range' off := by
  have hs : s.normalise = s := normalise_of_valid hT.valid
  have h0 : (r.raw s 0).invalid = false := (raw_valid_iff hT.valid 0).mpr hT.valid
  have hraw : r.expandRaw env fuel s range off none = (r.withUntil u).expandRaw env fuel s range' off none := by
    unfold expandRaw
    have hb : (r.withUntil u).hasBy = r.hasBy := rfl
    rw [hb]
    split
    · unfold simpleExpand
      rw [simpleLoop_withUntil]
      exact simpleLoop_congr hT.valid hA (hU _ (by decide)) fuel 0 _ _ h0
    · next hn =>
      have hb' : r.hasBy = true := by simpa using hn
      unfold complexExpand
      have e1 : (r.withUntil u).useCount = r.useCount := rfl
      have e2 : (r.withUntil u).count = r.count := rfl
      rw [e1, e2]
      split
      · rfl
      · rw [complexLoop_withUntil]
        exact complexLoop_congr hT hA (hR hb') (hU _ (by decide)) fuel 0 _ _
  have hmeets : ∀ items full, r.expandRaw env fuel s range off none = some (.done items full) → ∀ t ∈ items, Meets s t := by
    intro items full h
    unfold expandRaw at h
    split at h
    · exact simpleLoop_meets hT.valid fuel 0 _ _ _ _ h0 (by simp) h
    · unfold complexExpand at h
      split at h
      · cases h; simp
      · exact complexLoop_meets hT fuel 0 _ _ _ _ (by simp) h
  unfold expandFresh expand
  simp only [hs, Bool.false_and, Bool.false_eq_true, if_false, Bool.not_false, Bool.true_or, if_true]
  rw [← hraw]
  rcases h : r.expandRaw env fuel s range off none with _ | (⟨items, full⟩ | _)
  · rfl
  · have hm := hmeets _ _ h
    simp only [Option.map_some, answer]
    congr 2
    · exact List.filter_congr fun t ht => hW t (hm t ht)
    · congr 1
      rw [Bool.eq_iff_iff, List.any_eq_true, List.any_eq_true]
      constructor
      · rintro ⟨t, ht, h⟩; exact ⟨t, ht, by rw [← hW t (hm t ht)]; exact h⟩
      · rintro ⟨t, ht, h⟩; exact ⟨t, ht, by rw [hW t (hm t ht)]; exact h⟩
  · rfl

end PyCal.Rule
