import Verif.Model.Timezone

/-!
# The number of iterations does not matter

Loops that may not end are modelled with a number `fuel` of iterations, and `none` for "still
running".  Once there is a result, more iterations give the same result.
-/

namespace PyCal
open DateTime (TzEnv)

namespace Rule

theorem nextValid_mono {r : Rule} : ∀ {n m : Nat} {t u : DateTime}, n ≤ m →
    r.nextValid n t = some u → r.nextValid m t = some u
  | 0, _, _, _, _, h => by simp [nextValid] at h
  | n + 1, 0, _, _, hle, _ => by omega
  | n + 1, m + 1, t, u, hle, h => by
    rw [nextValid] at h ⊢
    split at h
    · next hc =>
      rw [if_pos hc]
      exact nextValid_mono (by omega) h
    · next hc =>
      rw [if_neg hc]
      exact h

theorem simpleLoop_mono {env : TzEnv} {r : Rule} {limit : Option DateTime} {range : Period}
    {max : Option Int} : ∀ {n m : Nat} {t : DateTime} {ctr : Int} {items : List DateTime}
    {o : Outcome}, n ≤ m → simpleLoop env r limit range max n t ctr items = some o →
    simpleLoop env r limit range max m t ctr items = some o
  | 0, _, _, _, _, _, _, h => by simp [simpleLoop] at h
  | n + 1, 0, _, _, _, _, hle, _ => by omega
  | n + 1, m + 1, t, ctr, items, o, hle, h => by
    rw [simpleLoop] at h ⊢
    split at h
    · next h1 => rw [if_pos h1]; exact h
    next h1 =>
    rw [if_neg h1]
    split at h
    · next h2 => rw [if_pos h2]; exact h
    next h2 =>
    rw [if_neg h2]
    split at h
    · simp at h
    next t' ht' =>
    rw [nextValid_mono (by omega) ht']
    simp only
    split at h
    · next h3 =>
      rw [if_pos h3]
      split at h
      · next h4 => rw [if_pos h4]; exact h
      · next h4 => rw [if_neg h4]; exact simpleLoop_mono (by omega) h
    · next h3 =>
      rw [if_neg h3]
      split at h
      · next h4 => rw [if_pos h4]; exact h
      · next h4 => rw [if_neg h4]; exact simpleLoop_mono (by omega) h

theorem complexLoop_mono {env : TzEnv} {r : Rule} {limit : Option DateTime} {start : DateTime}
    {range : Period} {max : Option Int} : ∀ {n m : Nat} {t : DateTime} {ctr : Int}
    {items : List DateTime} {o : Outcome}, n ≤ m →
    complexLoop env r limit start range max n t ctr items = some o →
    complexLoop env r limit start range max m t ctr items = some o
  | 0, _, _, _, _, _, _, h => by simp [complexLoop] at h
  | n + 1, 0, _, _, _, _, hle, _ => by omega
  | n + 1, m + 1, t, ctr, items, o, hle, h => by
    rw [complexLoop] at h ⊢
    split at h
    · exact h
    · split at h
      · next h1 => rw [if_pos h1]; exact h
      · next h1 => rw [if_neg h1]; exact complexLoop_mono (by omega) h

theorem expandRaw_mono {env : TzEnv} {r : Rule} {n m : Nat} {start : DateTime} {range : Period}
    {off : Int} {max : Option Int} {o : Outcome} (hle : n ≤ m)
    (h : r.expandRaw env n start range off max = some o) :
    r.expandRaw env m start range off max = some o := by
  unfold expandRaw at h ⊢
  split at h
  · next hb => rw [if_pos hb]; exact simpleLoop_mono hle h
  · next hb =>
    rw [if_neg hb]
    unfold complexExpand at h ⊢
    split at h
    · next hc => rw [if_pos hc]; exact h
    · next hc => rw [if_neg hc]; exact complexLoop_mono hle h

theorem expand_mono {env : TzEnv} {r : Rule} {n m : Nat} {c : Cache} {start : DateTime}
    {range : Period} {off : Int} {max : Option Int} {v : Answer × Cache} (hle : n ≤ m)
    (h : r.expand env n c start range off max = some v) :
    r.expand env m c start range off max = some v := by
  unfold expand at h ⊢
  simp only at h ⊢
  generalize (if (c.cached && startDiffers env start.normalise c.start) = true then _ else c) = d
    at h ⊢
  split at h
  · next hc =>
    rw [if_pos hc]
    split at h
    · simp at h
    · next ho => rw [expandRaw_mono hle ho]; exact h
    · next ho => rw [expandRaw_mono hle ho]; exact h
  · next hc => rw [if_neg hc]; exact h

end Rule

namespace RecurrenceSet

theorem expandRules_mono {env : TzEnv} {n m : Nat} {start : DateTime} {range : Period} {off : Int}
    {max : Option Int} (hle : n ≤ m) : ∀ {rs : List (Rule × Rule.Cache)} {items : List DateTime}
    {lim : Bool} {v : RulesResult},
    expandRules env n start range off max rs items lim = some v →
    expandRules env m start range off max rs items lim = some v
  | [], _, _, _, h => h
  | (r, c) :: rs, items, lim, v, h => by
    rw [expandRules] at h ⊢
    split at h
    · simp at h
    · next hx => rw [Rule.expand_mono hle hx]; exact h
    · next hx =>
      rw [Rule.expand_mono hle hx]
      simp only
      split at h
      · simp at h
      · next hy => rw [expandRules_mono hle hy]; exact h
      · next hy => rw [expandRules_mono hle hy]; exact h

theorem expand_mono {env : TzEnv} {o : SetOrder} {n m : Nat} {s : RecurrenceSet}
    {start : DateTime} {range : Period} {off : Int} {max : Option Int} {v : Result} (hle : n ≤ m)
    (h : s.expand env o n start range off max = some v) :
    s.expand env o m start range off max = some v := by
  unfold expand at h ⊢
  simp only at h ⊢
  split at h
  · simp at h
  · next hx => rw [expandRules_mono hle hx]; exact h
  · next hx =>
    rw [expandRules_mono hle hx]
    simp only
    split at h
    · exact h
    · split at h
      · simp at h
      · next hy => rw [expandRules_mono hle hy]; exact h
      · next hy => rw [expandRules_mono hle hy]; exact h

end RecurrenceSet

namespace TzElement

theorem fill_mono {env : TzEnv} {o : SetOrder} {n m : Nat} {e e' : TzElement} {a b : DateTime}
    (hle : n ≤ m) (h : e.fill env o n a b = some e') : e.fill env o m a b = some e' := by
  unfold fill at h ⊢
  simp only at h ⊢
  split at h
  · next hc =>
    rw [if_pos hc]
    split at h
    · next hx => rw [RecurrenceSet.expand_mono hle hx]; exact h
    · simp at h
  · next hc => rw [if_neg hc]; exact h

theorem expandAll_mono {env : TzEnv} {o : SetOrder} {n m : Nat} {e : TzElement}
    {start : Option DateTime} {stop : DateTime} {v : List (DateTime × Int × Int) × TzElement}
    (hle : n ≤ m) (h : e.expandAll env o n start stop = some v) :
    e.expandAll env o m start stop = some v := by
  unfold expandAll at h ⊢
  simp only at h ⊢
  split at h
  · next hc => rw [if_pos hc]; exact h
  · next hc =>
    rw [if_neg hc]
    split at h
    · next hd => rw [if_pos hd]; exact h
    · next hd =>
      rw [if_neg hd]
      rw [Option.map_eq_some_iff] at h ⊢
      obtain ⟨e', h1, h2⟩ := h
      exact ⟨e', fill_mono hle h1, h2⟩

end TzElement

namespace Zone

theorem expandElements_mono {env : TzEnv} {o : SetOrder} {n m : Nat} {start : Option DateTime}
    {stop : DateTime} (hle : n ≤ m) : ∀ {es : List TzElement}
    {v : List (DateTime × Int × Int) × List TzElement},
    expandElements env o n start stop es = some v → expandElements env o m start stop es = some v
  | [], _, h => h
  | e :: es, v, h => by
    rw [expandElements] at h ⊢
    split at h
    · simp at h
    · next hx =>
      rw [TzElement.expandAll_mono hle hx]
      simp only
      rw [Option.map_eq_some_iff] at h ⊢
      obtain ⟨w, h1, h2⟩ := h
      exact ⟨w, expandElements_mono hle h1, h2⟩

theorem offsetSeconds_mono {env : TzEnv} {o : SetOrder} {o' : SetOrder (DateTime × Int × Int)}
    {n m : Nat} {z : Zone} {t : DateTime} {rel : Bool} {v : Int × Zone} (hle : n ≤ m)
    (h : z.offsetSeconds env o o' n t rel = some v) :
    z.offsetSeconds env o o' m t rel = some v := by
  unfold offsetSeconds at h ⊢
  rw [Option.map_eq_some_iff] at h ⊢
  obtain ⟨w, h1, h2⟩ := h
  refine ⟨w, ?_, h2⟩
  unfold recache at h1 ⊢
  split at h1
  · next hc =>
    rw [if_pos hc]
    rw [Option.map_eq_some_iff] at h1 ⊢
    obtain ⟨u, h1, h3⟩ := h1
    refine ⟨u, ?_, h3⟩
    unfold expandAll at h1 ⊢
    rw [Option.map_eq_some_iff] at h1 ⊢
    obtain ⟨x, h1, h4⟩ := h1
    exact ⟨x, expandElements_mono hle h1, h4⟩
  · next hc => rw [if_neg hc]; exact h1

end Zone
end PyCal
