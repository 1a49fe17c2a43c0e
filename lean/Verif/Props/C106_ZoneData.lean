import Verif.Props.C74_Zones
import Verif.Props.C106_Verify

/-!
# C106: the transitions of time zone data as they are compared
-/

namespace PyCal
open DateTime DateTime.TzEnv
open Spec.Zic (clockSec Shown Ordered Advances)
open Zonal (Entry RuleObj ZoneRule linesLoop zoneStart counted shownBy)

namespace V106
open Verify

/-- The transitions of time zone data as instants: each is given in the local time before it. -/
def dataInstants (l : List Item) : List (Int × Int) := l.filterMap fun
  | .three dt f u => some (clockSec dt - f, u)
  | .four _ => none

theorem dataInstants_map (ts : List Zonal.Transition) :
    dataInstants (ts.map fun t => .three t.dt t.offsetFrom t.offsetTo) = Zonal.resultInstants ts := by
  induction ts with
  | nil => rfl
  | cons t ts ih =>
    unfold Zonal.resultInstants at ih ⊢
    rw [List.map_cons, List.map_cons, ← ih]
    rfl

end V106
open V106 Verify

/-- C106 (partial), time zone data: what `tzconvert.expandZone` gives for a zone, to be compared, shows at every instant, from the first
transition in the first year on, the offset that the lines of the zone show, and with each transition the offset in force just before
it.

Needed: as in `C74_offsets_partial`.  Missing: the same. -/
theorem C106_data_partial (zn : Zonal.Zone) (z : ZoneRule) (zs : List ZoneRule)
    (rules : List Char → Option (List RuleObj)) (minYear maxYear start : Int) (ess : List (List Entry))
    (hz : zn.rules = z :: zs) (hs : z.getUTCOffset = some start)
    (hl : linesLoop rules maxYear zn.rules zoneStart start start = some ess)
    (hr : ∀ e ∈ counted zn ess, Zonal.Real e.dt) (ho : Ordered (shownBy (counted zn ess)))
    (ha : Advances (clockSec zoneStart) start (shownBy (counted zn ess))) :
    ∃ l, expandZone zn rules minYear maxYear = some l ∧
      (∀ v o, (∃ e ∈ counted zn ess, e.dt.year ≥ minYear ∧ clockSec e.dt ≤ v) →
        (Shown (dataInstants l) v o ↔ Shown (shownBy (counted zn ess)) v o)) ∧
      ∀ x ∈ l, ∃ dt f u, x = .three dt f u ∧
        Spec.Zic.InForce start (shownBy (counted zn ess)) (clockSec dt - f - 1) f := by
  obtain ⟨ts, h1, h2, h3⟩ := Zonal.C74_offsets_partial zn z zs rules minYear maxYear start ess hz hs hl hr ho ha
  refine ⟨ts.map fun t => .three t.dt t.offsetFrom t.offsetTo, by rw [expandZone, h1]; rfl, ?_, ?_⟩
  · rw [dataInstants_map]; exact h2
  · intro x hx
    obtain ⟨r, hr, rfl⟩ := List.mem_map.mp hx
    exact ⟨_, _, _, rfl, h3 r hr⟩

/-- C106 fails: the transitions of two zones of time zone data are said to match, if they are the same; if the second has one that the
first does not have, `IndexError` is raised. -/
theorem C106_fails_zones (env : TzEnv) (o : SetOrder Item) (start : DateTime) (l1 l2 : List Item)
    (h1 : ∀ x ∈ l1, Usual x ∧ ¬ ∃ t, x = .four t) (h2 : ∀ x ∈ l2, Usual x ∧ ¬ ∃ t, x = .four t) :
    ((∀ x, x ∈ l1 ↔ x ∈ l2) → compareZone env o start l1 l2 = some ([], [])) ∧
      ((∃ x ∈ l2, x ∉ l1) → compareZone env o start l1 l2 = none) := by
  have m1 := mem_difference env l1 l2 (fun x hx => (h1 x hx).1) (fun x hx => (h2 x hx).1)
  have m2 := mem_difference env l2 l1 (fun x hx => (h2 x hx).1) (fun x hx => (h1 x hx).1)
  constructor
  · intro h
    have e1 : difference env (itemSet env l1) (itemSet env l2) = [] :=
      List.eq_nil_iff_forall_not_mem.mpr fun x hx => ((m1 x).mp hx).2 ((h x).mp ((m1 x).mp hx).1)
    have e2 : difference env (itemSet env l2) (itemSet env l1) = [] :=
      List.eq_nil_iff_forall_not_mem.mpr fun x hx => ((m2 x).mp hx).2 ((h x).mpr ((m2 x).mp hx).1)
    have er : o.run [] = [] := List.perm_nil.mp (o.perm [])
    unfold compareZone
    simp only [e1, e2, er, loop1, loop2]
    rfl
  · rintro ⟨x, hx, hx'⟩
    have hm := (m2 x).mpr ⟨hx, hx'⟩
    have key : ∀ d, loop2 env (o.run (difference env (itemSet env l2) (itemSet env l1))) d = none := by
      intro d
      have hmem : ∀ y ∈ o.run (difference env (itemSet env l2) (itemSet env l1)), ¬ ∃ t, y = .four t := fun y hy =>
        (h2 y ((m2 y).mp ((o.perm _).mem_iff.mp hy)).1).2
      have hne := (o.perm _).mem_iff.mpr hm
      generalize o.run (difference env (itemSet env l2) (itemSet env l1)) = is at hmem hne
      cases is with
      | nil => cases hne
      | cons i is =>
        cases i with
        | three => rfl
        | four t => exact absurd ⟨t, rfl⟩ (hmem _ (by simp))
    unfold compareZone
    simp only [key, Option.map_none]
    cases loop1 env start _ _ <;> rfl

/-- The second case: a zone with a transition compared with a zone that has none. -/
example (env : TzEnv) (o : SetOrder Item) (start : DateTime) :
    compareZone env o start [] [.three { year := 1990, month := 3, day := 25, hours := 2 } 3600 7200] = none :=
  (C106_fails_zones env o start [] _ (by simp) (by
    intro x hx
    rw [List.mem_singleton.mp hx]
    exact ⟨⟨rfl, rfl, rfl⟩, by rintro ⟨t, ht⟩; cases ht⟩)).2 ⟨_, List.mem_singleton.mpr rfl, by simp⟩

end PyCal
