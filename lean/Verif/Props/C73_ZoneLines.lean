import Verif.Model.ZonalZone
import Verif.Spec.ZoneClock
import Verif.Lemmas.Compare
import Mathlib.Data.List.Pairwise

/-! # C73: the transitions of a zone line -/

namespace PyCal
namespace Zonal
open Spec Spec.Zic DateTime

/-! ## Readings of clocks -/

/-- A real date and time of day, not a date. -/
def Real (t : DateTime) : Prop := t.Valid ∧ t.dateOnly = false

theorem real_offset {t : DateTime} (h : Real t) (n : Int) :
    Real (t.offsetSeconds n) ∧ clockSec (t.offsetSeconds n) = clockSec t + n := by
  have hv : (t.offsetSeconds n).Valid := normalise_valid _
  refine ⟨⟨hv, h.2⟩, ?_⟩
  unfold clockSec
  rw [← hv.secNum, ← h.1.secNum]
  exact addSeconds_secNum h.2 n

theorem cmp_lt {a b : DateTime} (ha : Real a) (hb : Real b) : a.cmpFields b < 0 ↔ clockSec a < clockSec b := by
  rw [cmpFields_lt, fieldsLt_iff_timeNum ha.1.1 hb.1.1]; rfl

theorem cmp_eq {a b : DateTime} (ha : Real a) (hb : Real b) : a.cmpFields b = 0 ↔ clockSec a = clockSec b := by
  rw [cmpFields_eq]
  exact ⟨fun h => congrArg timeNum h, fun h => timeNum_inj ha.1.1 hb.1.1 h⟩

theorem cmp_ge {a b : DateTime} (ha : Real a) (hb : Real b) : a.cmpFields b ≥ 0 ↔ clockSec b ≤ clockSec a := by
  have := cmp_lt ha hb
  omega

/-- The letters that the code knows. -/
def KnownMode (t : TzTime) : Prop := t.mode ≠ ['g'] ∧ t.mode ≠ ['z']

theorem getUTC_spec {t : TzTime} (h : Real t.dt) (hm : KnownMode t) (off std : Int) :
    Real (t.getUTC off std) ∧ clockSec (t.getUTC off std) = instantOf t off std := by
  unfold TzTime.getUTC instantOf
  simp only [hm.1, hm.2, or_false]
  split
  · exact ⟨h, rfl⟩
  · split
    · have := real_offset h (-std); exact ⟨this.1, by rw [this.2]; omega⟩
    · have := real_offset h (-off); exact ⟨this.1, by rw [this.2]; omega⟩

/-- C69 (partial), the instant: a time with the letter `u`, `s`, `w` or none is converted to UTC as that
letter says, with the offsets given; to a real time.  Missing: the letters `g` and `z`
(`C69_fails_letter`). -/
theorem C69_instant_partial (t : TzTime) (off std : Int) (h : t.dt.Valid) (hd : t.dt.dateOnly = false)
    (hm : t.mode ≠ ['g'] ∧ t.mode ≠ ['z']) :
    (t.getUTC off std).Valid ∧ clockSec (t.getUTC off std) = instantOf t off std :=
  ⟨(getUTC_spec ⟨h, hd⟩ hm off std).1.1, (getUTC_spec ⟨h, hd⟩ hm off std).2⟩

/-- C69 fails for the letters `g` and `z`, unless the offset is zero. -/
theorem C69_fails_letter (t : TzTime) (off std : Int) (h : t.dt.Valid) (hd : t.dt.dateOnly = false)
    (hm : t.mode = ['g'] ∨ t.mode = ['z']) (ho : off ≠ 0) :
    clockSec (t.getUTC off std) ≠ instantOf t off std := by
  have h1 := (real_offset ⟨h, hd⟩ (-off)).2
  unfold TzTime.getUTC instantOf
  rcases hm with hm | hm <;> simp [hm, h1] <;> omega

/-! ## Walking along a list of transitions -/

/-- The offset at `v` after walking along the transitions. -/
def walk : (off : Int) → List (Int × Int) → (v : Int) → Int
  | off, [], _ => off
  | off, (u, o) :: l, v => if u ≤ v then walk o l v else off

theorem inForce_iff {d v o : Int} : ∀ {l : List (Int × Int)}, Ordered l → (InForce d l v o ↔ walk d l v = o) := by
  intro l
  induction l generalizing d with
  | nil => intro _; simp [InForce, Shown, walk, eq_comm]
  | cons x l ih =>
    intro hl
    obtain ⟨u, o'⟩ := x
    unfold Ordered at hl
    rw [List.pairwise_cons] at hl
    have ih := ih (d := o') hl.2
    unfold walk
    split
    · next hu =>
      rw [← ih]
      unfold InForce Shown
      constructor
      · rintro (⟨w, hw, hwv, hmax⟩ | ⟨_, h⟩)
        · rcases List.mem_cons.1 hw with e | hw
          · cases e
            right
            refine ⟨rfl, fun x hx => ?_⟩
            have h1 := hl.1 x hx
            by_contra hc
            have := hmax x (List.mem_cons_of_mem _ hx) (by omega)
            simp only at h1
            omega
          · left
            exact ⟨w, hw, hwv, fun x hx => hmax x (List.mem_cons_of_mem _ hx)⟩
        · have := h (u, o') (by simp)
          simp only at this
          omega
      · rintro (⟨w, hw, hwv, hmax⟩ | ⟨rfl, h⟩)
        · left
          refine ⟨w, List.mem_cons_of_mem _ hw, hwv, fun x hx hxv => ?_⟩
          rcases List.mem_cons.1 hx with rfl | hx
          · exact le_of_lt (hl.1 _ hw)
          · exact hmax x hx hxv
        · left
          refine ⟨u, by simp, hu, fun x hx hxv => ?_⟩
          rcases List.mem_cons.1 hx with rfl | hx
          · exact le_rfl
          · have := h x hx; omega
    · next hu =>
      unfold InForce Shown
      constructor
      · rintro (⟨w, hw, hwv, _⟩ | ⟨rfl, _⟩)
        · rcases List.mem_cons.1 hw with e | hw
          · cases e; omega
          · have := hl.1 _ hw; simp only at this; omega
        · rfl
      · rintro rfl
        right
        refine ⟨rfl, fun x hx => ?_⟩
        rcases List.mem_cons.1 hx with rfl | hx
        · simp only; omega
        · have := hl.1 _ hx; simp only at this; omega

theorem shown_iff {v o w : Int} {l : List (Int × Int)} {o' : Int} (hl : Ordered ((w, o') :: l)) (hw : w ≤ v) :
    Shown ((w, o') :: l) v o ↔ walk o' l v = o := by
  have := inForce_iff (d := 0) (v := v) (o := o) hl
  unfold walk at this
  rw [if_pos hw] at this
  rw [← this]
  unfold InForce
  constructor
  · exact Or.inl
  · rintro (h | ⟨_, h⟩)
    · exact h
    · have := h (w, o') (by simp); simp only at this; omega

/-- The transitions of a line, as instants. -/
def shownBy (es : List Entry) : List (Int × Int) := es.map fun e => (clockSec e.dt, e.offset)

/-! ## The loop -/

section
variable {z : ZoneRule} {std : Int} {fu : TzTime} {lu : DateTime}

theorem loop_started (hfu : Real fu.dt) (hfm : KnownMode fu) (hlu : Real lu) :
    ∀ (ts : List (TzTime × Int × TzRule)) (fo : Bool) (off : Int) (lr : Option TzRule) (b : Int),
      clockSec lu ≤ b → (∀ t ∈ ts, Real t.1.dt ∧ KnownMode t.1) →
      Ordered ((b, off) :: instants std off ts) →
      let res := ruleLoop z std fu lu ts fo true off std lr
      res.2.2 = (std, true) ∧ Ordered ((b, off) :: shownBy res.1) ∧ (∀ e ∈ res.1, Real e.dt) ∧
      ∀ v, v < instantOf fu res.2.1 std → walk off (shownBy res.1) v = walk off (instants std off ts) v := by
  intro ts
  induction ts with
  | nil =>
    intro fo off lr b hb _ _
    simp [ruleLoop, shownBy, instants, Ordered]
  | cons t ts ih =>
    obtain ⟨t, o, r⟩ := t
    intro fo off lr b hb hts hord
    have ht : Real t.dt ∧ KnownMode t := hts (t, o, r) (by simp)
    obtain ⟨hu, hus⟩ := getUTC_spec ht.1 ht.2 off std
    obtain ⟨hf, hfs⟩ := getUTC_spec hfu hfm off std
    simp only [instants, Ordered] at hord
    have hbu : b < instantOf t off std := (List.pairwise_cons.1 hord).1 _ (List.mem_cons_self)
    have hge : (t.getUTC off std).cmpFields lu ≥ 0 := (cmp_ge hu hlu).2 (by omega)
    simp only [ruleLoop, hge, if_true, Bool.not_true, Bool.false_and, Bool.false_eq_true, if_false]
    by_cases hend : (t.getUTC off std).cmpFields (fu.getUTC off std) ≥ 0
    · rw [if_pos hend]
      have := (cmp_ge hu hf).1 hend
      refine ⟨rfl, by simp [shownBy, Ordered], by simp, fun v hv => ?_⟩
      simp only at hv
      simp only [shownBy, List.map_nil, walk, instants]
      rw [if_neg (by omega)]
    · rw [if_neg hend]
      obtain ⟨h1, h2, h3, h4⟩ := ih true o (some r) (instantOf t off std) (by omega)
        (fun x hx => hts x (List.mem_cons_of_mem _ hx)) (List.pairwise_cons.1 hord).2
      simp only [List.nil_append]
      refine ⟨h1, ?_, ?_, ?_⟩
      · simp only [shownBy, List.map_cons, hus]
        unfold Ordered
        rw [List.pairwise_cons]
        refine ⟨fun x hx => ?_, h2⟩
        rcases List.mem_cons.1 hx with rfl | hx
        · exact hbu
        · have := (List.pairwise_cons.1 h2).1 x hx
          simp only at this ⊢
          omega
      · intro e he
        rcases List.mem_cons.1 he with rfl | he
        · exact hu
        · exact h3 e he
      · intro v hv
        simp only [shownBy, List.map_cons, hus, instants, walk]
        split
        · exact h4 v hv
        · rfl

/-- The transitions of a line: the start is added at the end if it has not been. -/
def closed (z : ZoneRule) (lu : DateTime) (res : List Entry × Int × Int × Bool) : List Entry :=
  if res.2.2.2 then res.1 else res.1 ++ [⟨lu, res.2.1, z, none⟩]

/-- What a run of the loop has found, compared with the transitions `l` on from the offset `off`. -/
def Found (fu : TzTime) (lu : DateTime) (es : List Entry) (off' std' off : Int) (l : List (Int × Int)) : Prop :=
  Ordered (shownBy es) ∧ (∀ e ∈ es, Real e.dt ∧ clockSec lu ≤ clockSec e.dt) ∧
  ∀ v, clockSec lu ≤ v → v < instantOf fu off' std' →
    ∃ o l', shownBy es = (clockSec lu, o) :: l' ∧ walk o l' v = walk off l v

theorem loop_found (hfu : Real fu.dt) (hfm : KnownMode fu) (hlu : Real lu) :
    ∀ (ts : List (TzTime × Int × TzRule)) (off : Int) (lr : Option TzRule),
      (∀ t ∈ ts, Real t.1.dt ∧ KnownMode t.1) → Ordered (instants std off ts) →
      let res := ruleLoop z std fu lu ts true false off std lr
      res.2.2.1 = std ∧ Found fu lu (closed z lu res) res.2.1 std off (instants std off ts) := by
  intro ts
  induction ts with
  | nil =>
    intro off lr _ _
    simp only [ruleLoop, closed, instants, Found]
    refine ⟨trivial, by simp [shownBy, Ordered], by simp [hlu], fun v _ _ => ⟨off, [], by simp [shownBy], rfl⟩⟩
  | cons t ts ih =>
    obtain ⟨t, o, r⟩ := t
    intro off lr hts hord
    have ht : Real t.dt ∧ KnownMode t := hts (t, o, r) (by simp)
    have hts' := fun x hx => hts x (List.mem_cons_of_mem _ hx)
    obtain ⟨hu, hus⟩ := getUTC_spec ht.1 ht.2 off std
    obtain ⟨hf, hfs⟩ := getUTC_spec hfu hfm off std
    simp only [instants] at hord ⊢
    by_cases hge : (t.getUTC off std).cmpFields lu ≥ 0
    · have hge' := (cmp_ge hu hlu).1 hge
      have hst := loop_started (z := z) hfu hfm hlu ts true o (some r) (instantOf t off std) (by omega) hts' hord
      simp only [ruleLoop, hge, if_true, Bool.not_false, Bool.true_and, Bool.not_true, Bool.and_false,
        Bool.false_eq_true, if_false]
      by_cases hend : (t.getUTC off std).cmpFields (fu.getUTC off std) ≥ 0
      · rw [if_pos hend]
        have hend' := (cmp_ge hu hf).1 hend
        refine ⟨rfl, ?_⟩
        simp only [closed, if_true, Found]
        by_cases he : (t.getUTC off std).cmpFields lu = 0
        · have he' := (cmp_eq hu hlu).1 he
          simp only [he, ne_eq, not_true, decide_false, Bool.false_eq_true, if_false]
          exact ⟨by simp [shownBy, Ordered], by simp, fun v h1 h2 => by omega⟩
        · simp only [he, ne_eq, not_false_eq_true, decide_true, if_true]
          refine ⟨by simp [shownBy, Ordered], by simp [hlu], fun v h1 h2 => ⟨off, [], by simp [shownBy], ?_⟩⟩
          simp only [walk]
          rw [if_neg (by omega)]
      · rw [if_neg hend]
        obtain ⟨g1, g2, g3, g4⟩ := hst
        refine ⟨by simp only; rw [g1], ?_⟩
        have hcl : ∀ l : List Entry × Int × Int × Bool, l.2.2 = (std, true) → ∀ x,
            closed z lu (x, l.2) = x := by
          intro l h x; simp [closed, h]
        rw [hcl _ g1]
        have hmem : ∀ e ∈ (ruleLoop z std fu lu ts true true o std (some r)).1,
            Real e.dt ∧ clockSec lu ≤ clockSec e.dt := by
          intro e he
          refine ⟨g3 e he, ?_⟩
          have := (List.pairwise_cons.1 g2).1 (clockSec e.dt, e.offset) (List.mem_map_of_mem he)
          simp only at this
          omega
        by_cases he : (t.getUTC off std).cmpFields lu = 0
        · have he' := (cmp_eq hu hlu).1 he
          simp only [he, ne_eq, not_true, decide_false, Bool.false_eq_true, if_false, List.nil_append, Found]
          refine ⟨?_, ?_, fun v h1 h2 =>
            ⟨o, shownBy (ruleLoop z std fu lu ts true true o std (some r)).1, ?_, ?_⟩⟩
          · simp only [shownBy, List.map_cons, hus]; exact g2
          · intro e hm
            rcases List.mem_cons.1 hm with rfl | hm
            · exact ⟨hu, hge'⟩
            · exact hmem e hm
          · simp only [shownBy, List.map_cons, he']
          · rw [walk, if_pos (by omega)]
            exact g4 v h2
        · have he' : clockSec lu < instantOf t off std := by
            have := mt (cmp_eq hu hlu).2 he; omega
          simp only [he, ne_eq, not_false_eq_true, decide_true, if_true, List.cons_append, List.nil_append, Found]
          refine ⟨?_, ?_, fun v h1 h2 => ⟨off, _, rfl, ?_⟩⟩
          · simp only [shownBy, List.map_cons, hus]
            unfold Ordered
            rw [List.pairwise_cons]
            refine ⟨fun x hx => ?_, g2⟩
            rcases List.mem_cons.1 hx with rfl | hx
            · exact he'
            · have := (List.pairwise_cons.1 g2).1 x hx
              simp only at this ⊢
              omega
          · intro e hm
            rcases List.mem_cons.1 hm with rfl | hm
            · exact ⟨hlu, le_rfl⟩
            · rcases List.mem_cons.1 hm with rfl | hm
              · exact ⟨hu, hge'⟩
              · exact hmem e hm
          · simp only [List.map_cons, hus, walk]
            split
            · exact g4 v h2
            · rfl
    · have hlt : instantOf t off std < clockSec lu := by
        have := mt (cmp_ge hu hlu).2 hge; omega
      obtain ⟨i1, i2⟩ := ih o (some r) hts' (List.pairwise_cons.1 hord).2
      simp only [ruleLoop, hge, if_false]
      refine ⟨i1, i2.1, i2.2.1, fun v h1 h2 => ?_⟩
      obtain ⟨o', l', e1, e2⟩ := i2.2.2 v h1 h2
      refine ⟨o', l', e1, ?_⟩
      rw [e2, walk, if_pos (by omega)]

theorem loop_first (hfu : Real fu.dt) (hfm : KnownMode fu) (hlu : Real lu)
    (t : TzTime) (o : Int) (r : TzRule) (ts : List (TzTime × Int × TzRule)) (lo ls : Int)
    (ht : Real t.dt ∧ KnownMode t) (hts' : ∀ t ∈ ts, Real t.1.dt ∧ KnownMode t.1)
    (hord : Ordered (instants std std ((t, o, r) :: ts)))
    (h1 : instantOf t lo ls < clockSec lu ↔ instantOf t std std < clockSec lu)
    (h2 : instantOf t lo ls = clockSec lu ↔ instantOf t std std = clockSec lu) :
    let res := ruleLoop z std fu lu ((t, o, r) :: ts) false false lo ls none
    Found fu lu (closed z lu res) res.2.1 res.2.2.1 std (instants std std ((t, o, r) :: ts)) := by
  obtain ⟨hu0, hus0⟩ := getUTC_spec ht.1 ht.2 lo ls
  obtain ⟨hu, hus⟩ := getUTC_spec ht.1 ht.2 std std
  simp only [instants] at hord ⊢
  by_cases hge : (t.getUTC lo ls).cmpFields lu ≥ 0
  · have hge' := (cmp_ge hu0 hlu).1 hge
    have hge2 : clockSec lu ≤ instantOf t std std := by
      by_contra hc
      have := h1.2 (by omega)
      omega
    obtain ⟨g1, g2, g3, g4⟩ :=
      loop_started (z := z) hfu hfm hlu ts true o (some r) (instantOf t std std) hge2 hts' hord
    have hcl : ∀ l : List Entry × Int × Int × Bool, l.2.2 = (std, true) → ∀ x,
        closed z lu (x, l.2) = x := by
      intro l h x; simp [closed, h]
    have hmem : ∀ e ∈ (ruleLoop z std fu lu ts true true o std (some r)).1,
        Real e.dt ∧ clockSec lu ≤ clockSec e.dt := by
      intro e he
      refine ⟨g3 e he, ?_⟩
      have := (List.pairwise_cons.1 g2).1 (clockSec e.dt, e.offset) (List.mem_map_of_mem he)
      simp only at this
      omega
    simp only [ruleLoop, hge, if_true, Bool.not_false, Bool.true_and, Bool.and_true]
    by_cases he : (t.getUTC lo ls).cmpFields lu = 0
    · have he' := (cmp_eq hu0 hlu).1 he
      have he2 := h2.1 (by omega)
      obtain ⟨hf, hfs⟩ := getUTC_spec hfu hfm lo ls
      simp only [he, ne_eq, not_true, decide_false, Bool.false_eq_true, if_false]
      by_cases hend : (t.getUTC lo ls).cmpFields (fu.getUTC lo ls) ≥ 0
      · rw [if_pos hend]
        have hend' := (cmp_ge hu0 hf).1 hend
        simp only [closed, if_true, Found]
        exact ⟨by simp [shownBy, Ordered], by simp, fun v h1 h2 => by omega⟩
      · rw [if_neg hend, hcl _ g1]
        simp only [List.nil_append, Found]
        refine ⟨?_, ?_, fun v h1 h2 =>
          ⟨o, shownBy (ruleLoop z std fu lu ts true true o std (some r)).1, ?_, ?_⟩⟩
        · simp only [shownBy, List.map_cons, he']; rw [← he2]; exact g2
        · intro e hm
          rcases List.mem_cons.1 hm with rfl | hm
          · exact ⟨hu0, hge'⟩
          · exact hmem e hm
        · simp only [shownBy, List.map_cons, he']
        · rw [walk, if_pos (by omega)]
          rw [g1] at h2
          exact g4 v h2
    · have he' : clockSec lu < instantOf t std std := by
        have := mt h2.2 (fun h => he ((cmp_eq hu0 hlu).2 (by omega))); omega
      obtain ⟨hf, hfs⟩ := getUTC_spec hfu hfm std std
      simp only [he, ne_eq, not_false_eq_true, decide_true, if_true]
      by_cases hend : (t.getUTC std std).cmpFields (fu.getUTC std std) ≥ 0
      · rw [if_pos hend]
        have hend' := (cmp_ge hu hf).1 hend
        simp only [closed, if_true, Found]
        refine ⟨by simp [shownBy, Ordered], by simp [hlu], fun v h1 h2 => ⟨std, [], by simp [shownBy], ?_⟩⟩
        simp only [walk]
        rw [if_neg (by omega)]
      · rw [if_neg hend, hcl _ g1]
        simp only [List.cons_append, List.nil_append, Found]
        refine ⟨?_, ?_, fun v h1 h2 => ⟨std, _, rfl, ?_⟩⟩
        · simp only [shownBy, List.map_cons, hus]
          unfold Ordered
          rw [List.pairwise_cons]
          refine ⟨fun x hx => ?_, g2⟩
          rcases List.mem_cons.1 hx with rfl | hx
          · exact he'
          · have := (List.pairwise_cons.1 g2).1 x hx
            simp only at this ⊢
            omega
        · intro e hm
          rcases List.mem_cons.1 hm with rfl | hm
          · exact ⟨hlu, le_rfl⟩
          · rcases List.mem_cons.1 hm with rfl | hm
            · exact ⟨hu, by rw [hus]; exact hge2⟩
            · exact hmem e hm
        · simp only [List.map_cons, hus, walk]
          rw [g1] at h2
          split
          · exact g4 v h2
          · rfl
  · have hlt : instantOf t lo ls < clockSec lu := by
      have := mt (cmp_ge hu0 hlu).2 hge; omega
    have hlt2 := h1.1 hlt
    obtain ⟨i1, i2⟩ := loop_found (z := z) hfu hfm hlu ts o (some r) hts' (List.pairwise_cons.1 hord).2
    simp only [ruleLoop, hge, if_false]
    rw [i1]
    refine ⟨i2.1, i2.2.1, fun v h1 h2 => ?_⟩
    obtain ⟨o', l', e1, e2⟩ := i2.2.2 v h1 h2
    refine ⟨o', l', e1, ?_⟩
    rw [e2, walk, if_pos (by omega)]

end

/-! ## C73 -/

theorem cmp_le_trans {a b c : DateTime} (h1 : a.cmpFields b ≤ 0) (h2 : b.cmpFields c ≤ 0) :
    a.cmpFields c ≤ 0 := by
  have e : ∀ a b : DateTime, a.cmpFields b ≤ 0 ↔ FieldsLt a b ∨ a.civil = b.civil := by
    intro a b
    rw [← cmpFields_lt, ← cmpFields_eq]; omega
  rw [e] at h1 h2 ⊢
  unfold FieldsLt Date.lt at *
  simp only [date, civil, Date.mk.injEq, Time.mk.injEq] at *
  omega

theorem sorted_by {α : Type} (k : α → DateTime) {l l0 : List α} (hp : l.Perm l0)
    (hs : l.Pairwise fun a b => (k a).cmpFields (k b) < 0) :
    l0.mergeSort (fun a b => decide ((k a).cmpFields (k b) ≤ 0)) = l := by
  have hsort : (l0.mergeSort (fun a b => decide ((k a).cmpFields (k b) ≤ 0))).Pairwise
      fun a b => (k a).cmpFields (k b) ≤ 0 := by
    have := List.pairwise_mergeSort (le := fun a b => decide ((k a).cmpFields (k b) ≤ 0))
      (by intro a b c h1 h2; simp only [decide_eq_true_eq] at *; exact cmp_le_trans h1 h2)
      (by intro a b; simp only [Bool.or_eq_true, decide_eq_true_eq]; have := cmpFields_neg (k a) (k b); omega) l0
    simpa using this
  have hperm : (l0.mergeSort (fun a b => decide ((k a).cmpFields (k b) ≤ 0))).Perm l :=
    (List.mergeSort_perm _ _).trans hp.symm
  have hl : ∀ a ∈ l, ∀ b ∈ l, (k a).cmpFields (k b) = 0 → a = b := by
    intro a ha b hb h
    by_contra hne
    have hsym := hs.imp (S := fun a b => (k a).cmpFields (k b) ≠ 0) (fun h => by omega)
    have : Std.Symm fun a b : α => (k a).cmpFields (k b) ≠ 0 :=
      ⟨fun a b h => by have := cmpFields_neg (k a) (k b); omega⟩
    exact hsym.forall ha hb hne h
  refine List.Perm.eq_of_pairwise (fun a b ha hb h1 h2 => ?_) hsort (hs.imp fun h => by omega) hperm
  refine hl a (hperm.mem_iff.1 ha) b hb ?_
  have := cmpFields_neg (k a) (k b)
  omega

theorem expand_eq {z : ZoneRule} {rules : List Char → Option (List RuleObj)} {lastUntil : DateTime}
    {lastOffset lastStd maxYear std : Int} {rs : List RuleObj} {ts0 ts : List (TzTime × Int × TzRule)} {fu : TzTime}
    (hnum : z.isNumericOffset = some false) (hstd : z.getUTCOffset = some std) (hrs : rules z.rule = some rs)
    (hts : expandRules rs std maxYear = some ts0) (hfu : z.getUntilDate = some fu)
    (hperm : ts.Perm ts0) (hsort : ts.Pairwise fun a b => a.1.dt.cmpFields b.1.dt < 0) :
    z.expand rules lastUntil lastOffset lastStd maxYear =
      some (closed z lastUntil (ruleLoop z std fu lastUntil ts false false lastOffset lastStd none),
        (ruleLoop z std fu lastUntil ts false false lastOffset lastStd none).2.1,
        (ruleLoop z std fu lastUntil ts false false lastOffset lastStd none).2.2.1) := by
  unfold ZoneRule.expand
  simp only [hnum, hstd, hrs, hts, hfu]
  rw [sorted_by (fun a : TzTime × Int × TzRule => a.1.dt) hperm hsort]
  rfl

/-- C73 (partial): a line of a zone with a named rule set, in force from `lastUntil` (the end of the line before,
where the offset was `lastOffset` and the standard offset `lastStd`), gives transitions that at every
instant from there to its end show the offset that its rules put in force: that of the latest transition of the
rules, each read with the offset before it, or the standard offset before the first.  The end is read with
the offset that the line is left with.
For this the rules must have a transition before the last year (`C73_fails_none`), their transitions must
be in the order of time when so read, not two at the same time; the first of them must be
on the same side of the start of the line with the offset of the line before as with that of this line
(`C73_fails_first`); times must not have the letters `g` or `z` (`C73_fails_letter`). -/
theorem C73_rules_partial (z : ZoneRule) (rules : List Char → Option (List RuleObj)) (lastUntil : DateTime)
    (lastOffset lastStd maxYear std : Int) (rs : List RuleObj) (ts0 ts : List (TzTime × Int × TzRule)) (fu : TzTime)
    (hnum : z.isNumericOffset = some false) (hstd : z.getUTCOffset = some std) (hrs : rules z.rule = some rs)
    (hts : expandRules rs std maxYear = some ts0) (hfu : z.getUntilDate = some fu)
    (hperm : ts.Perm ts0) (hsort : ts.Pairwise fun a b => a.1.dt.cmpFields b.1.dt < 0)
    (hreal : ∀ t ∈ ts, Real t.1.dt ∧ KnownMode t.1) (hend : Real fu.dt ∧ KnownMode fu) (hstart : Real lastUntil)
    (hord : Ordered (instants std std ts)) (hne : ts ≠ [])
    (hfirst : ∀ t ∈ ts.head?, (instantOf t.1 lastOffset lastStd < clockSec lastUntil ↔
        instantOf t.1 std std < clockSec lastUntil) ∧
      (instantOf t.1 lastOffset lastStd = clockSec lastUntil ↔ instantOf t.1 std std = clockSec lastUntil)) :
    ∃ es off' std', z.expand rules lastUntil lastOffset lastStd maxYear = some (es, off', std') ∧
      Ordered (shownBy es) ∧ (∀ e ∈ es, Real e.dt ∧ clockSec lastUntil ≤ clockSec e.dt) ∧
      ∀ v o, clockSec lastUntil ≤ v → v < instantOf fu off' std' →
        (Shown (shownBy es) v o ↔ InForce std (instants std std ts) v o) := by
  obtain ⟨⟨t, o, r⟩, ts, rfl⟩ := List.exists_cons_of_ne_nil hne
  have hf := hfirst (t, o, r) (by simp)
  have ht := hreal (t, o, r) (by simp)
  obtain ⟨f1, f2, f3⟩ := loop_first (z := z) hend.1 hend.2 hstart t o r ts lastOffset lastStd ht
    (fun x hx => hreal x (List.mem_cons_of_mem _ hx)) hord hf.1 hf.2
  let R := ruleLoop z std fu lastUntil ((t, o, r) :: ts) false false lastOffset lastStd none
  refine ⟨closed z lastUntil R, R.2.1, R.2.2.1, ?_, f1, f2, ?_⟩
  · exact expand_eq hnum hstd hrs hts hfu hperm hsort
  · intro v o h1 h2
    obtain ⟨o', l', e1, e2⟩ := f3 v h1 h2
    rw [inForce_iff hord, ← e2, e1, shown_iff (by rw [← e1]; exact f1) h1]

/-- C73: a line is without rules exactly if its rule is a dash, or begins with a digit or with a dash and a digit. -/
theorem C73_kind (z : ZoneRule) : z.isNumericOffset = some true ↔
    z.rule = ['-'] ∨ ∃ d s, isDigit d = true ∧ (z.rule = d :: s ∨ z.rule = '-' :: d :: s) := by
  unfold ZoneRule.isNumericOffset
  rcases z.rule with _ | ⟨c, s⟩
  · simp
  · by_cases hc : c = '-'
    · subst hc
      rcases s with _ | ⟨d, s⟩
      · simp
      · have : isDigit '-' = false := by decide
        simp only [reduceCtorEq, and_false, if_false, this, decide_true, Bool.true_and, Bool.false_or,
          Option.some.injEq, List.cons.injEq, true_and, false_or]
        constructor
        · intro h; exact ⟨d, s, h, Or.inr ⟨rfl, rfl⟩⟩
        · rintro ⟨d', s', h, ⟨rfl, _⟩ | ⟨rfl, _⟩⟩
          · rw [this] at h; cases h
          · exact h
    · simp only [hc, false_and, if_false, decide_false, Bool.false_and, Bool.or_false, Option.some.injEq,
        List.cons.injEq, false_or, or_false]
      constructor
      · intro h; exact ⟨c, s, h, rfl, rfl⟩
      · rintro ⟨d', s', h, rfl, _⟩; exact h

/-- C73 for a line without rules: from its start it shows its standard offset with the saving written (`C70`). -/
theorem C73_numeric (z : ZoneRule) (rules : List Char → Option (List RuleObj)) (lastUntil : DateTime)
    (lastOffset lastStd maxYear std save : Int) (hnum : z.isNumericOffset = some true)
    (hstd : z.getUTCOffset = some std) (hsave : z.getNumericOffset = some save) :
    ∃ es, z.expand rules lastUntil lastOffset lastStd maxYear = some (es, std + save, std) ∧
      ∀ v o, clockSec lastUntil ≤ v → (Shown (shownBy es) v o ↔ o = std + save) := by
  refine ⟨[⟨lastUntil, std + save, z, none⟩], by simp [ZoneRule.expand, hnum, hstd, hsave], fun v o hv => ?_⟩
  unfold Shown shownBy
  simp only [List.map_cons, List.map_nil, List.mem_singleton, Prod.mk.injEq]
  constructor
  · rintro ⟨_, ⟨_, h⟩, _⟩; exact h
  · intro h; exact ⟨_, ⟨rfl, h⟩, hv, fun x hx _ => by rw [hx]⟩

example : (⟨"-3:30".toList, "1:00".toList, "X".toList, none⟩ : ZoneRule).isNumericOffset = some true ∧
    (⟨"-3:30".toList, "1:00".toList, "X".toList, none⟩ : ZoneRule).getUTCOffset = some (-12600) ∧
    (⟨"-3:30".toList, "1:00".toList, "X".toList, none⟩ : ZoneRule).getNumericOffset = some 3600 := by decide +kernel

/-! ### A case -/

/-- A rule of every year from 2000. -/
def springRule : TzRule :=
  ⟨"R".toList, "2000".toList, "max".toList, "-".toList, "Mar".toList, "lastSun".toList, "1:00u".toList,
    "1:00".toList, "S".toList⟩

/-- A rule of every year from 1999. -/
def autumnRule : TzRule :=
  ⟨"R".toList, "1999".toList, "max".toList, "-".toList, "Oct".toList, "lastSun".toList, "1:00u".toList,
    "0".toList, "-".toList⟩

/-- One rule set. -/
def oneSet (l : List TzRule) : List Char → Option (List RuleObj) :=
  fun n => if n = "R".toList then some (l.map fun r => ⟨r, none⟩) else none

/-- A line with that rule set. -/
def caseLine : ZoneRule := ⟨"1:00".toList, "R".toList, "X".toList, some "2002 May 1 0:00".toList⟩

/-- The transitions of the two rules up to 2003. -/
def caseTs : List (TzTime × Int × TzRule) :=
  [(⟨⟨1999, 10, 31, 1, 0, 0, false, false, none⟩, ['u']⟩, 3600, autumnRule),
   (⟨⟨2000, 3, 26, 1, 0, 0, false, false, none⟩, ['u']⟩, 7200, springRule),
   (⟨⟨2000, 10, 29, 1, 0, 0, false, false, none⟩, ['u']⟩, 3600, autumnRule),
   (⟨⟨2001, 3, 25, 1, 0, 0, false, false, none⟩, ['u']⟩, 7200, springRule),
   (⟨⟨2001, 10, 28, 1, 0, 0, false, false, none⟩, ['u']⟩, 3600, autumnRule),
   (⟨⟨2002, 3, 31, 1, 0, 0, false, false, none⟩, ['u']⟩, 7200, springRule),
   (⟨⟨2002, 10, 27, 1, 0, 0, false, false, none⟩, ['u']⟩, 3600, autumnRule)]

/-- The line begins. -/
def caseStart : DateTime := ⟨2000, 6, 1, 0, 0, 0, false, false, none⟩

theorem case_ts : ∃ l, expandRules ([springRule, autumnRule].map fun r => ⟨r, none⟩) 3600 2003 = some l ∧
    caseTs.Perm l := by
  cases h : expandRules ([springRule, autumnRule].map fun r => ⟨r, none⟩) 3600 2003 with
  | none => exact absurd h (by decide +kernel)
  | some l =>
    refine ⟨l, rfl, ?_⟩
    have : (expandRules ([springRule, autumnRule].map fun r => ⟨r, none⟩) 3600 2003).map
        (fun l => caseTs.isPerm l) = some true := by decide +kernel
    rw [h] at this
    exact List.isPerm_iff.1 (by simpa using this)

/-- The hypotheses of `C73_rules_partial` are met by these rules, for a line from June 2000 to May 2002 after one
with the offset 0. -/
example : ∃ es off' std', caseLine.expand (oneSet [springRule, autumnRule]) caseStart 0 0 2003 =
      some (es, off', std') ∧ Ordered (shownBy es) ∧
      (∀ e ∈ es, Real e.dt ∧ clockSec caseStart ≤ clockSec e.dt) ∧
      ∀ v o, clockSec caseStart ≤ v →
        v < instantOf ⟨⟨2002, 5, 1, 0, 0, 0, false, false, none⟩, []⟩ off' std' →
        (Shown (shownBy es) v o ↔ InForce 3600 (instants 3600 3600 caseTs) v o) := by
  obtain ⟨l, h1, h2⟩ := case_ts
  have hr : ∀ t ∈ caseTs, t.1.dt.Valid ∧ t.1.dt.dateOnly = false ∧ t.1.mode ≠ ['g'] ∧ t.1.mode ≠ ['z'] := by
    decide +kernel
  exact C73_rules_partial caseLine (oneSet [springRule, autumnRule]) caseStart 0 0 2003 3600
    ([springRule, autumnRule].map fun r => ⟨r, none⟩) l caseTs _
    (by decide +kernel) (by decide +kernel) (by decide +kernel) h1 (by decide +kernel) h2 (by decide +kernel)
    (fun t ht => ⟨⟨(hr t ht).1, (hr t ht).2.1⟩, (hr t ht).2.2⟩)
    (by unfold Real KnownMode; decide +kernel) (by unfold Real; decide +kernel) (by unfold Ordered; decide +kernel)
    (by decide +kernel)
    (by intro t ht; simp only [caseTs, List.head?_cons, Option.mem_def, Option.some.injEq] at ht; subst ht
        decide +kernel)

/-! ### What fails -/

/-- A line after one with the offset 0. -/
def witnessLine : ZoneRule := ⟨"1:00".toList, "R".toList, "X".toList, none⟩

/-- C73 fails for a line whose rules have no transition before the last year: it is left with the offset of
the line before. -/
theorem C73_fails_none : ∃ (z : ZoneRule) (rules : List Char → Option (List RuleObj)) (es : List Entry) (v : Int),
    z.getUTCOffset = some 3600 ∧ expandRules [⟨{ autumnRule with fromYear := "2030".toList }, none⟩] 3600 2020 = some [] ∧
    rules z.rule = some [⟨{ autumnRule with fromYear := "2030".toList }, none⟩] ∧
    z.expand rules caseStart 0 0 2020 = some (es, 0, 0) ∧
    clockSec caseStart ≤ v ∧ Shown (shownBy es) v 0 ∧ InForce 3600 [] v 3600 := by
  refine ⟨witnessLine, oneSet [{ autumnRule with fromYear := "2030".toList }], [⟨caseStart, 0, witnessLine, none⟩],
    clockSec caseStart, by decide +kernel, by decide +kernel, by decide +kernel, ?_, le_rfl,
    ⟨clockSec caseStart, by decide +kernel, le_rfl, by decide +kernel⟩, Or.inr ⟨rfl, by simp⟩⟩
  rw [expand_eq (ts := []) (ts0 := []) (std := 3600)
    (rs := [⟨{ autumnRule with fromYear := "2030".toList }, none⟩])
    (fu := ⟨⟨9999, 12, 1, 0, 0, 0, false, false, none⟩, []⟩)
    (by decide +kernel) (by decide +kernel) (by decide +kernel) (by decide +kernel) (by decide +kernel) (by simp)
    (by simp)]
  decide +kernel

/-- A transition at half past midnight of the clock on the wall. -/
def earlyRule : TzRule :=
  ⟨"R".toList, "2000".toList, "only".toList, "-".toList, "Jun".toList, "1".toList, "0:30".toList,
    "1:00".toList, "S".toList⟩

/-- C73 fails if the first transition of the rules is before the start of the line, but not when it is
read with the offset of the line before: here the saving begins half an hour before the line does, yet
the line shows standard time. -/
theorem C73_fails_first : ∃ (z : ZoneRule) (rules : List Char → Option (List RuleObj)) (r : TzRule) (t : TzTime)
    (es : List Entry), z.getUTCOffset = some 3600 ∧ rules z.rule = some [⟨r, none⟩] ∧
    expandRules [⟨r, none⟩] 3600 2010 = some [(t, 7200, r)] ∧
    z.expand rules caseStart 0 0 2010 = some (es, 7200, 3600) ∧
    ∀ v, clockSec caseStart ≤ v → Shown (shownBy es) v 3600 ∧
      InForce 3600 (instants 3600 3600 [(t, 7200, r)]) v 7200 := by
  refine ⟨witnessLine, oneSet [earlyRule], earlyRule, ⟨⟨2000, 6, 1, 0, 30, 0, false, false, none⟩, []⟩,
    [⟨caseStart, 3600, witnessLine, none⟩, ⟨⟨2000, 5, 31, 23, 30, 0, false, false, none⟩, 7200, witnessLine, some earlyRule⟩],
    by decide +kernel, by decide +kernel, by decide +kernel, ?_, fun v hv => ⟨?_, ?_⟩⟩
  · rw [expand_eq (ts := [(⟨⟨2000, 6, 1, 0, 30, 0, false, false, none⟩, []⟩, 7200, earlyRule)]) (std := 3600)
      (ts0 := [(⟨⟨2000, 6, 1, 0, 30, 0, false, false, none⟩, []⟩, 7200, earlyRule)])
      (rs := [⟨earlyRule, none⟩]) (fu := ⟨⟨9999, 12, 1, 0, 0, 0, false, false, none⟩, []⟩)
      (by decide +kernel) (by decide +kernel) (by decide +kernel) (by decide +kernel) (by decide +kernel)
      (List.Perm.refl _) (by simp)]
    decide +kernel
  · have : clockSec ⟨2000, 5, 31, 23, 30, 0, false, false, none⟩ = clockSec caseStart - 1800 := by decide +kernel
    refine ⟨clockSec caseStart, by simp [shownBy], hv, fun x hx _ => ?_⟩
    simp only [shownBy, List.map_cons, List.map_nil, List.mem_cons, List.not_mem_nil, or_false, this] at hx
    rcases hx with rfl | rfl <;> simp only <;> omega
  · have : instantOf ⟨⟨2000, 6, 1, 0, 30, 0, false, false, none⟩, []⟩ 3600 3600 = clockSec caseStart - 1800 := by
      decide +kernel
    left
    refine ⟨clockSec caseStart - 1800, by simp [instants, this], by omega, fun x hx _ => ?_⟩
    simp only [instants, List.mem_cons, List.not_mem_nil, or_false, this] at hx
    rw [hx]

/-- A transition at two o'clock universal time, written with a `g`. -/
def greenwichRule : TzRule :=
  ⟨"R".toList, "2000".toList, "only".toList, "-".toList, "Jun".toList, "2".toList, "2:00g".toList,
    "1:00".toList, "S".toList⟩

/-- C73 (and C69) fails for times with the letter `g`: they are read as those of the clock on the wall. -/
theorem C73_fails_letter : ∃ (z : ZoneRule) (rules : List Char → Option (List RuleObj)) (r : TzRule) (t : TzTime)
    (es : List Entry) (v : Int), z.getUTCOffset = some 3600 ∧ rules z.rule = some [⟨r, none⟩] ∧
    expandRules [⟨r, none⟩] 3600 2010 = some [(t, 7200, r)] ∧
    z.expand rules caseStart 0 0 2010 = some (es, 7200, 3600) ∧
    clockSec caseStart ≤ v ∧ Shown (shownBy es) v 7200 ∧
      InForce 3600 (instants 3600 3600 [(t, 7200, r)]) v 3600 := by
  refine ⟨witnessLine, oneSet [greenwichRule], greenwichRule, ⟨⟨2000, 6, 2, 2, 0, 0, false, false, none⟩, ['g']⟩,
    [⟨caseStart, 3600, witnessLine, none⟩, ⟨⟨2000, 6, 2, 1, 0, 0, false, false, none⟩, 7200, witnessLine, some greenwichRule⟩],
    clockSec ⟨2000, 6, 2, 1, 0, 0, false, false, none⟩,
    by decide +kernel, by decide +kernel, by decide +kernel, ?_, by decide +kernel, ?_, ?_⟩
  · rw [expand_eq (ts := [(⟨⟨2000, 6, 2, 2, 0, 0, false, false, none⟩, ['g']⟩, 7200, greenwichRule)]) (std := 3600)
      (ts0 := [(⟨⟨2000, 6, 2, 2, 0, 0, false, false, none⟩, ['g']⟩, 7200, greenwichRule)])
      (rs := [⟨greenwichRule, none⟩]) (fu := ⟨⟨9999, 12, 1, 0, 0, 0, false, false, none⟩, []⟩)
      (by decide +kernel) (by decide +kernel) (by decide +kernel) (by decide +kernel) (by decide +kernel)
      (List.Perm.refl _) (by simp)]
    decide +kernel
  · exact ⟨clockSec ⟨2000, 6, 2, 1, 0, 0, false, false, none⟩, by decide +kernel, le_rfl, by decide +kernel⟩
  · exact Or.inr ⟨rfl, by decide +kernel⟩

end Zonal
end PyCal
