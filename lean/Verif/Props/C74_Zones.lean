import Verif.Props.C73_ZoneLines

/-! # C74: the transitions of a zone -/

namespace PyCal
namespace Zonal
open Spec Spec.Zic DateTime

/-- The transitions that stay, if local time goes forward. -/
def kept (minYear : Int) : (off : Int) → List Entry → List Transition
  | _, [] => []
  | off, e :: es =>
    (if e.dt.year ≥ minYear then [⟨e.dt.offsetSeconds off, off, e.offset, e.zone, e.rule⟩] else []) ++
      kept minYear e.offset es

theorem scan_eq (minYear s : Int) : ∀ (es : List Entry) (last : DateTime × Int) (results : List Transition),
    Real last.1 → (∀ e ∈ es, Real e.dt) → Advances (clockSec last.1) last.2 (shownBy es) →
    scan minYear s es last results = results ++ kept minYear last.2 es := by
  intro es
  induction es with
  | nil => intro last results _ _ _; simp [scan, kept]
  | cons e es ih =>
    intro last results hl he ha
    simp only [shownBy, List.map_cons, Advances] at ha
    obtain ⟨h1, h2⟩ := real_offset (he e (by simp)) last.2
    have hgt : (e.dt.offsetSeconds last.2).cmpFields last.1 > 0 := by
      have := cmpFields_neg last.1 (e.dt.offsetSeconds last.2)
      have := (cmp_lt hl h1).2 (by omega)
      omega
    rw [scan]
    simp only [hgt, if_true]
    rw [ih (e.dt.offsetSeconds last.2, e.offset) _ h1 (fun x hx => he x (List.mem_cons_of_mem _ hx))
      (by rw [h2]; exact ha.2)]
    simp only [kept]
    split <;> simp

/-- The result as instants: each is given in the local time before it. -/
def resultInstants (ts : List Transition) : List (Int × Int) :=
  ts.map fun r => (clockSec r.dt - r.offsetFrom, r.offsetTo)

theorem kept_instants (minYear : Int) : ∀ (es : List Entry) (off : Int), (∀ e ∈ es, Real e.dt) →
    resultInstants (kept minYear off es) = shownBy (es.filter fun e => decide (e.dt.year ≥ minYear)) := by
  intro es
  induction es with
  | nil => intro off _; simp [kept, resultInstants, shownBy]
  | cons e es ih =>
    intro off he
    obtain ⟨h1, h2⟩ := real_offset (he e (by simp)) off
    have ih := ih e.offset (fun x hx => he x (List.mem_cons_of_mem _ hx))
    unfold resultInstants shownBy at *
    simp only [kept, List.map_append, ih]
    rw [List.filter_cons]
    split
    · next h => simp [h, h2]
    · next h => simp [h]

theorem year_mono {a b : DateTime} (ha : Real a) (hb : Real b) (h : clockSec a ≤ clockSec b) : a.year ≤ b.year := by
  by_contra hc
  have : FieldsLt b a := by left; left; exact by simp only [date]; omega
  have := (fieldsLt_iff_timeNum hb.1.1 ha.1.1).1 this
  unfold clockSec at h
  omega

theorem shown_filter {es : List Entry} (he : ∀ e ∈ es, Real e.dt) {minYear v o : Int}
    (h0 : ∃ e ∈ es, e.dt.year ≥ minYear ∧ clockSec e.dt ≤ v) :
    Shown (shownBy (es.filter fun e => decide (e.dt.year ≥ minYear))) v o ↔ Shown (shownBy es) v o := by
  unfold Shown shownBy
  simp only [List.mem_map, List.mem_filter, decide_eq_true_eq, Prod.mk.injEq]
  constructor
  · rintro ⟨u, ⟨e, ⟨hm, hy⟩, rfl, rfl⟩, huv, hmax⟩
    refine ⟨_, ⟨e, hm, rfl, rfl⟩, huv, ?_⟩
    rintro x ⟨e', hm', rfl⟩ hx
    by_cases hy' : e'.dt.year ≥ minYear
    · exact hmax _ ⟨e', ⟨hm', hy'⟩, rfl⟩ hx
    · by_contra hc
      have := year_mono (he e hm) (he e' hm') (by simp only at hc; omega)
      omega
  · rintro ⟨u, ⟨e, hm, rfl, rfl⟩, huv, hmax⟩
    obtain ⟨e0, hm0, hy0, hv0⟩ := h0
    have h1 := hmax _ ⟨e0, hm0, rfl⟩ hv0
    have := year_mono (he e0 hm0) (he e hm) h1
    refine ⟨_, ⟨e, ⟨hm, by omega⟩, rfl, rfl⟩, huv, ?_⟩
    rintro x ⟨e', ⟨hm', _⟩, rfl⟩ hx
    exact hmax _ ⟨e', hm', rfl⟩ hx

theorem kept_from (minYear : Int) : ∀ (es : List Entry) (off : Int), (∀ e ∈ es, Real e.dt) →
    Ordered (shownBy es) → ∀ r ∈ kept minYear off es,
      (∃ e ∈ es, clockSec e.dt = clockSec r.dt - r.offsetFrom) ∧
      walk off (shownBy es) (clockSec r.dt - r.offsetFrom - 1) = r.offsetFrom := by
  intro es
  induction es with
  | nil => intro off _ _ r hr; simp [kept] at hr
  | cons e es ih =>
    intro off he ho r hr
    obtain ⟨h1, h2⟩ := real_offset (he e (by simp)) off
    simp only [shownBy, List.map_cons] at ho ⊢
    unfold Ordered at ho
    rw [List.pairwise_cons] at ho
    simp only [kept, List.mem_append] at hr
    rcases hr with hr | hr
    · split at hr
      · simp only [List.mem_singleton] at hr
        subst hr
        refine ⟨⟨e, by simp, by simp only [h2]; omega⟩, ?_⟩
        simp only [walk, h2]
        rw [if_neg (by omega)]
      · simp at hr
    · obtain ⟨⟨e', hm, hi⟩, hw⟩ := ih e.offset (fun x hx => he x (List.mem_cons_of_mem _ hx)) ho.2 r hr
      refine ⟨⟨e', List.mem_cons_of_mem _ hm, hi⟩, ?_⟩
      have := ho.1 (clockSec e'.dt, e'.offset) (List.mem_map_of_mem hm)
      simp only at this
      rw [walk, if_pos (by omega)]
      exact hw

/-- The transitions of the lines of a zone that count: all but those of the first line if there are
others. -/
def counted (zn : Zone) (ess : List (List Entry)) : List Entry :=
  (if zn.rules.length > 1 then ess.drop 1 else ess).flatten

theorem zone_expand_eq {zn : Zone} {z : ZoneRule} {zs : List ZoneRule}
    {rules : List Char → Option (List RuleObj)} {minYear maxYear start : Int} {ess : List (List Entry)}
    (hz : zn.rules = z :: zs) (hs : z.getUTCOffset = some start)
    (hl : linesLoop rules maxYear zn.rules zoneStart start start = some ess)
    (ho : (counted zn ess).Pairwise fun a b => a.dt.cmpFields b.dt < 0) :
    zn.expand rules minYear maxYear = some (scan minYear start (counted zn ess) (zoneStart, start) []) := by
  have hsort := sorted_by (fun e : Entry => e.dt) (List.Perm.refl _) ho
  unfold Zone.expand
  rw [hz]
  simp only [hs]
  rw [← hz, hl]
  simp only
  unfold counted at hsort ⊢
  rw [hsort]

/-- C74 (partial): the result of expanding a zone from a year on shows at every instant, from the first
transition in that year on, the offset that the transitions of its lines (`C73_rules_partial`,
`C73_numeric`) show; and gives with each transition the offset in force just before it.  (`ess` are the
transitions of the lines, each expanded from the end of the one before; `start` is the offset of the first
line.)
For this the transitions must be in the order of time, and local time must go forward from each to the
next (`C74_fails_close`), and from 1 January 1800 to the first (`C74_fails_start`). -/
theorem C74_offsets_partial (zn : Zone) (z : ZoneRule) (zs : List ZoneRule)
    (rules : List Char → Option (List RuleObj)) (minYear maxYear start : Int) (ess : List (List Entry))
    (hz : zn.rules = z :: zs) (hs : z.getUTCOffset = some start)
    (hl : linesLoop rules maxYear zn.rules zoneStart start start = some ess)
    (hr : ∀ e ∈ counted zn ess, Real e.dt) (ho : Ordered (shownBy (counted zn ess)))
    (ha : Advances (clockSec zoneStart) start (shownBy (counted zn ess))) :
    ∃ ts, zn.expand rules minYear maxYear = some ts ∧
      (∀ v o, (∃ e ∈ counted zn ess, e.dt.year ≥ minYear ∧ clockSec e.dt ≤ v) →
        (Shown (resultInstants ts) v o ↔ Shown (shownBy (counted zn ess)) v o)) ∧
      ∀ r ∈ ts, InForce start (shownBy (counted zn ess)) (clockSec r.dt - r.offsetFrom - 1) r.offsetFrom := by
  have hsort : (counted zn ess).Pairwise fun a b => a.dt.cmpFields b.dt < 0 := by
    have : (counted zn ess).Pairwise fun a b => clockSec a.dt < clockSec b.dt := by
      unfold Ordered shownBy at ho
      rwa [List.pairwise_map] at ho
    exact this.imp_of_mem fun ha hb h => (cmp_lt (hr _ ha) (hr _ hb)).2 h
  have hz0 : Real zoneStart := by unfold Real; decide +kernel
  have he : zn.expand rules minYear maxYear = some (kept minYear start (counted zn ess)) := by
    rw [zone_expand_eq hz hs hl hsort, scan_eq minYear start (counted zn ess) (zoneStart, start) [] hz0 hr ha,
      List.nil_append]
  refine ⟨_, he, fun v o h0 => ?_, fun r hr' => ?_⟩
  · rw [kept_instants minYear _ _ hr, shown_filter hr h0]
  · rw [inForce_iff ho]
    exact (kept_from minYear _ _ hr ho r hr').2

/-- The transitions of lines that follow each other: each line is expanded from the instant at which the
one before it ends, that end being read with the offsets in force at the end of that line. -/
inductive Follow (rules : List Char → Option (List RuleObj)) (maxYear : Int) :
    List ZoneRule → DateTime → Int → Int → List (List Entry) → Prop
  | nil {since off std} : Follow rules maxYear [] since off std []
  | cons {z zs since off std es off' std' u next ess} :
      z.expand rules since off std maxYear = some (es, off', std') → z.getUntilDate = some u →
      (Real u.dt → KnownMode u → clockSec next = instantOf u off' std' ∧ Real next) →
      Follow rules maxYear zs next off' std' ess → Follow rules maxYear (z :: zs) since off std (es :: ess)

/-- C74: the transitions in `C74_offsets_partial` are those of lines that follow each other. -/
theorem C74_follow (rules : List Char → Option (List RuleObj)) (maxYear : Int) (zs : List ZoneRule)
    (since : DateTime) (off std : Int) (ess : List (List Entry))
    (h : linesLoop rules maxYear zs since off std = some ess) :
    Follow rules maxYear zs since off std ess := by
  induction zs generalizing since off std ess with
  | nil => rw [linesLoop] at h; cases h; exact .nil
  | cons z zs ih =>
    rw [linesLoop] at h
    split at h
    · rename_i es off' std' u h1 h2
      obtain ⟨ess', h3, rfl⟩ := Option.map_eq_some_iff.1 h
      exact .cons h1 h2 (fun hr hm => (getUTC_spec hr hm _ _).symm) (ih _ _ _ _ h3)
    · cases h

/-! ### A case -/

/-- Three lines without rules. -/
def threeLines (first second third : String) (e1 e2 : String) : Zone :=
  ⟨"Z".toList, [⟨first.toList, "-".toList, "A".toList, some e1.toList⟩,
    ⟨second.toList, "-".toList, "B".toList, some e2.toList⟩, ⟨third.toList, "-".toList, "C".toList, none⟩]⟩

/-- The hypotheses are met by such a zone. -/
example : let zn := threeLines "-0:10" "1:00" "-3:30" "1900 Jan 1" "1950 Apr 10 2:00s"
    ∃ ess, linesLoop (fun _ => none) 2020 zn.rules zoneStart (-600) (-600) = some ess ∧
      (∀ e ∈ counted zn ess, Real e.dt) ∧ Ordered (shownBy (counted zn ess)) ∧
      Advances (clockSec zoneStart) (-600) (shownBy (counted zn ess)) ∧
      shownBy (counted zn ess) = [(clockSec ⟨1900, 1, 1, 0, 10, 0, false, false, none⟩, 3600),
        (clockSec ⟨1950, 4, 10, 1, 0, 0, false, false, none⟩, -12600)] := by
  intro zn
  have h : (linesLoop (fun _ => none) 2020 zn.rules zoneStart (-600) (-600)).map (fun ess =>
      (counted zn ess).map fun e => (e.dt, e.offset)) = some [
        (⟨1900, 1, 1, 0, 10, 0, false, false, none⟩, 3600), (⟨1950, 4, 10, 1, 0, 0, false, false, none⟩, -12600)] := by
    decide +kernel
  simp only [Option.map_eq_some_iff] at h
  obtain ⟨ess, h1, h2⟩ := h
  have h3 : shownBy (counted zn ess) = [(clockSec ⟨1900, 1, 1, 0, 10, 0, false, false, none⟩, 3600),
        (clockSec ⟨1950, 4, 10, 1, 0, 0, false, false, none⟩, -12600)] := by
    have := congrArg (List.map fun x : DateTime × Int => (clockSec x.1, x.2)) h2
    simpa [shownBy, List.map_map, Function.comp_def] using this
  refine ⟨ess, h1, ?_, ?_, ?_, h3⟩
  · intro e he
    have : (e.dt, e.offset) ∈ (counted zn ess).map fun e => (e.dt, e.offset) := List.mem_map_of_mem he
    rw [h2] at this
    simp only [List.mem_cons, Prod.mk.injEq, List.not_mem_nil, or_false] at this
    rcases this with ⟨h, _⟩ | ⟨h, _⟩ <;> rw [h] <;> unfold Real <;> decide +kernel
  · rw [h3]; unfold Ordered; decide +kernel
  · rw [h3]; simp only [Advances]; decide +kernel

/-! ### What fails -/

/-- Two changes an hour apart, the first three hours back. -/
def closeZone : Zone := threeLines "0:00" "-3:00" "-5:00" "2000 Jan 1 0:00u" "2000 Jan 1 1:00u"

/-- The transitions of its lines. -/
def closeEntries : List (List Entry) :=
  [[⟨zoneStart, 0, ⟨"0:00".toList, "-".toList, "A".toList, some "2000 Jan 1 0:00u".toList⟩, none⟩],
   [⟨⟨2000, 1, 1, 0, 0, 0, false, false, none⟩, -10800,
      ⟨"-3:00".toList, "-".toList, "B".toList, some "2000 Jan 1 1:00u".toList⟩, none⟩],
   [⟨⟨2000, 1, 1, 1, 0, 0, false, false, none⟩, -18000, ⟨"-5:00".toList, "-".toList, "C".toList, none⟩, none⟩]]

/-- C74 fails for a change of the clock back followed by another before local time has caught up: the first
is replaced by the second. -/
theorem C74_fails_close : ∃ (zn : Zone) (ess : List (List Entry)) (ts : List Transition) (v : Int),
    linesLoop (fun _ => none) 2020 zn.rules zoneStart 0 0 = some ess ∧
    zn.expand (fun _ => none) 1900 2020 = some ts ∧ Ordered (shownBy (counted zn ess)) ∧
    Shown (shownBy (counted zn ess)) v (-10800) ∧ Shown (resultInstants ts) v (-18000) := by
  refine ⟨closeZone, closeEntries, [⟨⟨2000, 1, 1, 0, 0, 0, false, false, none⟩, 0, -18000,
      ⟨"-5:00".toList, "-".toList, "C".toList, none⟩, none⟩],
    clockSec ⟨2000, 1, 1, 0, 0, 0, false, false, none⟩, by decide +kernel, ?_,
    by unfold Ordered; decide +kernel,
    ⟨clockSec ⟨2000, 1, 1, 0, 0, 0, false, false, none⟩, by decide +kernel, le_rfl, by decide +kernel⟩,
    ⟨clockSec ⟨2000, 1, 1, 0, 0, 0, false, false, none⟩, by decide +kernel, le_rfl, by decide +kernel⟩⟩
  rw [zone_expand_eq (zn := closeZone) (start := 0) (ess := closeEntries) rfl (by decide +kernel) (by decide +kernel)
    (by decide +kernel)]
  decide +kernel

/-- A zone of one line, with a saving. -/
def savingZone : Zone := ⟨"Z".toList, [⟨"-1:00".toList, "1:00".toList, "A".toList, none⟩]⟩

/-- C74 fails for a zone of one line west of Greenwich with a saving: if the year 1800 is included, the
saving is left out. -/
theorem C74_fails_start : ∃ (zn : Zone) (ess : List (List Entry)) (ts : List Transition),
    linesLoop (fun _ => none) 2020 zn.rules zoneStart (-3600) (-3600) = some ess ∧
    zn.expand (fun _ => none) 1800 2020 = some ts ∧ 
    ∀ v, clockSec zoneStart + 3600 ≤ v →
      Shown (shownBy (counted zn ess)) v 0 ∧ Shown (resultInstants ts) v (-3600) := by
  refine ⟨savingZone, [[⟨zoneStart, 0, ⟨"-1:00".toList, "1:00".toList, "A".toList, none⟩, none⟩]],
    [⟨zoneStart, -3600, -3600, ⟨"-1:00".toList, "1:00".toList, "A".toList, none⟩, none⟩],
    by decide +kernel, ?_, fun v hv => ⟨?_, ?_⟩⟩
  · rw [zone_expand_eq (zn := savingZone) (start := -3600)
      (ess := [[⟨zoneStart, 0, ⟨"-1:00".toList, "1:00".toList, "A".toList, none⟩, none⟩]]) rfl (by decide +kernel)
      (by decide +kernel) (by decide +kernel)]
    decide +kernel
  · exact ⟨clockSec zoneStart, by decide +kernel, by omega, by simp [shownBy, counted, savingZone]⟩
  · exact ⟨clockSec zoneStart + 3600, by simp [resultInstants], hv, by simp [resultInstants]⟩

end Zonal
end PyCal
