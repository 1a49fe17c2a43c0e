import Verif.Props.C19_Caches
import Verif.Props.C35_Ends

/-!
# C37: converting to UTC keeps the absolute time

* `adjustToUTC` keeps `getPosixTime` (as long as the library's day count does not jump, C03).
* Converting a UTC time to a zone and back gives the same time exactly when the zone gives the same
  offset for the UTC time and for the clock time shown.  For a time zone as parsed that is so for
  every time at which the clock is not in an hour shown twice.
-/

namespace PyCal
open DateTime (TzEnv NoSkip)
open Obj
open Spec

/-- C37 (partial): after any sequence of safe calls on a date-time object (C19), `adjustToUTC` does
not change what `getPosixTime` returns, and leaves a UTC time unless the object is date-only or
floating.  Missing: conversions over the end of a century year that is not a leap year
(`C37_fails_century`). -/
theorem C37_posix_partial (env : TzEnv) (t : DateTime) (ops : List Op)
    (hs : SafeRun env (fresh t) ops) (o : Obj) (ho : o = (fresh t).run env ops)
    (hm : 1 ≤ o.dt.month ∧ o.dt.month ≤ 12)
    (hc : NoSkip o.dt.year (o.adjustToUTC env).dt.year) :
    ((o.adjustToUTC env).getPosixTime env).1 = (o.getPosixTime env).1 ∧
    (o.dt.dateOnly = false → o.dt.floating = false → (o.adjustToUTC env).dt.utc = true) := by
  have hg : Good env o := by rw [ho]; exact good_run (good_fresh env t) ops hs
  have hg' := good_adjustToUTC hg ⟨hm.1, hm.2, hc⟩
  rw [posix_value hg', posix_value hg, adjustToUTC_dt hg]
  rw [adjustToUTC_dt hg] at hc
  constructor
  · split
    · next hl =>
      rw [if_pos hl] at hc
      simp only [Bool.and_eq_true, Bool.not_eq_true'] at hl
      exact posix_toUTC env o.dt hm.1 hm.2 hl.2 hc
    · rfl
  · intro hd hf
    split
    · rfl
    · next hl =>
      unfold DateTime.isLocal at hl
      unfold DateTime.floating at hf
      rw [hd] at hl
      cases hu : o.dt.utc with
      | true => rfl
      | false => rw [hu] at hl hf; simp_all

/-- The conversion of a UTC time to a zone. -/
theorem adjustTimezone_dt {env : TzEnv} {o : Obj} (hu : o.dt.utc = true) (z : Option TzId) :
    (o.adjustTimezone env false z).dt =
      let t : DateTime := { o.dt with utc := false, tzid := z }
      t.offsetSeconds (t.tzOffset env true) := by
  unfold adjustTimezone
  rw [if_pos (.inl (by rw [hu]; simp))]
  simp only [hu, Bool.not_true, Bool.false_eq_true, if_false, Obj.offsetSeconds, assign, changed,
    Obj.setTimezone, offset_dt, timeZoneSecondsOffset]

theorem num_offsetSeconds {t : DateTime} (ht : t.Valid) (hd : t.dateOnly = false) (n : Int) :
    (t.offsetSeconds n).num = t.num + n := by
  have h1 : (t.offsetSeconds n).secNum = t.secNum + n := DateTime.addSeconds_secNum hd n
  have hv : (t.offsetSeconds n).Valid := DateTime.normalise_valid _
  rw [hv.secNum, ht.secNum] at h1
  exact h1

/-- A UTC time shown in the zone `z`. -/
def shownIn (env : TzEnv) (t : DateTime) (z : TzId) : DateTime :=
  let u : DateTime := { t with utc := false, tzid := some z }
  u.offsetSeconds (u.tzOffset env true)

/-- A UTC time and the time shown in a zone are the same moment if the zone gives the same offset for both. -/
theorem shownIn_posix (env : TzEnv) (t : DateTime) (z : TzId) (hv : t.Valid) (hd : t.dateOnly = false)
    (hu : t.utc = true)
    (hoff : (shownIn env t z).tzOffset env false =
      ({ t with utc := false, tzid := some z } : DateTime).tzOffset env true)
    (hs : NoSkip t.year (shownIn env t z).year) : (shownIn env t z).posix env = t.posix env := by
  have hp := DateTime.C03_posix_partial env { t with tzid := none } hv hd (.inl hu)
    (Duration.ofSeconds (({ t with utc := false, tzid := some z } : DateTime).tzOffset env true))
    (by
      have : (DateTime.add { t with tzid := none } (Duration.ofSeconds
        (({ t with utc := false, tzid := some z } : DateTime).tzOffset env true))).year =
          (shownIn env t z).year := by
        unfold DateTime.add
        rw [Duration.C14_total_ofSeconds]
        rfl
      rw [this]; exact hs)
  rw [Duration.C14_total_ofSeconds] at hp
  have e1 : ({ t with tzid := none } : DateTime).posix env = t.posix env := by
    simp only [DateTime.posix, DateTime.tzOffset, hu, if_true]; rfl
  have e2 : (shownIn env t z).posix env = (DateTime.add { t with tzid := none }
      (Duration.ofSeconds (({ t with utc := false, tzid := some z } : DateTime).tzOffset env
        true))).posix env - (shownIn env t z).tzOffset env false := by
    have e3 : (DateTime.add { t with tzid := none } (Duration.ofSeconds
        (({ t with utc := false, tzid := some z } : DateTime).tzOffset env true))) =
        { shownIn env t z with tzid := none, utc := true } := by
      unfold DateTime.add
      rw [Duration.C14_total_ofSeconds]
      unfold shownIn DateTime.offsetSeconds DateTime.normalise
      simp [hu]
    rw [e3]
    simp only [DateTime.posix, DateTime.tzOffset, if_true, DateTime.secondsOfDay,
      DateTime.daysSince1970]
    omega
  rw [e2, hp, e1, hoff]
  omega

theorem adjustTimezone_shown {env : TzEnv} {o : Obj} (hg : Good env o) (hd : o.dt.dateOnly = false)
    (hf : o.dt.floating = false) (z : TzId) (hne : ¬ (o.dt.utc = false ∧ o.dt.tzid = some z)) :
    (o.adjustToUTC env).dt.utc = true ∧
    (o.adjustTimezone env false (some z)).dt = shownIn env (o.adjustToUTC env).dt z := by
  have hu : (o.adjustToUTC env).dt.utc = true := by
    rw [adjustToUTC_dt hg]
    split
    · rfl
    · next hl =>
      unfold DateTime.isLocal at hl
      unfold DateTime.floating at hf
      cases h : o.dt.utc
      · simp_all
      · rfl
  have ho : o.adjustTimezone env false (some z) =
      (o.adjustToUTC env).adjustTimezone env false (some z) := by
    have c1 : (false ≠ o.dt.utc ∨ some z ≠ o.dt.tzid) := by
      cases h : o.dt.utc
      · exact .inr fun hz => hne ⟨h, hz.symm⟩
      · exact .inl (by simp)
    have c2 : (false ≠ (o.adjustToUTC env).dt.utc ∨ some z ≠ (o.adjustToUTC env).dt.tzid) :=
      .inl (by rw [hu]; simp)
    unfold adjustTimezone
    simp only [if_pos c1, if_pos c2, hu, Bool.not_true, Bool.false_eq_true, if_false]
    cases h : o.dt.utc
    · rfl
    · have : o.adjustToUTC env = o := by
        unfold adjustToUTC
        rw [if_neg (by simp [DateTime.isLocal, h])]
      simp [this]
  refine ⟨hu, ?_⟩
  rw [ho, adjustTimezone_dt hu]
  rfl

/-- C37 (partial), from any zone to any zone: after any sequence of safe calls on a date-time object that is in UTC or in
a zone, `adjustTimezone` does not change what `getPosixTime` returns, if the new zone gives the same offset for the
UTC time and for the clock time shown (`C37_zone_partial` says when).  Missing: the hour shown twice, and the
years whose end the library counts wrongly (C03). -/
theorem C37_moment_partial (env : TzEnv) (t : DateTime) (ops : List Op) (hs : SafeRun env (fresh t) ops)
    (o : Obj) (ho : o = (fresh t).run env ops) (hv : o.dt.Valid) (hd : o.dt.dateOnly = false)
    (hf : o.dt.floating = false) (z : TzId)
    (hoff : (shownIn env (o.adjustToUTC env).dt z).tzOffset env false =
      ({ (o.adjustToUTC env).dt with utc := false, tzid := some z } : DateTime).tzOffset env true)
    (hs1 : NoSkip o.dt.year (o.adjustToUTC env).dt.year)
    (hs2 : NoSkip (o.adjustToUTC env).dt.year (o.adjustTimezone env false (some z)).dt.year) :
    (o.adjustTimezone env false (some z)).dt.utc = false ∧
    (o.adjustTimezone env false (some z)).dt.tzid = some z ∧
    ((o.adjustTimezone env false (some z)).getPosixTime env).1 = (o.getPosixTime env).1 := by
  have hg : Good env o := by rw [ho]; exact good_run (good_fresh env t) ops hs
  by_cases hne : o.dt.utc = false ∧ o.dt.tzid = some z
  · have : o.adjustTimezone env false (some z) = o := by
      unfold adjustTimezone
      rw [if_neg (by rw [hne.1, hne.2]; simp)]
    rw [this]
    exact ⟨hne.1, hne.2, rfl⟩
  · obtain ⟨hu, hz⟩ := adjustTimezone_shown hg hd hf z hne
    rw [posix_value (good_adjustTimezone hg false (some z)), posix_value hg]
    rw [hz] at hs2 ⊢
    refine ⟨rfl, rfl, ?_⟩
    have hk : (o.adjustToUTC env).dt.Valid ∧ (o.adjustToUTC env).dt.dateOnly = false ∧
        (o.adjustToUTC env).dt.posix env = o.dt.posix env := by
      rw [adjustToUTC_dt hg] at hs1 ⊢
      split
      · next hl =>
        rw [if_pos hl] at hs1
        exact ⟨DateTime.normalise_valid _, hd, posix_toUTC env o.dt hv.month.1 hv.month.2 hd hs1⟩
      · exact ⟨hv, hd, rfl⟩
    rw [shownIn_posix env _ z hk.1 hk.2.1 hu hoff hs2, hk.2.2]

/-- From two hours ahead of UTC to five hours behind. -/
example : let o : Obj := fresh { minute 2010 7 1 3 0 0 with tzid := some (.fixed 7200) }
    (o.dt.Valid ∧ o.dt.floating = false ∧
      (shownIn .empty (o.adjustToUTC .empty).dt (.fixed (-18000))).tzOffset .empty false =
        ({ (o.adjustToUTC .empty).dt with utc := false, tzid := some (.fixed (-18000)) } : DateTime).tzOffset
          .empty true) ∧
    (o.adjustTimezone .empty false (some (.fixed (-18000)))).dt =
      { minute 2010 6 30 20 0 0 with tzid := some (.fixed (-18000)) } := by
  decide +kernel

/-- C37: a UTC time converted to a zone and back is the same UTC time exactly when the zone gives
the same offset for the clock time shown as for the UTC time. -/
theorem C37_roundtrip (env : TzEnv) (o : Obj) (hv : o.dt.Valid) (hd : o.dt.dateOnly = false)
    (hu : o.dt.utc = true) (hz : o.dt.tzid = none) (z : TzId) (hn : tzTruthy (some z) = true) :
    ((o.adjustTimezone env false (some z)).adjustToUTC env).dt = o.dt ↔
      (shownIn env o.dt z).tzOffset env false =
        ({ o.dt with utc := false, tzid := some z } : DateTime).tzOffset env true := by
  have hg : Good env (o.adjustTimezone env false (some z)) := by
    unfold adjustTimezone
    rw [if_pos (.inl (by rw [hu]; simp))]
    exact good_assign _ _ _
  rw [adjustToUTC_dt hg, adjustTimezone_dt hu]
  change (if (shownIn env o.dt z).isLocal && !(shownIn env o.dt z).dateOnly then
    ({ shownIn env o.dt z with utc := true, tzid := none } : DateTime).offsetSeconds
      (-(shownIn env o.dt z).tzOffset env) else shownIn env o.dt z) = o.dt ↔ _
  have hl : ((shownIn env o.dt z).isLocal && !(shownIn env o.dt z).dateOnly) = true := by
    unfold DateTime.isLocal
    rw [show (shownIn env o.dt z).dateOnly = false from hd,
      show (shownIn env o.dt z).utc = false from rfl,
      show (shownIn env o.dt z).tzid = some z from rfl, hn]
    rfl
  rw [if_pos hl]
  have hsv : (shownIn env o.dt z).Valid := DateTime.normalise_valid _
  have h1 := num_offsetSeconds (t := { o.dt with utc := false, tzid := some z }) hv hd
    (({ o.dt with utc := false, tzid := some z } : DateTime).tzOffset env true)
  have h2 := num_offsetSeconds (t := { shownIn env o.dt z with utc := true, tzid := none }) hsv hd
    (-(shownIn env o.dt z).tzOffset env)
  have hnum : ({ shownIn env o.dt z with utc := true, tzid := none } : DateTime).num =
      (shownIn env o.dt z).num := rfl
  have hnum' : ({ o.dt with utc := false, tzid := some z } : DateTime).num = o.dt.num := rfl
  rw [hnum] at h2
  change (shownIn env o.dt z).num = _ at h1
  rw [hnum', ] at h1
  constructor
  · intro h
    rw [h] at h2
    omega
  · intro h
    refine DateTime.eq_of_civil ⟨rfl, hu.symm, hz.symm⟩ (timeNum_inj ?_ hv.1 ?_)
    · exact (DateTime.normalise_valid _).1
    · change DateTime.num _ = o.dt.num
      omega

/-! ## Time zones as parsed -/

/-- All answers for the zone `name` are given by a `VTimezone` object in some state it reaches.  The
object works with floating times only; `env0` gives the offset 0 for these (`DefaultUtc`). -/
def AnsweredBy (env env0 : TzEnv) (o : SetOrder) (o' : SetOrder (DateTime × Int × Int))
    (name : String) (z : Zone) : Prop :=
  ∀ (t : DateTime) (rel : Bool), t.Valid → t.dateOnly = false →
    ∃ z1 z2 fuel, ZoneReach env0 o o' z z1 ∧
      z1.offsetSeconds env0 o o' fuel t rel = some (env (some name) t rel, z2)

/-- There are such answers for every time zone as parsed, as every question is answered. -/
theorem answered {env0 : TzEnv} (he : DefaultUtc env0) (o : SetOrder)
    (o' : SetOrder (DateTime × Int × Int)) (name : String) (z : Zone)
    (hp : ∀ e ∈ z.elements, ParsedElement e) (h0 : z.maxYear = none)
    (hm : WholeMinutes (z.elements.map (descOf env0))) :
    ∃ env : TzEnv, AnsweredBy env env0 o o' name z := by
  have hex : ∀ (t : DateTime) (rel : Bool), ∃ v : Int, t.Valid → t.dateOnly = false →
      ∃ z1 z2 fuel, ZoneReach env0 o o' z z1 ∧
        z1.offsetSeconds env0 o o' fuel t rel = some (v, z2) := by
    intro t rel
    by_cases ht : t.Valid ∧ t.dateOnly = false
    · obtain ⟨n, v, z2, h⟩ := C35_ends_partial env0 he o o' z z hp h0 hm .start t ht.1 ht.2 rel
      exact ⟨v, fun _ _ => ⟨z, z2, n, .start, h n (le_refl n)⟩⟩
    · exact ⟨0, fun h1 h2 => absurd ⟨h1, h2⟩ ht⟩
  choose f hf using hex
  exact ⟨fun _ t rel => f t rel, hf⟩

/-- At the UTC time `x` the clock, ahead by `v`, shows a time from which one can tell which
transitions have happened. -/
def Unambiguous (ds : List Desc) (x v : Int) : Prop :=
  ∀ t f g, Tr ds t f g → (t.num - f ≤ x ↔ t.num ≤ x + v)

/-- C37 (partial): in a time zone as parsed (see `C35_zone_partial`), a UTC time converted to the
zone and back is the same UTC time, unless the clock time shown can also be read as another time.
Missing: the hour shown twice at the end of daylight saving time (`C37_fails_ambiguous`). -/
theorem C37_zone_partial (env env0 : TzEnv) (he : DefaultUtc env0) (so : SetOrder)
    (so' : SetOrder (DateTime × Int × Int)) (name : String) (hname : name ≠ "") (z : Zone)
    (hp : ∀ e ∈ z.elements, ParsedElement e) (h0 : z.maxYear = none)
    (hm : WholeMinutes (z.elements.map (descOf env0)))
    (hor : Orderly (z.elements.map (descOf env0)))
    (hone : ∀ rel t f g t' f' g', Tr (z.elements.map (descOf env0)) t f g →
      Tr (z.elements.map (descOf env0)) t' f' g' → timeOf rel t f = timeOf rel t' f' → g = g')
    (ha : AnsweredBy env env0 so so' name z) (o : Obj) (hv : o.dt.Valid) (hd : o.dt.dateOnly = false)
    (hu : o.dt.utc = true) (hz : o.dt.tzid = none)
    (hun : ∀ v, IsOffset (z.elements.map (descOf env0)) true o.dt.num v →
      Unambiguous (z.elements.map (descOf env0)) o.dt.num v)
    (hfirst : ¬ BeforeAll (z.elements.map (descOf env0)) true o.dt.num) :
    ((o.adjustTimezone env false (some (.name name))).adjustToUTC env).dt = o.dt := by
  rw [C37_roundtrip env o hv hd hu hz _ (by simp [tzTruthy, hname])]
  set ds := z.elements.map (descOf env0) with hds
  set u : DateTime := { o.dt with utc := false, tzid := some (.name name) } with hu'
  have hto : ∀ rel, u.tzOffset env rel = env (some name) u rel := fun rel => rfl
  have hts : (shownIn env o.dt (.name name)).tzOffset env false =
      env (some name) (shownIn env o.dt (.name name)) false := rfl
  have hsv : (shownIn env o.dt (.name name)).Valid := DateTime.normalise_valid _
  rw [hto, hts]
  obtain ⟨z1, z2, n, hr, hq⟩ := ha u true hv hd
  obtain ⟨z3, z4, n', hr', hq'⟩ := ha (shownIn env o.dt (.name name)) false hsv hd
  have h1 := C35_zone_partial he hp h0 hm hr hv hd (fun _ => hor.upTo _) hq
  have h2 := C35_zone_partial he hp h0 hm hr' hsv hd (fun h => by simp at h) hq'
  have hnum : (shownIn env o.dt (.name name)).num = o.dt.num + env (some name) u true :=
    num_offsetSeconds (t := u) hv hd _
  rw [hnum] at h2
  generalize env (some name) u true = v at *
  generalize env (some name) (shownIn env o.dt (.name name)) false = w at *
  have h1 : IsOffset ds true o.dt.num v := by
    rcases h1 with h | h
    · exact h
    · exact absurd h.1 hfirst
  have hamb := hun v h1
  obtain ⟨t, f, ht, hle, hmax⟩ := h1
  simp only [timeOf, if_true] at hle hmax
  have hle' := (hamb t f v ht).mp hle
  rcases h2 with ⟨t', f', ht', hle2, hmax2⟩ | ⟨h2, _⟩
  · simp only [timeOf, Bool.false_eq_true, if_false] at hle2 hmax2
    have hle2' := (hamb t' f' w ht').mpr hle2
    have a1 := hmax t' f' w ht' hle2'
    have a2 := hmax2 t f v ht hle'
    have a3 := hor.1 t f v t' f' w ht ht' a2
    exact hone true t' f' w t f v ht' ht (by simp only [timeOf, if_true]; omega)
  · have := h2 t f v ht
    simp only [timeOf, Bool.false_eq_true, if_false] at this
    omega

/-- Eastern Time: the clock is unambiguous at all UTC times except those between 06:00 and 07:00. -/
theorem eastern_unambiguous (x v : Int) (h : IsOffset easternDescs true x v)
    (hx : ¬ (21600 ≤ x % 86400 ∧ x % 86400 < 25200)) : Unambiguous easternDescs x v := by
  obtain ⟨t, f, ht, hle, hmax⟩ := h
  obtain ⟨_, _, _, _, a4⟩ := eastern_tr ht
  intro t' f' g' ht'
  obtain ⟨_, b1, b2, b3, b4⟩ := eastern_tr ht'
  have e2 := two_oclock ⟨b1, b2, b3⟩
  omega

/-- Eastern Time from 2010 on: a UTC time, converted and back, is the same unless it is between 06:00
and 07:00.  The conditions of `C37_zone_partial` are met. -/
example (so : SetOrder) (so' : SetOrder (DateTime × Int × Int)) :
    ∃ env : TzEnv, AnsweredBy env .empty so so' "US/Eastern" eastern ∧
    ∀ o : Obj, o.dt.Valid → o.dt.dateOnly = false → o.dt.utc = true → o.dt.tzid = none →
      2010 ≤ o.dt.year → ¬ (21600 ≤ o.dt.num % 86400 ∧ o.dt.num % 86400 < 25200) →
      ((o.adjustTimezone env false (some (.name "US/Eastern"))).adjustToUTC env).dt = o.dt := by
  obtain ⟨h1, h2, h3, h4, h5⟩ := eastern_meets
  obtain ⟨env, ha⟩ := answered (env0 := .empty) (fun _ _ => rfl) so so' "US/Eastern" eastern h1 h2 h3
  refine ⟨env, ha, fun o hv hd hu hz hy hx => ?_⟩
  refine C37_zone_partial env .empty (fun _ _ => rfl) so so' "US/Eastern" (by decide) eastern h1 h2
    h3 h4 h5 ha o hv hd hu hz (fun v h => eastern_unambiguous _ _ h hx) fun hb => ?_
  have h6 := hb _ _ _ ⟨_, List.mem_cons_self, .inl rfl, rfl, rfl⟩
  have h7 : (minute 2009 1 1 0 0 0).num < o.dt.num :=
    (DateTime.fieldsLt_iff_timeNum (show (minute 2009 1 1 0 0 0).civil.Valid by decide) hv.1).mp
      (.inl (.inl (show (2009 : Int) < o.dt.year by omega)))
  have h8 : timeOf true easternDaylight (-18000) < (minute 2009 1 1 0 0 0).num := by decide
  change o.dt.num < timeOf true easternDaylight (-18000) at h6
  omega

/-! ## Where the claims fail -/

/-- The offsets given by a `VTimezone` object that has not been asked before. -/
def zoneEnv (z : Zone) : TzEnv := fun _ t rel => (ask z t rel).getD 0

/-- C37 fails in the hour shown twice: 06:30 UTC on 7 November 2010 is 01:30 Eastern Time, which is
converted to 05:30 UTC, as 01:30 is read as daylight saving time. -/
theorem C37_fails_ambiguous :
    let o : Obj := fresh { minute 2010 11 7 6 30 0 with utc := true }
    let o' := o.adjustTimezone (zoneEnv eastern) false (some (.name "US/Eastern"))
    o'.dt = { minute 2010 11 7 1 30 0 with tzid := some (.name "US/Eastern") } ∧
    (o'.adjustToUTC (zoneEnv eastern)).dt = { minute 2010 11 7 5 30 0 with utc := true } := by
  decide +kernel

/-- C37 fails at the end of 2100: `adjustToUTC` over the New Year changes the absolute time by a
day. -/
theorem C37_fails_century :
    let o : Obj := fresh { minute 2100 12 31 23 0 0 with tzid := some (.fixed (-7200)) }
    (o.adjustToUTC .empty).dt = { minute 2101 1 1 1 0 0 with utc := true } ∧
    ((o.adjustToUTC .empty).getPosixTime .empty).1 ≠ (o.getPosixTime .empty).1 := by
  decide +kernel

/-- C37 fails for dates: a date in UTC converted to a zone behind UTC becomes the day before, and
the conversion back leaves it there. -/
theorem C37_fails_date :
    let o : Obj := fresh { DateTime.ofDate 2010 7 1 with utc := true }
    let o' := o.adjustTimezone .empty false (some (.fixed (-7200)))
    (o'.dt.year, o'.dt.month, o'.dt.day) = (2010, 6, 30) ∧ o'.adjustToUTC .empty = o' := by
  decide +kernel

end PyCal
