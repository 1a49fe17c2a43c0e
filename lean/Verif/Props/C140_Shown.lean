import Verif.Props.C139_Instants
import Verif.Props.C37_Convert

/-!
# C140: from the text of a calendar to the local times of instants

What `adjustTimezone` makes of a time in UTC with the time zones of a calendar that was read: the clock that the lines of the time
zone describe, the same instant, and the same time when converted back.
-/

namespace PyCal
open Spec DateTime Spec.EventText EventRead
open Spec.ZoneText (Observance Onset InForce Unset InForceUtc UnsetUtc utcOf)
open L138 L139 CalendarRead Obj

/-- The offsets of times in UTC are those that the lines of the time zones describe. -/
def OffsetsByUtc (zones : List (List Char × List Observance)) (env : TzEnv) : Prop :=
  ∀ tzid ds, Named zones tzid ds → ∀ x, x.Valid → x.dateOnly = false → x.year ≤ 2097 → InOrder ds x →
    InForceUtc ds x (env (some (String.ofList tzid)) x true) ∨ UnsetUtc ds x ∧ env (some (String.ofList tzid)) x true = 0

/-- Observances with an onset at the same time in UTC have the same offset. -/
def DefiniteUtc (ds : List Observance) : Prop :=
  ∀ d ∈ ds, ∀ d' ∈ ds, ∀ t t', Onset d t → Onset d' t' → utcOf d t = utcOf d' t' → d.offsetTo = d'.offsetTo

/-- When it is `x` in UTC, one can tell from the clock, which shows `a`, which changes have been. -/
def Clear (ds : List Observance) (x a : DateTime) : Prop :=
  ∀ d ∈ ds, ∀ t, Onset d t → (utcOf d t ≤ timeNum x.civil ↔ timeNum t.civil ≤ timeNum a.civil)

namespace L140

theorem inForceUtc_unique {ds : List Observance} (hu : DefiniteUtc ds) {x : DateTime} {v v' : Int}
    (h : InForceUtc ds x v) (h' : InForceUtc ds x v') : v = v' := by
  obtain ⟨d, hd, t, ht, hb, rfl, hmax⟩ := h
  obtain ⟨d', hd', t', ht', hb', rfl, hmax'⟩ := h'
  exact hu d hd d' hd' t t' ht ht' (le_antisymm (hmax' d hd t ht hb) (hmax d' hd' t' ht' hb'))

theorem inForceUtc_set {ds : List Observance} {x : DateTime} {v : Int} (h : InForceUtc ds x v) : ¬ UnsetUtc ds x := by
  obtain ⟨d, hd, t, ht, hb, _⟩ := h
  exact fun hc => absurd (hc d hd t ht) (by omega)

theorem year_shown {x a : DateTime} (hx : x.Valid) (hd : x.dateOnly = false) (ha : a.Valid) (hy : x.year ≤ 2097) (h : a.num < x.num + 86400) :
    a.year ≤ 2098 := by
  have h1 : x.num < (TzElement.newYear 2098).num := by
    have k := (newYear_lt (t := { x with utc := false, tzid := none }) ⟨hx, hd, rfl, rfl⟩ (y := 2098)).mpr (by
      show x.year < 2098
      omega)
    exact k
  have h2 := Rule.L133.year_of_time (a := a) (b := ⟨2098, 1, 2, 0, 0, 0, false, false, none⟩) ha (by decide +kernel) (by
    have : (⟨2098, 1, 2, 0, 0, 0, false, false, none⟩ : DateTime).num = (TzElement.newYear 2098).num + 86400 := by decide +kernel
    show a.num ≤ DateTime.num _
    omega)
  exact h2

/-- The offset for the clock is the one for the time in UTC. -/
theorem clear_offset {ds : List Observance} (hf : ∀ d ∈ ds, ZoneFits d) (hu : DefiniteUtc ds) {x a : DateTime} (ha : a.Valid)
    (hord : InOrder ds x) (hc : Clear ds x a) {v w : Int} (hv : InForceUtc ds x v) (hw : InForce ds a w ∨ Unset ds a ∧ w = 0) :
    InForce ds a v ∧ w = v := by
  obtain ⟨d, hd, t, ht, hb, rfl, hmax⟩ := hv
  have c := onset_clock (hf d hd) ht
  have k := (hc d hd t ht).mp hb
  rcases hw with hw | ⟨hw, _⟩
  · obtain ⟨d2, hd2, t2, ht2, hb2, rfl, hmax2⟩ := id hw
    have c2 := onset_clock (hf d2 hd2) ht2
    rw [Rule.L133.before_iff ha c2.1] at hb2
    have hb2' := (hc d2 hd2 t2 ht2).mpr (by omega)
    have m1 := hmax d2 hd2 t2 ht2 hb2'
    have m2 := hmax2 d hd t ht (by rw [Rule.L133.before_iff ha c.1]; omega)
    rw [Rule.L133.before_iff c2.1 c.1] at m2
    have m3 := hord.1 d hd d2 hd2 t t2 ht ht2 hb2' (by omega)
    have he := hu d hd d2 hd2 t t2 ht ht2 (by omega)
    rw [he]
    exact ⟨hw, rfl⟩
  · have := hw d hd t ht
    rw [Rule.L133.before_iff ha c.1] at this
    omega

end L140
open L140

/-- C140 (partial), from the text of a calendar to the local times of instants: when a calendar whose text is well-formed is read, and its
TZIDs were not known before, then, with the offsets that the lines of its time zones describe: the database gives these offsets,
whatever is asked and whatever other calendars are read before and after; `adjustTimezone` of a time in UTC to one of the time zones
gives the clock that is ahead by the offset of the last onset that, in UTC, is not after it; and if one can tell from the clock which
changes have been, the local time is the same instant as the lines describe it, `getPosixTime` gives this instant, and converted back
to UTC it is the same time.

Needed: the time zones as in `C138_utc_partial`.  Missing: the hour shown twice (`C140_fails_twice`), times before the first onset
(`C35_fails_before`), TZIDs that were known before (`C139_fails_known`), years from 2098 on. -/
theorem C140_shown_partial (s : Settings) (hT : Program ValueType.ical s.tables)
    (b1 b2 body : List (List Char)) (ps : List Cont.CProp) (ss : List Cont.Component) (h1 : Spec.Blank b1) (h2 : Spec.Blank b2)
    (hb : s.blankRaise = false ∨ b1 = [] ∧ b2 = []) (h : Spec.Body (container s) true "VCALENDAR".toList body ps ss)
    (hv : ∃ p ∈ ps, p.key = "VERSION".toList) (zones : List (List Char × List Observance))
    (hz : List.Forall₂ ZoneIn (ss.filter fun d => decide (PropText.upper d.type = "VTIMEZONE".toList)) zones)
    (hf : ∀ z ∈ zones, ∀ d ∈ z.2, ZoneFits d) (hu : ∀ z ∈ zones, DefiniteUtc z.2)
    (env : TzEnv) (he : DefaultUtc env) (hby : OffsetsBy zones env) (hbu : OffsetsByUtc zones env) (o : SetOrder)
    (o' : SetOrder (DateTime × Int × Int)) (d0 : ZoneData) (h0 : ZoneData.History env o o' {} d0)
    (hnew : ∀ z ∈ zones, (d0.db.getTimezone (some (String.ofList z.1)) []).1 = none) :
    ∃ c d1, ZoneData.read env s d0 (b1 ++ "BEGIN:VCALENDAR".toList :: (body ++ "END:VCALENDAR".toList :: b2)) = (.ok (some c), d1) ∧
      ∀ tzid ds, Named zones tzid ds → ∀ x, x.Valid → x.dateOnly = false → x.year ≤ 2097 → InOrder ds x →
        (∀ d2, ZoneData.History env o o' d1 d2 → ∃ n d3, ∀ fuel ≥ n, d2.offset env o o' fuel (some (String.ofList tzid)) x true =
          some (env (some (String.ofList tzid)) x true, d3)) ∧
        (x.utc = true → x.tzid = none → tzid ≠ [] → ¬ UnsetUtc ds x → ∀ q, q = (fresh x).adjustTimezone env false
            (some (.name (String.ofList tzid))) →
          q.dt.Valid ∧ q.dt.dateOnly = false ∧ q.dt.utc = false ∧ q.dt.tzid = some (.name (String.ofList tzid)) ∧
          (∃ v, InForceUtc ds x v ∧ timeNum q.dt.civil = timeNum x.civil + v) ∧
          (Clear ds x q.dt → InstantBy zones q.dt (sinceEpoch x) ∧ (1902 ≤ q.dt.year → (q.getPosixTime env).1 = sinceEpoch x) ∧
            (q.adjustToUTC env).dt = x)) := by
  obtain ⟨c, d1, hread, _, _, hoffs⟩ := C139_utc_partial s hT b1 b2 body ps ss h1 h2 hb h hv zones hz hf env he o o' d0 h0 hnew
  refine ⟨c, d1, hread, fun tzid ds hnm x hx hxd hy hord => ?_⟩
  have hmem : (tzid, ds) ∈ zones := by
    obtain ⟨pre, post, rfl, _⟩ := hnm
    simp
  constructor
  · intro d2 hd2
    obtain ⟨n, v, d3, k1, k2⟩ := hoffs d2 hd2 tzid ds hnm x hx hxd hy hord
    refine ⟨n, d3, fun fuel hfu => ?_⟩
    rw [k1 fuel hfu]
    rcases k2 with k2 | ⟨k2, rfl⟩ <;> rcases hbu tzid ds hnm x hx hxd hy hord with k3 | ⟨k3, k4⟩
    · rw [inForceUtc_unique (hu _ hmem) k2 k3]
    · exact absurd k3 (inForceUtc_set k2)
    · exact absurd k2 (inForceUtc_set k3)
    · rw [k4]
  · rintro hxu hxz hne hset q rfl
    have hdt : ((fresh x).adjustTimezone env false (some (.name (String.ofList tzid)))).dt =
        shownIn env x (.name (String.ofList tzid)) := adjustTimezone_dt (o := fresh x) hxu _
    have hgood : Good env ((fresh x).adjustTimezone env false (some (.name (String.ofList tzid)))) := by
      unfold adjustTimezone
      rw [if_pos (.inl (by simp [fresh, hxu]))]
      exact good_assign _ _ _
    rw [posix_value hgood, hdt]
    set u : DateTime := { x with utc := false, tzid := some (.name (String.ofList tzid)) } with hu'
    have hsv : (shownIn env x (.name (String.ofList tzid))).Valid := DateTime.normalise_valid _
    have hoff1 : InForceUtc ds x (env (some (String.ofList tzid)) u true) := by
      rcases hbu tzid ds hnm u hx hxd hy hord with k | ⟨k, _⟩
      · exact k
      · exact absurd k hset
    have hnum : (shownIn env x (.name (String.ofList tzid))).num = x.num + env (some (String.ofList tzid)) u true :=
      num_offsetSeconds (t := u) hx hxd _
    refine ⟨hsv, hxd, rfl, rfl, ⟨_, hoff1, hnum⟩, fun hcl => ?_⟩
    obtain ⟨cz, _, hcz⟩ := L137.forall₂_right hz hmem
    have hyear : (shownIn env x (.name (String.ofList tzid))).year ≤ 2098 := by
      refine year_shown hx hxd hsv hy ?_
      obtain ⟨d, hd, _, _, _, hvd, _⟩ := hoff1
      have := (zone_bound_to hcz d hd).2
      rw [hnum, hvd]
      omega
    obtain ⟨g1, g2⟩ := clear_offset (hf _ hmem) (hu _ hmem) hsv hord hcl hoff1 (hby tzid ds hnm _ hsv hxd hyear)
    have hsince : sinceEpoch (shownIn env x (.name (String.ofList tzid))) - env (some (String.ofList tzid)) u true = sinceEpoch x := by
      unfold sinceEpoch
      have : timeNum (shownIn env x (.name (String.ofList tzid))).civil = timeNum x.civil + env (some (String.ofList tzid)) u true := hnum
      omega
    refine ⟨.inr ⟨rfl, tzid, ds, _, rfl, hnm, g1, hsince.symm⟩, fun hy1 => ?_, ?_⟩
    · rw [posix_since ⟨hy1, hyear⟩, ← hsince, ← g2]
      rfl
    · exact (C37_roundtrip env (fresh x) hx hxd hxu hxz (.name (String.ofList tzid)) (by simp [tzTruthy, hne])).mpr g2

namespace L140

theorem ny_definite_utc : DefiniteUtc [daylightDesc, standardDesc] := by
  intro d hd d' hd' t t' h h' he
  obtain ⟨v, k, m⟩ := eastern_onset hd h
  obtain ⟨v', k', m'⟩ := eastern_onset hd' h'
  have he : t.num - d.offsetFrom = t'.num - d'.offsetFrom := he
  rcases m with ⟨rfl, m⟩ | ⟨rfl, m⟩ <;> rcases m' with ⟨rfl, m'⟩ | ⟨rfl, m'⟩ <;> simp only [daylightDesc, standardDesc] at * <;> omega

/-- There are such offsets. -/
theorem ny_offset_utc (x : DateTime) (hx : x.Valid) (hd : x.dateOnly = false) (hy : x.year ≤ 2097) :
    ∃ v, InForceUtc [daylightDesc, standardDesc] x v ∨ UnsetUtc [daylightDesc, standardDesc] x ∧ v = 0 := by
  obtain ⟨c, zs, h1, h2, h3⟩ := C138_utc_partial L138.settings .base [] [] L139.meetingText _ _ (by simp [Spec.Blank])
    (by simp [Spec.Blank]) (.inl rfl) L139.meeting_body ⟨_, List.mem_singleton.mpr rfl, by decide +kernel⟩ _ ny_zones ny_fits .empty
    (fun _ _ => rfl)
  obtain ⟨n, v, zs2, h4, h5, _⟩ := h3 RecurrenceSet.inOrder inOrder' zs .start "NewYork".toList x hx hd hy (by
    rintro ds ⟨pre, post, hc, _⟩
    have hm : ("NewYork".toList, ds) ∈ [("NewYork".toList, [daylightDesc, standardDesc])] := by rw [hc]; simp
    rw [List.mem_singleton, Prod.mk.injEq] at hm
    rw [hm.2]
    exact eastern_order x hx)
  exact ⟨v, h5 _ ⟨[], [], rfl, by simp⟩⟩

open Classical in
/-- The offsets that the lines of the time zone describe, for local times and for times in UTC. -/
noncomputable def nyBoth : TzEnv := fun z x rel =>
  if rel then
    if h : z = some "NewYork" ∧ x.Valid ∧ x.dateOnly = false ∧ x.year ≤ 2097 then (ny_offset_utc x h.2.1 h.2.2.1 h.2.2.2).choose else 0
  else nyEnv z x false

theorem nyBoth_utc : OffsetsByUtc [("NewYork".toList, [daylightDesc, standardDesc])] nyBoth := by
  rintro tzid ds ⟨pre, post, hp, _⟩ x hx hd hy _
  have hm : (tzid, ds) ∈ [("NewYork".toList, [daylightDesc, standardDesc])] := by rw [hp]; simp
  rw [List.mem_singleton, Prod.mk.injEq] at hm
  obtain ⟨rfl, rfl⟩ := hm
  have h : some (String.ofList "NewYork".toList) = some "NewYork" ∧ x.Valid ∧ x.dateOnly = false ∧ x.year ≤ 2097 :=
    ⟨by simp, hx, hd, hy⟩
  rw [show nyBoth (some (String.ofList "NewYork".toList)) x true = (ny_offset_utc x hx hd hy).choose from dif_pos h]
  exact (ny_offset_utc x hx hd hy).choose_spec

theorem ny_clear {x a : DateTime} {v : Int} (h : InForceUtc [daylightDesc, standardDesc] x v) (ha : timeNum a.civil = timeNum x.civil + v)
    (hx : ¬ (21600 ≤ timeNum x.civil % 86400 ∧ timeNum x.civil % 86400 < 25200)) : Clear [daylightDesc, standardDesc] x a := by
  obtain ⟨d, hd, t, ht, hb, rfl, hmax⟩ := h
  obtain ⟨_, k, m⟩ := eastern_onset hd ht
  intro d' hd' t' ht'
  obtain ⟨_, k', m'⟩ := eastern_onset hd' ht'
  have hmax := hmax d' hd' t' ht'
  rw [ha]
  have e : utcOf d' t' = timeNum t'.civil - d'.offsetFrom := rfl
  have e2 : utcOf d t = timeNum t.civil - d.offsetFrom := rfl
  have k : timeNum t.civil % 86400 = 7200 := k
  have k' : timeNum t'.civil % 86400 = 7200 := k'
  rcases m with ⟨rfl, m⟩ | ⟨rfl, m⟩ <;> rcases m' with ⟨rfl, m'⟩ | ⟨rfl, m'⟩ <;> simp only [daylightDesc, standardDesc] at * <;> omega

end L140

/-- The conditions of C140 are met: a time in UTC from 2010 on that is not between 06:00 and 07:00, shown in New York and converted
back, is the same. -/
example (o : SetOrder) (o' : SetOrder (DateTime × Int × Int)) (d0 : ZoneData) (h0 : ZoneData.History nyBoth o o' {} d0)
    (hnew : (d0.db.getTimezone (some "NewYork") []).1 = none) (x : DateTime) (hx : x.Valid) (hd : x.dateOnly = false)
    (hu : x.utc = true) (hz : x.tzid = none) (hy : 2010 ≤ x.year ∧ x.year ≤ 2097)
    (h67 : ¬ (21600 ≤ timeNum x.civil % 86400 ∧ timeNum x.civil % 86400 < 25200)) :
    ∃ c d1, ZoneData.read nyBoth L138.settings d0 ([] ++ "BEGIN:VCALENDAR".toList :: (L139.meetingText ++ "END:VCALENDAR".toList :: [])) =
        (.ok (some c), d1) ∧
      (((fresh x).adjustTimezone nyBoth false (some (.name "NewYork"))).adjustToUTC nyBoth).dt = x := by
  obtain ⟨c, d1, k1, k2⟩ := C140_shown_partial L138.settings .base [] [] L139.meetingText _ _ (by simp [Spec.Blank])
    (by simp [Spec.Blank]) (.inl rfl) L139.meeting_body ⟨_, List.mem_singleton.mpr rfl, by decide +kernel⟩ _ ny_zones ny_fits
    (by simp only [List.mem_singleton, forall_eq]; exact ny_definite_utc) nyBoth (fun _ _ => by simp [nyBoth, nyEnv])
    (fun tzid ds hn x => ny_by tzid ds hn x) nyBoth_utc o o' d0 h0 (by
      simp only [List.mem_singleton, forall_eq]
      rwa [show String.ofList "NewYork".toList = "NewYork" by simp])
  refine ⟨c, d1, k1, ?_⟩
  have k3 := (k2 "NewYork".toList _ ⟨[], [], rfl, by simp⟩ x hx hd hy.2 (eastern_order x hx)).2 hu hz (by simp) (fun hc => by
    have := hc daylightDesc (by simp) daylightDesc.start (.inl rfl)
    have hlt : timeNum daylightDesc.start.civil - daylightDesc.offsetFrom < (TzElement.newYear 2010).num := by decide +kernel
    have hge := mt (newYear_lt (t := { x with utc := false, tzid := none }) ⟨hx, hd, rfl, rfl⟩ (y := 2010)).mp (by
      show ¬ x.year < 2010
      omega)
    have hge : ¬ timeNum x.civil < (TzElement.newYear 2010).num := hge
    unfold utcOf at this
    omega) _ rfl
  rw [show String.ofList "NewYork".toList = "NewYork" by simp] at k3
  obtain ⟨_, _, _, _, ⟨v, v1, v2⟩, k4⟩ := k3
  exact (k4 (ny_clear v1 v2 h67)).2.2

/-- The offsets that a calendar with this text gives. -/
def L140.textEnv (lines : List (List Char)) : TzEnv := fun z x rel =>
  match z with
  | some z => (offsetOf lines z.toList x rel).getD 0
  | none => 0

/-- C140 fails in the hour that is shown twice: half past six in UTC on 7 November 2010 is shown as half past one, and that, converted
back, is half past five. -/
theorem C140_fails_twice :
    let env := textEnv ("BEGIN:VCALENDAR".toList :: (etText ++ ["END:VCALENDAR".toList]))
    let q := (fresh ⟨2010, 11, 7, 6, 30, 0, false, true, none⟩).adjustTimezone env false (some (.name "ET"))
    q.dt = ⟨2010, 11, 7, 1, 30, 0, false, false, some (.name "ET")⟩ ∧
    (q.adjustToUTC env).dt = ⟨2010, 11, 7, 5, 30, 0, false, true, none⟩ := by
  decide +kernel

end PyCal
