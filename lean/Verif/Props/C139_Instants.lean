import Verif.Props.C19_Caches
import Verif.Model.ZoneData
import Verif.Props.C138_ZoneText
import Verif.Props.C39_Database

/-!
# C139: from the text of a calendar to the instants of its date-times

The offsets that the time zone database gives after a calendar was read, and with them the instants (`getPosixTime`) of the
instances of the events of the calendar.
-/

namespace PyCal
open Spec DateTime Spec.EventText EventRead
open Spec.ZoneText (Observance Onset InForce Unset InForceUtc UnsetUtc utcOf)

namespace ZoneData

/-- What can happen to the database: questions about offsets (of times, if there is a TZID), lookups, questions whether a TZID is a
standard one, and time zones merged from calendars that are read. -/
inductive History (env : TzEnv) (o : SetOrder) (o' : SetOrder (DateTime × Int × Int)) (s : ZoneData) : ZoneData → Prop
  | start : History env o o' s s
  | ask {s1 s2 fuel tzid x rel v} : History env o o' s s1 → (tzid ≠ none → x.Valid ∧ x.dateOnly = false) →
      offset env o o' fuel s1 tzid x rel = some (v, s2) → History env o o' s s2
  | look {s1} (tzid : Option String) : History env o o' s s1 → History env o o' s { s1 with db := (s1.db.getTimezone tzid []).2 }
  | standard {s1} (tzid : Option String) : History env o o' s s1 → History env o o' s { s1 with db := (s1.db.isStandard tzid []).2 }
  | merge {s1} (v : List Char × Zone) : History env o o' s s1 → History env o o' s (s1.merge v)

end ZoneData

namespace L139
open ZoneData L138 CalendarRead

theorem History.trans {env : TzEnv} {o : SetOrder} {o' : SetOrder (DateTime × Int × Int)} {a b c : ZoneData}
    (h1 : History env o o' a b) (h2 : History env o o' b c) : History env o o' a c := by
  induction h2 with
  | start => exact h1
  | ask _ hx hq ih => exact .ask ih hx hq
  | look t _ ih => exact .look t ih
  | standard t _ ih => exact .standard t ih
  | merge v _ ih => exact .merge v ih

theorem History.all {env : TzEnv} {o : SetOrder} {o' : SetOrder (DateTime × Int × Int)} {a b : ZoneData} (h : History env o o' a b)
    (zs : List (List Char × Zone)) : History env o o' a (b.mergeAll zs) := by
  induction zs generalizing b with
  | nil => exact h
  | cons z zs ih => exact ih (.merge z h)

/-- The numbers are places, and the cache is right. -/
structure Inv (s : ZoneData) : Prop where
  numbers : s.db.calendar.map Tz.obj = List.range s.objects.length
  cache : ∀ t r, s.db.cached t = some r → r = TzDb.inCalendar s.db.calendar t

theorem get_calendar (db : TzDb) (t : Option String) : (db.getTimezone t []).2.calendar = db.calendar := by
  unfold TzDb.getTimezone
  cases db.cached t with
  | some r => rfl
  | none => simp

theorem get_eq {s : ZoneData} (h : Inv s) (t : Option String) :
    (s.db.getTimezone t []).1 = TzDb.inCalendar s.db.calendar t := by
  unfold TzDb.getTimezone
  cases hc : s.db.cached t with
  | some r => exact h.cache t r hc
  | none => simp

theorem get_inv {s : ZoneData} (h : Inv s) (t : Option String) : Inv { s with db := (s.db.getTimezone t []).2 } where
  numbers := by rw [get_calendar]; exact h.numbers
  cache := by
    intro x r hr
    rw [get_calendar]
    rw [TzDb.cached_get] at hr
    split at hr
    · next he => rw [he, ← get_eq h]; exact (Option.some.inj hr).symm
    · exact h.cache x r hr

theorem std_inv {s : ZoneData} (h : Inv s) (t : Option String) : Inv { s with db := (s.db.isStandard t []).2 } := by
  unfold TzDb.isStandard
  split
  · exact h
  · split
    · exact h
    · exact get_inv h t

theorem std_calendar (db : TzDb) (t : Option String) : (db.isStandard t []).2.calendar = db.calendar := by
  unfold TzDb.isStandard
  split
  · rfl
  · split
    · rfl
    · exact get_calendar db t

theorem in_append (l : List Tz) (n : Nat) (id : String) (t : Option String) : TzDb.inCalendar (l ++ [⟨id, n⟩]) t =
    (TzDb.inCalendar l t).or (if t = some id then some ⟨id, n⟩ else none) := by
  unfold TzDb.inCalendar
  rw [List.find?_append]
  congr 1
  by_cases h : t = some id
  · simp [h]
  · simp [h, Ne.symm h]

/-- The calendar of the database after a merge. -/
theorem merge_calendar {s : ZoneData} (h : Inv s) (v : List Char × Zone) :
    (s.merge v).db.calendar = (if TzDb.inCalendar s.db.calendar (some (String.ofList v.1)) = none then
      s.db.calendar ++ [⟨String.ofList v.1, s.objects.length⟩] else s.db.calendar) ∧
    (s.merge v).objects = (if TzDb.inCalendar s.db.calendar (some (String.ofList v.1)) = none then
      s.objects ++ [v.2.duplicate] else s.objects) := by
  unfold ZoneData.merge TzDb.merge
  dsimp only
  rw [get_eq h]
  split
  · exact ⟨by rw [TzDb.addTimezone, get_calendar], rfl⟩
  · exact ⟨get_calendar _ _, rfl⟩

theorem merge_inv {s : ZoneData} (h : Inv s) (v : List Char × Zone) : Inv (s.merge v) where
  numbers := by
    rw [(merge_calendar h v).1, (merge_calendar h v).2]
    split
    · simp [h.numbers, List.range_succ]
    · exact h.numbers
  cache := by
    intro t r hr
    rw [(merge_calendar h v).1]
    unfold ZoneData.merge TzDb.merge at hr
    dsimp only at hr
    rw [get_eq h] at hr
    have hg := (get_inv h (some (String.ofList v.1))).cache
    dsimp only at hg
    rw [get_calendar] at hg
    split
    · next hn =>
      rw [if_pos hn, TzDb.cached_add] at hr
      rw [in_append]
      split at hr
      · next he =>
        dsimp only at he hr
        rw [he, hn, if_pos rfl]
        exact (Option.some.inj hr).symm
      · next he =>
        dsimp only at he
        rw [if_neg he, Option.or_none]
        exact hg t r hr
    · next hn =>
      rw [if_neg hn] at hr
      exact hg t r hr

theorem ask_eq {s s2 : ZoneData} {env : TzEnv} {o : SetOrder} {o' : SetOrder (DateTime × Int × Int)} {fuel : Nat}
    {t : Option String} {x : DateTime} {rel : Bool} {v : Int} (h : Inv s) (hq : offset env o o' fuel s t x rel = some (v, s2)) :
    s2.db = (s.db.getTimezone t []).2 ∧ (s2.objects = s.objects ∨ ∃ i z z', s.objects[i]? = some z ∧ t ≠ none ∧
      z.offsetSeconds env o o' fuel x rel = some (v, z') ∧ s2.objects = s.objects.set i z') := by
  have hg := get_eq h t
  unfold offset at hq
  split at hq
  · next db hd => cases hq; rw [hd]; exact ⟨rfl, .inl rfl⟩
  · next tz db hd =>
    rw [Option.bind_eq_some_iff] at hq
    obtain ⟨z, h1, h2⟩ := hq
    rw [Option.map_eq_some_iff] at h2
    obtain ⟨w, h3, h4⟩ := h2
    cases h4
    refine ⟨by rw [hd], .inr ⟨tz.obj, z, w.2, h1, ?_, h3, rfl⟩⟩
    rintro rfl
    rw [hd] at hg
    unfold TzDb.inCalendar at hg
    have := List.find?_some hg.symm
    simp at this

theorem history_inv {s s1 : ZoneData} {env : TzEnv} {o : SetOrder} {o' : SetOrder (DateTime × Int × Int)} (h : Inv s)
    (hh : History env o o' s s1) : Inv s1 := by
  induction hh with
  | start => exact h
  | @ask s1 s2 _ t _ _ _ _ _ hq ih =>
    obtain ⟨h1, h2⟩ := ask_eq ih hq
    have := get_inv ih t
    refine ⟨?_, ?_⟩
    · rw [h1]
      rcases h2 with h2 | ⟨i, z, z', _, _, _, h2⟩
      · rw [h2]; exact this.numbers
      · rw [h2, List.length_set]; exact this.numbers
    · rw [h1]; exact this.cache
  | look t _ ih => exact get_inv ih t
  | standard t _ ih => exact std_inv ih t
  | merge v _ ih => exact merge_inv ih v

/-- The database has the time zone `Z` for the TZID, after questions. -/
def Has (env : TzEnv) (o : SetOrder) (o' : SetOrder (DateTime × Int × Int)) (id : String) (Z : Zone) (s : ZoneData) : Prop :=
  ∃ i z, TzDb.inCalendar s.db.calendar (some id) = some ⟨id, i⟩ ∧ s.objects[i]? = some z ∧ ZoneReach env o o' Z z

theorem merge_has {s : ZoneData} {env : TzEnv} {o : SetOrder} {o' : SetOrder (DateTime × Int × Int)} (h : Inv s) {id : String}
    {Z : Zone} (hs : Has env o o' id Z s) (v : List Char × Zone) : Has env o o' id Z (s.merge v) := by
  obtain ⟨i, z, h1, h2, h3⟩ := hs
  refine ⟨i, z, ?_, ?_, h3⟩
  · rw [(merge_calendar h v).1]
    split
    · rw [in_append, h1]; rfl
    · exact h1
  · rw [(merge_calendar h v).2]
    split
    · rw [List.getElem?_append_left (List.getElem?_eq_some_iff.mp h2).1, h2]
    · exact h2

theorem history_has {s s1 : ZoneData} {env : TzEnv} {o : SetOrder} {o' : SetOrder (DateTime × Int × Int)} (h : Inv s) {id : String}
    {Z : Zone} (hs : Has env o o' id Z s) (hh : History env o o' s s1) : Has env o o' id Z s1 := by
  induction hh with
  | start => exact hs
  | @ask s1 s2 _ t _ _ _ hp hx hq ih =>
    obtain ⟨h1, h2⟩ := ask_eq (history_inv h hp) hq
    obtain ⟨i, z, k1, k2, k3⟩ := ih
    rcases h2 with h2 | ⟨j, w, w', h2, h3, h4, h5⟩
    · exact ⟨i, z, by rw [h1, get_calendar]; exact k1, by rw [h2]; exact k2, k3⟩
    · by_cases hij : j = i
      · subst hij
        rw [k2] at h2; cases h2
        exact ⟨j, w', by rw [h1, get_calendar]; exact k1, by rw [h5, List.getElem?_set_self (List.getElem?_eq_some_iff.mp k2).1],
          .offset k3 (hx h3).1 (hx h3).2 h4⟩
      · exact ⟨i, z, by rw [h1, get_calendar]; exact k1, by rw [h5, List.getElem?_set_ne hij]; exact k2, k3⟩
  | look t _ ih =>
    obtain ⟨i, z, k1, k2, k3⟩ := ih
    exact ⟨i, z, by dsimp only; rw [get_calendar]; exact k1, k2, k3⟩
  | standard t _ ih =>
    obtain ⟨i, z, k1, k2, k3⟩ := ih
    exact ⟨i, z, by dsimp only; rw [std_calendar]; exact k1, k2, k3⟩
  | merge v hp ih => exact merge_has (history_inv h hp) ih v

theorem merge_new {s : ZoneData} {env : TzEnv} {o : SetOrder} {o' : SetOrder (DateTime × Int × Int)} (h : Inv s)
    {v : List Char × Zone} (hn : TzDb.inCalendar s.db.calendar (some (String.ofList v.1)) = none) :
    Has env o o' (String.ofList v.1) v.2.duplicate (s.merge v) := by
  refine ⟨s.objects.length, v.2.duplicate, ?_, ?_, .start⟩
  · rw [(merge_calendar h v).1, if_pos hn, in_append, hn, if_pos rfl]; rfl
  · rw [(merge_calendar h v).2, if_pos hn]; simp

theorem merge_other {s : ZoneData} (h : Inv s) {v : List Char × Zone} {id : List Char} (hv : v.1 ≠ id)
    (hn : TzDb.inCalendar s.db.calendar (some (String.ofList id)) = none) :
    TzDb.inCalendar (s.merge v).db.calendar (some (String.ofList id)) = none := by
  rw [(merge_calendar h v).1]
  split
  · rw [in_append, hn, if_neg]
    · rfl
    · intro hc
      exact hv (by simpa using congrArg String.toList (Option.some.inj hc).symm)
  · exact hn

theorem all_has {env : TzEnv} {o : SetOrder} {o' : SetOrder (DateTime × Int × Int)} {id : List Char} {Z : Zone}
    {pre post : List (List Char × Zone)} (hp : ∀ p ∈ pre, p.1 ≠ id) : ∀ {s : ZoneData}, Inv s →
    TzDb.inCalendar s.db.calendar (some (String.ofList id)) = none →
    Has env o o' (String.ofList id) Z.duplicate (s.mergeAll (pre ++ (id, Z) :: post)) := by
  induction pre with
  | nil =>
    intro s h hn
    exact history_has (merge_inv h (id, Z)) (merge_new h hn) (History.all .start post)
  | cons p pre ih =>
    intro s h hn
    exact ih (fun q hq => hp q (by simp [hq])) (merge_inv h p) (merge_other h (hp p (by simp)) hn)

theorem empty_inv : Inv {} := ⟨rfl, fun t r h => by simp [TzDb.cached] at h⟩

/-- A zone that was read is like its copy. -/
theorem duplicate_elements {Z : Zone} {ds : List Observance} (h : ∀ e ∈ Z.elements, ∃ d ∈ ds, ∃ name, e = element d name) :
    Z.duplicate.elements = Z.elements := by
  show Z.elements.map TzElement.duplicate = Z.elements
  conv_rhs => rw [← List.map_id Z.elements]
  refine List.map_congr_left fun e he => ?_
  obtain ⟨d, _, name, rfl⟩ := h e he
  rfl

theorem split_left {α β : Type} {R : α → β → Prop} {pre post : List α} {a : α} {l : List β}
    (h : List.Forall₂ R (pre ++ a :: post) l) : ∃ pre' b post', l = pre' ++ b :: post' ∧ List.Forall₂ R pre pre' ∧ R a b := by
  induction pre generalizing l with
  | nil => cases h with | cons h1 h2 => exact ⟨[], _, _, rfl, .nil, h1⟩
  | cons p pre ih =>
    cases h with
    | cons h1 h2 =>
      obtain ⟨pre', b, post', rfl, h3, h4⟩ := ih h2
      exact ⟨_ :: pre', b, post', rfl, .cons h1 h3, h4⟩

end L139
open L139 L138 CalendarRead

/-- C139, the database has its time zones: in every state that can be reached from a new database, a time zone that is found for a
TZID is among the objects. -/
theorem C139_objects (env : TzEnv) (o : SetOrder) (o' : SetOrder (DateTime × Int × Int)) (d : ZoneData)
    (h : ZoneData.History env o o' {} d) (tzid : Option String) (tz : Tz) (hg : (d.db.getTimezone tzid []).1 = some tz) :
    ∃ z, d.objects[tz.obj]? = some z := by
  have hi := history_inv empty_inv h
  rw [get_eq hi] at hg
  have hm : tz ∈ d.db.calendar := List.mem_of_find?_eq_some hg
  have : tz.obj ∈ List.range d.objects.length := by rw [← hi.numbers]; exact List.mem_map_of_mem hm
  exact ⟨_, List.getElem?_eq_getElem (List.mem_range.mp this)⟩

/-- What can happen to the database without a time zone of this name being merged. -/
inductive ZoneData.Without (env : TzEnv) (o : SetOrder) (o' : SetOrder (DateTime × Int × Int)) (id : Option String) : ZoneData → Prop
  | start : Without env o o' id {}
  | ask {s1 s2 fuel tzid x rel v} : Without env o o' id s1 → (tzid ≠ none → x.Valid ∧ x.dateOnly = false) →
      s1.offset env o o' fuel tzid x rel = some (v, s2) → Without env o o' id s2
  | look {s1} (tzid : Option String) : Without env o o' id s1 → Without env o o' id { s1 with db := (s1.db.getTimezone tzid []).2 }
  | standard {s1} (tzid : Option String) : Without env o o' id s1 → Without env o o' id { s1 with db := (s1.db.isStandard tzid []).2 }
  | merge {s1} (v : List Char × Zone) : Without env o o' id s1 → some (String.ofList v.1) ≠ id → Without env o o' id (s1.merge v)

theorem L139.without_history {env : TzEnv} {o : SetOrder} {o' : SetOrder (DateTime × Int × Int)} {id : Option String} {d : ZoneData}
    (h : ZoneData.Without env o o' id d) : ZoneData.History env o o' {} d := by
  induction h with
  | start => exact .start
  | ask _ hx hq ih => exact .ask ih hx hq
  | look t _ ih => exact .look t ih
  | standard t _ ih => exact .standard t ih
  | merge v _ _ ih => exact .merge v ih

/-- C139, no offset without a time zone: as long as no time zone of that name comes from a calendar (whatever else is asked and read), the
offset for a TZID is zero at all times, and for no TZID it is always. -/
theorem C139_unknown (env : TzEnv) (o : SetOrder) (o' : SetOrder (DateTime × Int × Int)) (id : Option String) (d : ZoneData)
    (h : ZoneData.Without env o o' id d) (fuel : Nat) (x : DateTime) (rel : Bool) :
    ∃ d2, d.offset env o o' fuel id x rel = some (0, d2) := by
  have hnone : TzDb.inCalendar d.db.calendar id = none := by
    induction h with
    | start => rfl
    | ask h1 hx hq ih =>
      rw [(ask_eq (history_inv empty_inv (without_history h1)) hq).1, get_calendar]
      exact ih
    | look t _ ih => dsimp only; rw [get_calendar]; exact ih
    | standard t _ ih => dsimp only; rw [std_calendar]; exact ih
    | merge v h1 hv ih =>
      rw [(merge_calendar (history_inv empty_inv (without_history h1)) v).1]
      split
      · rw [in_append, ih, if_neg (Ne.symm hv)]; rfl
      · exact ih
  have hg : (d.db.getTimezone id []).1 = none := by rw [get_eq (history_inv empty_inv (without_history h))]; exact hnone
  unfold ZoneData.offset
  rcases hgt : d.db.getTimezone id [] with ⟨tz, db⟩
  rw [hgt] at hg
  dsimp only at hg
  subst hg
  exact ⟨_, rfl⟩

/-- Such a case: another time zone was read. -/
example (env : TzEnv) (o : SetOrder) (o' : SetOrder (DateTime × Int × Int)) (z : Zone) :
    ZoneData.Without env o o' (some "X") (ZoneData.merge {} ("Y".toList, z)) :=
  .merge _ .start (show some (String.ofList "Y".toList) ≠ some "X" by decide +kernel)

/-- After the calendar is read, the database has the time zones that the lines describe, in a state that questions lead to. -/
theorem L139.data_read (s : Settings) (hT : Program ValueType.ical s.tables)
    (b1 b2 body : List (List Char)) (ps : List Cont.CProp) (ss : List Cont.Component) (h1 : Blank b1) (h2 : Blank b2)
    (hb : s.blankRaise = false ∨ b1 = [] ∧ b2 = []) (h : Spec.Body (container s) true "VCALENDAR".toList body ps ss)
    (hv : ∃ p ∈ ps, p.key = "VERSION".toList) (zones : List (List Char × List Observance))
    (hz : List.Forall₂ ZoneIn (ss.filter fun d => decide (PropText.upper d.type = "VTIMEZONE".toList)) zones)
    (env : TzEnv) (o : SetOrder)
    (o' : SetOrder (DateTime × Int × Int)) (d0 : ZoneData) (h0 : ZoneData.History env o o' {} d0)
    (hnew : ∀ z ∈ zones, (d0.db.getTimezone (some (String.ofList z.1)) []).1 = none) :
    ∃ c d1, ZoneData.read env s d0 (b1 ++ "BEGIN:VCALENDAR".toList :: (body ++ "END:VCALENDAR".toList :: b2)) = (.ok (some c), d1) ∧
      CalendarRead.read s (b1 ++ "BEGIN:VCALENDAR".toList :: (body ++ "END:VCALENDAR".toList :: b2)) = .ok (some c) ∧
      ZoneData.History env o o' {} d1 ∧
      ∀ d2, ZoneData.History env o o' d1 d2 → ∀ tzid ds, Named zones tzid ds → ∃ Z i z, Z.maxYear = none ∧
        (∀ e ∈ Z.elements, ∃ d ∈ ds, ∃ name, e = element d name) ∧ (∀ d ∈ ds, ∃ name, element d name ∈ Z.elements) ∧
        ZoneReach env o o' Z z ∧ ∀ {n v z2 x rel}, (∀ fuel ≥ n, z.offsetSeconds env o o' fuel x rel = some (v, z2)) →
          ∀ fuel ≥ n, d2.offset env o o' fuel (some (String.ofList tzid)) x rel =
            some (v, ⟨(d2.db.getTimezone (some (String.ofList tzid)) []).2, d2.objects.set i z2⟩) := by
  obtain ⟨⟨zs, hzs, hall⟩, hzone⟩ := zones_read hT h hz env
  have hread : CalendarRead.read s (b1 ++ "BEGIN:VCALENDAR".toList :: (body ++ "END:VCALENDAR".toList :: b2)) =
      .ok (some (.mk "VCALENDAR".toList ps ss)) := (C40_calendar (container s) _ _).mpr ⟨C40_complete (container s) rfl b1 b2 body ps ss h1 h2 hb h hv, hzone⟩
  refine ⟨.mk "VCALENDAR".toList ps ss, d0.mergeAll zs, ?_, hread, History.all h0 zs, ?_⟩
  · unfold ZoneData.read
    rw [hread]
    dsimp only
    rw [hzs]; rfl
  · rintro d2 hd2 tzid ds ⟨pre, post, rfl, hpre⟩
    have hi0 := history_inv empty_inv h0
    obtain ⟨pre', ⟨id, Z⟩, post', rfl, q1, q2, q3, q4, q5⟩ := split_left hall
    dsimp only at q2 q3 q4 q5
    subst q2
    have hpre' : ∀ p ∈ pre', p.1 ≠ id := by
      intro p hp
      obtain ⟨q, hq, hpq⟩ := L137.forall₂_right q1 hp
      rw [hpq.1]
      exact hpre q hq
    have hhas := all_has (env := env) (o := o) (o' := o') (Z := Z) (post := post') hpre' hi0 (by
      rw [← get_eq hi0]; exact hnew (id, ds) (by simp))
    obtain ⟨i, z, k1, k2, k3⟩ := history_has (history_inv (env := env) (o := o) (o' := o') hi0 (History.all .start _)) hhas hd2
    have hel := duplicate_elements q4
    have hi2 := history_inv (history_inv empty_inv (History.all h0 (pre' ++ (id, Z) :: post'))) hd2
    have hg : d2.db.getTimezone (some (String.ofList id)) [] =
        (some ⟨String.ofList id, i⟩, (d2.db.getTimezone (some (String.ofList id)) []).2) := by
      rw [← k1, ← get_eq hi2]
    refine ⟨Z.duplicate, i, z, rfl, by rw [hel]; exact q4, by rw [hel]; exact q5, k3, fun r1 fuel hfu => ?_⟩
    unfold ZoneData.offset
    rw [hg]
    dsimp only
    rw [k2, Option.bind_some, r1 fuel hfu]
    rfl

/-- C139 (partial), the offsets after a calendar is read: when a calendar whose text is well-formed is read, and its TZIDs were not
known before, then for a local time and the name of one of its time zones the database gives the TZOFFSETTO of the observance with
the last onset that is not after that time, as the lines of the time zone describe them, and 0 before the first onset; whatever is
asked and whatever other calendars are read before and after.

Needed: as in `C138_offset_partial`.  Missing: TZIDs that were known before (`C139_fails_known`), a directory with files. -/
theorem C139_offset_partial (s : Settings) (hT : Program ValueType.ical s.tables)
    (b1 b2 body : List (List Char)) (ps : List Cont.CProp) (ss : List Cont.Component) (h1 : Blank b1) (h2 : Blank b2)
    (hb : s.blankRaise = false ∨ b1 = [] ∧ b2 = []) (h : Spec.Body (container s) true "VCALENDAR".toList body ps ss)
    (hv : ∃ p ∈ ps, p.key = "VERSION".toList) (zones : List (List Char × List Observance))
    (hz : List.Forall₂ ZoneIn (ss.filter fun d => decide (PropText.upper d.type = "VTIMEZONE".toList)) zones)
    (hf : ∀ z ∈ zones, ∀ d ∈ z.2, ZoneFits d) (env : TzEnv) (he : DefaultUtc env) (o : SetOrder)
    (o' : SetOrder (DateTime × Int × Int)) (d0 : ZoneData) (h0 : ZoneData.History env o o' {} d0)
    (hnew : ∀ z ∈ zones, (d0.db.getTimezone (some (String.ofList z.1)) []).1 = none) :
    ∃ c d1, ZoneData.read env s d0 (b1 ++ "BEGIN:VCALENDAR".toList :: (body ++ "END:VCALENDAR".toList :: b2)) = (.ok (some c), d1) ∧
      CalendarRead.read s (b1 ++ "BEGIN:VCALENDAR".toList :: (body ++ "END:VCALENDAR".toList :: b2)) = .ok (some c) ∧
      ZoneData.History env o o' {} d1 ∧
      ∀ d2, ZoneData.History env o o' d1 d2 → ∀ tzid ds, Named zones tzid ds → ∀ x, x.Valid → x.dateOnly = false → x.year ≤ 2098 →
        ∃ n v d3, (∀ fuel ≥ n, d2.offset env o o' fuel (some (String.ofList tzid)) x false = some (v, d3)) ∧
          (InForce ds x v ∨ Unset ds x ∧ v = 0) := by
  obtain ⟨c, d1, k1, k2, k3, k4⟩ := data_read s hT b1 b2 body ps ss h1 h2 hb h hv zones hz env o o' d0 h0 hnew
  refine ⟨c, d1, k1, k2, k3, fun d2 hd2 tzid ds hn x hx hxd hy => ?_⟩
  obtain ⟨Z, i, z, a1, a2, a3, a4, a5⟩ := k4 d2 hd2 tzid ds hn
  have hmem : (tzid, ds) ∈ zones := by
    obtain ⟨pre, post, rfl, _⟩ := hn
    simp
  obtain ⟨n, v, z2, r1, r2⟩ := zone_offset he (hf _ hmem) a1 a2 a3 a4 hx hxd hy
  exact ⟨n, v, _, a5 r1, r2⟩

/-- C139 (partial), offsets for times in UTC: likewise, for a time in UTC, with `relative_to_utc`, the TZOFFSETTO of the observance with
the last onset that in UTC is not after that time, and 0 before the first.

Needed: as in `C138_utc_partial`.  Missing: as for `C139_offset_partial`. -/
theorem C139_utc_partial (s : Settings) (hT : Program ValueType.ical s.tables)
    (b1 b2 body : List (List Char)) (ps : List Cont.CProp) (ss : List Cont.Component) (h1 : Blank b1) (h2 : Blank b2)
    (hb : s.blankRaise = false ∨ b1 = [] ∧ b2 = []) (h : Spec.Body (container s) true "VCALENDAR".toList body ps ss)
    (hv : ∃ p ∈ ps, p.key = "VERSION".toList) (zones : List (List Char × List Observance))
    (hz : List.Forall₂ ZoneIn (ss.filter fun d => decide (PropText.upper d.type = "VTIMEZONE".toList)) zones)
    (hf : ∀ z ∈ zones, ∀ d ∈ z.2, ZoneFits d) (env : TzEnv) (he : DefaultUtc env) (o : SetOrder)
    (o' : SetOrder (DateTime × Int × Int)) (d0 : ZoneData) (h0 : ZoneData.History env o o' {} d0)
    (hnew : ∀ z ∈ zones, (d0.db.getTimezone (some (String.ofList z.1)) []).1 = none) :
    ∃ c d1, ZoneData.read env s d0 (b1 ++ "BEGIN:VCALENDAR".toList :: (body ++ "END:VCALENDAR".toList :: b2)) = (.ok (some c), d1) ∧
      CalendarRead.read s (b1 ++ "BEGIN:VCALENDAR".toList :: (body ++ "END:VCALENDAR".toList :: b2)) = .ok (some c) ∧
      ZoneData.History env o o' {} d1 ∧
      ∀ d2, ZoneData.History env o o' d1 d2 → ∀ tzid ds, Named zones tzid ds → ∀ x, x.Valid → x.dateOnly = false → x.year ≤ 2097 →
        InOrder ds x →
        ∃ n v d3, (∀ fuel ≥ n, d2.offset env o o' fuel (some (String.ofList tzid)) x true = some (v, d3)) ∧
          (InForceUtc ds x v ∨ UnsetUtc ds x ∧ v = 0) := by
  obtain ⟨c, d1, k1, k2, k3, k4⟩ := data_read s hT b1 b2 body ps ss h1 h2 hb h hv zones hz env o o' d0 h0 hnew
  refine ⟨c, d1, k1, k2, k3, fun d2 hd2 tzid ds hn x hx hxd hy hord => ?_⟩
  obtain ⟨Z, i, z, a1, a2, a3, a4, a5⟩ := k4 d2 hd2 tzid ds hn
  have hmem : (tzid, ds) ∈ zones := by
    obtain ⟨pre, post, rfl, _⟩ := hn
    simp
  obtain ⟨q, _, hq⟩ := L137.forall₂_right hz hmem
  obtain ⟨n, v, z2, r1, r2⟩ := zone_offset_utc he (hf _ hmem) a1 a2 a3 (fun d hd => (zone_bound hq d hd).2.le) a4 hx hxd hy hord
  exact ⟨n, v, _, a5 r1, r2⟩

/-! ## Instants -/

/-- Seconds from the beginning of 1970 to this time, on one clock. -/
def Spec.sinceEpoch (a : DateTime) : Int := timeNum a.civil - timeNum ⟨⟨1970, 1, 1⟩, 0, 0, 0⟩

/-- The instant of a time in UTC, or in a time zone: the clock less the offset. -/
def InstantBy (zones : List (List Char × List Observance)) (a : DateTime) (p : Int) : Prop :=
  a.utc = true ∧ p = Spec.sinceEpoch a ∨
  a.utc = false ∧ ∃ tzid ds v, a.tzid = some (.name (String.ofList tzid)) ∧ Named zones tzid ds ∧ InForce ds a v ∧
    p = Spec.sinceEpoch a - v

/-- A time in UTC, or in one of the time zones, from the first onset on. -/
def Placed (zones : List (List Char × List Observance)) (a : DateTime) : Prop :=
  a.utc = true ∨ a.utc = false ∧ ∃ tzid ds, a.tzid = some (.name (String.ofList tzid)) ∧ Named zones tzid ds ∧ ¬ Unset ds a

/-- The offsets of local times are those that the lines of the time zones describe. -/
def OffsetsBy (zones : List (List Char × List Observance)) (env : TzEnv) : Prop :=
  ∀ tzid ds, Named zones tzid ds → ∀ x, x.Valid → x.dateOnly = false → x.year ≤ 2098 →
    InForce ds x (env (some (String.ofList tzid)) x false) ∨ Unset ds x ∧ env (some (String.ofList tzid)) x false = 0

/-- Observances with the same onset have the same offset. -/
def Definite (ds : List Observance) : Prop :=
  ∀ d ∈ ds, ∀ d' ∈ ds, ∀ t, Onset d t → Onset d' t → d.offsetTo = d'.offsetTo

namespace L139

theorem posix_since {env : TzEnv} {a : DateTime} (hy : 1902 ≤ a.year ∧ a.year ≤ 2098) :
    a.posix env = Spec.sinceEpoch a - a.tzOffset env := by
  have hd : drift 1970 = drift a.year := NoSkip.drift fun z hz => by unfold SkippedCentury; omega
  have h0 : dayNum 1970 1 1 + drift 1970 - 1970 * 365 - 1 = 0 := by decide +kernel
  unfold posix Spec.sinceEpoch
  rw [daysSince1970_dayNum]
  simp only [timeNum, civil, date, secondsOfDay]
  omega

theorem inForce_unique {ds : List Observance} (hf : ∀ d ∈ ds, ZoneFits d) (hu : Definite ds) {x : DateTime} {v v' : Int}
    (h : InForce ds x v) (h' : InForce ds x v') : v = v' := by
  obtain ⟨d, hd, t, ht, hb, rfl, hmax⟩ := h
  obtain ⟨d', hd', t', ht', hb', rfl, hmax'⟩ := h'
  have c := onset_clock (hf d hd) ht
  have c' := onset_clock (hf d' hd') ht'
  have h1 := hmax d' hd' t' ht' hb'
  have h2 := hmax' d hd t ht hb
  rw [Rule.L133.before_iff c.1 c'.1] at h1
  rw [Rule.L133.before_iff c'.1 c.1] at h2
  have he : t = t' := eq_of_civil ⟨by rw [c.2.1, c'.2.1], by rw [c.2.2.1, c'.2.2.1], by rw [c.2.2.2, c'.2.2.2]⟩
    (timeNum_inj c.1.1 c'.1.1 (by omega))
  subst he
  exact hu d hd d' hd' t ht ht'

theorem inForce_set {ds : List Observance} {x : DateTime} {v : Int} (h : InForce ds x v) : ¬ Unset ds x := by
  obtain ⟨d, hd, t, ht, hb, _⟩ := h
  exact fun hc => hb (hc d hd t ht)

end L139

/-- C139 (partial), from the text of a calendar to the instants of its events: when a calendar whose text is well-formed is read, and its
TZIDs were not known before, then, with the offsets that the lines of its time zones describe: the database gives these offsets,
whatever is asked and whatever other calendars are read before and after; `getVEvents` has for each event the instances that the lines
describe, as in C137; and `getPosixTime` of their starts and ends in UTC or in one of the time zones of the calendar is the instant
that the lines of the time zone describe.

Needed: the events as in `C137_instances_partial`, the time zones as in `C138_offset_partial`; starts and ends that are date-times.
Missing: TZIDs that were known before (`C139_fails_known`), date-times with values from before (`C139_fails_cached`), a directory with
files, floating times, which have no instant, times before the first onset (`C35_fails_before`). -/
theorem C139_instants_partial (s : Settings) (hT : Program ValueType.ical s.tables)
    (b1 b2 body : List (List Char)) (ps : List Cont.CProp) (ss : List Cont.Component) (h1 : Blank b1) (h2 : Blank b2)
    (hb : s.blankRaise = false ∨ b1 = [] ∧ b2 = []) (h : Spec.Body (container s) true "VCALENDAR".toList body ps ss)
    (hv : ∃ p ∈ ps, p.key = "VERSION".toList) (zones : List (List Char × List Observance))
    (hz : List.Forall₂ ZoneIn (ss.filter fun d => decide (PropText.upper d.type = "VTIMEZONE".toList)) zones)
    (hf : ∀ z ∈ zones, ∀ d ∈ z.2, ZoneFits d) (hu : ∀ z ∈ zones, Definite z.2) (cal : List CalendarText.EventDesc)
    (hev : List.Forall₂ EventIn (ss.filter fun d => decide (PropText.upper d.type = "VEVENT".toList)) cal)
    (hother : ∀ d ∈ ss, PropText.upper d.type ≠ "VEVENT".toList → ∀ p ∈ d.props, p.key ≠ "RECURRENCE-ID".toList)
    (env : TzEnv) (he : DefaultUtc env) (hby : OffsetsBy zones env) (o : SetOrder)
    (o' : SetOrder (DateTime × Int × Int)) (d0 : ZoneData) (h0 : ZoneData.History env o o' {} d0)
    (hnew : ∀ z ∈ zones, (d0.db.getTimezone (some (String.ofList z.1)) []).1 = none) :
    ∃ c d1, ZoneData.read env s d0 (b1 ++ "BEGIN:VCALENDAR".toList :: (body ++ "END:VCALENDAR".toList :: b2)) = (.ok (some c), d1) ∧
      (∀ d2, ZoneData.History env o o' d1 d2 → ∀ tzid ds, Named zones tzid ds → ∀ x, x.Valid → x.dateOnly = false → x.year ≤ 2098 →
        ∃ n d3, ∀ fuel ≥ n, d2.offset env o o' fuel (some (String.ofList tzid)) x false =
          some (env (some (String.ofList tzid)) x false, d3)) ∧
      ∀ range, (∀ d ∈ cal, EventFits env range cal d) → ∀ top,
        ∃ n, ∀ fuel ≥ n, ∃ l, getVEvents env o fuel s.toEnv c range top = some (.instances l) ∧
          (∃ parts, List.Forall₂ (fun d p => p.Nodup ∧ ∀ a u, (a, u) ∈ p ↔ CalendarText.HasInstance env cal range d a u) cal parts ∧
            (l.map fun i => (i.start, i.stop)) = parts.flatten) ∧
          ∀ i ∈ l, ∀ a ∈ [i.start, i.stop], a.Valid → a.dateOnly = false → 1902 ≤ a.year → a.year ≤ 2098 → Placed zones a →
            InstantBy zones a (a.posix env) := by
  obtain ⟨c, d1, hread, hread', _, hoffs⟩ := C139_offset_partial s hT b1 b2 body ps ss h1 h2 hb h hv zones hz hf env he o o' d0 h0
    hnew
  have hzone := (zones_read hT h hz env).2
  refine ⟨c, d1, hread, ?_, fun range hfit top => ?_⟩
  · intro d2 hd2 tzid ds hnm x hx hxd hy
    obtain ⟨n, v, d3, k1, k2⟩ := hoffs d2 hd2 tzid ds hnm x hx hxd hy
    refine ⟨n, d3, fun fuel hfu => ?_⟩
    rw [k1 fuel hfu]
    have hmem : (tzid, ds) ∈ zones := by
      obtain ⟨pre, post, rfl, _⟩ := hnm
      simp
    rcases k2 with k2 | ⟨k2, rfl⟩ <;> rcases hby tzid ds hnm x hx hxd hy with k3 | ⟨k3, k4⟩
    · rw [inForce_unique (hf _ hmem) (hu _ hmem) k2 k3]
    · exact absurd k3 (inForce_set k2)
    · exact absurd k2 (inForce_set k3)
    · rw [k4]
  · obtain ⟨c', hc', n, hn⟩ := C137_instances_partial s hT b1 b2 body ps ss h1 h2 hb h hv cal hev hother hzone env range hfit o top
    rw [hread'] at hc'
    cases hc'
    refine ⟨n, fun fuel hfu => ?_⟩
    obtain ⟨l, l1, l2⟩ := hn fuel hfu
    refine ⟨l, l1, l2, fun i _ a _ hva hda hy1 hy2 hp => ?_⟩
    rw [posix_since ⟨hy1, hy2⟩]
    rcases hp with hu | ⟨hu, tzid, ds, ht, hnm, hset⟩
    · exact .inl ⟨hu, by simp [tzOffset, hu]⟩
    · refine .inr ⟨hu, tzid, ds, ?_⟩
      rcases hby tzid ds hnm a hva hda hy2 with k | ⟨k, _⟩
      · refine ⟨_, ht, hnm, k, ?_⟩
        rw [show a.tzOffset env = env (some (String.ofList tzid)) a false by
          unfold tzOffset
          rw [hu, ht]
          rfl]
      · exact absurd k hset

namespace L139
open L132 L137

/-- The text of a calendar with a time zone that has always the same offset. -/
def always (offset : String) : List (List Char) :=
  ["BEGIN:VCALENDAR".toList, "VERSION:2.0".toList, "BEGIN:VTIMEZONE".toList, "TZID:X".toList, "BEGIN:STANDARD".toList,
    "DTSTART:20000101T000000".toList, "TZOFFSETFROM:+0000".toList, "TZOFFSETTO:".toList ++ offset.toList, "END:STANDARD".toList,
    "END:VTIMEZONE".toList, "END:VCALENDAR".toList]

/-- What the database gives for a time when the two calendars have been read, and what the second calendar gives itself. -/
def twice (a b : String) (x : DateTime) : Option (Int × Int) :=
  match ZoneData.read .empty settings {} (always a) with
  | (.ok (some _), d1) =>
    match ZoneData.read .empty settings d1 (always b) with
    | (.ok (some c), d2) =>
      (d2.offset .empty RecurrenceSet.inOrder inOrder' 40 (some "X") x false).bind fun v =>
        (zonesOf .empty settings.toEnv c).bind fun zs =>
          (offsetIn .empty RecurrenceSet.inOrder inOrder' 40 ['X'] x false zs).map fun w => (v.1, w.1)
    | _ => none
  | _ => none

end L139

/-- C139 fails: two calendars with the same TZID; the offset is that of the one that is read first, also for the date-times of the other
one, which itself gives another offset. -/
theorem C139_fails_known :
    twice "+0100" "+0200" ⟨2020, 7, 1, 12, 0, 0, false, false, none⟩ = some (3600, 7200) ∧
    twice "+0200" "+0100" ⟨2020, 7, 1, 12, 0, 0, false, false, none⟩ = some (7200, 3600) := by
  decide +kernel

/-- C139 fails: a date-time in a time zone that is asked for its instant before the calendar with the time zone is read (when the
offsets are `env`, 0 for a TZID that is not known) gives this instant also afterwards (when they are `env'`), until it is changed:
right only if the offset is the same. -/
theorem C139_fails_cached (env env' : TzEnv) (t : DateTime) (hu : t.utc = false) (hf : t.floating = false) :
    (((Obj.fresh t).getPosixTime env).2.getPosixTime env').1 = t.posix env ∧
    ((((Obj.fresh t).getPosixTime env).2.getPosixTime env').1 = t.posix env' ↔ t.tzOffset env = t.tzOffset env') := by
  have h : (((Obj.fresh t).getPosixTime env).2.getPosixTime env').1 = t.posix env := by
    simp [Obj.fresh, Obj.getPosixTime, Obj.timeZoneSecondsOffset, hu, hf, posix]
  refine ⟨h, ?_⟩
  rw [h]
  unfold posix
  omega

/-- Such a case: the time zone is two hours ahead. -/
example : (((Obj.fresh ⟨2020, 7, 1, 12, 0, 0, false, false, some (.name "X")⟩).getPosixTime .empty).2.getPosixTime
      fun _ _ _ => 7200).1 = 1593604800 ∧
    (⟨2020, 7, 1, 12, 0, 0, false, false, some (.name "X")⟩ : DateTime).posix (fun _ _ _ => 7200) = 1593597600 := by
  decide +kernel

/-! ## A case -/

namespace L139
open L132 L137 L136

def nyLines : List ContentLine := [line "TZID" "NewYork"]

def nyComp : Cont.Component :=
  .mk "VTIMEZONE".toList (nyLines.map fun l => ⟨l.name, l.text⟩) [L138.observance "DAYLIGHT" daylight, L138.observance "STANDARD" standard]

theorem ny_in : ZoneIn nyComp ("NewYork".toList, [daylightDesc, standardDesc]) where
  type := rfl
  tzid := by
    refine ⟨nyLines, has_lines (by simp only [nyLines, List.mem_singleton, forall_eq]; decide +kernel), ?_⟩
    refine .some (line "TZID" "NewYork") _ (by simp [nyLines]) (by decide +kernel) (by simp [nyLines])
      ⟨⟨none, noParam _ _ _, .inl rfl⟩, ?_⟩
    rw [show (line "TZID" "NewYork").value = ['N', 'e', 'w', 'Y', 'o', 'r', 'k'] by decide +kernel,
      show "NewYork".toList = ['N', 'e', 'w', 'Y', 'o', 'r', 'k'] by decide +kernel]
    exact .plain _ (by decide) (.plain _ (by decide) (.plain _ (by decide) (.plain _ (by decide) (.plain _ (by decide)
      (.plain _ (by decide) (.plain _ (by decide) .nil))))))
  observances :=
    .cons ⟨daylight, has_lines (by simp only [daylight]; decide +kernel), daylight_describes⟩
      (.cons ⟨standard, has_lines (by simp only [standard]; decide +kernel), standard_describes⟩ .nil)

/-- An hour in New York. -/
def meeting : List ContentLine :=
  [line "UID" "1", there "DTSTART" "20200301T090000", there "DTEND" "20200301T100000"]

def meetingDesc : CalendarText.EventDesc :=
  { uid := ['1'], start := nineThere 3 1, dtend := some { nineThere 3 1 with hours := 10 }, dur := none, rid := none
    facts := [.other, .start (nineThere 3 1), .other] }

theorem meeting_describes : CalendarText.Describes meeting meetingDesc := by
  refine ⟨?_, rfl, uid_text _ (by simp [meeting]) ?_, ?_, .none (by simp only [meeting]; decide +kernel),
    .none (by simp only [meeting]; decide +kernel)⟩
  · refine .cons (.other (by decide +kernel)) (.cons ?_ (.cons (.other (by decide +kernel)) .nil))
    exact .start (l := there "DTSTART" "20200301T090000") (z := some "NewYork".toList)
        (t := ⟨2020, 3, 1, 9, 0, 0, false, false, none⟩) (by decide +kernel) (there_params _ _)
        (time_text "03" "01" "09" 3 1 9 false "20200301T090000" (by decide +kernel) (by decide +kernel) (by decide +kernel)) rfl
        (fun _ => rfl)
  · intro m hm hk
    simp only [meeting, List.mem_cons, List.not_mem_nil, or_false] at hm
    rcases hm with rfl | rfl | rfl
    · rfl
    all_goals exact absurd hk (by decide +kernel)
  · refine .some (there "DTEND" "20200301T100000") _ (by simp [meeting]) (by decide +kernel) ?_
      ⟨false, some "NewYork".toList, _, there_params _ _,
        time_text "03" "01" "10" 3 1 10 false "20200301T100000" (by decide +kernel) (by decide +kernel) (by decide +kernel), rfl,
        fun _ => rfl, rfl⟩
    intro m hm hk
    simp only [meeting, List.mem_cons, List.not_mem_nil, or_false] at hm
    rcases hm with rfl | rfl | rfl
    · exact absurd hk (by decide +kernel)
    · exact absurd hk (by decide +kernel)
    · rfl

theorem meeting_in : EventIn (comp meeting) meetingDesc := by
  refine ⟨rfl, meeting, by simp [comp, Cont.Component.props], ?_, ?_, meeting_describes⟩
  · intro l hl
    simp only [meeting, List.mem_cons, List.not_mem_nil, or_false] at hl
    rcases hl with rfl | rfl | rfl <;> exact allowed_name (by decide +kernel) rfl (by simp [line, there])
  · simp only [meeting]; decide +kernel

theorem meeting_single : ¬ Recurs meetingDesc.facts := by
  rintro ⟨f, hf, hc⟩
  simp only [meetingDesc, List.mem_cons, List.not_mem_nil, or_false] at hf
  rcases hf with rfl | rfl | rfl <;> rcases hc with ⟨_, _, hc⟩ | ⟨_, _, hc⟩ <;> cases hc

theorem meeting_fits (env : TzEnv) : EventFits env inSpring [meetingDesc] meetingDesc where
  start := by decide +kernel
  ends := by decide +kernel
  dtend := by
    intro x hx
    cases hx
    decide +kernel
  days := by intro h; cases h
  alone := fun h => absurd rfl h
  dates := fun _ h => absurd h meeting_single
  others := fun h => absurd h meeting_single

/-- The text of the calendar between its delimiters. -/
def meetingText : List (List Char) :=
  "VERSION:2.0".toList :: ("BEGIN:".toList ++ "VTIMEZONE".toList) :: ((nyLines.map ContentLine.text ++
    (("BEGIN:".toList ++ "DAYLIGHT".toList) :: (daylight.map ContentLine.text ++ ("END:".toList ++ "DAYLIGHT".toList) ::
      (("BEGIN:".toList ++ "STANDARD".toList) :: (standard.map ContentLine.text ++ ("END:".toList ++ "STANDARD".toList) :: []))))) ++
    ("END:".toList ++ "VTIMEZONE".toList) :: ("BEGIN:".toList ++ "VEVENT".toList) :: (meeting.map ContentLine.text ++
    ("END:".toList ++ "VEVENT".toList) :: []))

theorem ny_body : Spec.Body (container settings) false "VTIMEZONE".toList
    (nyLines.map ContentLine.text ++
    (("BEGIN:".toList ++ "DAYLIGHT".toList) :: (daylight.map ContentLine.text ++ ("END:".toList ++ "DAYLIGHT".toList) ::
      (("BEGIN:".toList ++ "STANDARD".toList) :: (standard.map ContentLine.text ++ ("END:".toList ++ "STANDARD".toList) :: [])))))
    (nyLines.map fun l => ⟨l.name, l.text⟩) [L138.observance "DAYLIGHT" daylight, L138.observance "STANDARD" standard] :=
  .prop (by decide +kernel) (by decide +kernel) (by decide +kernel) (by decide +kernel) (by decide +kernel)
    (.comp "DAYLIGHT".toList (by decide +kernel) (by decide +kernel) (by decide +kernel) (by decide +kernel)
      (lines_body (by decide +kernel))
      (.comp "STANDARD".toList (by decide +kernel) (by decide +kernel) (by decide +kernel) (by decide +kernel)
        (lines_body (by decide +kernel)) .nil))

theorem meeting_body : Spec.Body (container settings) true "VCALENDAR".toList meetingText [⟨"VERSION".toList, "VERSION:2.0".toList⟩]
    [nyComp, comp meeting] :=
  .prop (by decide +kernel) (by decide +kernel) (by decide +kernel) (by decide +kernel) (by decide +kernel)
    (.comp "VTIMEZONE".toList (by decide +kernel) (by decide +kernel) (by decide +kernel) (by decide +kernel) ny_body
      (.comp "VEVENT".toList (by decide +kernel) (by decide +kernel) (by decide +kernel) (by decide +kernel)
        (lines_body (by decide +kernel)) .nil))

theorem month_of {d : Observance} {m n : Int} (hs : d.start.month = m) (hr : rulesOf false d.facts = [[.freq .yearly, .num .month [m], .byDay [(n, 0)]]])
    (hd : EventText.datesOf false d.facts = []) {t : DateTime} (h : Onset d t) : t.month = m := by
  rcases h with rfl | h | ⟨ps, hps, h⟩
  · exact hs
  · rw [hd] at h; cases h
  · rw [hr, List.mem_singleton] at hps
    subst hps
    obtain hn | ⟨v, hv, he⟩ := h.1.2.byMonth
    · exact nomatch (show [m] = [] from hn)
    have hv : v ∈ [m] := hv
    rw [List.mem_singleton] at hv
    rw [he, hv]

theorem ny_definite : Definite [daylightDesc, standardDesc] := by
  have h1 : ∀ {t}, Onset daylightDesc t → t.month = 3 := month_of (n := 2) rfl rfl rfl
  have h2 : ∀ {t}, Onset standardDesc t → t.month = 11 := month_of (n := 1) rfl rfl rfl
  intro d hd d' hd' t ht ht'
  simp only [List.mem_cons, List.not_mem_nil, or_false] at hd hd'
  rcases hd with rfl | rfl <;> rcases hd' with rfl | rfl
  · rfl
  · have := (h1 ht).symm.trans (h2 ht'); omega
  · have := (h1 ht').symm.trans (h2 ht); omega
  · rfl

theorem ny_zones : List.Forall₂ ZoneIn ([nyComp, comp meeting].filter fun d => decide (PropText.upper d.type = "VTIMEZONE".toList))
    [("NewYork".toList, [daylightDesc, standardDesc])] := by
  rw [List.filter_cons_of_pos (by decide +kernel), List.filter_cons_of_neg (by decide +kernel)]
  exact .cons ny_in .nil

theorem ny_fits : ∀ z ∈ [("NewYork".toList, [daylightDesc, standardDesc])], ∀ d ∈ z.2, ZoneFits d := by
  simp only [List.mem_cons, List.not_mem_nil, or_false, forall_eq, forall_eq_or_imp]
  exact ⟨daylight_fits, standard_fits⟩

/-- There are such offsets. -/
theorem ny_offset (x : DateTime) (hx : x.Valid) (hd : x.dateOnly = false) (hy : x.year ≤ 2098) :
    ∃ v, InForce [daylightDesc, standardDesc] x v ∨ Unset [daylightDesc, standardDesc] x ∧ v = 0 := by
  obtain ⟨c, zs, h1, h2, h3⟩ := C138_offset_partial settings .base [] [] meetingText _ _ (by simp [Blank])
    (by simp [Blank]) (.inl rfl) meeting_body ⟨_, List.mem_singleton.mpr rfl, by decide +kernel⟩ _ ny_zones ny_fits .empty
    (fun _ _ => rfl)
  obtain ⟨n, v, zs2, h4, h5, _⟩ := h3 RecurrenceSet.inOrder inOrder' zs .start "NewYork".toList x hx hd hy
  exact ⟨v, h5 _ ⟨[], [], rfl, by simp⟩⟩

open Classical in
/-- The offsets that the lines of the time zone describe. -/
noncomputable def nyEnv : TzEnv := fun z x _ =>
  if h : z = some "NewYork" ∧ x.Valid ∧ x.dateOnly = false ∧ x.year ≤ 2098 then (ny_offset x h.2.1 h.2.2.1 h.2.2.2).choose else 0

theorem ny_by : OffsetsBy [("NewYork".toList, [daylightDesc, standardDesc])] nyEnv := by
  rintro tzid ds ⟨pre, post, hp, _⟩ x hx hd hy
  have hm : (tzid, ds) ∈ [("NewYork".toList, [daylightDesc, standardDesc])] := by rw [hp]; simp
  rw [List.mem_singleton, Prod.mk.injEq] at hm
  obtain ⟨rfl, rfl⟩ := hm
  have h : some (String.ofList "NewYork".toList) = some "NewYork" ∧ x.Valid ∧ x.dateOnly = false ∧ x.year ≤ 2098 :=
    ⟨by simp, hx, hd, hy⟩
  rw [show nyEnv (some (String.ofList "NewYork".toList)) x false = (ny_offset x hx hd hy).choose from dif_pos h]
  exact (ny_offset x hx hd hy).choose_spec

end L139

/-- The conditions of C139 are met: an hour in New York, with a time zone for it. -/
example (o : SetOrder) (o' : SetOrder (DateTime × Int × Int)) (d0 : ZoneData) (h0 : ZoneData.History nyEnv o o' {} d0)
    (hnew : (d0.db.getTimezone (some "NewYork") []).1 = none) :
    ∃ c d1, ZoneData.read nyEnv settings d0 ([] ++ "BEGIN:VCALENDAR".toList :: (meetingText ++ "END:VCALENDAR".toList :: [])) =
        (.ok (some c), d1) ∧
      ∀ top, ∃ n, ∀ fuel ≥ n, ∃ l, getVEvents nyEnv o fuel settings.toEnv c L136.inSpring top = some (.instances l) := by
  obtain ⟨c, d1, k1, _, k3⟩ := C139_instants_partial settings .base [] [] meetingText _ _ (by simp [Blank])
    (by simp [Blank]) (.inl rfl) meeting_body ⟨_, List.mem_singleton.mpr rfl, by decide +kernel⟩ _ ny_zones ny_fits
    (by simp only [List.mem_singleton, forall_eq]; exact ny_definite) [meetingDesc] (by
      rw [List.filter_cons_of_neg (by decide +kernel), List.filter_cons_of_pos (by decide +kernel)]
      exact .cons meeting_in .nil) (by
      simp only [List.mem_cons, List.not_mem_nil, or_false, forall_eq, forall_eq_or_imp]
      exact ⟨by decide +kernel, fun h => absurd (by decide +kernel) h⟩) nyEnv (fun _ _ => by simp [nyEnv]) ny_by o o' d0 h0 (by
      simp only [List.mem_singleton, forall_eq]
      rwa [show String.ofList "NewYork".toList = "NewYork" by simp])
  refine ⟨c, d1, k1, fun top => ?_⟩
  obtain ⟨n, hn⟩ := k3 L136.inSpring (by simp only [List.mem_singleton, forall_eq]; exact meeting_fits _) top
  exact ⟨n, fun fuel hf => (hn fuel hf).imp fun l h => h.1⟩

/-- In the beginning the time zone is not known. -/
example : (({} : ZoneData).db.getTimezone (some "NewYork") []).1 = none := by decide +kernel

/-- Such times are placed: nine o'clock on 1 March 2020 there. -/
example : Placed [("NewYork".toList, [daylightDesc, standardDesc])] (L136.nineThere 3 1) := by
  refine .inr ⟨rfl, "NewYork".toList, _, by simp [L136.nineThere], ⟨[], [], rfl, by simp⟩, fun h => ?_⟩
  have hb := h daylightDesc (by simp) daylightDesc.start (.inl rfl)
  rw [Rule.L133.before_iff (by decide +kernel) (by decide +kernel)] at hb
  exact absurd hb (by decide +kernel)

end PyCal
