import Verif.Model.TimezoneInclude
import Verif.Props.C39_Database

/-!
# C76, C77: the time zones of a calendar

Which VTIMEZONE components `includeMissingTimezones` adds to a calendar before it is written, and
which `stripStandardTimezones` removes.  The database has been through any history of calls.
-/

namespace PyCal
open TzDb

/-! ## What a database answers later -/

namespace TzDb

/-- Whatever is known of a TZID in `db` is the same in `db'`. -/
def Grows (db db' : TzDb) : Prop :=
  ∀ k, db.cached k ≠ none → db'.cached k = db.cached k ∧ (k ∈ db'.std ↔ k ∈ db.std)

/-- The time zone known for a TZID has that TZID. -/
def Keyed (db : TzDb) : Prop := ∀ k tz, db.cached k = some (some tz) → k = some tz.tzid

theorem Grows.refl (db : TzDb) : Grows db db := fun _ _ => ⟨rfl, Iff.rfl⟩

theorem Grows.trans {a b c : TzDb} (h1 : Grows a b) (h2 : Grows b c) : Grows a c := by
  intro k hk
  obtain ⟨e1, s1⟩ := h1 k hk
  obtain ⟨e2, s2⟩ := h2 k (by rw [e1]; exact hk)
  exact ⟨e2.trans e1, s2.trans s1⟩

theorem grows_get (db : TzDb) (k : Option String) (file : List Tz) :
    Grows db (db.getTimezone k file).2 := by
  intro x hx
  by_cases he : x = k
  · subst he
    obtain ⟨v, hv⟩ := Option.ne_none_iff_exists'.mp hx
    rw [get_cached hv]
    exact ⟨rfl, Iff.rfl⟩
  · refine ⟨by rw [cached_get, if_neg he], ?_⟩
    unfold getTimezone
    cases hc : db.cached k with
    | some v => exact Iff.rfl
    | none =>
      simp only
      generalize (if inCalendar db.calendar k = none then db.calendar ++ file else db.calendar) = l
      split
      · simp [he]
      · exact Iff.rfl

theorem grows_isStandard (db : TzDb) (k : Option String) (file : List Tz) :
    Grows db (db.isStandard k file).2 := by
  unfold isStandard
  split
  · exact Grows.refl db
  · split
    · exact Grows.refl db
    · exact grows_get db k file

theorem isStandard_cached {db : TzDb} {k : Option String} (h : db.cached k ≠ none) (file : List Tz) :
    db.isStandard k file = (decide (k ∈ db.std), db) := by
  obtain ⟨v, hv⟩ := Option.ne_none_iff_exists'.mp h
  unfold isStandard
  split
  · next hm => simp [hm]
  · next hm =>
    split
    · simp [hm]
    · rw [get_cached hv]

theorem cached_after_get (db : TzDb) (k : Option String) (file : List Tz) :
    (db.getTimezone k file).2.cached k = some (db.getTimezone k file).1 := by
  rw [cached_get, if_pos rfl]

theorem cached_after_isStandard {L : String → Prop} {db : TzDb} (h : Ok L db) (k : Option String)
    (file : List Tz) : (db.isStandard k file).2.cached k ≠ none ∧
      ((db.isStandard k file).1 = decide (k ∈ (db.isStandard k file).2.std)) := by
  unfold isStandard
  split
  · next hm => exact ⟨h.listed k (.inl hm), by simp [hm]⟩
  · next hm =>
    split
    · next hn => exact ⟨h.listed k (.inr hn), by simp [hm]⟩
    · exact ⟨by simp [cached_after_get], rfl⟩

theorem Keyed.get {db : TzDb} (h : Keyed db) (k : Option String) (file : List Tz) :
    Keyed (db.getTimezone k file).2 := by
  intro x tz hx
  rw [cached_get] at hx
  split at hx
  · next he =>
    subst he
    cases hc : db.cached x with
    | some v =>
      rw [get_cached hc] at hx
      exact h x tz (by rw [hc]; exact hx)
    | none =>
      unfold getTimezone at hx
      rw [hc] at hx
      simp only [Option.some.injEq] at hx
      exact (inCalendar_mem hx).2.symm
  · exact h x tz hx

theorem Keyed.isStandard {db : TzDb} (h : Keyed db) (k : Option String) (file : List Tz) :
    Keyed (db.isStandard k file).2 := by
  unfold TzDb.isStandard
  split
  · exact h
  · split
    · exact h
    · exact h.get k file

theorem Keyed.step {db : TzDb} (h : Keyed db) (op : Op) : Keyed (db.step op) := by
  cases op with
  | get k file => exact h.get k file
  | isStandard k file => exact h.isStandard k file
  | merge tz file copy =>
    simp only [TzDb.step, merge]
    split
    · intro x t hx
      rw [cached_add] at hx
      split at hx
      · next he =>
        simp only [Option.some.injEq] at hx
        rw [he, ← hx]
      · exact h.get _ file x t hx
    · exact h.get _ file

theorem Keyed.run : ∀ (ops : List Op) {db : TzDb}, Keyed db → Keyed (db.run ops)
  | [], _, h => h
  | op :: ops, _, h => Keyed.run ops (h.step op)

/-- The states a database can be in after calls since it was new. -/
def Good (db : TzDb) : Prop := Ok (fun _ => True) db ∧ Keyed db

theorem good_run (ops : List Op) : Good (({} : TzDb).run ops) :=
  ⟨ok_empty.run ops (by simp), Keyed.run ops (by intro k tz h; simp [cached] at h)⟩

theorem Good.get {db : TzDb} (h : Good db) (k : Option String) (file : List Tz) :
    Good (db.getTimezone k file).2 := ⟨(h.1.get k (by simp)).1, h.2.get k file⟩

theorem Good.isStandard {db : TzDb} (h : Good db) (k : Option String) (file : List Tz) :
    Good (db.isStandard k file).2 := by
  refine ⟨?_, h.2.isStandard k file⟩
  unfold TzDb.isStandard
  split
  · exact h.1
  · split
    · exact h.1
    · exact (h.1.get k (by simp)).1

/-- Later answers are the same. -/
theorem Grows.get {db db' : TzDb} (h : Grows db db') {k : Option String} {v : Option Tz}
    (hk : db.cached k = some v) (file : List Tz) : (db'.getTimezone k file).1 = v := by
  have : db'.cached k = some v := by rw [(h k (by simp [hk])).1, hk]
  rw [get_cached this]

theorem Grows.isStandard {db db' : TzDb} (h : Grows db db') {k : Option String}
    (hk : db.cached k ≠ none) (file : List Tz) :
    (db'.isStandard k file).1 = decide (k ∈ db.std) := by
  rw [isStandard_cached (by rw [(h k hk).1]; exact hk)]
  simp only [(h k hk).2]

end TzDb

namespace TzComp

/-! ## What is added -/

theorem hasZone_append (a b : List TzComp) (t : String) :
    hasZone (a ++ b) t = (hasZone a t || hasZone b t) := by
  simp [hasZone]

/-- What the loop adds for a TZID, by the answers of a database. -/
def choice (nonstd : Bool) (comps : List TzComp) (db : TzDb) (f : String → List Tz) (t : String) :
    Option TzComp :=
  if (nonstd = true ∧ (db.isStandard (some t) (f t)).1 = true) ∨ hasZone comps t = true then none
  else (db.getTimezone (some t) (f t)).1.map dup

theorem includeStep_fst (nonstd : Bool) (file : String → List Tz) (comps : List TzComp) (db : TzDb)
    (t : String) (hg : Good db) (db' : TzDb)
    (hd : Grows (includeStep nonstd file (comps, db) t).2 db') (f : String → List Tz) :
    (includeStep nonstd file (comps, db) t).1 = comps ++ (choice nonstd comps db' f t).toList ∧
    Grows db (includeStep nonstd file (comps, db) t).2 ∧
    Good (includeStep nonstd file (comps, db) t).2 ∧
    (hasZone comps t = false → (includeStep nonstd file (comps, db) t).2.cached (some t) ≠ none) := by
  have key : ∀ r : Bool × TzDb, Grows db r.2 → Good r.2 →
      (nonstd = true → r.2.cached (some t) ≠ none ∧ r.1 = decide (some t ∈ r.2.std)) →
      (nonstd = false → r.1 = false) →
      (∀ st, st = (if r.1 then (comps, r.2) else if hasZone comps t then (comps, r.2) else
        match (r.2.getTimezone (some t) (file t)).1 with
        | some tz => (comps ++ [dup tz], (r.2.getTimezone (some t) (file t)).2)
        | none => (comps, (r.2.getTimezone (some t) (file t)).2)) → Grows st.2 db' →
      st.1 = comps ++ (choice nonstd comps db' f t).toList ∧ Grows db st.2 ∧ Good st.2 ∧
      (hasZone comps t = false → st.2.cached (some t) ≠ none)) := by
    intro r h1 h2 h3 h4 st hst hgr
    have hsame : nonstd = true → Grows r.2 db' → (db'.isStandard (some t) (f t)).1 = r.1 :=
      fun hn hr => by rw [hr.isStandard (h3 hn).1, (h3 hn).2]
    by_cases hr : r.1 = true
    · rw [if_pos hr] at hst
      subst hst
      have hn : nonstd = true := by
        cases hn : nonstd with
        | true => rfl
        | false => rw [h4 hn] at hr; cases hr
      refine ⟨?_, h1, h2, fun _ => (h3 hn).1⟩
      simp only [choice]
      rw [if_pos (.inl ⟨hn, by rw [hsame hn hgr]; exact hr⟩)]
      simp
    · rw [if_neg hr] at hst
      by_cases hz : hasZone comps t = true
      · rw [if_pos hz] at hst
        subst hst
        refine ⟨?_, h1, h2, fun h => by rw [hz] at h; cases h⟩
        simp only [choice]
        rw [if_pos (.inr hz)]
        simp
      · rw [if_neg hz] at hst
        have hc := cached_after_get r.2 (some t) (file t)
        have hst2 : st.2 = (r.2.getTimezone (some t) (file t)).2 := by
          rw [hst]; split <;> rfl
        have hst1 : st.1 = comps ++ ((r.2.getTimezone (some t) (file t)).1.map dup).toList := by
          rw [hst]
          split
          · next e => rw [e]; rfl
          · next e => rw [e]; simp
        rw [hst2] at hgr ⊢
        refine ⟨?_, h1.trans (grows_get _ _ _), h2.get _ _, fun _ => by rw [hc]; simp⟩
        rw [hst1]
        simp only [choice]
        rw [if_neg, hgr.get hc]
        rintro (⟨hn, hs⟩ | h)
        · rw [hsame hn ((grows_get _ _ _).trans hgr)] at hs
          exact hr hs
        · exact hz h
  cases nonstd with
  | true =>
    exact key (db.isStandard (some t) (file t)) (grows_isStandard _ _ _) (hg.isStandard _ _)
      (fun _ => cached_after_isStandard hg.1 _ _) (by simp) _ rfl hd
  | false => exact key (false, db) (Grows.refl _) hg (by simp) (fun _ => rfl) _ rfl hd

theorem includeStep_grows (nonstd : Bool) (file : String → List Tz) (st : List TzComp × TzDb)
    (t : String) (hg : Good st.2) : Grows st.2 (includeStep nonstd file st t).2 ∧
      Good (includeStep nonstd file st t).2 := by
  obtain ⟨comps, db⟩ := st
  have := includeStep_fst nonstd file comps db t hg _ (Grows.refl _) file
  exact ⟨this.2.1, this.2.2.1⟩

theorem includeFold_grows (nonstd : Bool) (file : String → List Tz) : ∀ (order : List String)
    (st : List TzComp × TzDb), Good st.2 →
    Grows st.2 (order.foldl (includeStep nonstd file) st).2 ∧
      Good (order.foldl (includeStep nonstd file) st).2
  | [], st, h => ⟨Grows.refl _, h⟩
  | t :: order, st, h => by
    obtain ⟨h1, h2⟩ := includeStep_grows nonstd file st t h
    obtain ⟨h3, h4⟩ := includeFold_grows nonstd file order _ h2
    exact ⟨h1.trans h3, h4⟩

theorem choice_tzid {nonstd : Bool} {comps : List TzComp} {db : TzDb} (hg : Good db)
    {f : String → List Tz} {t : String} {c : TzComp} (h : choice nonstd comps db f t = some c) :
    c.ctype = "VTIMEZONE" ∧ c.tzid = t := by
  unfold choice at h
  split at h
  · cases h
  · rw [Option.map_eq_some_iff] at h
    obtain ⟨tz, htz, rfl⟩ := h
    have h1 := (hg.get (some t) (f t)).2 (some t) tz (by rw [cached_after_get, htz])
    simp only [Option.some.injEq] at h1
    exact ⟨rfl, h1.symm⟩

theorem includeFold (nonstd : Bool) (file f : String → List Tz) : ∀ (order : List String)
    (comps : List TzComp) (db : TzDb), order.Nodup → Good db →
    (order.foldl (includeStep nonstd file) (comps, db)).1 =
      comps ++ order.filterMap
        (choice nonstd comps (order.foldl (includeStep nonstd file) (comps, db)).2 f) ∧
    ∀ t ∈ order, hasZone comps t = false →
      (order.foldl (includeStep nonstd file) (comps, db)).2.cached (some t) ≠ none
  | [], comps, db, _, _ => by simp
  | t :: order, comps, db, hn, hg => by
    rw [List.foldl_cons]
    obtain ⟨hg1, hg2⟩ := includeStep_grows nonstd file (comps, db) t hg
    have ih := includeFold nonstd file f order (includeStep nonstd file (comps, db) t).1
      (includeStep nonstd file (comps, db) t).2 (List.nodup_cons.mp hn).2 hg2
    obtain ⟨hgr, hgood⟩ := includeFold_grows nonstd file order (includeStep nonstd file (comps, db) t) hg2
    simp only [Prod.mk.eta] at ih
    generalize order.foldl (includeStep nonstd file) (includeStep nonstd file (comps, db) t) = r
      at ih hgr hgood
    obtain ⟨he, -, -, hc⟩ := includeStep_fst nonstd file comps db t hg r.2 hgr f
    have hz : ∀ x, x ≠ t → hasZone (includeStep nonstd file (comps, db) t).1 x = hasZone comps x := by
      intro x hx
      rw [he, hasZone_append]
      cases hch : choice nonstd comps r.2 f t with
      | none => simp [hasZone]
      | some c =>
        have := choice_tzid hgood hch
        simp [hasZone, this.2, Ne.symm hx]
    have hne : ∀ x ∈ order, x ≠ t := fun x hx e => (List.nodup_cons.mp hn).1 (e ▸ hx)
    constructor
    · rw [ih.1, he, List.append_assoc, ← he, List.filterMap_cons]
      congr 1
      have hcong : order.filterMap (choice nonstd (includeStep nonstd file (comps, db) t).1 r.2 f) =
          order.filterMap (choice nonstd comps r.2 f) :=
        List.filterMap_congr fun x hx => by unfold choice; rw [hz x (hne x hx)]
      rw [hcong]
      cases choice nonstd comps r.2 f t <;> rfl
    · intro x hx hxz
      rcases List.mem_cons.mp hx with rfl | hx
      · rw [(hgr _ (hc hxz)).1]
        exact hc hxz
      · exact ih.2 x hx (by rw [hz x (hne x hx)]; exact hxz)

/-! ## C76 -/

/-- A component other than a VTIMEZONE has a property whose value is a date-time with this TZID; or
it is a VAVAILABILITY with an AVAILABLE component that has. -/
def Seen (comps : List TzComp) (t : String) : Prop :=
  t ≠ "" ∧ ∃ c ∈ comps, c.ctype ≠ "VTIMEZONE" ∧ (TzValue.dateTime (some t) ∈ c.values ∨
    (c.ctype = "VAVAILABILITY" ∧ ∃ s ∈ c.subs, s.ctype = "AVAILABLE" ∧
      TzValue.dateTime (some t) ∈ s.values))

/-- A value with this TZID, in a component or a component of it. -/
def Refers (comps : List TzComp) (t : String) : Prop :=
  t ≠ "" ∧ ∃ c ∈ comps, ∃ v ∈ c.values ++ c.subs.flatMap (·.values),
    v = TzValue.dateTime (some t) ∨ ∃ l, v = TzValue.many l ∧ some t ∈ l

theorem mem_valueTzids (values : List TzValue) (t : String) :
    t ∈ valueTzids values ↔ t ≠ "" ∧ TzValue.dateTime (some t) ∈ values := by
  simp only [valueTzids, List.mem_filterMap]
  constructor
  · rintro ⟨v, hv, h⟩
    split at h
    · next s =>
      split at h
      · cases h
      · next hs =>
        cases h
        exact ⟨hs, hv⟩
    · cases h
  · rintro ⟨h, hv⟩
    exact ⟨_, hv, by simp [h]⟩

theorem mem_referenced (comps : List TzComp) (t : String) :
    t ∈ referenced comps ↔ Seen comps t := by
  simp only [referenced, Seen, List.mem_flatMap]
  constructor
  · rintro ⟨c, hc, h⟩
    split at h
    · next hct =>
      simp only [getTimezones, List.mem_append] at h
      rcases h with h | h
      · obtain ⟨h1, h2⟩ := (mem_valueTzids _ _).mp h
        exact ⟨h1, c, hc, hct, .inl h2⟩
      · split at h
        · next hv =>
          simp only [List.mem_flatMap, List.mem_filter, decide_eq_true_eq] at h
          obtain ⟨s, ⟨hs, hst⟩, h⟩ := h
          obtain ⟨h1, h2⟩ := (mem_valueTzids _ _).mp h
          exact ⟨h1, c, hc, hct, .inr ⟨hv, s, hs, hst, h2⟩⟩
        · simp at h
    · simp at h
  · rintro ⟨h1, c, hc, hct, h⟩
    refine ⟨c, hc, ?_⟩
    rw [if_pos hct]
    simp only [getTimezones, List.mem_append]
    rcases h with h | ⟨hv, s, hs, hst, h⟩
    · exact .inl ((mem_valueTzids _ _).mpr ⟨h1, h⟩)
    · right
      rw [if_pos hv]
      simp only [List.mem_flatMap, List.mem_filter, decide_eq_true_eq]
      exact ⟨s, ⟨hs, hst⟩, (mem_valueTzids _ _).mpr ⟨h1, h⟩⟩

theorem hasZone_iff (comps : List TzComp) (t : String) :
    hasZone comps t = true ↔ ∃ c ∈ comps, c.ctype = "VTIMEZONE" ∧ c.tzid = t := by
  simp [hasZone]

/-- `order` is an order in which Python may go through the set of TZIDs of the components. -/
def IsOrder (comps : List TzComp) (order : List String) : Prop :=
  order.Nodup ∧ ∀ t, t ∈ order ↔ t ∈ referenced comps

theorem includeMissing_eq {arg : Option Include} (h : arg ≠ some .none) (order : List String)
    (file : String → List Tz) (comps : List TzComp) (db : TzDb) :
    includeMissing arg order file comps db =
      order.foldl (includeStep (decide (arg ≠ some .all)) file) (comps, db) := by
  cases arg with
  | none => rfl
  | some a =>
    cases a with
    | all => rfl
    | nonstd => rfl
    | none => exact absurd rfl h

theorem includeMissing_good {arg : Option Include} (order : List String) (file : String → List Tz)
    (comps : List TzComp) {db : TzDb} (hg : Good db) :
    Grows db (includeMissing arg order file comps db).2 ∧
      Good (includeMissing arg order file comps db).2 := by
  by_cases h : arg = some .none
  · subst h
    exact ⟨Grows.refl _, hg⟩
  · rw [includeMissing_eq h]
    exact includeFold_grows _ file order (comps, db) hg

theorem include_db (ops : List Op) (comps : List TzComp) (arg : Option Include) (order : List String)
    (file : String → List Tz) :
    Good (includeMissing arg order file comps (({} : TzDb).run ops)).2 :=
  (includeMissing_good order file comps (good_run ops)).2

/-- C76: the components stay as they are; VTIMEZONE components are added at the end.  Each is a copy
of the one which the database has for its TZID, which is used by a date-time in the calendar and had
no VTIMEZONE there; no two have the same TZID; and unless all are asked for, none is one that the
database calls standard. -/
theorem C76_added (ops : List Op) (comps : List TzComp) (arg : Option Include) (order : List String)
    (ho : IsOrder comps order) (file f : String → List Tz) :
    let r := includeMissing arg order file comps (({} : TzDb).run ops)
    ∃ added, r.1 = comps ++ added ∧ (added.map (·.tzid)).Nodup ∧ (arg = some .none → added = []) ∧
      ∀ c ∈ added, c.ctype = "VTIMEZONE" ∧ Seen comps c.tzid ∧ hasZone comps c.tzid = false ∧
        (∃ tz, (r.2.getTimezone (some c.tzid) (f c.tzid)).1 = some tz ∧ c.tzid = tz.tzid ∧
          c.content = tz.obj ∧ c.values = [] ∧ c.subs = []) ∧
        (arg ≠ some .all → (r.2.isStandard (some c.tzid) (f c.tzid)).1 = false) := by
  intro r
  by_cases h : arg = some .none
  · subst h
    exact ⟨[], by simp [r, includeMissing], by simp, by simp, by simp⟩
  · have hgood : Good r.2 := include_db ops comps arg order file
    have he : r.1 = comps ++ order.filterMap (choice (decide (arg ≠ some .all)) comps r.2 f) := by
      simp only [r]
      rw [includeMissing_eq h]
      exact (includeFold _ file f order comps _ ho.1 (good_run ops)).1
    refine ⟨_, he, ?_, fun e => absurd e h, ?_⟩
    · rw [List.map_filterMap]
      have : ∀ l : List String, l.Nodup → (l.filterMap fun t =>
          (choice (decide (arg ≠ some .all)) comps r.2 f t).map (·.tzid)).Nodup := by
        intro l hl
        refine hl.filterMap ?_
        intro a b c hc hd
        simp only [Option.mem_def, Option.map_eq_some_iff] at hc hd
        obtain ⟨x, hx, rfl⟩ := hc
        obtain ⟨y, hy, hxy⟩ := hd
        rw [← (choice_tzid hgood hx).2, ← (choice_tzid hgood hy).2, hxy]
      exact this order ho.1
    · intro c hc
      obtain ⟨t, ht, hct⟩ := List.mem_filterMap.mp hc
      obtain ⟨h1, h2⟩ := choice_tzid hgood hct
      subst h2
      refine ⟨h1, (mem_referenced _ _).mp ((ho.2 _).mp ht), ?_⟩
      unfold choice at hct
      split at hct
      · cases hct
      · next hn =>
        rw [Option.map_eq_some_iff] at hct
        obtain ⟨tz, htz, hd⟩ := hct
        refine ⟨?_, ⟨tz, htz, by rw [← hd]; rfl, by rw [← hd]; rfl, by rw [← hd]; rfl, by rw [← hd]; rfl⟩, ?_⟩
        · cases hz : hasZone comps c.tzid with
          | true => exact absurd (.inr hz) hn
          | false => rfl
        · intro ha
          cases hs : (r.2.isStandard (some c.tzid) (f c.tzid)).1 with
          | true => exact absurd (.inl ⟨by simpa using ha, hs⟩) hn
          | false => rfl

/-- C76: afterwards a TZID used by a date-time has its VTIMEZONE in the calendar, unless the database
has none for it, or it calls it standard and not all were asked for.  What is missing for the full
claim: TZIDs in lists of date-times, in periods and in inner components are not looked for. -/
theorem C76_present_partial (ops : List Op) (comps : List TzComp) (arg : Option Include)
    (harg : arg ≠ some .none) (order : List String) (ho : IsOrder comps order)
    (file f : String → List Tz) (t : String) (ht : Seen comps t) :
    let r := includeMissing arg order file comps (({} : TzDb).run ops)
    hasZone r.1 t = true ∨ (r.2.getTimezone (some t) (f t)).1 = none ∨
      (arg ≠ some .all ∧ (r.2.isStandard (some t) (f t)).1 = true) := by
  intro r
  have hgood : Good r.2 := include_db ops comps arg order file
  have he : r.1 = comps ++ order.filterMap (choice (decide (arg ≠ some .all)) comps r.2 f) := by
    simp only [r]
    rw [includeMissing_eq harg]
    exact (includeFold _ file f order comps _ ho.1 (good_run ops)).1
  rw [he, hasZone_append, Bool.or_eq_true]
  have htm := (ho.2 t).mpr ((mem_referenced _ _).mpr ht)
  cases hc : choice (decide (arg ≠ some .all)) comps r.2 f t with
  | some c =>
    left; right
    rw [hasZone_iff]
    obtain ⟨h1, h2⟩ := choice_tzid hgood hc
    exact ⟨c, List.mem_filterMap.mpr ⟨t, htm, hc⟩, h1, h2⟩
  | none =>
    unfold choice at hc
    split at hc
    · next h =>
      rcases h with ⟨h1, h2⟩ | h
      · exact .inr (.inr ⟨by simpa using h1, h2⟩)
      · exact .inl (.inl h)
    · right; left
      rw [Option.map_eq_none_iff] at hc
      exact hc

theorem seen_append {comps added : List TzComp} (h : ∀ c ∈ added, c.ctype = "VTIMEZONE") (t : String) :
    Seen (comps ++ added) t ↔ Seen comps t := by
  unfold Seen
  constructor
  · rintro ⟨h1, c, hc, hct, h2⟩
    rcases List.mem_append.mp hc with hc | hc
    · exact ⟨h1, c, hc, hct, h2⟩
    · exact absurd (h c hc) hct
  · rintro ⟨h1, c, hc, h2⟩
    exact ⟨h1, c, List.mem_append_left _ hc, h2⟩

/-- C76: a second call adds nothing, whatever the files contain by then. -/
theorem C76_again (ops : List Op) (comps : List TzComp) (arg : Option Include) (order order' : List String)
    (ho : IsOrder comps order) (file file' : String → List Tz) :
    let r := includeMissing arg order file comps (({} : TzDb).run ops)
    IsOrder r.1 order' → (includeMissing arg order' file' r.1 r.2).1 = r.1 := by
  intro r ho'
  by_cases harg : arg = some .none
  · subst harg; rfl
  have hgood : Good r.2 := include_db ops comps arg order file
  obtain ⟨added, ha, -, -, hadd⟩ := C76_added ops comps arg order ho file file
  rw [includeMissing_eq harg]
  rw [(includeFold _ file' file' order' r.1 r.2 ho'.1 hgood).1]
  obtain ⟨hgr, hgood'⟩ := includeFold_grows (decide (arg ≠ some .all)) file' order' (r.1, r.2) hgood
  generalize (order'.foldl (includeStep (decide (arg ≠ some .all)) file') (r.1, r.2)).2 = d at hgr hgood'
  have hnone : order'.filterMap (choice (decide (arg ≠ some .all)) r.1 d file') = [] := by
    rw [List.filterMap_eq_nil_iff]
    intro t ht
    have hs : Seen comps t := by
      have := (mem_referenced _ _).mp ((ho'.2 t).mp ht)
      rw [ha] at this
      exact (seen_append (fun c hc => (hadd c hc).1) t).mp this
    have hto := (ho.2 t).mpr ((mem_referenced _ _).mpr hs)
    unfold choice
    by_cases hz : hasZone r.1 t = true
    · rw [if_pos (.inr hz)]
    · have hz0 : hasZone comps t = false := by
        have := hz
        rw [ha, hasZone_append, Bool.or_eq_true, not_or] at this
        exact Bool.not_eq_true _ ▸ this.1
      have hc : r.2.cached (some t) ≠ none := by
        have := (includeFold (decide (arg ≠ some .all)) file file order comps (({} : TzDb).run ops)
          ho.1 (good_run ops)).2 t hto hz0
        rw [← includeMissing_eq harg] at this
        exact this
      have hp := C76_present_partial ops comps arg harg order ho file file t hs
      rcases hp with hp | hp | ⟨hp1, hp2⟩
      · exact absurd hp hz
      · split
        · rfl
        · obtain ⟨v, hv⟩ := Option.ne_none_iff_exists'.mp hc
          rw [hgr.get hv]
          have : v = none := by rw [← hp, get_cached hv]
          rw [this]
          rfl
      · rw [if_pos]
        left
        refine ⟨by simpa using hp1, ?_⟩
        rw [hgr.isStandard hc]
        rw [isStandard_cached hc] at hp2
        exact hp2
  rw [hnone, List.append_nil]

/-! ## C77 -/

/-- The database has a time zone for the TZID and calls it standard. -/
def standardIn (db : TzDb) (f : String → List Tz) (t : String) : Bool :=
  (db.getTimezone (some t) (f t)).1.isSome && (db.isStandard (some t) (f t)).1

theorem stripStep_eq (file : String → List Tz) (st : List TzComp × Bool × TzDb) (c : TzComp)
    (db' : TzDb) (hd : Grows (stripStep file st c).2.2 db') (f : String → List Tz) :
    (stripStep file st c).1 = (if standardIn db' f c.tzid then st.1.erase c else st.1) ∧
    (stripStep file st c).2.1 = (st.2.1 || standardIn db' f c.tzid) ∧
    Grows st.2.2 (stripStep file st c).2.2 := by
  have hc := cached_after_get st.2.2 (some c.tzid) (file c.tzid)
  have hgr := grows_get st.2.2 (some c.tzid) (file c.tzid)
  have hne : (st.2.2.getTimezone (some c.tzid) (file c.tzid)).2.cached (some c.tzid) ≠ none := by
    rw [hc]; simp
  have hst : (stripStep file st c).2.2 = (st.2.2.getTimezone (some c.tzid) (file c.tzid)).2 := by
    unfold stripStep
    simp only
    split
    · rfl
    · rw [isStandard_cached hne]
      split <;> rfl
  rw [hst] at hd ⊢
  have h1 : standardIn db' f c.tzid = ((st.2.2.getTimezone (some c.tzid) (file c.tzid)).1.isSome &&
      decide (some c.tzid ∈ (st.2.2.getTimezone (some c.tzid) (file c.tzid)).2.std)) := by
    unfold standardIn
    rw [hd.get hc, hd.isStandard hne]
  rw [h1]
  refine ⟨?_, ?_, hgr⟩
  all_goals
    unfold stripStep
    simp only
    rw [isStandard_cached hne]
    simp only
    cases (st.2.2.getTimezone (some c.tzid) (file c.tzid)).1 with
    | none => simp
    | some tz =>
      simp only [reduceCtorEq, if_false, Option.isSome_some, Bool.true_and]
      split
      · simp_all
      · simp_all

theorem filter_erase_of_not {p : TzComp → Bool} : ∀ (l : List TzComp) {c : TzComp}, p c = false →
    (l.erase c).filter p = l.filter p
  | [], _, _ => rfl
  | a :: l, c, h => by
    rw [List.erase_cons]
    split
    · next he =>
      have he : a = c := by simpa using he
      rw [he, List.filter_cons_of_neg (by simp [h])]
    · rw [List.filter_cons, List.filter_cons, filter_erase_of_not l h]

theorem stripFold_grows (file : String → List Tz) : ∀ (cs : List TzComp)
    (st : List TzComp × Bool × TzDb), Grows st.2.2 (cs.foldl (stripStep file) st).2.2
  | [], _ => Grows.refl _
  | c :: cs, st => ((stripStep_eq file st c _ (Grows.refl _) file).2.2).trans
      (stripFold_grows file cs (stripStep file st c))

theorem stripFold (file f : String → List Tz) : ∀ (cs : List TzComp) (st : List TzComp × Bool × TzDb),
    (∀ c, c.ctype = "VTIMEZONE" → st.1.count c = cs.count c) →
    (∀ c ∈ cs, c.ctype = "VTIMEZONE") →
    (cs.foldl (stripStep file) st).1 = st.1.filter (fun c => !(decide (c.ctype = "VTIMEZONE") &&
      standardIn (cs.foldl (stripStep file) st).2.2 f c.tzid)) := by
  intro cs
  suffices H : ∀ (db' : TzDb) (cs : List TzComp) (st : List TzComp × Bool × TzDb),
      Grows (cs.foldl (stripStep file) st).2.2 db' →
      (∀ c, c.ctype = "VTIMEZONE" → standardIn db' f c.tzid = true → st.1.count c = cs.count c) →
      (∀ c ∈ cs, c.ctype = "VTIMEZONE") →
      (cs.foldl (stripStep file) st).1 = st.1.filter (fun c => !(decide (c.ctype = "VTIMEZONE") &&
        standardIn db' f c.tzid)) from
    fun st h1 h2 => H _ cs st (Grows.refl _) (fun c hc _ => h1 c hc) h2
  clear cs
  intro db' cs
  induction cs with
  | nil =>
    intro st _ h _
    rw [List.foldl_nil, List.filter_eq_self.mpr]
    intro c hc
    cases hd : decide (c.ctype = "VTIMEZONE") && standardIn db' f c.tzid with
    | false => rfl
    | true =>
      rw [Bool.and_eq_true, decide_eq_true_eq] at hd
      have := h c hd.1 hd.2
      rw [List.count_nil, List.count_eq_zero] at this
      exact absurd hc this
  | cons c cs ih =>
    intro st hg h hv
    rw [List.foldl_cons] at hg ⊢
    have hgc : Grows (stripStep file st c).2.2 db' := (stripFold_grows file cs _).trans hg
    obtain ⟨h1, -, -⟩ := stripStep_eq file st c db' hgc f
    rw [ih (stripStep file st c) hg ?_ (fun x hx => hv x (List.mem_cons_of_mem _ hx)), h1]
    · split
      · next hs => exact filter_erase_of_not _ (by simp [hv c (by simp), hs])
      · rfl
    · intro x hx hsx
      have := h x hx hsx
      rw [h1]
      by_cases hxc : x = c
      · subst hxc
        rw [if_pos hsx, List.count_erase_self, this, List.count_cons_self, Nat.add_sub_cancel]
      · rw [List.count_cons_of_ne (Ne.symm hxc)] at this
        split
        · rw [List.count_erase_of_ne hxc, this]
        · exact this

theorem stripFold_changed (file f : String → List Tz) (db' : TzDb) : ∀ (cs : List TzComp)
    (st : List TzComp × Bool × TzDb), Grows (cs.foldl (stripStep file) st).2.2 db' →
    (cs.foldl (stripStep file) st).2.1 = (st.2.1 || cs.any fun c => standardIn db' f c.tzid)
  | [], st, _ => by simp
  | c :: cs, st, h => by
    rw [List.foldl_cons] at h ⊢
    rw [stripFold_changed file f db' cs _ h,
      (stripStep_eq file st c db' ((stripFold_grows file cs _).trans h) f).2.1, List.any_cons,
      Bool.or_assoc]

/-- C77: what is left are all components but the VTIMEZONEs whose TZID the database has and calls
standard, in their order.  The database may be in any state. -/
theorem C77_left (comps : List TzComp) (db : TzDb) (file f : String → List Tz) :
    let r := stripStandard file comps db
    r.1 = comps.filter fun c => !(decide (c.ctype = "VTIMEZONE") &&
      ((r.2.2.getTimezone (some c.tzid) (f c.tzid)).1.isSome &&
        (r.2.2.isStandard (some c.tzid) (f c.tzid)).1)) := by
  refine stripFold file f _ (comps, false, db) ?_ (by simp)
  intro c hc
  rw [List.count_filter (by simpa using hc)]

/-- C77: the result says whether anything was removed. -/
theorem C77_changed (comps : List TzComp) (db : TzDb) (file : String → List Tz) :
    let r := stripStandard file comps db
    (r.2.1 = true ↔ r.1 ≠ comps) := by
  intro r
  have h1 := C77_left comps db file file
  have h2 : r.2.1 = _ := stripFold_changed file file r.2.2 (comps.filter fun c =>
    decide (c.ctype = "VTIMEZONE")) (comps, false, db) (Grows.refl _)
  simp only at h1
  rw [h2]
  show _ ↔ (stripStandard file comps db).1 ≠ comps
  rw [h1, Ne, List.filter_eq_self]
  simp only [Bool.false_or, List.any_eq_true, List.mem_filter, decide_eq_true_eq]
  constructor
  · rintro ⟨c, ⟨hc, hct⟩, hs⟩ hall
    have := hall c hc
    unfold standardIn at hs
    simp only [hct, decide_true, Bool.true_and] at this
    change (!standardIn r.2.2 file c.tzid) = true at this
    unfold standardIn at this
    rw [hs] at this
    cases this
  · intro hall
    by_contra hno
    apply hall
    intro c hc
    by_cases hct : c.ctype = "VTIMEZONE"
    · have : standardIn r.2.2 file c.tzid = false := by
        cases h : standardIn r.2.2 file c.tzid with
        | true => exact absurd ⟨c, ⟨hc, hct⟩, h⟩ hno
        | false => rfl
      unfold standardIn at this
      change (!(decide _ && standardIn r.2.2 file c.tzid)) = true
      unfold standardIn
      rw [this]
      simp
    · simp [hct]

theorem strip_good (file : String → List Tz) : ∀ (cs : List TzComp)
    (st : List TzComp × Bool × TzDb), Good st.2.2 → Good (cs.foldl (stripStep file) st).2.2
  | [], _, h => h
  | c :: cs, st, h => by
    refine strip_good file cs _ ?_
    unfold stripStep
    simp only
    split
    · exact h.get _ _
    · split
      · exact (h.get _ _).isStandard _ _
      · exact (h.get _ _).isStandard _ _

theorem strip_cached (file : String → List Tz) : ∀ (cs : List TzComp) (st : List TzComp × Bool × TzDb)
    (c : TzComp), c ∈ cs → (cs.foldl (stripStep file) st).2.2.cached (some c.tzid) ≠ none
  | [], _, _, h => absurd h (by simp)
  | a :: cs, st, c, h => by
    rw [List.foldl_cons]
    rcases List.mem_cons.mp h with rfl | h
    · have hc := cached_after_get st.2.2 (some c.tzid) (file c.tzid)
      have hne : (st.2.2.getTimezone (some c.tzid) (file c.tzid)).2.cached (some c.tzid) ≠ none := by
        rw [hc]; simp
      have hst : (stripStep file st c).2.2 = (st.2.2.getTimezone (some c.tzid) (file c.tzid)).2 := by
        unfold stripStep
        simp only
        split
        · rfl
        · rw [isStandard_cached hne]
          split <;> rfl
      rw [(stripFold_grows file cs (stripStep file st c) _ (by rw [hst]; exact hne)).1, hst]
      exact hne
    · exact strip_cached file cs _ c h

/-- C77: when all are included again, every VTIMEZONE that was used by a date-time and removed is
replaced by the one of the database. -/
theorem C77_restored (ops : List Op) (comps : List TzComp) (file file' : String → List Tz)
    (order : List String) (t : String) (ht : Seen comps t) (hz : hasZone comps t = true) :
    let r := stripStandard file comps (({} : TzDb).run ops)
    IsOrder r.1 order →
      hasZone (includeMissing (some .all) order file' r.1 r.2.2).1 t = true := by
  intro r ho
  have hgood : Good r.2.2 := strip_good file _ (comps, false, _) (good_run ops)
  have hleft := C77_left comps (({} : TzDb).run ops) file file
  simp only at hleft
  change r.1 = _ at hleft
  have hfold := includeFold false file' file' order r.1 r.2.2 ho.1 hgood
  obtain ⟨hgr, hgood'⟩ := includeFold_grows false file' order (r.1, r.2.2) hgood
  show hasZone (order.foldl (includeStep false file') (r.1, r.2.2)).1 t = true
  rw [hfold.1, hasZone_append, Bool.or_eq_true]
  generalize (order.foldl (includeStep false file') (r.1, r.2.2)).2 = d at hgr hgood'
  by_cases hr : hasZone r.1 t = true
  · exact .inl hr
  right
  obtain ⟨c, hc, hct, hcid⟩ := (hasZone_iff _ _).mp hz
  have hgone : c ∉ r.1 := fun hm => hr ((hasZone_iff _ _).mpr ⟨c, hm, hct, hcid⟩)
  rw [hleft, List.mem_filter] at hgone
  have hstd : ((r.2.2.getTimezone (some c.tzid) (file c.tzid)).1.isSome &&
      (r.2.2.isStandard (some c.tzid) (file c.tzid)).1) = true := by
    by_contra hno
    apply hgone
    refine ⟨hc, ?_⟩
    change (!(decide _ && ((r.2.2.getTimezone (some c.tzid) (file c.tzid)).1.isSome &&
      (r.2.2.isStandard (some c.tzid) (file c.tzid)).1))) = true
    rw [Bool.eq_false_iff.mpr hno]
    simp
  rw [Bool.and_eq_true] at hstd
  have hcache : r.2.2.cached (some c.tzid) ≠ none :=
    strip_cached file _ (comps, false, _) c (by simp [hc, hct])
  obtain ⟨v, hv⟩ := Option.ne_none_iff_exists'.mp hcache
  rw [get_cached hv] at hstd
  obtain ⟨tz, htz⟩ := Option.isSome_iff_exists.mp hstd.1
  simp only at htz
  subst htz
  subst hcid
  have hto : c.tzid ∈ order := by
    rw [ho.2, mem_referenced]
    obtain ⟨h1, x, hx, hxt, h2⟩ := ht
    refine ⟨h1, x, ?_, hxt, h2⟩
    rw [hleft, List.mem_filter]
    exact ⟨hx, by simp [hxt]⟩
  have hch : choice false r.1 d file' c.tzid = some (dup tz) := by
    unfold choice
    rw [if_neg (by simp [hr]), hgr.get hv]
    rfl
  rw [hasZone_iff]
  obtain ⟨h1, h2⟩ := choice_tzid hgood' hch
  exact ⟨_, List.mem_filterMap.mpr ⟨_, hto, hch⟩, h1, h2⟩

/-- C77: writing the calendar afterwards (which includes the time zones that are not standard) does
not bring a removed VTIMEZONE back, and removing again removes nothing. -/
theorem C77_stays (ops : List Op) (comps : List TzComp) (file file' : String → List Tz)
    (order : List String) :
    let r := stripStandard file comps (({} : TzDb).run ops)
    IsOrder r.1 order →
      (∀ c ∈ comps, c ∉ r.1 →
        hasZone (includeMissing none order file' r.1 r.2.2).1 c.tzid = false) ∧
      (stripStandard file' r.1 r.2.2).1 = r.1 := by
  intro r ho
  have hgood : Good r.2.2 := strip_good file _ (comps, false, _) (good_run ops)
  have hleft : ∀ f : String → List Tz, r.1 = comps.filter fun c => !(decide (c.ctype = "VTIMEZONE") &&
      standardIn r.2.2 f c.tzid) := fun f => C77_left comps (({} : TzDb).run ops) file f
  have hcache : ∀ c ∈ comps, c.ctype = "VTIMEZONE" → r.2.2.cached (some c.tzid) ≠ none :=
    fun c hc hct => strip_cached file _ (comps, false, _) c (by simp [hc, hct])
  constructor
  · intro c hc hgone
    rw [hleft file', List.mem_filter] at hgone
    have h0 : c.ctype = "VTIMEZONE" ∧ standardIn r.2.2 file' c.tzid = true := by
      by_contra hno
      apply hgone
      refine ⟨hc, ?_⟩
      rw [← decide_eq_true_eq (p := c.ctype = "VTIMEZONE"), ← Bool.and_eq_true] at hno
      rw [Bool.eq_false_iff.mpr hno]
      rfl
    have hk := hcache c hc h0.1
    have hfold := includeFold true file' file' order r.1 r.2.2 ho.1 hgood
    obtain ⟨hgr, hgood'⟩ := includeFold_grows true file' order (r.1, r.2.2) hgood
    show hasZone (order.foldl (includeStep true file') (r.1, r.2.2)).1 c.tzid = false
    rw [hfold.1, hasZone_append, Bool.or_eq_false_iff]
    generalize (order.foldl (includeStep true file') (r.1, r.2.2)).2 = d at hgr hgood'
    have hstd : (d.isStandard (some c.tzid) (file' c.tzid)).1 = true := by
      have := h0.2
      unfold standardIn at this
      rw [Bool.and_eq_true, isStandard_cached hk] at this
      rw [hgr.isStandard hk]
      exact this.2
    constructor
    · rw [Bool.eq_false_iff, Ne, hasZone_iff]
      rintro ⟨x, hx, hxt, hxid⟩
      rw [hleft file', List.mem_filter, hxid, h0.2, hxt] at hx
      simp at hx
    · rw [Bool.eq_false_iff, Ne, hasZone_iff]
      rintro ⟨x, hx, hxt, hxid⟩
      obtain ⟨t, ht, hch⟩ := List.mem_filterMap.mp hx
      have := (choice_tzid hgood' hch).2
      rw [hxid] at this
      subst this
      unfold choice at hch
      rw [if_pos (.inl ⟨rfl, hstd⟩)] at hch
      cases hch
  · have h2 := C77_left r.1 r.2.2 file' file'
    simp only at h2
    rw [h2, List.filter_eq_self]
    intro c hc
    by_cases hct : c.ctype = "VTIMEZONE"
    · rw [hleft file', List.mem_filter] at hc
      have hk := hcache c hc.1 hct
      have hgr : Grows r.2.2 (stripStandard file' r.1 r.2.2).2.2 :=
        stripFold_grows file' _ (r.1, false, r.2.2)
      obtain ⟨v, hv⟩ := Option.ne_none_iff_exists'.mp hk
      have := hc.2
      unfold standardIn at this
      rw [get_cached hv, isStandard_cached hk] at this
      rw [hgr.get hv, hgr.isStandard hk]
      exact this
    · simp [hct]

/-! ## What fails -/

/-- C76, the full claim, fails for TZIDs in a list of date-times: an RDATE with a TZID. -/
theorem C76_fails_rdate : ∃ comps order file t, IsOrder comps order ∧ Refers comps t ∧
    let r := includeMissing (some .all) order file comps {}
    hasZone r.1 t = false ∧ (r.2.getTimezone (some t) (file t)).1 ≠ none :=
  ⟨[{ ctype := "VEVENT", values := [.dateTime none, .many [some "A"]] }], [], fun _ => [⟨"A", 1⟩], "A",
    by unfold IsOrder; simp [referenced, getTimezones, valueTzids],
    ⟨by decide, _, List.mem_singleton.mpr rfl, .many [some "A"], by decide, .inr ⟨_, rfl, by decide⟩⟩,
    by decide⟩

/-- C76, the full claim, fails for components in components: a VEVENT in a VPOLL. -/
theorem C76_fails_nested : ∃ comps order file t, IsOrder comps order ∧ Refers comps t ∧
    let r := includeMissing (some .all) order file comps {}
    hasZone r.1 t = false ∧ (r.2.getTimezone (some t) (file t)).1 ≠ none :=
  ⟨[{ ctype := "VPOLL", values := [.dateTime none], subs := [⟨"VEVENT", [.dateTime (some "A")]⟩] }], [],
    fun _ => [⟨"A", 1⟩], "A",
    by unfold IsOrder; simp [referenced, getTimezones, valueTzids],
    ⟨by decide, _, List.mem_singleton.mpr rfl, .dateTime (some "A"), by decide, .inl rfl⟩,
    by decide⟩

/-- What the docstring says of a call without argument ("the default is `NO_TIMEZONES`") is not so: a
time zone is added. -/
theorem C76_fails_default : ∃ comps order file ops, IsOrder comps order ∧
    (includeMissing none order file comps (({} : TzDb).run ops)).1 ≠ comps :=
  ⟨[{ ctype := "VEVENT", values := [.dateTime (some "B")] }], ["B"], fun _ => [], [.merge ⟨"B", 1⟩ [] 2],
    by unfold IsOrder; simp [referenced, getTimezones, valueTzids],
    by decide⟩

/-! ## Examples -/

/-- An event in `A`, which has a file, and `B`, which was merged from other data.  When all are
included both come in; by default `B` only; a calendar with its own `A` loses it. -/
example :
    let ev : TzComp := { ctype := "VEVENT", values := [.dateTime (some "A"), .dateTime (some "B"), .other] }
    let own : TzComp := { ctype := "VTIMEZONE", tzid := "A", content := 9 }
    let file : String → List Tz := fun t => if t = "A" then [⟨"A", 1⟩] else []
    let db := ({} : TzDb).run [.merge ⟨"B", 2⟩ [] 3]
    IsOrder [ev] ["B", "A"] ∧ Seen [ev] "A" ∧
    (includeMissing (some .all) ["B", "A"] file [ev] db).1 = [ev, dup ⟨"B", 3⟩, dup ⟨"A", 1⟩] ∧
    (includeMissing none ["B", "A"] file [ev] db).1 = [ev, dup ⟨"B", 3⟩] ∧
    (stripStandard file [own, ev, own, dup ⟨"B", 3⟩] db).1 = [ev, dup ⟨"B", 3⟩] ∧
    (stripStandard file [own, ev, own, dup ⟨"B", 3⟩] db).2.1 = true := by
  refine ⟨⟨by decide, ?_⟩, ⟨by decide, _, List.mem_singleton.mpr rfl, by decide, .inl (by simp)⟩,
    by decide, by decide, by decide, by decide⟩
  intro t
  simp [referenced, getTimezones, valueTzids, or_comm]

end TzComp
end PyCal
