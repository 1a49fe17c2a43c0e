import Verif.Model.TimezoneDb

/-!
# C39: the time zone database is stable

Histories of the database: lookups, merges of time zones from calendar data, and questions whether
a TZID is a standard one.  What a file contains may differ at each call.
-/

namespace PyCal
namespace TzDb

/-- A call; `file` are the time zones the file for the TZID has at that moment. -/
inductive Op where
  | get (tzid : Option String) (file : List Tz)
  | isStandard (tzid : Option String) (file : List Tz)
  | merge (tz : Tz) (file : List Tz) (copy : Nat)

/-- The state after a call. -/
def step (db : TzDb) : Op → TzDb
  | .get tzid file => (db.getTimezone tzid file).2
  | .isStandard tzid file => (db.isStandard tzid file).2
  | .merge tz file copy => db.merge tz file copy

/-- The state after a sequence of calls. -/
def run (db : TzDb) (ops : List Op) : TzDb := ops.foldl step db

/-- The time zones in files at a call. -/
def Op.file : Op → List Tz
  | .get _ file => file
  | .isStandard _ file => file
  | .merge _ file _ => file

/-! ## Lookups -/

theorem cached_get (db : TzDb) (k x : Option String) (file : List Tz) :
    (db.getTimezone k file).2.cached x =
      if x = k then some (db.getTimezone k file).1 else db.cached x := by
  unfold getTimezone
  cases h : db.cached k with
  | some tz =>
    simp only
    split
    · next he => rw [he, h]
    · rfl
  | none =>
    simp only [cached, List.find?_cons]
    by_cases he : x = k
    · simp [he]
    · rw [if_neg he]
      simp [Ne.symm he]

theorem cached_add (db : TzDb) (tz : Tz) (copy : Nat) (x : Option String) :
    (db.addTimezone tz copy).cached x =
      if x = some tz.tzid then some (some ⟨tz.tzid, copy⟩) else db.cached x := by
  simp only [addTimezone, cached, List.find?_cons]
  by_cases he : x = some tz.tzid
  · simp [he]
  · rw [if_neg he]
    simp [Ne.symm he]

/-- A lookup that is cached is answered from the cache. -/
theorem get_cached {db : TzDb} {k : Option String} {v : Option Tz} (h : db.cached k = some v)
    (file : List Tz) : db.getTimezone k file = (v, db) := by
  unfold getTimezone; rw [h]

/-- What is known of a TZID is kept, by every call. -/
theorem step_keeps {db : TzDb} {k : Option String} {tz : Tz} (h : db.cached k = some (some tz))
    (op : Op) : (db.step op).cached k = some (some tz) := by
  have hget : ∀ k' file, (db.getTimezone k' file).2.cached k = some (some tz) := by
    intro k' file
    rw [cached_get]
    split
    · next he => subst he; rw [get_cached h]
    · exact h
  cases op with
  | get k' file => exact hget k' file
  | isStandard k' file =>
    simp only [step, isStandard]
    split
    · exact h
    · split
      · exact h
      · exact hget k' file
  | merge t file copy =>
    simp only [step, merge]
    split
    · next hn =>
      rw [cached_add]
      split
      · next he =>
        subst he
        rw [get_cached h] at hn
        simp at hn
      · exact hget _ file
    · exact hget _ file

theorem run_keeps {k : Option String} {tz : Tz} : ∀ (ops : List Op) {db : TzDb},
    db.cached k = some (some tz) → (db.run ops).cached k = some (some tz)
  | [], _, h => h
  | op :: ops, _, h => run_keeps ops (step_keeps h op)

/-- C39: once a lookup of a TZID returned a time zone, every later lookup of it returns the same
object, after any sequence of lookups, merges and questions, and whatever the files contain then. -/
theorem C39_stable (db : TzDb) (tzid : Option String) (file file' : List Tz) (ops : List Op)
    (tz : Tz) (h : (db.getTimezone tzid file).1 = some tz) :
    (((db.getTimezone tzid file).2.run ops).getTimezone tzid file').1 = some tz := by
  have h1 : (db.getTimezone tzid file).2.cached tzid = some (some tz) := by
    rw [cached_get, if_pos rfl, h]
  rw [get_cached (run_keeps ops h1)]

/-- C39: a time zone merged from calendar data is used for its TZID only if a lookup at that moment
finds none (neither before nor in the files); then it is used for that TZID alone.  No other lookup
changes. -/
theorem C39_merge (db : TzDb) (tz : Tz) (file : List Tz) (copy : Nat) (tzid : Option String)
    (file' : List Tz) :
    ((db.merge tz file copy).getTimezone tzid file').1 =
      if tzid = some tz.tzid ∧ (db.getTimezone tzid file).1 = none then some ⟨tz.tzid, copy⟩
      else ((db.getTimezone (some tz.tzid) file).2.getTimezone tzid file').1 := by
  unfold merge
  simp only
  by_cases hk : tzid = some tz.tzid
  · subst hk
    by_cases hn : (db.getTimezone (some tz.tzid) file).1 = none
    · rw [if_pos hn]
      simp only [true_and, if_pos hn]
      rw [get_cached (v := some ⟨tz.tzid, copy⟩) (by rw [cached_add, if_pos rfl])]
    · rw [if_neg hn]
      simp only [true_and, if_neg hn]
  · simp only [hk, false_and, if_false]
    by_cases hn : (db.getTimezone (some tz.tzid) file).1 = none
    · rw [if_pos hn]
      generalize (db.getTimezone (some tz.tzid) file).2 = d
      have hc : (d.addTimezone tz copy).cached tzid = d.cached tzid := by
        rw [cached_add, if_neg hk]
      have hcal : ∀ l : List Tz, inCalendar (l ++ [⟨tz.tzid, copy⟩]) tzid = inCalendar l tzid := by
        intro l
        simp only [inCalendar, List.find?_append]
        simp [Ne.symm hk]
      unfold getTimezone
      rw [hc]
      cases d.cached tzid with
      | some v => rfl
      | none =>
        simp only [addTimezone, hcal]
        split
        · simp only [inCalendar, List.find?_append]
          simp [Ne.symm hk]
        · exact hcal _
    · rw [if_neg hn]

/-- A lookup of one TZID makes no difference to a lookup of another that is not in the file read. -/
theorem get_other (db : TzDb) (k x : Option String) (file file' : List Tz) (hk : x ≠ k)
    (hf : ∀ tz ∈ file, some tz.tzid ≠ x) :
    ((db.getTimezone k file).2.getTimezone x file').1 = (db.getTimezone x file').1 := by
  have hc := cached_get db k x file
  rw [if_neg hk] at hc
  cases h : db.cached k with
  | some v => rw [get_cached h]
  | none =>
    have hcal : (db.getTimezone k file).2.calendar =
        if inCalendar db.calendar k = none then db.calendar ++ file else db.calendar := by
      unfold getTimezone; rw [h]
    have hin : ∀ l, inCalendar ((db.getTimezone k file).2.calendar ++ l) x =
        inCalendar (db.calendar ++ l) x := by
      intro l
      rw [hcal]
      split
      · have : List.find? (fun tz : Tz => decide (some tz.tzid = x)) file = none :=
          List.find?_eq_none.2 fun tz ht => by simpa using hf tz ht
        simp only [inCalendar, List.find?_append, this, Option.or_none]
      · rfl
    have hin0 := hin []
    simp only [List.append_nil] at hin0
    generalize (db.getTimezone k file).2 = d at hc hin hin0
    unfold getTimezone
    rw [hc]
    cases db.cached x with
    | some v => rfl
    | none =>
      simp only [hin0]
      split
      · exact hin file'
      · exact hin0

/-- C39: merging all time zones of a calendar.  If the file for a TZID has only time zones with that TZID,
then a lookup afterwards finds, for each TZID: the time zone that a lookup before the merge finds, else the
copy of the first of the calendar's time zones with that TZID, else what it finds without the merge.  The
database's own calendar is not merged. -/
theorem C39_mergeAll (db : TzDb) (file : String → List Tz) (hf : ∀ s, ∀ tz ∈ file s, tz.tzid = s)
    (tzs : List (Tz × Nat)) (s : String) (file' : List Tz) :
    ((db.mergeTimezones false file tzs).getTimezone (some s) file').1 =
      (match tzs.find? fun v => decide (v.1.tzid = s) with
      | some v => some (((db.getTimezone (some s) (file s)).1).getD ⟨s, v.2⟩)
      | none => (db.getTimezone (some s) file').1) ∧
    db.mergeTimezones true file tzs = db := by
  refine ⟨?_, rfl⟩
  show ((tzs.foldl (fun db v => db.merge v.1 (file v.1.tzid) v.2) db).getTimezone (some s) file').1 = _
  induction tzs generalizing db with
  | nil => rfl
  | cons v tzs ih =>
    rw [List.foldl_cons]
    by_cases hv : v.1.tzid = s
    · rw [List.find?_cons_of_pos (by simpa using hv)]
      have hget : ∀ f, ((db.merge v.1 (file v.1.tzid) v.2).getTimezone (some s) f).1 =
          some (((db.getTimezone (some s) (file s)).1).getD ⟨s, v.2⟩) := by
        intro f
        rw [C39_merge, hv]
        cases h : (db.getTimezone (some s) (file s)).1 with
        | none => simp
        | some t =>
          simp only [reduceCtorEq, and_false, if_false, Option.getD_some]
          rw [get_cached (v := some t) (by rw [cached_get, if_pos rfl, h])]
      have hc : ∀ (l : List (Tz × Nat)) (d : TzDb) (t : Tz), d.cached (some s) = some (some t) →
          (l.foldl (fun db v => db.merge v.1 (file v.1.tzid) v.2) d).cached (some s) = some (some t) := by
        intro l
        induction l with
        | nil => exact fun d t h => h
        | cons w l ih' => exact fun d t h => ih' _ t (step_keeps h (.merge w.1 (file w.1.tzid) w.2))
      have h1 : (db.merge v.1 (file v.1.tzid) v.2).cached (some s) =
          some (some (((db.getTimezone (some s) (file s)).1).getD ⟨s, v.2⟩)) := by
        unfold merge
        simp only [hv]
        cases h : (db.getTimezone (some s) (file s)).1 with
        | none => simp [cached_add, hv]
        | some t => simp [cached_get, h]
      rw [get_cached (hc tzs _ _ h1)]
    · rw [List.find?_cons_of_neg (by simpa using hv), ih]
      have ho : ∀ f, ((db.merge v.1 (file v.1.tzid) v.2).getTimezone (some s) f).1 =
          (db.getTimezone (some s) f).1 := by
        intro f
        have hne : some s ≠ some v.1.tzid := fun e => hv (by injection e with e; exact e.symm)
        rw [C39_merge, if_neg (fun h => hne h.1)]
        exact get_other db _ _ _ f hne fun tz ht e => hv (by
          rw [← hf _ tz ht]; injection e)
      rw [ho, ho]

/-- What is cached for a TZID has that TZID. -/
def IdOk (db : TzDb) : Prop := ∀ k tz, db.cached k = some (some tz) → some tz.tzid = k

theorem IdOk.get {db : TzDb} (h : IdOk db) (k : Option String) (file : List Tz) :
    IdOk (db.getTimezone k file).2 ∧ ∀ tz, (db.getTimezone k file).1 = some tz → some tz.tzid = k := by
  have h1 : ∀ tz, (db.getTimezone k file).1 = some tz → some tz.tzid = k := by
    intro tz ht
    cases hc : db.cached k with
    | some v =>
      rw [get_cached hc] at ht
      exact h k tz (by rw [hc]; simpa using ht)
    | none =>
      unfold getTimezone at ht
      rw [hc] at ht
      simp only at ht
      simpa using List.find?_some ht
  refine ⟨fun x tz hx => ?_, h1⟩
  rw [cached_get] at hx
  split at hx
  · next he => rw [he]; exact h1 tz (by simpa using hx)
  · exact h x tz hx

theorem IdOk.step {db : TzDb} (h : IdOk db) (op : Op) : IdOk (db.step op) := by
  cases op with
  | get k file => exact (h.get k file).1
  | isStandard k file =>
    simp only [TzDb.step, isStandard]
    split
    · exact h
    · split
      · exact h
      · exact (h.get k file).1
  | merge t file copy =>
    simp only [TzDb.step, merge]
    split
    · intro x tz hx
      rw [cached_add] at hx
      split at hx
      · next he => rw [he]; simp at hx; rw [← hx]
      · exact (h.get _ file).1 x tz hx
    · exact (h.get _ file).1

theorem IdOk.run : ∀ (ops : List Op) {db : TzDb}, IdOk db → IdOk (db.run ops)
  | [], _, h => h
  | op :: ops, _, h => IdOk.run ops (h.step op)

/-- C39: after any calls, a lookup gives a time zone that has the TZID asked for, if it gives one;
`getTimezoneInCalendar` gives a calendar with one time zone, with that TZID, exactly if a lookup finds one,
and the database is as after the lookup. -/
theorem C39_inCalendar (ops : List Op) (tzid : Option String) (file : List Tz) (copy : Nat) :
    let db := ({} : TzDb).run ops
    (∀ tz, (db.getTimezone tzid file).1 = some tz → some tz.tzid = tzid) ∧
    (db.getInCalendar tzid file copy).2 = (db.getTimezone tzid file).2 ∧
    ((db.getInCalendar tzid file copy).1 = none ↔ (db.getTimezone tzid file).1 = none) ∧
    ∀ l, (db.getInCalendar tzid file copy).1 = some l → ∃ s, tzid = some s ∧ l = [⟨s, copy⟩] := by
  intro db
  have h0 : IdOk db := IdOk.run ops (by intro k tz h; simp [cached] at h)
  have h1 := (h0.get tzid file).2
  refine ⟨h1, ?_⟩
  unfold getInCalendar
  rcases h : db.getTimezone tzid file with ⟨_ | tz, d⟩
  · simp
  · rw [h] at h1
    refine ⟨rfl, by simp, fun l hl => ⟨tz.tzid, (h1 tz rfl).symm, ?_⟩⟩
    simpa using hl.symm

example : let db := ({} : TzDb).run [.get (some "A") [⟨"A", 1⟩]]
    (∀ s, ∀ tz ∈ (fun s => if s = "C" then [(⟨"C", 2⟩ : Tz)] else []) s, tz.tzid = s) ∧
    (db.mergeTimezones false (fun s => if s = "C" then [⟨"C", 2⟩] else [])
      [(⟨"A", 3⟩, 10), (⟨"B", 4⟩, 11), (⟨"C", 5⟩, 12), (⟨"B", 6⟩, 13)]).tzcache.map (·.2) =
    [some ⟨"C", 2⟩, some ⟨"B", 11⟩, none, some ⟨"A", 1⟩] := by
  refine ⟨?_, by decide⟩
  intro s tz h
  dsimp only at h
  split at h
  · next hs => simp at h; simp [h, hs]
  · cases h

/-! ## Standard time zones -/

/-- The invariant: `L` are the TZIDs of the time zones that were in files. -/
structure Ok (L : String → Prop) (db : TzDb) : Prop where
  calendar : ∀ tz ∈ db.calendar, L tz.tzid ∨ db.cached (some tz.tzid) ≠ none
  std : ∀ k ∈ db.std, ∃ s, k = some s ∧ L s
  listed : ∀ k, k ∈ db.std ∨ k ∈ db.notStd → db.cached k ≠ none
  missing : ∀ k, db.cached k = some none → k ∈ db.notStd
  apart : ∀ k ∈ db.std, k ∉ db.notStd

theorem inCalendar_mem {l : List Tz} {k : Option String} {tz : Tz} (h : inCalendar l k = some tz) :
    tz ∈ l ∧ some tz.tzid = k :=
  ⟨List.mem_of_find?_eq_some h, by simpa using List.find?_some h⟩

variable {L : String → Prop}

theorem Ok.get {db : TzDb} (h : Ok L db) (k : Option String) {file : List Tz}
    (hf : ∀ tz ∈ file, L tz.tzid) : Ok L (db.getTimezone k file).2 ∧
    ((db.getTimezone k file).1 = none → k ∈ (db.getTimezone k file).2.notStd) := by
  cases hc : db.cached k with
  | some v =>
    rw [get_cached hc]
    refine ⟨h, fun hv => ?_⟩
    simp only at hv
    subst hv
    exact h.missing k hc
  | none =>
    have hget := cached_get db k
    have hnot : k ∉ db.std ∧ k ∉ db.notStd :=
      ⟨fun hm => h.listed k (.inl hm) hc, fun hm => h.listed k (.inr hm) hc⟩
    have hkeep : ∀ x, db.cached x ≠ none → (db.getTimezone k file).2.cached x ≠ none := by
      intro x hx
      rw [hget]
      split
      · simp
      · exact hx
    have hcal : ∀ tz ∈ (if inCalendar db.calendar k = none then db.calendar ++ file
        else db.calendar), L tz.tzid ∨ db.cached (some tz.tzid) ≠ none := by
      intro tz htz
      split at htz
      · rcases List.mem_append.mp htz with htz | htz
        · exact h.calendar tz htz
        · exact .inl (hf tz htz)
      · exact h.calendar tz htz
    have hL : ∀ tz, inCalendar (if inCalendar db.calendar k = none then db.calendar ++ file
        else db.calendar) k = some tz → ∃ s, k = some s ∧ L s := by
      intro tz ht
      obtain ⟨h1, h2⟩ := inCalendar_mem ht
      refine ⟨tz.tzid, h2.symm, ?_⟩
      rcases hcal tz h1 with h3 | h3
      · exact h3
      · rw [h2] at h3
        exact absurd hc h3
    have hform : db.getTimezone k file = (inCalendar (if inCalendar db.calendar k = none then
        db.calendar ++ file else db.calendar) k, (db.getTimezone k file).2) ∧
        (db.getTimezone k file).2.calendar = (if inCalendar db.calendar k = none then
          db.calendar ++ file else db.calendar) ∧
        (db.getTimezone k file).2.std = (if inCalendar (if inCalendar db.calendar k = none then
          db.calendar ++ file else db.calendar) k ≠ none ∧ k ≠ none then k :: db.std else db.std) ∧
        (db.getTimezone k file).2.notStd = (if inCalendar (if inCalendar db.calendar k = none then
          db.calendar ++ file else db.calendar) k ≠ none ∧ k ≠ none then db.notStd
          else k :: db.notStd) := by
      unfold getTimezone
      simp only [hc]
      exact ⟨trivial, trivial, trivial, trivial⟩
    obtain ⟨f1, f2, f3, f4⟩ := hform
    revert hcal hL f1 f2 f3 f4
    generalize (if inCalendar db.calendar k = none then db.calendar ++ file else db.calendar) = cal
    intro hcal hL f1 f2 f3 f4
    have hv : (db.getTimezone k file).1 = inCalendar cal k := by rw [f1]
    by_cases hn : inCalendar cal k ≠ none ∧ k ≠ none
    · rw [if_pos hn] at f3 f4
      obtain ⟨tz, htz⟩ := Option.ne_none_iff_exists'.mp hn.1
      refine ⟨⟨?_, ?_, ?_, ?_, ?_⟩, fun h0 => absurd (hv ▸ h0) hn.1⟩
      · intro t ht
        rw [f2] at ht
        exact (hcal t ht).imp id (hkeep _)
      · intro x hx
        rw [f3] at hx
        rcases List.mem_cons.mp hx with rfl | hx
        · exact hL tz htz
        · exact h.std x hx
      · intro x hx
        rw [hget]
        split
        · simp
        · next hne =>
          rw [f3, f4] at hx
          refine h.listed x (hx.imp (fun hm => ?_) id)
          rcases List.mem_cons.mp hm with he | hm
          · exact absurd he hne
          · exact hm
      · intro x hx
        rw [hget] at hx
        rw [f4]
        split at hx
        · rw [hv, htz] at hx
          simp at hx
        · exact h.missing x hx
      · intro x hx
        rw [f3] at hx
        rw [f4]
        rcases List.mem_cons.mp hx with rfl | hx
        · exact hnot.2
        · exact h.apart x hx
    · rw [if_neg hn] at f3 f4
      refine ⟨⟨?_, ?_, ?_, ?_, ?_⟩, fun _ => by rw [f4]; simp⟩
      · intro t ht
        rw [f2] at ht
        exact (hcal t ht).imp id (hkeep _)
      · intro x hx
        rw [f3] at hx
        exact h.std x hx
      · intro x hx
        rw [hget]
        split
        · simp
        · next hne =>
          rw [f3, f4] at hx
          refine h.listed x (hx.imp id fun hm => ?_)
          rcases List.mem_cons.mp hm with he | hm
          · exact absurd he hne
          · exact hm
      · intro x hx
        rw [hget] at hx
        rw [f4]
        split at hx
        · next he => rw [he]; simp
        · exact List.mem_cons_of_mem _ (h.missing x hx)
      · intro x hx
        rw [f3] at hx
        rw [f4]
        simp only [List.mem_cons, not_or]
        exact ⟨fun he => hnot.1 (he ▸ hx), h.apart x hx⟩

theorem Ok.add {db : TzDb} (h : Ok L db) (tz : Tz) (copy : Nat) : Ok L (db.addTimezone tz copy) := by
  have hkeep : ∀ x, db.cached x ≠ none → (db.addTimezone tz copy).cached x ≠ none := by
    intro x hx
    rw [cached_add]
    split
    · simp
    · exact hx
  refine ⟨?_, h.std, fun k hk => hkeep k (h.listed k hk), ?_, h.apart⟩
  · intro t ht
    rcases List.mem_append.mp ht with ht | ht
    · exact (h.calendar t ht).imp id (hkeep _)
    · rw [List.mem_singleton] at ht
      subst ht
      right
      rw [cached_add, if_pos rfl]
      simp
  · intro k hk
    rw [cached_add] at hk
    split at hk
    · simp at hk
    · exact h.missing k hk

theorem Ok.step {db : TzDb} (h : Ok L db) (op : Op) (hf : ∀ tz ∈ op.file, L tz.tzid) :
    Ok L (db.step op) := by
  cases op with
  | get k file => exact (h.get k hf).1
  | isStandard k file =>
    simp only [TzDb.step, isStandard]
    split
    · exact h
    · split
      · exact h
      · exact (h.get k hf).1
  | merge t file copy =>
    simp only [TzDb.step, merge]
    split
    · exact (h.get _ hf).1.add _ _
    · exact (h.get _ hf).1

theorem Ok.run : ∀ (ops : List Op) {db : TzDb}, Ok L db → (∀ op ∈ ops, ∀ tz ∈ op.file, L tz.tzid) →
    Ok L (db.run ops)
  | [], _, h, _ => h
  | op :: ops, _, h, hf =>
    Ok.run ops (h.step op (hf op (by simp))) (fun o ho => hf o (by simp [ho]))

theorem ok_empty : Ok L {} := ⟨by simp, by simp, by simp, by simp [cached], by simp⟩

/-- C39: a TZID is reported as standard only if a time zone with that TZID was in a file read by
one of the calls since the database was new (or cleared), the present one included. -/
theorem C39_standard (ops : List Op) (tzid : Option String) (file : List Tz)
    (h : ((({} : TzDb).run ops).isStandard tzid file).1 = true) :
    ∃ s, tzid = some s ∧ ((∃ op ∈ ops, ∃ tz ∈ op.file, tz.tzid = s) ∨ ∃ tz ∈ file, tz.tzid = s) := by
  have hr : Ok (fun s => (∃ op ∈ ops, ∃ tz ∈ op.file, tz.tzid = s) ∨ ∃ tz ∈ file, tz.tzid = s)
      (({} : TzDb).run ops) :=
    ok_empty.run ops (fun op ho tz ht => .inl ⟨op, ho, tz, ht, rfl⟩)
  unfold isStandard at h
  split at h
  · next hm => exact hr.std _ hm
  · split at h
    · simp at h
    · exact (hr.get tzid (fun tz ht => .inr ⟨tz, ht, rfl⟩)).1.std _ (by simpa using h)

theorem step_notStd {db : TzDb} {k : Option String} (h : k ∈ db.notStd) (op : Op) :
    k ∈ (db.step op).notStd := by
  have hget : ∀ k' file, k ∈ (db.getTimezone k' file).2.notStd := by
    intro k' file
    unfold getTimezone
    cases db.cached k' with
    | some v => exact h
    | none =>
      simp only
      generalize (if inCalendar db.calendar k' = none then db.calendar ++ file else db.calendar) = l
      split
      · exact h
      · exact List.mem_cons_of_mem _ h
  cases op with
  | get k' file => exact hget k' file
  | isStandard k' file =>
    simp only [step, isStandard]
    split
    · exact h
    · split
      · exact h
      · exact hget k' file
  | merge t file copy =>
    simp only [step, merge]
    split
    · exact hget _ file
    · exact hget _ file

theorem run_notStd {k : Option String} : ∀ (ops : List Op) {db : TzDb}, k ∈ db.notStd →
    k ∈ (db.run ops).notStd
  | [], _, h => h
  | op :: ops, _, h => run_notStd ops (step_notStd h op)

/-- C39: a time zone that was merged from calendar data (as the lookup found none) is not reported
as standard after any further calls, even if a file for it exists then. -/
theorem C39_merged (ops ops' : List Op) (tz : Tz) (file file' : List Tz) (copy : Nat)
    (h : ((({} : TzDb).run ops).getTimezone (some tz.tzid) file).1 = none) :
    (((({} : TzDb).run ops).merge tz file copy).run ops').isStandard (some tz.tzid) file' =
      (false, (((({} : TzDb).run ops).merge tz file copy).run ops')) := by
  have hr : Ok (fun _ => True) (({} : TzDb).run ops) := ok_empty.run ops (by simp)
  obtain ⟨h1, h2⟩ := hr.get (some tz.tzid) (file := file) (by simp)
  have hm : ((({} : TzDb).run ops).merge tz file copy) =
      (((({} : TzDb).run ops).getTimezone (some tz.tzid) file).2.addTimezone tz copy) := by
    unfold merge
    simp only [h, if_true]
  have h3 : Ok (fun _ => True) (((({} : TzDb).run ops).merge tz file copy).run ops') := by
    rw [hm]
    exact (h1.add tz copy).run ops' (by simp)
  have h4 : some tz.tzid ∈ (((({} : TzDb).run ops).merge tz file copy).run ops').notStd := by
    rw [hm]
    exact run_notStd ops' (h2 h)
  unfold isStandard
  rw [if_neg (fun hs => h3.apart _ hs h4), if_pos h4]

/-- C39: after `clear` nothing of what was known is left: any history of calls before it makes no
difference to the answers after it. -/
theorem C39_clear (db : TzDb) (ops : List Op) (tzid : Option String) (file : List Tz) :
    (db.clear.run ops).getTimezone tzid file = (({} : TzDb).run ops).getTimezone tzid file ∧
    (db.clear.run ops).isStandard tzid file = (({} : TzDb).run ops).isStandard tzid file :=
  ⟨rfl, rfl⟩

/-! ## Examples -/

/-- A history: `A` is in the database, `B` is not and comes from calendar data; a later calendar
with another `B`, and one with another `A`, change nothing. -/
example : let db := ({} : TzDb).run [.get (some "A") [⟨"A", 1⟩], .merge ⟨"B", 2⟩ [] 3,
      .merge ⟨"B", 4⟩ [⟨"B", 5⟩] 6, .merge ⟨"A", 7⟩ [] 8]
    (db.getTimezone (some "A") []).1 = some ⟨"A", 1⟩ ∧
    (db.getTimezone (some "B") []).1 = some ⟨"B", 3⟩ ∧
    (db.isStandard (some "A") []).1 = true ∧ (db.isStandard (some "B") []).1 = false := by
  decide

/-- Calls outside the claim: `addTimezone` replaces a time zone in use, and `_addStandardTimezone`
after a lookup in vain reports a TZID as standard that is not found. -/
theorem C39_fails_add : ∃ (db : TzDb) (tz : Tz),
    ((db.addTimezone tz 9).getTimezone (some tz.tzid) []).1 ≠
      (db.getTimezone (some tz.tzid) []).1 ∧ (db.getTimezone (some tz.tzid) []).1 ≠ none :=
  ⟨({} : TzDb).run [.get (some "A") [⟨"A", 1⟩]], ⟨"A", 2⟩, by decide⟩

/-- C39 fails: a time zone added as a standard one, after its TZID was looked up in vain, is said to be standard but is
not found. -/
theorem C39_fails_addStandard : ∃ (db : TzDb) (tz : Tz),
    ((db.addStandard tz 9).isStandard (some tz.tzid) []).1 = true ∧
    ((db.addStandard tz 9).getTimezone (some tz.tzid) []).1 = none :=
  ⟨({} : TzDb).run [.get (some "A") []], ⟨"A", 2⟩, by decide⟩

end TzDb
end PyCal
