import Verif.Model.ZonalVerify
import Verif.Props.C17_C18_Compare
import Verif.Props.C25_C26_DateTimeText

/-!
# C106: two sets of time zone data are compared by their transitions
-/

namespace PyCal
open DateTime DateTime.TzEnv

namespace V106
open Verify

/-- A time without a time zone. -/
def LocalTime (t : DateTime) : Prop := t.dateOnly = false ∧ t.utc = false ∧ t.tzid = none

/-- A time in UTC. -/
def UtcTime (t : DateTime) : Prop := t.dateOnly = false ∧ t.utc = true ∧ t.tzid = none

/-- A transition as the expansions of time zones make them: a local time, and perhaps the time in UTC. -/
def Usual : Item → Prop
  | .four t => LocalTime t.loc ∧ UtcTime t.utc
  | .three dt _ _ => LocalTime dt

/-- A transition of a calendar, with the times both local and in UTC. -/
def OfCalendar (i : Item) : Prop := Usual i ∧ ∃ t, i = .four t

/-- The local time of the transition is at the start. -/
def AtStart (env : TzEnv) (start : DateTime) : Item → Prop
  | .four t => t.loc.eq env start = true
  | .three dt _ _ => dt.eq env start = true

theorem at_start {env : TzEnv} {start : DateTime} {x : Item} : AtStart env start x ↔ x.date.eq env start = true := by
  cases x <;> exact Iff.rfl

theorem not_at_start {env : TzEnv} {start : DateTime} {x : Item} : ¬ AtStart env start x ↔ x.date.eq env start = false := by
  rw [at_start, Bool.not_eq_true]

/-- The offset after the transition is another than before. -/
def Changes (i : Item) : Prop := ∃ t, i = .four t ∧ t.offsetFrom ≠ t.offsetTo

theorem cmpInt_zero (a b : Int) : cmpInt a b = 0 ↔ a = b := by unfold cmpInt; split <;> (try split) <;> omega

theorem cmpFields_zero (a b : DateTime) : a.cmpFields b = 0 ↔ a.year = b.year ∧ a.month = b.month ∧ a.day = b.day ∧
    a.hours = b.hours ∧ a.minutes = b.minutes ∧ a.seconds = b.seconds := by
  have h := fun a b => cmpInt_zero a b
  unfold cmpFields
  rw [← h a.year, ← h a.month, ← h a.day, ← h a.hours, ← h a.minutes, ← h a.seconds]
  split
  · split
    · split
      · split
        · split <;> tauto
        · tauto
      · tauto
    · tauto
  · tauto

theorem sameKey_eq (env : TzEnv) (a b : DateTime) (hd : a.dateOnly = false) (hd' : b.dateOnly = false)
    (hu : a.utc = b.utc) (hz : a.tzid = none) (hz' : b.tzid = none) : sameKey env a b = true ↔ a = b := by
  constructor
  · intro h
    unfold sameKey at h
    rw [Bool.and_eq_true] at h
    have := h.2
    unfold DateTime.eq DateTime.compare tzSame at this
    rw [hd, hd', hu, hz, hz'] at this
    have key : a.cmpFields b = 0 := by
      cases hb : b.utc <;> rw [hb] at this <;> simpa [tzIsFloat, tzTruthy] using this
    obtain ⟨h1, h2, h3, h4, h5, h6⟩ := (cmpFields_zero a b).1 key
    obtain ⟨_, _, _, _, _, _, _, _, _⟩ := a
    obtain ⟨_, _, _, _, _, _, _, _, _⟩ := b
    simp_all
  · rintro rfl
    unfold sameKey
    simp [(DateTime.C17_antisymm env a a).2.2.1]

theorem same_iff (env : TzEnv) (a b : Item) (ha : Usual a) (hb : Usual b) : a.same env b = true ↔ a = b := by
  cases a with
  | four a =>
    cases b with
    | four b =>
      obtain ⟨⟨h1, h2, h3⟩, h4, h5, h6⟩ := ha
      obtain ⟨⟨g1, g2, g3⟩, g4, g5, g6⟩ := hb
      simp only [Item.same, Bool.and_eq_true, sameKey_eq env _ _ h1 g1 (h2.trans g2.symm) h3 g3,
        sameKey_eq env _ _ h4 g4 (h5.trans g5.symm) h6 g6, decide_eq_true_eq, Item.four.injEq]
      obtain ⟨_, _, _, _⟩ := a
      obtain ⟨_, _, _, _⟩ := b
      simp [and_assoc]
    | three => simp [Item.same]
  | three a f t =>
    cases b with
    | four b => simp [Item.same]
    | three b f' t' =>
      obtain ⟨h1, h2, h3⟩ := ha
      obtain ⟨g1, g2, g3⟩ := hb
      simp [Item.same, sameKey_eq env _ _ h1 g1 (h2.trans g2.symm) h3 g3, and_assoc]

theorem mem_itemSet (env : TzEnv) (l : List Item) (h : ∀ x ∈ l, Usual x) (x : Item) : x ∈ itemSet env l ↔ x ∈ l := by
  have key : ∀ (l s : List Item), (∀ x ∈ l, Usual x) → (∀ x ∈ s, Usual x) → ∀ x,
      x ∈ l.foldl (fun s x => if s.any fun y => y.same env x then s else s ++ [x]) s ↔ x ∈ s ∨ x ∈ l := by
    intro l
    induction l with
    | nil => simp
    | cons a l ih =>
      intro s hl hs x
      have ha := hl a (by simp)
      rw [List.foldl_cons, ih _ (fun x hx => hl x (by simp [hx]))]
      · split
        · next hy =>
          obtain ⟨y, hy, hy'⟩ := List.any_eq_true.1 hy
          rw [same_iff env _ _ (hs y hy) ha] at hy'
          subst hy'
          simp only [List.mem_cons]
          constructor
          · tauto
          · rintro (h | rfl | h) <;> tauto
        · simp only [List.mem_append, List.mem_cons, List.not_mem_nil, or_false, or_assoc]
      · intro x hx
        split at hx
        · exact hs x hx
        · rcases List.mem_append.1 hx with hx | hx
          · exact hs x hx
          · rw [List.mem_singleton.1 hx]; exact ha
  simpa [itemSet] using key l [] h (by simp) x

theorem mem_difference (env : TzEnv) (a b : List Item) (ha : ∀ x ∈ a, Usual x) (hb : ∀ x ∈ b, Usual x) (x : Item) :
    x ∈ difference env (itemSet env a) (itemSet env b) ↔ x ∈ a ∧ x ∉ b := by
  unfold difference
  rw [List.mem_filter, mem_itemSet env a ha]
  refine and_congr_right fun hx => ?_
  rw [Bool.not_eq_true', ← Bool.not_eq_true, List.any_eq_true]
  refine not_congr ⟨?_, fun h => ⟨x, (mem_itemSet env b hb x).2 h, (same_iff env x x (ha x hx) (ha x hx)).2 rfl⟩⟩
  rintro ⟨y, hy, hy'⟩
  rw [mem_itemSet env b hb] at hy
  rw [← (same_iff env y x (hb y hy) (ha x hx)).1 hy']
  exact hy

theorem mem_discard (env : TzEnv) (d : List Item) (i : Item) (hd : ∀ x ∈ d, Usual x) (hi : Usual i) (x : Item) :
    x ∈ Verify.discard env d i ↔ x ∈ d ∧ x ≠ i := by
  unfold Verify.discard
  rw [List.mem_filter]
  refine and_congr_right fun hx => ?_
  rw [Bool.not_eq_true', ← Bool.not_eq_true, same_iff env x i (hd x hx) hi]

theorem changes_four (t : Transition) : Changes (.four t) ↔ t.offsetFrom ≠ t.offsetTo := by
  simp [Changes]

/-- One step of discarding transitions without a change. -/
theorem mem_step (env : TzEnv) (d : List Item) (t : Transition) (hd : ∀ x ∈ d, Usual x) (hi : Usual (.four t)) (x : Item) :
    x ∈ (if t.offsetFrom = t.offsetTo then Verify.discard env d (.four t) else d) ↔ x ∈ d ∧ (x = .four t → Changes x) := by
  split
  · next h =>
    rw [mem_discard env d _ hd hi]
    refine and_congr_right fun _ => ⟨fun h' e => absurd e h', ?_⟩
    rintro h' rfl
    exact (changes_four t).1 (h' rfl) h
  · next h =>
    refine ⟨fun h' => ⟨h', ?_⟩, And.left⟩
    rintro rfl
    exact (changes_four t).2 h

theorem loop2_spec (env : TzEnv) : ∀ (is d : List Item), (∀ x ∈ is, OfCalendar x) → (∀ x ∈ d, Usual x) →
    ∃ r, loop2 env is d = some r ∧ ∀ x, x ∈ r ↔ x ∈ d ∧ (x ∈ is → Changes x)
  | [], d, _, _ => ⟨d, rfl, by simp⟩
  | i :: is, d, hi, hd => by
    obtain ⟨hu, t, rfl⟩ := hi i (by simp)
    obtain ⟨r, h1, h2⟩ := loop2_spec env is (if t.offsetFrom = t.offsetTo then Verify.discard env d (.four t) else d)
      (fun x hx => hi x (by simp [hx])) (fun x hx => hd x ((mem_step env d t hd hu x).1 hx).1)
    refine ⟨r, h1, fun x => ?_⟩
    rw [h2, mem_step env d t hd hu, List.mem_cons]
    tauto

/-- What the loop over the first calendar's differences leaves: it stops at the first transition at the start. -/
theorem loop1_spec (env : TzEnv) (start : DateTime) : ∀ (is d : List Item), (∀ x ∈ is, OfCalendar x) → (∀ x ∈ d, Usual x) →
    ∃ r, loop1 env start is d = some r ∧
      ((∀ x ∈ is, x.date.eq env start = false) ∧ (∀ x, x ∈ r ↔ x ∈ d ∧ (x ∈ is → Changes x)) ∨
       ∃ a s b, is = a ++ s :: b ∧ (∀ x ∈ a, x.date.eq env start = false) ∧ s.date.eq env start = true ∧
        ∀ x, x ∈ r ↔ x ∈ d ∧ (x ∈ a → Changes x) ∧ x ≠ s)
  | [], d, _, _ => ⟨d, rfl, .inl (by simp)⟩
  | i :: is, d, hi, hd => by
    obtain ⟨hu, t, rfl⟩ := hi i (by simp)
    by_cases hs : (Item.four t).date.eq env start = true
    · refine ⟨Verify.discard env d (.four t), by rw [loop1, if_pos hs], .inr ⟨[], .four t, is, rfl, by simp, hs, fun x => ?_⟩⟩
      rw [mem_discard env d _ hd hu]
      simp
    · obtain ⟨r, h1, h2⟩ := loop1_spec env start is (if t.offsetFrom = t.offsetTo then Verify.discard env d (.four t) else d)
        (fun x hx => hi x (by simp [hx])) (fun x hx => hd x ((mem_step env d t hd hu x).1 hx).1)
      refine ⟨r, by rw [loop1, if_neg hs]; exact h1, ?_⟩
      rw [Bool.not_eq_true] at hs
      rcases h2 with ⟨h3, h4⟩ | ⟨a, s, b, rfl, h3, h4, h5⟩
      · refine .inl ⟨?_, fun x => ?_⟩
        · intro x hx
          rcases List.mem_cons.1 hx with rfl | hx
          · exact hs
          · exact h3 x hx
        · rw [h4, mem_step env d t hd hu, List.mem_cons]
          tauto
      · refine .inr ⟨.four t :: a, s, b, rfl, ?_, h4, fun x => ?_⟩
        · intro x hx
          rcases List.mem_cons.1 hx with rfl | hx
          · exact hs
          · exact h3 x hx
        · rw [h5, mem_step env d t hd hu, List.mem_cons]
          tauto

end V106
open V106 Verify

/-- C106 (partial): all that is reported of two calendars' transitions of one time zone. Of the second calendar:
exactly the transitions that the first does not have and at which the offset changes.

Missing: transitions of time zone data, `C106_fails_data`. -/
theorem C106_second_partial (env : TzEnv) (o : SetOrder Item) (start : DateTime) (l1 l2 : List Item)
    (h1 : ∀ x ∈ l1, OfCalendar x) (h2 : ∀ x ∈ l2, OfCalendar x) :
    ∃ d1 d2, compareZone env o start l1 l2 = some (d1, d2) ∧ ∀ x, x ∈ d2 ↔ x ∈ l2 ∧ x ∉ l1 ∧ Changes x := by
  have u1 := fun x hx => (h1 x hx).1
  have u2 := fun x hx => (h2 x hx).1
  have m1 := mem_difference env l1 l2 u1 u2
  have m2 := mem_difference env l2 l1 u2 u1
  obtain ⟨d1, e1, -⟩ := loop1_spec env start (o.run (difference env (itemSet env l1) (itemSet env l2)))
    (difference env (itemSet env l1) (itemSet env l2))
    (fun x hx => h1 x ((m1 x).1 ((o.perm _).mem_iff.1 hx)).1) (fun x hx => u1 x ((m1 x).1 hx).1)
  obtain ⟨d2, e2, s2⟩ := loop2_spec env (o.run (difference env (itemSet env l2) (itemSet env l1)))
    (difference env (itemSet env l2) (itemSet env l1))
    (fun x hx => h2 x ((m2 x).1 ((o.perm _).mem_iff.1 hx)).1) (fun x hx => u2 x ((m2 x).1 hx).1)
  refine ⟨d1, d2, by simp [compareZone, e1, e2], fun x => ?_⟩
  rw [s2, (o.perm _).mem_iff, m2]
  tauto

/-- C106 (partial): of the first calendar, if none of the differences is at the start: exactly the transitions that
the second does not have and at which the offset changes.

Missing: those at the start, `C106_fails_start`. -/
theorem C106_first_partial (env : TzEnv) (o : SetOrder Item) (start : DateTime) (l1 l2 : List Item)
    (h1 : ∀ x ∈ l1, OfCalendar x) (h2 : ∀ x ∈ l2, OfCalendar x)
    (hs : ∀ x ∈ l1, x ∉ l2 → ¬ AtStart env start x) (d1 d2 : List Item)
    (h : compareZone env o start l1 l2 = some (d1, d2)) (x : Item) : x ∈ d1 ↔ x ∈ l1 ∧ x ∉ l2 ∧ Changes x := by
  have u1 := fun x hx => (h1 x hx).1
  have u2 := fun x hx => (h2 x hx).1
  have m1 := mem_difference env l1 l2 u1 u2
  obtain ⟨r, e1, s1⟩ := loop1_spec env start (o.run (difference env (itemSet env l1) (itemSet env l2)))
    (difference env (itemSet env l1) (itemSet env l2))
    (fun x hx => h1 x ((m1 x).1 ((o.perm _).mem_iff.1 hx)).1) (fun x hx => u1 x ((m1 x).1 hx).1)
  have : r = d1 := by
    simp only [compareZone, e1, Option.bind_some, Option.map_eq_some_iff, Prod.mk.injEq] at h
    obtain ⟨_, _, h, _⟩ := h
    exact h
  subst this
  rcases s1 with ⟨-, s1⟩ | ⟨a, s, b, e, -, hs', -⟩
  · rw [s1, (o.perm _).mem_iff, m1]
    tauto
  · have := (m1 s).1 ((o.perm _).mem_iff.1 (by rw [e]; simp))
    exact absurd (at_start.mpr hs') (hs s this.1 this.2)

/-- C106 (partial): in general, all that is reported of the first calendar is not in the second, and everything that
is not in the second and changes the offset is reported, but for one transition at the start.

Missing: that one, `C106_fails_start`. -/
theorem C106_start_partial (env : TzEnv) (o : SetOrder Item) (start : DateTime) (l1 l2 : List Item)
    (h1 : ∀ x ∈ l1, OfCalendar x) (h2 : ∀ x ∈ l2, OfCalendar x) (d1 d2 : List Item)
    (h : compareZone env o start l1 l2 = some (d1, d2)) :
    (∀ x ∈ d1, x ∈ l1 ∧ x ∉ l2) ∧ ∃ s : Option Item, (∀ x, s = some x → x ∈ l1 ∧ x ∉ l2 ∧ AtStart env start x ∧ x ∉ d1) ∧
      (s = none ↔ ∀ x ∈ l1, x ∉ l2 → ¬ AtStart env start x) ∧
      ∀ x ∈ l1, x ∉ l2 → Changes x → x ∈ d1 ∨ s = some x := by
  have u1 := fun x hx => (h1 x hx).1
  have u2 := fun x hx => (h2 x hx).1
  have m1 := mem_difference env l1 l2 u1 u2
  obtain ⟨r, e1, s1⟩ := loop1_spec env start (o.run (difference env (itemSet env l1) (itemSet env l2)))
    (difference env (itemSet env l1) (itemSet env l2))
    (fun x hx => h1 x ((m1 x).1 ((o.perm _).mem_iff.1 hx)).1) (fun x hx => u1 x ((m1 x).1 hx).1)
  have : r = d1 := by
    simp only [compareZone, e1, Option.bind_some, Option.map_eq_some_iff, Prod.mk.injEq] at h
    obtain ⟨_, _, h, _⟩ := h
    exact h
  subst this
  rcases s1 with ⟨hn, s1⟩ | ⟨a, s, b, e, hn, hs', s1⟩
  · refine ⟨fun x hx => (m1 x).1 ((s1 x).1 hx).1, none, by simp, ?_, fun x hx hx' hc => .inl ?_⟩
    · simp only [true_iff]
      exact fun x hx hx' => not_at_start.mpr (hn x ((o.perm _).mem_iff.2 ((m1 x).2 ⟨hx, hx'⟩)))
    · exact (s1 x).2 ⟨(m1 x).2 ⟨hx, hx'⟩, fun _ => hc⟩
  · have hm := (m1 s).1 ((o.perm _).mem_iff.1 (by rw [e]; simp))
    refine ⟨fun x hx => (m1 x).1 ((s1 x).1 hx).1, some s, ?_, ?_, fun x hx hx' hc => ?_⟩
    · rintro x hx
      cases hx
      exact ⟨hm.1, hm.2, at_start.mpr hs', fun hx => ((s1 s).1 hx).2.2 rfl⟩
    · simp only [reduceCtorEq, false_iff]
      intro h
      exact h s hm.1 hm.2 (at_start.mpr hs')
    · by_cases hxs : x = s
      · exact .inr (by rw [hxs])
      · exact .inl ((s1 x).2 ⟨(m1 x).2 ⟨hx, hx'⟩, fun _ => hc, hxs⟩)

/-- C106 (partial): "Matched" is said just if the two have the same transitions that change the offset, if none of the
first's is at the start.

Missing: those, `C106_fails_start`. -/
theorem C106_matched_partial (env : TzEnv) (o : SetOrder Item) (start : DateTime) (l1 l2 : List Item)
    (h1 : ∀ x ∈ l1, OfCalendar x) (h2 : ∀ x ∈ l2, OfCalendar x)
    (hs : ∀ x ∈ l1, x ∉ l2 → ¬ AtStart env start x) :
    compareZone env o start l1 l2 = some ([], []) ↔ ∀ x, Changes x → (x ∈ l1 ↔ x ∈ l2) := by
  obtain ⟨d1, d2, e, m2⟩ := C106_second_partial env o start l1 l2 h1 h2
  have m1 := C106_first_partial env o start l1 l2 h1 h2 hs d1 d2 e
  rw [e]
  simp only [Option.some.injEq, Prod.mk.injEq, List.eq_nil_iff_forall_not_mem, m1, m2]
  constructor
  · rintro ⟨a, b⟩ x hc
    have := a x
    have := b x
    tauto
  · intro h
    exact ⟨fun x hx => hx.2.1 ((h x hx.2.2).1 hx.1), fun x hx => hx.2.1 ((h x hx.2.2).2 hx.1)⟩

/-- Calendars that have the same transitions of a time zone match. -/
theorem C106_refl (env : TzEnv) (o : SetOrder Item) (start : DateTime) (l : List Item) (h : ∀ x ∈ l, OfCalendar x) :
    compareZone env o start l l = some ([], []) :=
  (C106_matched_partial env o start l l h h fun x hx hx' => absurd hx hx').2 fun _ _ => Iff.rfl

/-- Which time zones are compared: exactly those of both calendars that are asked for (all, if none are), each once and in
order, if no comparison raises. -/
theorem C106_zones (env : TzEnv) (o : SetOrder Item) (start : DateTime) (filter z1 z2 : List (List Char))
    (f1 f2 : List Char → List Item) (hn : z1.Nodup) (h1 : ∀ z, ∀ x ∈ f1 z, OfCalendar x) (h2 : ∀ z, ∀ x ∈ f2 z, OfCalendar x) :
    let r := compareCalendars env o start filter z1 z2 f1 f2
    r.2.2 = true ∧ (∀ z, z ∈ r.1 ↔ z ∈ z1 ∧ z ∉ z2) ∧
    (∀ z, z ∈ r.2.1.map (·.1) ↔ z ∈ z1 ∧ z ∈ z2 ∧ (filter = [] ∨ z ∈ filter)) ∧ (r.2.1.map (·.1)).Nodup ∧
    ∀ v ∈ r.2.1, compareZone env o start (f1 v.1) (f2 v.1) = some v.2 := by
  have key : ∀ zs : List (List Char), zs.Nodup → let r := zonesLoop env o start filter f1 f2 zs
      r.2 = true ∧ (∀ z, z ∈ r.1.map (·.1) ↔ z ∈ zs ∧ (filter = [] ∨ z ∈ filter)) ∧ (r.1.map (·.1)).Nodup ∧
      ∀ v ∈ r.1, compareZone env o start (f1 v.1) (f2 v.1) = some v.2 := by
    intro zs
    induction zs with
    | nil => intro _; simp [zonesLoop]
    | cons z zs ih =>
      intro hz
      obtain ⟨hz', hz⟩ := List.nodup_cons.1 hz
      obtain ⟨i1, i2, i3, i4⟩ := ih hz
      by_cases hf : filter ≠ [] ∧ z ∉ filter
      · have e : zonesLoop env o start filter f1 f2 (z :: zs) = zonesLoop env o start filter f1 f2 zs := by
          rw [zonesLoop, if_pos hf]
        simp only [e]
        refine ⟨i1, fun y => ?_, i3, i4⟩
        rw [i2, List.mem_cons]
        constructor
        · tauto
        · rintro ⟨rfl | h, h'⟩
          · tauto
          · tauto
      · obtain ⟨d1, d2, hc, -⟩ := C106_second_partial env o start (f1 z) (f2 z) (h1 z) (h2 z)
        have e : zonesLoop env o start filter f1 f2 (z :: zs) =
            ((z, d1, d2) :: (zonesLoop env o start filter f1 f2 zs).1, (zonesLoop env o start filter f1 f2 zs).2) := by
          rw [zonesLoop, if_neg hf, hc]
        simp only [e]
        refine ⟨i1, fun y => ?_, ?_, ?_⟩
        · simp only [List.map_cons, List.mem_cons, i2]
          constructor
          · rintro (rfl | h)
            · tauto
            · tauto
          · tauto
        · rw [List.map_cons, List.nodup_cons]
          refine ⟨fun h => hz' ((i2 z).1 h).1, i3⟩
        · intro v hv
          rcases List.mem_cons.1 hv with rfl | hv
          · exact hc
          · exact i4 v hv
  have hp : (sortNames (z1.filter fun z => z ∈ z2)).Perm (z1.filter fun z => z ∈ z2) := List.perm_insertionSort _ _
  have hq : (sortNames (z1.filter fun z => z ∉ z2)).Perm (z1.filter fun z => z ∉ z2) := List.perm_insertionSort _ _
  obtain ⟨k1, k2, k3, k4⟩ := key (sortNames (z1.filter fun z => z ∈ z2)) (hp.nodup_iff.2 (hn.filter _))
  refine ⟨k1, fun z => ?_, fun z => ?_, k3, k4⟩
  · show z ∈ sortNames _ ↔ _
    rw [hq.mem_iff]; simp
  · refine (k2 z).trans ?_
    rw [hp.mem_iff]; simp [and_assoc]

namespace V106

theorem d2_inj {a b : Nat} (ha : a < 100) (hb : b < 100) (h : d2 a = d2 b) : a = b := by
  simp only [d2, List.cons.injEq, and_true] at h
  have h1 := congrArg Char.toNat h.1
  have h2 := congrArg Char.toNat h.2
  rw [digitChar_toNat (by omega), digitChar_toNat (by omega)] at h1 h2
  omega

/-- The text without the sign. -/
def body (n : Nat) : List Char :=
  d2 (n / 3600 % 60) ++ ':' :: d2 (n / 60 % 60) ++ if n % 60 ≠ 0 then ':' :: d2 (n % 60) else []

theorem text_form (a : Int) : secondsToTime a = (if a < 0 then ['-'] else []) ++ body a.natAbs := by
  unfold secondsToTime body
  dsimp only
  rw [padNat2 (by omega), padNat2 (by omega), padNat2 (by omega)]
  simp

theorem body_inj {a b : Nat} (ha : a < 216000) (hb : b < 216000) (h : body a = body b) : a = b := by
  unfold body at h
  rw [List.append_assoc, List.append_assoc] at h
  obtain ⟨h1, h⟩ := List.append_inj h rfl
  rw [List.cons_append, List.cons_append, List.cons.injEq] at h
  obtain ⟨h2, h⟩ := List.append_inj h.2 rfl
  have e1 := d2_inj (by omega) (by omega) h1
  have e2 := d2_inj (by omega) (by omega) h2
  have e3 : a % 60 = b % 60 := by
    by_cases x : a % 60 = 0 <;> by_cases y : b % 60 = 0
    · omega
    · simp [x, y, d2] at h
    · simp [x, y, d2] at h
    · simp only [ne_eq, x, not_false_eq_true, if_true, y, List.cons.injEq, true_and] at h
      exact d2_inj (by omega) (by omega) h
  omega

end V106

/-- C106 (partial): different offsets of less than sixty hours are shown as different texts.

Missing: longer offsets, `C106_fails_text`. -/
theorem C106_text_partial (a b : Int) (ha : a.natAbs < 216000) (hb : b.natAbs < 216000)
    (h : secondsToTime a = secondsToTime b) : a = b := by
  rw [text_form, text_form] at h
  have hd : ∀ n, body n ≠ [] ∧ (body n).head? ≠ some '-' := fun n => by
    refine ⟨by simp [body, d2], ?_⟩
    simp only [body, d2, List.cons_append, List.head?_cons, ne_eq, Option.some.injEq]
    exact digitChar_ne (by omega) (by decide)
  by_cases x : a < 0 <;> by_cases y : b < 0
  · simp only [x, y, if_true, List.cons_append, List.nil_append, List.cons.injEq, true_and] at h
    have := body_inj ha hb h
    omega
  · simp only [x, y, if_true, if_false, List.cons_append, List.nil_append] at h
    exact absurd (by rw [← h]; rfl) (hd b.natAbs).2
  · simp only [x, y, if_true, if_false, List.cons_append, List.nil_append] at h
    exact absurd (by rw [h]; rfl) (hd a.natAbs).2
  · simp only [x, y, if_false, List.nil_append] at h
    have := body_inj ha hb h
    omega

theorem V106.body_shift {n m : Nat} (h : m = n + 216000) : body m = body n := by
  have h1 : m / 3600 % 60 = n / 3600 % 60 := by omega
  have h2 : m / 60 % 60 = n / 60 % 60 := by omega
  have h3 : m % 60 = n % 60 := by omega
  unfold body
  rw [h1, h2, h3]

/-- C106 fails: offsets sixty hours apart are shown as one. -/
theorem C106_fails_text (n : Nat) : secondsToTime n = secondsToTime (n + 216000) := by
  generalize hm : (n : Int) + 216000 = m
  rw [text_form, text_form, V106.body_shift (n := n) (m := m.natAbs) (by omega), if_neg (by omega), if_neg (by omega),
    Int.natAbs_natCast]

/-- C106 fails: a transition on the day of the start (the commands give a date) is not reported, and the calendars are said to
match, if the first calendar has it and the second not; the other way round it is reported. -/
theorem C106_fails_start (env : TzEnv) (o : SetOrder Item) (start : DateTime) (i : Item) (hi : OfCalendar i) (hc : Changes i)
    (hd : start.dateOnly = true) (hs : i.date.date = start.date) :
    compareZone env o start [i] [] = some ([], []) ∧ ∃ d, compareZone env o start [] [i] = some ([], d) ∧ i ∈ d := by
  have e : i.date.eq env start = true := by
    unfold DateTime.eq DateTime.compare
    rw [hd, Bool.or_true, if_pos rfl, decide_eq_true_eq]
    unfold DateTime.date at hs
    injection hs with h1 h2 h3
    unfold cmpDate
    simp [h1, h2, h3, cmpInt]
  have ho : ∀ l : List Item, o.run [i] = l → l = [i] := fun l h => by
    rw [← h]; exact List.perm_singleton.1 (o.perm [i])
  have hd1 : difference env (itemSet env [i]) (itemSet env []) = [i] := by simp [difference, itemSet]
  have hn : o.run [] = [] := List.perm_nil.1 (o.perm [])
  have hd2 : difference env (itemSet env []) (itemSet env [i]) = [] := by simp [difference, itemSet]
  refine ⟨?_, ?_⟩
  · unfold compareZone
    simp only [hd1, hd2, ho _ rfl, hn, loop1, e, if_true, Option.bind_some, loop2, Option.map_some]
    simp [Verify.discard, (same_iff env i i hi.1 hi.1).2 rfl]
  · obtain ⟨d1, d2, h1, h2⟩ := C106_second_partial env o start [] [i] (by simp) (by simpa using hi)
    have h3 := (C106_start_partial env o start [] [i] (by simp) (by simpa using hi) d1 d2 h1).1
    have : d1 = [] := List.eq_nil_iff_forall_not_mem.2 fun x hx => absurd (h3 x hx).1 (by simp)
    subst this
    exact ⟨d2, h1, (h2 i).2 ⟨by simp, by simp, hc⟩⟩

namespace V106

/-- The first order of a set. -/
def forwards : SetOrder Item := ⟨id, fun _ => List.Perm.refl _⟩

/-- The other order. -/
def backwards : SetOrder Item := ⟨List.reverse, fun l => List.reverse_perm l⟩

/-- A local time in 1933. -/
def hour (m d h : Int) (utc : Bool := false) : DateTime := ⟨1933, m, d, h, 0, 0, false, utc, none⟩

/-- The clock changes by an hour. -/
def changing : Item := .four ⟨hour 1 1 2, hour 1 1 7 true, -18000, -14400⟩

/-- The name changes, and not the clock. -/
def renamed : Item := .four ⟨hour 6 1 2, hour 6 1 7 true, -18000, -18000⟩

/-- The date from which the transitions are compared. -/
def since : DateTime := { hour 1 1 0 with dateOnly := true }

end V106

example : OfCalendar changing ∧ Changes changing ∧ changing.date.date = since.date ∧ ¬ Changes renamed := by
  refine ⟨⟨⟨⟨rfl, rfl, rfl⟩, rfl, rfl, rfl⟩, _, rfl⟩, ⟨_, rfl, by decide⟩, rfl, ?_⟩
  rintro ⟨t, h, h'⟩
  injection h with h
  subst h
  exact h' rfl

/-- C106 fails: what is reported depends on the order in which a set is run through. -/
theorem C106_fails_order : compareZone .empty forwards since [changing, renamed] [] = some ([renamed], []) ∧
    compareZone .empty backwards since [changing, renamed] [] = some ([], []) := by decide +kernel

/-- C106 fails: transitions in a calendar cannot be compared with the transitions of time zone data, if there are any. -/
theorem C106_fails_data (env : TzEnv) (o : SetOrder Item) (start : DateTime) (l1 l2 : List Item)
    (h1 : ∀ x ∈ l1, OfCalendar x) (h2 : ∀ x ∈ l2, Usual x) (x : Item) (hx : x ∈ l2) (hx' : ¬ ∃ t, x = .four t) :
    compareZone env o start l1 l2 = none := by
  have key : ∀ is d : List Item, x ∈ is → loop2 env is d = none := by
    intro is
    induction is with
    | nil => simp
    | cons i is ih =>
      intro d hi
      rw [loop2]
      cases i with
      | three => rfl
      | four t =>
        rcases List.mem_cons.1 hi with rfl | hi
        · exact absurd ⟨t, rfl⟩ hx'
        · exact ih _ hi
  have hm := (mem_difference env l2 l1 h2 (fun x hx => (h1 x hx).1) x).2 ⟨hx, fun h => hx' (h1 x h).2⟩
  unfold compareZone
  simp only [key _ _ ((o.perm _).mem_iff.2 hm), Option.map_none, Option.bind_none]
  cases loop1 env start _ _ <;> rfl

/-- C106 fails: time zones that only the second calendar has are not mentioned. -/
theorem C106_fails_missing (env : TzEnv) (o : SetOrder Item) (start : DateTime) (filter z1 z2 more : List (List Char))
    (f1 f2 : List Char → List Item) (h : ∀ z ∈ more, z ∉ z1) :
    compareCalendars env o start filter z1 (z2 ++ more) f1 f2 = compareCalendars env o start filter z1 z2 f1 f2 := by
  have e : ∀ z ∈ z1, z ∉ more := fun z hz h' => h z h' hz
  unfold compareCalendars
  have e1 : (z1.filter fun z => z ∉ z2 ++ more) = z1.filter fun z => z ∉ z2 :=
    List.filter_congr fun z hz => by simp [e z hz]
  have e2 : (z1.filter fun z => z ∈ z2 ++ more) = z1.filter fun z => z ∈ z2 :=
    List.filter_congr fun z hz => by simp [e z hz]
  rw [e1, e2]

end PyCal
