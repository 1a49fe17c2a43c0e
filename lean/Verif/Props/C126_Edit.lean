import Verif.Model.RecurrenceEdit
import Verif.Props.C30_C55_Complex

/-!
# C126: changing a rule takes effect

The setters of a rule are seen by its getters, leave the rest of the rule alone, and the expansions after them are those of
a new rule with the same parts, whatever was expanded before.
-/

namespace PyCal.Rule
open Spec DateTime Period

namespace Edit126

/-- What a setter is to do: assign one part. -/
def put (r : Rule) : Change → Rule
  | .freq v => { r with freq := v }
  | .useUntil v => { r with useUntil := v }
  | .untilDate v => { r with untilDate := v }
  | .useCount v => { r with useCount := v }
  | .count v => { r with count := v }
  | .interval v => { r with interval := v }
  | .byMonth v => { r with byMonth := v }
  | .byMonthDay v => { r with byMonthDay := v }
  | .byYearDay v => { r with byYearDay := v }
  | .byDay v => { r with byDay := v }
  | .bySetPos v => { r with bySetPos := v }

/-- The rules and caches there can be after expansions that, with the rule of their time and their answers, satisfy `P`,
calls of setters and of `clear`, starting with a new object. -/
inductive History (env : TzEnv) (P : Rule → DateTime → Period → Int → Option Int → Answer → Prop) :
    Rule → Cache → Prop
  | new (r : Rule) : History env P r {}
  | clear {r : Rule} {c : Cache} : History env P r c → History env P r c.clear
  | change {r : Rule} {c : Cache} (ch : Change) : History env P r c →
      History env P (Rule.change env (r, c) ch).1 (Rule.change env (r, c) ch).2
  | query {r : Rule} {c c' : Cache} {a : Answer} (fuel : Nat) (start : DateTime) (range : Period) (off : Int)
      (max : Option Int) : History env P r c → P r start range off max a →
      r.expand env fuel c start range off max = some (a, c') → History env P r c'

/-- A setter assigns and clears, or does nothing. -/
theorem change_cases (env : TzEnv) (r : Rule) (c : Cache) (ch : Change) :
    Rule.change env (r, c) ch = (put r ch, c.clear) ∨ Rule.change env (r, c) ch = (r, c) := by
  cases ch <;> simp only [Rule.change, setIfChanged, put] <;> split <;> simp

/-- The queries allowed: those of `C30_simple_partial` and of `C30_complex_partial`. -/
def Fine (env : TzEnv) (K : DateTime → Prop) (s0 : DateTime) (off : Int) (r : Rule) (s : DateTime) (p : Period) (o : Int)
    (_ : Option Int) (a : Answer) : Prop :=
  (r.hasBy = false → Ask env K r s0 off s p o) ∧ (r.hasBy = true → AskBy env K r s0 off s p o) ∧ a ≠ .tooMany

theorem history {env : TzEnv} {K : DateTime → Prop} {s0 : DateTime} {off : Int} {r : Rule} {c : Cache}
    (h : History env (Fine env K s0 off) r c) : c.cached = true →
    (r.hasBy = false → ∃ s p, c.start = some s ∧ c.upto = some p.stop ∧ Ask env K r s0 off s p off ∧
      SimpleResult env r (r.untilLimit s off (some (.fixed 0))) s p c.items c.full) ∧
    (r.hasBy = true → ∃ s p, c.start = some s ∧ c.upto = some p.stop ∧ AskBy env K r s0 off s p off ∧
      ComplexResult env r (r.untilLimit s off none) s p c.items c.full) := by
  induction h with
  | new r => intro h; simp at h
  | clear _ _ => intro h; simp [Cache.clear] at h
  | @change r c ch _ ih =>
    rcases change_cases env r c ch with h | h <;> rw [h]
    · intro h; simp [Cache.clear] at h
    · exact ih
  | query fuel start range off' max _ hQ he ih =>
    obtain ⟨h1, h2, ha⟩ := hQ
    rcases expand_cases he with ⟨_, _, hx, _⟩ | ⟨items, full, ho, rfl, _⟩ | ⟨_, _, _, rfl, _⟩
    · exact absurd hx ha
    · intro _
      refine ⟨fun hb => ?_, fun hb => ?_⟩
      · obtain ⟨hA1, hA2, hA3, rfl⟩ := h1 hb
        rw [normalise_of_valid hA1.valid] at ho ⊢
        exact ⟨start, range, rfl, rfl, ⟨hA1, hA2, hA3, rfl⟩, expandRaw_simple hA1.valid hb ho⟩
      · obtain ⟨hg, hs, rfl⟩ := h2 hb
        rw [normalise_of_valid hg.tame.valid] at ho ⊢
        exact ⟨start, range, rfl, rfl, ⟨hg, hs, rfl⟩, expandRaw_complex hg rfl hb ho⟩
    · exact ih

end Edit126
open Edit126

/-- C126 (partial): a setter assigns the part it is for, leaves the other parts as they are, and clears the cache if
anything changed.

Needed: the UNTIL given does not merely equal the old one (`C126_fails_until`). -/
theorem C126_set_partial (env : TzEnv) (r : Rule) (c : Cache) (ch : Change)
    (hu : ∀ u t, r.untilDate = some u → ch = .untilDate (some t) → u.eq env t = true → u = t) :
    (Rule.change env (r, c) ch).1 = put r ch ∧
    (put r ch ≠ r → (Rule.change env (r, c) ch).2 = c.clear) ∧ (put r ch = r → (Rule.change env (r, c) ch).2 = c) := by
  have key : ∀ (d : Bool) (p : Rule), (d = false ↔ p = r) →
      (setIfChanged d p (r, c)).1 = p ∧ (p ≠ r → (setIfChanged d p (r, c)).2 = c.clear) ∧
        (p = r → (setIfChanged d p (r, c)).2 = c) := by
    intro d p h
    cases d
    · have := h.1 rfl
      subst this
      simp [setIfChanged]
    · have : p ≠ r := fun e => by simpa using h.2 e
      simp [setIfChanged, this]
  cases ch with
  | untilDate v =>
    refine key _ _ ?_
    obtain ⟨f, uc, n, uu, un, _⟩ := r
    simp only [Rule.mk.injEq, true_and, and_true]
    cases un with
    | none => cases v <;> simp [untilDiffers]
    | some u =>
      cases v with
      | none => simp [untilDiffers]
      | some t =>
        simp only [untilDiffers, Bool.not_eq_false', Option.some.injEq]
        refine ⟨fun h => (hu u t rfl rfl h).symm, fun h => ?_⟩
        subst h
        exact (C17_antisymm env t t).2.2.1
  | _ =>
    refine key _ _ ?_
    obtain ⟨⟩ := r
    simp only [Rule.mk.injEq, true_and, and_true, bne_eq_false_iff_eq]
    exact eq_comm

/-- C126 (partial), rules without BYxxx parts: whatever was set and expanded before, with whatever parts the rule had at the
time, the answer (dates and `limited` flag) is the one a new object with the parts the rule has now gives.

Needed: the earlier queries and this one are as in `C30_simple_partial` and `C30_complex_partial`.

Missing: an UNTIL equal to the old one, `C126_fails_until`, and a start that is itself changed, `C126_fails_start`. -/
theorem C126_simple_partial (env : TzEnv) (K : DateTime → Prop) (r : Rule) (s0 : DateTime)
    (off : Int) (c c' : Cache) (fuel fuel' : Nat) (start : DateTime) (range : Period)
    (max : Option Int) (a a' : Answer) (hb : r.hasBy = false) (hc : r.useCount = true → 1 ≤ r.count)
    (hr : History env (Fine env K s0 off) r c) (hA : Ask env K r s0 off start range off)
    (h : r.expand env fuel c start range off max = some (a, c')) (ha : a ≠ .tooMany)
    (h' : r.expandFresh env fuel' start range off = some a') : a = a' :=
  transparent_simple env K r s0 off c c' fuel fuel' start range max a a' hb hc
    (fun hcd => (history hr hcd).1 hb) hA h ha h'

/-- C126 (partial), rules with BYxxx parts: whatever was set and expanded before, the dates are those a new object with the
parts the rule has now gives.

Needed: as for `C126_simple_partial`; the `limited` flag can depend on earlier queries (`C30_fails_limited`). -/
theorem C126_complex_partial (env : TzEnv) (K : DateTime → Prop) (r : Rule) (s0 : DateTime)
    (off : Int) (c c' : Cache) (fuel fuel' : Nat) (start : DateTime) (range : Period)
    (max : Option Int) (a a' : Answer) (hb : r.hasBy = true)
    (hr : History env (Fine env K s0 off) r c) (hA : AskBy env K r s0 off start range off)
    (h : r.expand env fuel c start range off max = some (a, c')) (ha : a ≠ .tooMany)
    (h' : r.expandFresh env fuel' start range off = some a') : a.list = a'.list :=
  transparent_complex env K r s0 off c c' fuel fuel' start range max a a' hb
    (fun hcd => (history hr hcd).2 hb) hA h ha h'

/-- C126 fails: an UNTIL that compares as equal to the old one is not stored. -/
theorem C126_fails_until (env : TzEnv) (r : Rule) (c : Cache) (u t : DateTime) (hu : r.untilDate = some u)
    (he : u.eq env t = true) (hne : u ≠ t) :
    (Rule.change env (r, c) (.untilDate (some t))).1 = r ∧ (Rule.change env (r, c) (.untilDate (some t))).1.untilDate ≠ some t := by
  have : (Rule.change env (r, c) (.untilDate (some t))).1 = r := by
    simp [Rule.change, setIfChanged, hu, untilDiffers, he]
  rw [this, hu]
  exact ⟨rfl, by simpa using hne⟩

/-- C126 fails: a meeting every eight hours until noon is extended to the whole day: nothing changes, while a new rule gives
one more date. -/
theorem C126_fails_until_date :
    ∃ (r : Rule) (noon day : DateTime) (start : DateTime) (p : Period) (L L' : List DateTime),
      r.untilDate = some noon ∧ (Rule.change .empty (r, {}) (.untilDate (some day))).1 = r ∧
      (Rule.change .empty (r, {}) (.untilDate (some day))).1.expandFresh .empty 100 start p 0 = some (.dates L false) ∧
      ({ r with untilDate := some day } : Rule).expandFresh .empty 100 start p 0 = some (.dates L' false) ∧
      L.length = 2 ∧ L'.length = 3 :=
  ⟨{ freq := .hourly, interval := 8, useUntil := true, untilDate := some ⟨2020, 1, 1, 12, 0, 0, false, true, none⟩ },
    ⟨2020, 1, 1, 12, 0, 0, false, true, none⟩, ⟨2020, 1, 1, 0, 0, 0, true, false, none⟩,
    ⟨2020, 1, 1, 0, 0, 0, false, true, none⟩,
    .ofEnd ⟨2020, 1, 1, 0, 0, 0, false, true, none⟩ ⟨2020, 2, 1, 0, 0, 0, false, true, none⟩,
    [⟨2020, 1, 1, 0, 0, 0, false, true, none⟩, ⟨2020, 1, 1, 8, 0, 0, false, true, none⟩],
    [⟨2020, 1, 1, 0, 0, 0, false, true, none⟩, ⟨2020, 1, 1, 8, 0, 0, false, true, none⟩,
      ⟨2020, 1, 1, 16, 0, 0, false, true, none⟩], by decide +kernel⟩

/-- C126 fails (and so does C30): if the date-time that was passed as the start is itself changed, here to one year later,
the next expansion from it still gives the dates from the old start. -/
theorem C126_fails_start :
    ∃ (r : Rule) (s t : DateTime) (p : Period) (c c' : Cache) (L L' : List DateTime),
      r.expand .empty 100 {} s p = some (.dates L false, c) ∧
      r.expand .empty 100 (c.startChanged t) t p = some (.dates L false, c') ∧
      r.expandFresh .empty 100 t p 0 = some (.dates L' false) ∧ s ∈ L ∧ s.lt .empty t = true ∧ s ∉ L' :=
  ⟨{ freq := .yearly, useCount := true, count := 2 }, ofDate 2020 1 1, ofDate 2021 1 1,
    .ofEnd (ofDate 2020 1 1) (ofDate 2025 1 1),
    { cached := true, start := some (ofDate 2020 1 1), upto := some (ofDate 2025 1 1), full := true,
      items := [ofDate 2020 1 1, ofDate 2021 1 1] },
    { cached := true, start := some (ofDate 2021 1 1), upto := some (ofDate 2025 1 1), full := true,
      items := [ofDate 2020 1 1, ofDate 2021 1 1] },
    [ofDate 2020 1 1, ofDate 2021 1 1], [ofDate 2021 1 1, ofDate 2022 1 1], by decide +kernel⟩

/-- The conditions are met: a daily rule is expanded over ten days, made to skip every other day, and expanded again: the
second answer has half as many dates. -/
example : let r : Rule := { freq := .daily }
    let r' : Rule := { freq := .daily, interval := 2 }
    let start : DateTime := ⟨2020, 1, 1, 0, 0, 0, false, true, none⟩
    let p : Period := .ofEnd start ⟨2020, 1, 11, 0, 0, 0, false, true, none⟩
    ∃ c : Cache, History .empty (Fine .empty (InZone true none) start 0) r' c ∧
      Ask .empty (InZone true none) r' start 0 start p 0 ∧
      (∃ L c1, r.expand .empty 100 {} start p = some (.dates L true, c1) ∧
        c = c1.clear ∧ L.length = 10) ∧
      ∃ L c2, r'.expand .empty 100 c start p = some (.dates L true, c2) ∧ L.length = 5 := by
  intro r r' start p
  have hs : Sound .empty (InZone true none) r start (r.untilLimit start 0 (some (.fixed 0))) :=
    ⟨Or.inr (Or.inl ⟨true, none, rfl⟩), by decide +kernel, by unfold InZone; decide +kernel,
      fun u h => by simp [untilLimit, r] at h, fun h => by simp [start] at h, by decide⟩
  have hs' : Sound .empty (InZone true none) r' start (r'.untilLimit start 0 (some (.fixed 0))) :=
    ⟨Or.inr (Or.inl ⟨true, none, rfl⟩), by decide +kernel, by unfold InZone; decide +kernel,
      fun u h => by simp [untilLimit, r'] at h, fun h => by simp [start] at h, by decide⟩
  let L : List DateTime := (List.range 10).map fun k => ⟨2020, 1, 1 + k, 0, 0, 0, false, true, none⟩
  let c1 : Cache := { cached := true, start := some start, upto := some p.stop, full := false, items := L }
  have he : r.expand .empty 100 {} start p = some (.dates L true, c1) := by decide +kernel
  have h1 : History .empty (Fine .empty (InZone true none) start 0) r c1 :=
    .query 100 start p 0 none (.new r)
      ⟨fun _ => ⟨hs, by unfold InZone; decide +kernel, ⟨rfl, rfl, rfl⟩, rfl⟩, fun h => by simp [r, hasBy] at h,
        by simp⟩ he
  refine ⟨c1.clear, History.change (.interval 2) h1, ⟨hs', by unfold InZone; decide +kernel, ⟨rfl, rfl, rfl⟩, rfl⟩,
    ⟨L, c1, he, rfl, by decide +kernel⟩,
    (List.range 5).map fun k => ⟨2020, 1, 1 + 2 * k, 0, 0, 0, false, true, none⟩,
    { cached := true, start := some start, upto := some p.stop, full := false,
      items := (List.range 5).map fun k => ⟨2020, 1, 1 + 2 * k, 0, 0, 0, false, true, none⟩ }, by decide +kernel⟩

end PyCal.Rule
