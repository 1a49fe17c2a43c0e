import Verif.Props.C35_Ends
import Verif.Props.C102_Descriptor

/-!
# C120: the list of transitions

`VTimezone.expandAll(start, end)` of a time zone as parsed, after any calls.
-/

namespace PyCal
open DateTime (TzEnv)
open Spec
open TzElement (newYear)

/-- The entry `v` is for the change from `v.offsetFrom` to `v.offsetTo` at the local time `v.loc`: the
time zone has this transition, and `v.utc` is the time of it in UTC. -/
structure Entry (ds : List Desc) (v : Transition) : Prop where
  tr : Tr ds v.loc v.offsetFrom v.offsetTo
  isUtc : v.utc.utc = true
  valid : v.utc.Valid
  utc : v.utc.num = v.loc.num - v.offsetFrom

/-- The times asked for: from `start`, if it is given. -/
def NotBefore (start : Option DateTime) (t : DateTime) : Prop := ∀ s, start = some s → s.num ≤ t.num

section
variable {env : TzEnv} {o : SetOrder} {o' : SetOrder (DateTime × Int × Int)}

theorem entry_of {ds : List Desc} (hds : ∀ d ∈ ds, d.Ok env o) {v : Transition}
    (h : Tr ds v.loc v.offsetFrom v.offsetTo)
    (hv : v = Zone.withUtc (v.loc, v.offsetFrom, v.offsetTo)) : Entry ds v := by
  obtain ⟨d, hd, hS, _⟩ := id h
  have hc := ((hds d hd).clock _ hS).1
  have hu : v.utc = { v.loc.offsetSeconds (-v.offsetFrom) with utc := true } :=
    congrArg Transition.utc hv
  refine ⟨h, by rw [hu], ?_, ?_⟩
  · rw [hu]
    exact DateTime.normalise_valid _
  · rw [hu, num_offset hc]
    omega

theorem reach_elements (he : DefaultUtc env) {z z1 : Zone}
    (hp : ∀ e ∈ z.elements, ParsedElement e) (hr : ZoneReach env o o' z z1) :
    List.Forall₂ ElementOk (z.elements.map (descOf env)) z1.elements := by
  rw [List.forall₂_map_left_iff]
  exact (Desc102.reach_kept (fun e hm => parsed_ok he (hp e hm)) hp hr).imp fun _ _ h => h.ok

/-- C120 (partial): in a time zone as parsed (see `C35_zone_partial`), in whatever state previous
calls left it, `expandAll(start, end)` gives a list of transitions of the time zone, each once and in
the order of their local times, with their UTC times, all from `start` to `end`; and it has all from
`start` to before 1 January of the year of `end`.

Missing: those in the year of `end` (see `C120_exact_partial`); date-only arguments. -/
theorem C120_range_partial (he : DefaultUtc env) {z z1 z2 : Zone}
    (hp : ∀ e ∈ z.elements, ParsedElement e) (h0 : z.maxYear = none)
    (hr : ZoneReach env o o' z z1) {fuel : Nat}
    {start : Option DateTime} {stop : DateTime} (hst : ∀ s, start = some s → Clock s)
    (hs : Clock stop) {all : List Transition}
    (hq : z1.expandAll env o o' fuel start stop = some (all, z2)) :
    (∀ v ∈ all, Entry (z.elements.map (descOf env)) v ∧ NotBefore start v.loc ∧
      v.loc.num ≤ stop.num) ∧
    (all.Pairwise fun a b => a.loc.num ≤ b.loc.num) ∧ all.Nodup ∧
    ∀ t f g, Tr (z.elements.map (descOf env)) t f g → NotBefore start t →
      t.num < (newYear stop.year).num →
      ∃ v ∈ all, v.loc = t ∧ v.offsetFrom = f ∧ v.offsetTo = g := by
  obtain ⟨hf, hds⟩ := parsed_zone (o := o) he hp h0
  have hz := reach_elements he hp hr
  obtain ⟨_, h2, h3, h4, h5⟩ := expandAll_range he hds hz hst hs hq
  refine ⟨fun v hv => ?_, h4, h5, fun t f g ht hn hlt => ?_⟩
  · obtain ⟨i1, i2, i3, i4, _⟩ := h2 v hv
    exact ⟨entry_of hds i1 i2, i3, i4⟩
  · have := newYear_le hs
    exact ⟨_, h3 t f g ht (by omega) hn (.inl hlt), rfl, rfl, rfl⟩

/-- C120 (partial): the first call of `expandAll(start, end)` on a time zone as parsed gives exactly
the transitions from `start` to before `end`.

Needed: elements with recurrences start in a year before that of `end` (`C120_fails_year`), those
without do not start at `end` (`C120_fails_end`).  Missing: later calls with an `end` in the same year
(`C120_fails_history`). -/
theorem C120_exact_partial (he : DefaultUtc env) {z z1 : Zone}
    (hp : ∀ e ∈ z.elements, ParsedElement e) (h0 : z.maxYear = none) {fuel : Nat}
    {start : Option DateTime} {stop : DateTime} (hst : ∀ s, start = some s → Clock s)
    (hs : Clock stop)
    (hy : ∀ e ∈ z.elements, e.recurrences.hasRecurrence = true → e.start.year < stop.year)
    (hne : ∀ e ∈ z.elements, e.recurrences.hasRecurrence = false → e.start ≠ stop)
    {all : List Transition} (hq : z.expandAll env o o' fuel start stop = some (all, z1)) :
    (∀ v ∈ all, Entry (z.elements.map (descOf env)) v) ∧
    (all.Pairwise fun a b => a.loc.num ≤ b.loc.num) ∧ all.Nodup ∧
    ∀ t f g, (∃ v ∈ all, v.loc = t ∧ v.offsetFrom = f ∧ v.offsetTo = g) ↔
      Tr (z.elements.map (descOf env)) t f g ∧ NotBefore start t ∧ t.num < stop.num := by
  obtain ⟨hf, hds⟩ := parsed_zone (o := o) he hp h0
  obtain ⟨_, h2, h3, h4, h5⟩ := expandAll_range he hds hf.2 hst hs hq
  refine ⟨fun v hv => entry_of hds (h2 v hv).1 (h2 v hv).2.1, h4, h5, fun t f g => ⟨?_, ?_⟩⟩
  · rintro ⟨v, hv, rfl, rfl, rfl⟩
    obtain ⟨i1, i2, i3, i4, i5⟩ := h2 v hv
    refine ⟨i1, i3, ?_⟩
    rcases lt_or_eq_of_le i4 with h | h
    · exact h
    · exfalso
      obtain ⟨w, hw, hwv⟩ : ∃ w : DateTime × Int × Int, (∃ e ∈ z.elements, ∃ l e',
          e.expandAll env o fuel start stop = some (l, e') ∧ w ∈ l) ∧ w.1 = v.loc := by
        unfold Zone.expandAll at hq
        rw [Option.map_eq_some_iff] at hq
        obtain ⟨⟨l, es⟩, hx, hq⟩ := hq
        simp only [Prod.mk.injEq] at hq
        obtain ⟨rfl, -⟩ := hq
        rw [(List.perm_insertionSort _ _).mem_iff, List.mem_map] at hv
        obtain ⟨w, hw, rfl⟩ := hv
        rw [(o'.perm _).mem_iff] at hw
        have hl : ∀ v ∈ l, Clock v.1 := fun v hv => by
          obtain ⟨⟨d, hd, hS, _⟩, _⟩ :=
            (expandElements_spec hds hf.2 hst hs hx).2.1 v hv
          exact ((hds d hd).clock _ hS).1
        unfold Zone.tupleSet at hw
        rw [tupleSet_mem he l [] hl (by simp)] at hw
        replace hw : w ∈ l := by simpa using hw
        refine ⟨w, ?_, rfl⟩
        clear h2 h3 h4 h5 i1 i2 i3 i4 i5 h hl hf hds hp hy hne
        generalize z.elements = es0 at hx
        induction es0 generalizing l es with
        | nil =>
          simp only [Zone.expandElements, Option.some.injEq, Prod.mk.injEq] at hx
          obtain ⟨rfl, -⟩ := hx
          simp at hw
        | cons e es0 ih =>
          rw [Zone.expandElements] at hx
          split at hx
          · simp at hx
          · next l1 e1 h1 =>
            rw [Option.map_eq_some_iff] at hx
            obtain ⟨⟨l2, es2⟩, h2, hx⟩ := hx
            simp only [Prod.mk.injEq] at hx
            obtain ⟨rfl, -⟩ := hx
            rcases List.mem_append.mp hw with hw | hw
            · exact ⟨e, by simp, _, _, h1, hw⟩
            · obtain ⟨e', he', h⟩ := ih _ _ hw h2
              exact ⟨e', by simp [he'], h⟩
      obtain ⟨e, hem, l, e', hx, hw⟩ := hw
      obtain ⟨_, a2, _⟩ := elementAll_spec (d := descOf env e) (parsed_ok he (hp e hem))
        (parsed_element (hp e hem)) hst hs hx
      obtain ⟨b1, _, _, _, b5⟩ := a2 w hw
      cases hrec : e.recurrences.hasRecurrence with
      | true => have := b5 hrec; rw [hwv] at this; omega
      | false =>
        have hsi := (parsed_ok (o := o) he (hp e hem)).single _
          (parsed_element (env := env) (hp e hem)).state hrec w.1
        have hw1 : w.1 = e.start := hsi.mp b1
        refine hne e hem hrec (clock_ext (hp e hem).start hs ?_)
        rw [← hw1, hwv]; exact h
  · rintro ⟨ht, hn, hlt⟩
    refine ⟨_, h3 t f g ht hlt hn (.inr fun e hem => ?_), rfl, rfl, rfl⟩
    cases hrec : e.recurrences.hasRecurrence with
    | false => exact .inl hrec
    | true =>
      right
      rw [(hp e hem).fresh.1]
      exact lt_newYear (hp e hem).start (hy e hem hrec)

/-- C120: the call ends, in whatever state previous calls left the time zone, and more iterations
than needed give the same list.

Missing: which transitions are listed, `C120_fails_year`, `C120_fails_history` and `C120_fails_end`. -/
theorem C120_ends_partial (he : DefaultUtc env) {z z1 : Zone}
    (hp : ∀ e ∈ z.elements, ParsedElement e) (h0 : z.maxYear = none)
    (hr : ZoneReach env o o' z z1)
    (start : Option DateTime) {stop : DateTime} (hs : Clock stop) :
    ∃ fuel all z2, ∀ n, fuel ≤ n → z1.expandAll env o o' n start stop = some (all, z2) := by
  obtain ⟨hf, hds⟩ := parsed_zone (o := o) he hp h0
  have hz := reach_elements he hp hr
  have hends : ∀ d ∈ z.elements.map (descOf env), d.Ends env o := by
    intro d hd
    obtain ⟨e, he', rfl⟩ := List.mem_map.mp hd
    exact parsed_ends (hp e he')
  obtain ⟨fuel, w, hw⟩ := expandElements_ends start hs hends hz
  have : ∃ v, z1.expandAll env o o' fuel start stop = some v := by
    unfold Zone.expandAll
    rw [hw]
    exact ⟨_, rfl⟩
  obtain ⟨⟨all, z2⟩, h⟩ := this
  refine ⟨fuel, all, z2, fun n hn => ?_⟩
  unfold Zone.expandAll at h ⊢
  rw [Zone.expandElements_mono hn hw, ← h, hw]

end

/-! ## Examples -/

/-- The local times of the transitions listed by a call, and by a call after another one. -/
def listed (z : Zone) (start stop : DateTime) : Option (List DateTime) :=
  (z.expandAll .empty RecurrenceSet.inOrder inOrder' 30 (some start) stop).map fun v =>
    v.1.map (·.loc)

def listedAfter (z : Zone) (start stop' stop : DateTime) : Option (List DateTime) :=
  (z.expandAll .empty RecurrenceSet.inOrder inOrder' 30 (some start) stop').bind fun v =>
    listed v.2 start stop

/-- The conditions of `C120_exact_partial` are met by Eastern Time with an end in 2009 (those of
`C120_range_partial` by `eastern_meets`). -/
example : (∀ e ∈ eastern.elements, ParsedElement e) ∧ eastern.maxYear = none ∧
    Clock (minute 2009 7 1 0 0 0) ∧
    (∀ e ∈ eastern.elements, e.recurrences.hasRecurrence = true →
      e.start.year < (minute 2009 7 1 0 0 0).year) ∧
    (∀ e ∈ eastern.elements, e.recurrences.hasRecurrence = false →
      e.start ≠ minute 2009 7 1 0 0 0) := by
  refine ⟨eastern_parsed, rfl, ?_, by decide, by decide⟩
  unfold Clock
  decide

/-- Eastern Time from 2008 to the middle of 2009, with the UTC times. -/
example : (eastern.expandAll .empty RecurrenceSet.inOrder backwards' 30
      (some (minute 2008 1 1 0 0 0)) (minute 2009 7 1 0 0 0)).map (·.1) = some [
    ⟨minute 2008 3 9 2 0 0, { minute 2008 3 9 7 0 0 with utc := true }, -18000, -14400⟩,
    ⟨minute 2008 11 2 2 0 0, { minute 2008 11 2 6 0 0 with utc := true }, -14400, -18000⟩,
    ⟨minute 2009 3 8 2 0 0, { minute 2009 3 8 7 0 0 with utc := true }, -18000, -14400⟩] := by
  decide +kernel

/-- C120 fails: up to the end of 2007, the year of its first transitions, Eastern Time has none. -/
theorem C120_fails_year :
    listed eastern (minute 2007 1 1 0 0 0) (minute 2007 12 31 0 0 0) = some [] ∧
    listed eastern (minute 2007 1 1 0 0 0) (minute 2008 1 1 0 0 0) =
      some [easternDaylight, easternStandard] := by decide +kernel

/-- C120 fails: after a call up to February 2009, one up to December 2009 lists no transition in
2009. -/
theorem C120_fails_history :
    listedAfter eastern (minute 2008 6 1 0 0 0) (minute 2009 2 1 0 0 0) (minute 2009 12 1 0 0 0) =
      some [minute 2008 11 2 2 0 0] ∧
    listed eastern (minute 2008 6 1 0 0 0) (minute 2009 12 1 0 0 0) =
      some [minute 2008 11 2 2 0 0, minute 2009 3 8 2 0 0, minute 2009 11 1 2 0 0] := by
  decide +kernel

/-- C120 fails: a transition of an element without recurrences is listed though it is at the end. -/
theorem C120_fails_end :
    listed (single (minute 2010 3 11 2 0 0)) (minute 2000 1 1 0 0 0) (minute 2010 3 11 2 0 0) =
      some [minute 2010 3 11 2 0 0] := by decide +kernel

end PyCal
