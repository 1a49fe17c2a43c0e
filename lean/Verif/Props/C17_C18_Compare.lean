import Verif.Lemmas.Compare
import Verif.Props.C01_C05_Arithmetic

/-!
# C17, C18: comparison and hashing of date-times

* C17: `<`, `==`, `>` on date-times are mutually exclusive, antisymmetric and transitive.
  The first two hold for all values.  Transitivity is false across kinds (date-only next to
  date-times, floating times next to two zones, zones with a spring-forward gap next to UTC);
  it is proved inside each of three families.
* C18: equal date-times have equal hashes.  False across kinds, proved within.
-/

namespace PyCal.DateTime
open Spec

/-! ## C17 -/

/-- C17 (all values): exactly one of `a < b`, `a == b`, `a > b` is true. -/
theorem C17_trichotomy (env : TzEnv) (a b : DateTime) :
    (a.lt env b = true ∧ a.eq env b = false ∧ a.gt env b = false) ∨
    (a.lt env b = false ∧ a.eq env b = true ∧ a.gt env b = false) ∨
    (a.lt env b = false ∧ a.eq env b = false ∧ a.gt env b = true) := by
  simp only [lt, eq, gt, decide_eq_true_eq, decide_eq_false_iff_not]
  omega

/-- C17 (all values): `<` and `>` mirror each other, `==` is symmetric and reflexive, `<=` and
`>=` are "less or equal" and "greater or equal". -/
theorem C17_antisymm (env : TzEnv) (a b : DateTime) :
    a.lt env b = b.gt env a ∧ a.eq env b = b.eq env a ∧ a.eq env a = true ∧
    a.le env b = (a.lt env b || a.eq env b) ∧ a.ge env b = (a.gt env b || a.eq env b) ∧
    a.le env b = b.ge env a := by
  have h := compare_neg env a b
  have h' := compare_neg env a a
  simp only [lt, eq, gt, le, ge, ← Bool.decide_or, decide_eq_decide, decide_eq_true_eq, h]
  refine ⟨?_, ?_, ?_, ?_, ?_, ?_⟩ <;> omega

/-- Comparison is transitive on a family of date-times. -/
structure Transitive (env : TzEnv) (K : DateTime → Prop) : Prop where
  lt_lt : ∀ a b c, K a → K b → K c → a.lt env b = true → b.lt env c = true → a.lt env c = true
  eq_eq : ∀ a b c, K a → K b → K c → a.eq env b = true → b.eq env c = true → a.eq env c = true
  lt_eq : ∀ a b c, K a → K b → K c → a.lt env b = true → b.eq env c = true → a.lt env c = true
  eq_lt : ∀ a b c, K a → K b → K c → a.eq env b = true → b.lt env c = true → a.lt env c = true

/-- The date-only values. -/
def IsDate (t : DateTime) : Prop := t.dateOnly = true

/-- The date-times that are floating or in the zone `(u, z)`. -/
def InZone (u : Bool) (z : Option TzId) (t : DateTime) : Prop :=
  t.dateOnly = false ∧ (t.floating = true ∨ t.utc = u ∧ (u = true ∨ t.tzid = z))

/-- The date-times that denote instants: a valid time in UTC or in some zone. -/
def IsInstant (t : DateTime) : Prop := t.Valid ∧ t.dateOnly = false ∧ t.floating = false

/-- In every named zone, later clock times are later instants.  (Fails for a zone with a
spring-forward gap if clock times inside the gap are used.) -/
def Regular (env : TzEnv) : Prop :=
  ∀ (s : String) (a b : DateTime), a.Valid → b.Valid → a.utc = false → b.utc = false →
    a.tzid = some (.name s) → b.tzid = some (.name s) →
    timeNum a.civil < timeNum b.civil → a.posix env < b.posix env

theorem transitive_of_date {env : TzEnv} {K : DateTime → Prop}
    (h : ∀ a b, K a → K b → compare env a b = cmpDate a b) : Transitive env K := by
  constructor <;> intro a b c ha hb hc h1 h2 <;>
    simp only [lt, eq, decide_eq_true_eq, h a b ha hb, h b c hb hc, h a c ha hc, cmpDate_lt,
      cmpDate_eq] at * <;> simp only [Date.lt, date, Date.mk.injEq] at * <;> omega

theorem transitive_of_fields {env : TzEnv} {K : DateTime → Prop}
    (h : ∀ a b, K a → K b → compare env a b = cmpFields a b) : Transitive env K := by
  constructor <;> intro a b c ha hb hc h1 h2 <;>
    simp only [lt, eq, decide_eq_true_eq, h a b ha hb, h b c hb hc, h a c ha hc, cmpFields_lt,
      cmpFields_eq] at * <;>
    simp only [FieldsLt, Date.lt, civil, date, Date.mk.injEq, Time.mk.injEq] at * <;> omega

theorem transitive_of_key {env : TzEnv} {K : DateTime → Prop} (k : DateTime → Int)
    (h : ∀ a b, K a → K b → (compare env a b < 0 ↔ k a < k b) ∧ (compare env a b = 0 ↔ k a = k b)) :
    Transitive env K := by
  constructor <;> intro a b c ha hb hc h1 h2 <;>
    simp only [lt, eq, decide_eq_true_eq, (h a b ha hb).1, (h b c hb hc).1, (h a c ha hc).1,
      (h a b ha hb).2, (h b c hb hc).2, (h a c ha hc).2] at * <;> omega

/-- C17 (partial): comparison is a transitive order on date-only values, and `a < b` means an
earlier calendar date.

Missing: date-only values together with others, `C17_fails_dates`. -/
theorem C17_dates_partial (env : TzEnv) :
    Transitive env IsDate ∧
    ∀ a b, IsDate a → IsDate b →
      (a.lt env b = true ↔ a.date.lt b.date) ∧ (a.eq env b = true ↔ a.date = b.date) := by
  have h : ∀ a b, IsDate a → IsDate b → compare env a b = cmpDate a b := by
    intro a b ha _
    unfold IsDate at ha
    simp [compare, ha]
  refine ⟨transitive_of_date h, fun a b ha hb => ?_⟩
  simp only [lt, eq, decide_eq_true_eq, h a b ha hb]
  exact ⟨cmpDate_lt a b, cmpDate_eq a b⟩

theorem inZone_same {u : Bool} {z : Option TzId} {a b : DateTime} (ha : InZone u z a)
    (hb : InZone u z b) : tzSame a.utc a.tzid b.utc b.tzid = true := by
  obtain ⟨_, ha⟩ := ha
  obtain ⟨_, hb⟩ := hb
  unfold tzSame
  split
  · rfl
  · rename_i hf
    simp only [floating, tzIsFloat] at *
    have ha' : a.utc = u ∧ (u = true ∨ a.tzid = z) := by
      rcases ha with ha | ha
      · simp [ha] at hf
      · exact ha
    have hb' : b.utc = u ∧ (u = true ∨ b.tzid = z) := by
      rcases hb with hb | hb
      · simp [hb] at hf
      · exact hb
    obtain ⟨ha1, ha2⟩ := ha'
    obtain ⟨hb1, hb2⟩ := hb'
    rw [ha1, hb1]
    simp only [bne_self_eq_false, Bool.false_eq_true, if_false, compareTzSafe]
    rcases ha2 with ha2 | ha2
    · simp [ha2]
    · rcases hb2 with hb2 | hb2
      · simp [hb2]
      · simp [ha2, hb2]

/-- C17 (partial): comparison is a transitive order on the date-times that are floating or in
one fixed zone, and it is the order of the clock readings.

Missing: floating times together with several zones, `C17_fails_floating`. -/
theorem C17_one_zone_partial (env : TzEnv) (u : Bool) (z : Option TzId) :
    Transitive env (InZone u z) ∧
    ∀ a b, InZone u z a → InZone u z b → a.Valid → b.Valid →
      (a.lt env b = true ↔ ∃ n : Nat, iter tick (n + 1) a.civil = b.civil) ∧
      (a.eq env b = true ↔ a.civil = b.civil) := by
  have h : ∀ a b, InZone u z a → InZone u z b → compare env a b = cmpFields a b := by
    intro a b ha hb
    simp [compare, ha.1, hb.1, inZone_same ha hb]
  refine ⟨transitive_of_fields h, fun a b ha hb hva hvb => ?_⟩
  simp only [lt, eq, decide_eq_true_eq, h a b ha hb]
  refine ⟨?_, cmpFields_eq a b⟩
  rw [cmpFields_lt, fieldsLt_iff_timeNum hva.1 hvb.1]
  constructor
  · intro hl
    obtain ⟨n, hn⟩ : ∃ n : Nat, timeNum b.civil = timeNum a.civil + ((n + 1 : Nat) : Int) :=
      ⟨(timeNum b.civil - timeNum a.civil).toNat - 1, by omega⟩
    refine ⟨n, ?_⟩
    have := iter_tick hva.1 (n + 1)
    exact timeNum_inj this.1 hvb.1 (by rw [this.2, hn])
  · rintro ⟨n, hn⟩
    have := iter_tick hva.1 (n + 1)
    rw [hn] at this
    omega

theorem posix_of_utc (env : TzEnv) {a : DateTime} (h : a.utc = true) :
    a.posix env = a.secondsOfDay + a.daysSince1970 * 86400 := by
  simp [posix, tzOffset, h]

/-- Within one zone (or UTC) clock order is instant order. -/
theorem same_zone_mono {env : TzEnv} (hr : Regular env) {a b : DateTime} (ha : IsInstant a)
    (hb : IsInstant b) (hs : tzSame a.utc a.tzid b.utc b.tzid = true)
    (hl : timeNum a.civil < timeNum b.civil) : a.posix env < b.posix env := by
  obtain ⟨hva, hda, hfa⟩ := ha
  obtain ⟨hvb, hdb, hfb⟩ := hb
  unfold tzSame at hs
  simp only [floating] at hfa hfb
  simp only [tzIsFloat, hfa, hfb, Bool.or_self, Bool.false_eq_true, if_false] at hs
  by_cases hu : a.utc = true
  · have hu' : b.utc = true := by
      cases hb : b.utc <;> simp_all
    have : ({ b with tzid := a.tzid } : DateTime).posix env = b.posix env := by
      rw [posix_of_utc env hu', posix_of_utc env (by exact hu')]; rfl
    rw [← this]
    exact posix_strictMono env (a := a) (b := { b with tzid := a.tzid }) (Or.inl hu)
      ⟨by simp [hda, hdb], by simp [hu, hu'], rfl⟩ hva hvb hl
  · have hu : a.utc = false := by simpa using hu
    have hu' : b.utc = false := by
      cases hb : b.utc <;> simp_all
    simp only [hu, hu', bne_self_eq_false, Bool.false_eq_true, if_false, Bool.false_or,
      compareTzSafe, decide_eq_true_eq] at hs
    match hz : a.tzid with
    | none => simp [hu, hz, tzTruthy] at hfa
    | some (.fixed n) =>
      exact posix_strictMono env (Or.inr (Or.inl ⟨n, hz⟩))
        ⟨by rw [hda, hdb], by rw [hu, hu'], hs.symm⟩ hva hvb hl
    | some (.name s) => exact hr s a b hva hvb hu hu' hz (by rw [← hs, hz]) hl

theorem compare_instants {env : TzEnv} (hr : Regular env) {a b : DateTime} (ha : IsInstant a)
    (hb : IsInstant b) :
    (compare env a b < 0 ↔ a.posix env < b.posix env) ∧
    (compare env a b = 0 ↔ a.posix env = b.posix env) := by
  by_cases hs : tzSame a.utc a.tzid b.utc b.tzid = true
  · have hc : compare env a b = cmpFields a b := by simp [compare, ha.2.1, hb.2.1, hs]
    rw [hc, cmpFields_lt, cmpFields_eq, fieldsLt_iff_timeNum ha.1.1 hb.1.1]
    have h1 := same_zone_mono hr ha hb hs
    have h2 := same_zone_mono hr hb ha (by rw [tzSame_comm]; exact hs)
    have h3 : timeNum a.civil = timeNum b.civil → a.posix env = b.posix env := by
      intro he
      have hc := timeNum_inj ha.1.1 hb.1.1 he
      have hf := ha.2.2
      have hf' := hb.2.2
      simp only [floating] at hf hf'
      simp only [tzSame, tzIsFloat, hf, hf', Bool.or_self, Bool.false_eq_true, if_false] at hs
      by_cases hu : a.utc = true
      · have hu' : b.utc = true := by
          cases hb : b.utc <;> simp_all
        rw [posix_of_utc env hu, posix_of_utc env hu']
        simp only [civil, date, Time.mk.injEq, Date.mk.injEq] at hc
        simp only [secondsOfDay, daysSince1970, hc]
      · have hu : a.utc = false := by simpa using hu
        have hu' : b.utc = false := by
          cases hb : b.utc <;> simp_all
        simp only [hu, hu', bne_self_eq_false, Bool.false_eq_true, if_false, Bool.false_or,
          compareTzSafe, decide_eq_true_eq] at hs
        rw [eq_of_civil ⟨by rw [ha.2.1, hb.2.1], by rw [hu, hu'], hs⟩ hc]
    have h4 : a.civil = b.civil ↔ timeNum a.civil = timeNum b.civil :=
      ⟨fun h => by rw [h], timeNum_inj ha.1.1 hb.1.1⟩
    rw [h4]
    omega
  · have hc : compare env a b = cmpInt (a.posix env) (b.posix env) := by
      simp [compare, ha.2.1, hb.2.1, hs]
    rw [hc]
    exact ⟨cmpInt_lt _ _, cmpInt_eq _ _⟩

/-- C17 (partial): comparison is a transitive order on instants in any mixture of zones, namely
the order of their absolute times, if in each zone later clock times are later instants.

Missing: times that the clock of the zone leaves out, `C17_fails_gap`, and mixtures with dates and floating times. -/
theorem C17_instants_partial (env : TzEnv) (hr : Regular env) :
    Transitive env IsInstant ∧
    ∀ a b, IsInstant a → IsInstant b →
      (a.lt env b = true ↔ a.posix env < b.posix env) ∧
      (a.eq env b = true ↔ a.posix env = b.posix env) := by
  refine ⟨transitive_of_key (posix env) fun a b ha hb => compare_instants hr ha hb,
    fun a b ha hb => ?_⟩
  simp only [lt, eq, decide_eq_true_eq]
  exact compare_instants hr ha hb

/-- An environment of zones with fixed offsets is regular. -/
theorem regular_of_fixed {env : TzEnv} (off : String → Int)
    (h : ∀ s t r, env (some s) t r = off s) : Regular env := by
  intro s a b hva hvb hu hu' hz hz' hl
  have key : ∀ t : DateTime, t.utc = false → t.tzid = some (.name s) →
      t.posix env = ({ t with tzid := some (.fixed (off s)), dateOnly := false } : DateTime).posix env := by
    intro t h1 h2
    simp [posix, tzOffset, h1, h2, h, secondsOfDay, daysSince1970]
  rw [key a hu hz, key b hu' hz']
  exact posix_strictMono env (Or.inr (Or.inl ⟨off s, rfl⟩)) ⟨rfl, by simp [hu, hu'], rfl⟩
    ⟨hva.1, by simp⟩ ⟨hvb.1, by simp⟩ hl

/-- C17 fails with date-only values in the mixture: 10:00 equals the date, the date equals 09:00,
but 10:00 is after 09:00. -/
theorem C17_fails_dates :
    ∃ a b c : DateTime, a.Valid ∧ b.Valid ∧ c.Valid ∧
      a.eq .empty b = true ∧ b.eq .empty c = true ∧ a.gt .empty c = true :=
  ⟨⟨2020, 1, 1, 10, 0, 0, false, true, none⟩, ⟨2020, 1, 1, 0, 0, 0, true, false, none⟩,
    ⟨2020, 1, 1, 9, 0, 0, false, true, none⟩, by decide +kernel⟩

/-- C17 fails for floating times next to times in two zones: 12:00+01:00 equals floating 12:00,
which equals 12:00Z, but 12:00+01:00 is before 12:00Z. -/
theorem C17_fails_floating :
    ∃ a b c : DateTime, a.Valid ∧ b.Valid ∧ c.Valid ∧
      a.eq .empty b = true ∧ b.eq .empty c = true ∧ a.lt .empty c = true :=
  ⟨⟨2020, 1, 1, 12, 0, 0, false, false, some (.fixed 3600)⟩,
    ⟨2020, 1, 1, 12, 0, 0, false, false, none⟩,
    ⟨2020, 1, 1, 12, 0, 0, false, true, none⟩, by decide +kernel⟩

/-- A zone going from -5h to -4h at 2020-03-08T02:00:00 local time. -/
def springEnv : TzEnv := fun _ t _ =>
  if Date.lt t.date ⟨2020, 3, 8⟩ ∨ t.date = ⟨2020, 3, 8⟩ ∧ t.hours < 2 then -18000 else -14400

/-- C17 fails for instants when a clock time inside a spring-forward gap takes part: by the clock
01:30 is before 02:15, but 02:15 (-4h) = 06:15Z < 06:20Z < 06:30Z = 01:30 (-5h). -/
theorem C17_fails_gap :
    ∃ a b c : DateTime, IsInstant a ∧ IsInstant b ∧ IsInstant c ∧
      a.lt springEnv b = true ∧ b.lt springEnv c = true ∧ c.lt springEnv a = true :=
  ⟨⟨2020, 3, 8, 1, 30, 0, false, false, some (.name "Z")⟩,
    ⟨2020, 3, 8, 2, 15, 0, false, false, some (.name "Z")⟩,
    ⟨2020, 3, 8, 6, 20, 0, false, true, none⟩, by unfold IsInstant; decide +kernel⟩

/-- The families are inhabited by unequal values: two instants in different zones. -/
example : IsInstant ⟨2020, 1, 1, 12, 0, 0, false, false, some (.name "X")⟩ ∧
    IsInstant ⟨2020, 1, 1, 12, 0, 0, false, true, none⟩ ∧
    InZone false (some (.name "X")) ⟨2020, 1, 1, 12, 0, 0, false, false, some (.name "X")⟩ ∧
    lt (fun _ _ _ => 3600) ⟨2020, 1, 1, 12, 0, 0, false, false, some (.name "X")⟩
      ⟨2020, 1, 1, 12, 0, 0, false, true, none⟩ = true ∧
    Regular (fun _ _ _ => 3600) :=
  ⟨by unfold IsInstant; decide +kernel, by unfold IsInstant; decide +kernel,
    by unfold InZone; decide +kernel, by decide +kernel, regular_of_fixed (fun _ => 3600) (by simp)⟩

/-! ## C18 -/

/-- Two date-times of the same timezone: both UTC or the same zone id (or both without). -/
def SameZone (a b : DateTime) : Prop := a.utc = b.utc ∧ (a.utc = true ∨ a.tzid = b.tzid)

/-- C18 (partial): equal date-times have equal hashes if both are date-only in the same zone, or
neither is date-only and they are in the same zone or both not floating.
The environment must not look at an irrelevant field (`tzid` of a UTC time), which holds because
`tzOffset` of a UTC time is `0`.  The unrestricted statement is false: `C18_fails_dates`,
`C18_fails_floating`. -/
theorem C18_hash_partial (env : TzEnv) (a b : DateTime) (ha : a.Valid) (hb : b.Valid)
    (hd : a.dateOnly = b.dateOnly)
    (hz : SameZone a b ∨ a.dateOnly = false ∧ a.floating = false ∧ b.floating = false)
    (h : a.eq env b = true) : a.hashKey env = b.hashKey env := by
  have hsame : SameZone a b → a.civil = b.civil → a.posix env = b.posix env := by
    rintro ⟨hu, hz⟩ hc
    by_cases hut : a.utc = true
    · rw [posix_of_utc env hut, posix_of_utc env (hu ▸ hut)]
      simp only [civil, date, Time.mk.injEq, Date.mk.injEq] at hc
      simp only [secondsOfDay, daysSince1970, hc]
    · rw [eq_of_civil ⟨hd, hu, hz.resolve_left hut⟩ hc]
  simp only [eq, decide_eq_true_eq] at h
  unfold hashKey
  by_cases hdo : a.dateOnly = true
  · have hc : compare env a b = cmpDate a b := by simp [compare, hdo]
    rw [hc, cmpDate_eq] at h
    refine hsame (hz.resolve_right (by simp [hdo])) ?_
    have h1 := ha.2 hdo
    have h2 := hb.2 (hd ▸ hdo)
    simp only [civil, h, h1, h2]
  · have hdo : a.dateOnly = false := by simpa using hdo
    have hdo' : b.dateOnly = false := hd ▸ hdo
    by_cases hs : tzSame a.utc a.tzid b.utc b.tzid = true
    · have hc : compare env a b = cmpFields a b := by simp [compare, hdo, hdo', hs]
      rw [hc, cmpFields_eq] at h
      rcases hz with hz | ⟨_, hf, hf'⟩
      · exact hsame hz h
      · refine hsame ?_ h
        simp only [floating] at hf hf'
        simp only [tzSame, tzIsFloat, hf, hf', Bool.or_self, Bool.false_eq_true, if_false,
          compareTzSafe] at hs
        unfold SameZone
        cases hu : a.utc <;> cases hu' : b.utc <;> simp_all
    · have hc : compare env a b = cmpInt (a.posix env) (b.posix env) := by
        simp [compare, hdo, hdo', hs]
      rw [hc, cmpInt_eq] at h
      exact h

/-- C18 fails: a date equals every time on that day but has another hash. -/
theorem C18_fails_dates :
    ∃ a b : DateTime, a.Valid ∧ b.Valid ∧ a.eq .empty b = true ∧
      a.hashKey .empty ≠ b.hashKey .empty :=
  ⟨⟨2020, 1, 1, 10, 0, 0, false, true, none⟩, ⟨2020, 1, 1, 0, 0, 0, true, false, none⟩,
    by decide +kernel⟩

/-- C18 fails: a floating time equals the same clock time in every zone but has another hash. -/
theorem C18_fails_floating :
    ∃ a b : DateTime, a.Valid ∧ b.Valid ∧ a.dateOnly = false ∧ b.dateOnly = false ∧
      a.eq .empty b = true ∧ a.hashKey .empty ≠ b.hashKey .empty :=
  ⟨⟨2020, 1, 1, 12, 0, 0, false, false, some (.fixed 3600)⟩,
    ⟨2020, 1, 1, 12, 0, 0, false, false, none⟩, by decide +kernel⟩

/-- The hypotheses of `C18_hash_partial` are met by two different descriptions of one instant. -/
example : let a : DateTime := ⟨2020, 1, 1, 13, 0, 0, false, false, some (.fixed 3600)⟩
    let b : DateTime := ⟨2020, 1, 1, 12, 0, 0, false, true, none⟩
    a.Valid ∧ b.Valid ∧ a.floating = false ∧ b.floating = false ∧ a.eq .empty b = true := by
  decide +kernel

end PyCal.DateTime
