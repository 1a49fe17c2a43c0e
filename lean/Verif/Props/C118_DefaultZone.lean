import Verif.Model.TimezoneObject

/-!
# C118: the default time zone is the one that was set
-/

namespace PyCal
open TzObj

namespace Z118

/-- The offset that a time zone has, whatever the default time zone: `db` gives those of the named ones.  There is none for a
floating one. -/
def rightOffset (db : String → Int) (z : TzObj) : Option Int :=
  match z.utc, z.zone with
  | true, _ => some 0
  | false, some (.fixed n) => some n
  | false, some (.name s) => some (db s)
  | false, none => none

theorem utc_name : isUtcName "UTC" = true := by decide +kernel

end Z118
open Z118

/-- C118: a time zone is either UTC, or floating, or has an identifier. -/
theorem C118_kinds (z : TzObj) : (z.utc = true ∨ z.floating = true ∨ z.hasTZID = true) ∧
    ¬ (z.utc = true ∧ z.floating = true) ∧ ¬ (z.utc = true ∧ z.hasTZID = true) ∧ ¬ (z.floating = true ∧ z.hasTZID = true) := by
  obtain ⟨u, t⟩ := z
  cases u <;> cases t <;> simp [TzObj.floating, TzObj.hasTZID]

/-- The identifier of the default time zone is the one that was set, whatever it is. -/
theorem C118_id (t : Option TzId) : ∃ d, setDefaultID t = some d ∧ getDefaultID d = t := by
  unfold setDefaultID
  by_cases h : t = some (.name "UTC")
  · rw [if_pos h, h]
    exact ⟨_, rfl, rfl⟩
  · rw [if_neg h]
    exact ⟨_, rfl, rfl⟩

/-- A time zone made without arguments is the default one, and a new manager does not change that. -/
theorem C118_new (t : Option TzId) :
    new (setDefaultID t) none none = setDefaultID t ∧ newManager (setDefaultID t) = setDefaultID t := by
  obtain ⟨d, hd, -⟩ := C118_id t
  rw [hd]
  exact ⟨rfl, rfl⟩

/-- Before any is set it is UTC. -/
theorem C118_first : ∃ d, new none none none = some d ∧ getDefaultID d = some (.name "UTC") ∧ d.floating = false :=
  ⟨_, rfl, rfl, rfl⟩

/-- C118 (partial): with the default time zone set by a name, a time zone made without arguments is the one made with
that name, just if the name is not another spelling of UTC.

Missing: other spellings, `C118_fails_utc`. -/
theorem C118_name_partial (s : String) (d : Option TzObj) :
    new (setDefaultID (some (.name s))) none none = new d none (some (.name s)) ↔ isUtcName s = false ∨ s = "UTC" := by
  unfold setDefaultID
  by_cases h : s = "UTC"
  · subst h
    rw [if_pos rfl]
    simp [new, utc_name]
  · rw [if_neg (by simpa using h)]
    simp [new, h]

/-- Both cases occur. -/
example : isUtcName "US/Eastern" = false ∧ isUtcName "utc" = true := by decide +kernel

/-- C118 fails: `utc` as the name of the default time zone is not UTC, although it is as the name of a new one. -/
theorem C118_fails_utc (d : Option TzObj) :
    (setDefaultID (some (.name "utc"))).map (·.utc) = some false ∧ (new d none (some (.name "utc"))).map (·.utc) = some true := by
  constructor
  · rfl
  · have : isUtcName "utc" = true := by decide +kernel
    simp [new, this]

/-- C118 (partial): a floating time has the offset of the default time zone, if that was set by a name, or by a text
for UTC; for no time zone, as which UTC is looked up, the data must have 0.

Missing: a default time zone given by a number, `C118_fails_number`. -/
theorem C118_floating_partial (db : String → Int) (ask : Option TzId → Int) (hask : ∀ s, ask (some (.name s)) = db s)
    (h0 : ask none = 0) (s : String) (d f : TzObj) (hd : setDefaultID (some (.name s)) = some d) (hf : f.floating = true) :
    some (f.offset ask d) = rightOffset db d := by
  obtain ⟨u, z⟩ := f
  simp only [TzObj.floating, Bool.and_eq_true, Bool.not_eq_true', Option.isNone_iff_eq_none] at hf
  obtain ⟨rfl, rfl⟩ := hf
  unfold setDefaultID at hd
  by_cases h : s = "UTC"
  · rw [if_pos (by rw [h])] at hd
    cases hd
    simp [offset, rightOffset, h0]
  · rw [if_neg (by simpa using h)] at hd
    cases hd
    simp [offset, rightOffset, hask]

/-- The hypotheses can be met. -/
example : ∃ d, setDefaultID (some (.name "US/Eastern")) = some d ∧ (⟨false, none⟩ : TzObj).floating = true ∧
    (⟨false, none⟩ : TzObj).offset (fun t => if t = some (.name "US/Eastern") then -18000 else 0) d = -18000 :=
  ⟨⟨false, some (.name "US/Eastern")⟩, rfl, rfl, by decide⟩

/-- C118 fails: if the default time zone has an offset as a number, a floating time does not have that offset but what the data
has for the number, which without data for it is 0. -/
theorem C118_fails_number (n : Int) (hn : n ≠ 0) (ask : Option TzId → Int) (ha : ask (some (.fixed n)) = 0) (f : TzObj)
    (hf : f.floating = true) :
    ∃ d, setDefaultID (some (.fixed n)) = some d ∧ d.offset ask d = n ∧ f.offset ask d ≠ n := by
  obtain ⟨u, z⟩ := f
  simp only [TzObj.floating, Bool.and_eq_true, Bool.not_eq_true', Option.isNone_iff_eq_none] at hf
  obtain ⟨rfl, rfl⟩ := hf
  refine ⟨⟨false, some (.fixed n)⟩, by simp [setDefaultID, new], rfl, ?_⟩
  simp only [offset, Bool.false_eq_true, if_false, ha]
  exact Ne.symm hn

/-- C118 fails: there is no time zone made from an offset alone. -/
theorem C118_fails_new (d : Option TzObj) (n : Int) : new d none (some (.fixed n)) = none := rfl

/-- A copy is the same. -/
theorem C118_duplicate (z : TzObj) : z.duplicate = some z := rfl

/-- A time zone matches itself and matching is symmetric. -/
theorem C118_match (a b : TzObj) : a.equals a = true ∧ a.equals b = b.equals a := by
  obtain ⟨u, z⟩ := a
  obtain ⟨v, y⟩ := b
  constructor
  · cases u <;> cases z <;> simp [TzObj.equals, TzObj.floating, compareTzSafe]
  · cases u <;> cases v <;> cases z <;> cases y <;> simp [TzObj.equals, TzObj.floating, compareTzSafe, eq_comm]

/-- Time zones that are not floating match just if both are UTC or neither is and they have the same identifier. -/
theorem C118_match_iff (a b : TzObj) (ha : a.floating = false) (hb : b.floating = false) :
    a.equals b = true ↔ a.utc = true ∧ b.utc = true ∨ a.utc = false ∧ b.utc = false ∧ a.zone = b.zone := by
  obtain ⟨u, z⟩ := a
  obtain ⟨v, y⟩ := b
  unfold TzObj.equals
  rw [ha, hb]
  cases u <;> cases v <;> simp [compareTzSafe]

/-- C118 fails: matching is not transitive, as a floating time zone matches each. -/
theorem C118_fails_match (a b f : TzObj) (hf : f.floating = true) : a.equals f = true ∧ f.equals b = true := by
  simp [TzObj.equals, hf]

/-- Two that do not match. -/
example : (⟨true, none⟩ : TzObj).equals ⟨false, some (.name "US/Eastern")⟩ = false := by decide

/-- C118 (partial): the comparison of time zone objects agrees with that of the time zones of date-times, unless an
identifier is empty or an offset of 0.

Missing: those, `C118_fails_zero`. -/
theorem C118_same_partial (a b : TzObj) (ha : a.zone = none ∨ tzTruthy a.zone = true)
    (hb : b.zone = none ∨ tzTruthy b.zone = true) : a.equals b = tzSame a.utc a.zone b.utc b.zone := by
  have key : ∀ z : TzObj, (z.zone = none ∨ tzTruthy z.zone = true) → z.floating = tzIsFloat z.utc z.zone := by
    rintro ⟨u, z⟩ (h | h)
    · simp only at h; subst h; rfl
    · simp only at h
      cases z with
      | none => cases h
      | some t => simp [TzObj.floating, tzIsFloat, h]
  unfold TzObj.equals tzSame
  rw [key a ha, key b hb]

/-- C118 fails: the offset 0 matches UTC, or an offset of an hour, for date-times and not for time zone objects. -/
theorem C118_fails_zero (b : TzObj) (hb : b.floating = false) (h0 : b.zone ≠ some (.fixed 0)) :
    TzObj.equals ⟨false, some (.fixed 0)⟩ b = false ∧ tzSame false (some (.fixed 0)) b.utc b.zone = true := by
  obtain ⟨u, z⟩ := b
  constructor
  · unfold TzObj.equals
    rw [hb]
    cases u
    · simp [TzObj.floating, compareTzSafe]
      exact fun h => h0 h.symm
    · simp [TzObj.floating]
  · simp [tzSame, tzIsFloat, tzTruthy]

/-- The hypotheses can be met. -/
example : (⟨false, some (.fixed 3600)⟩ : TzObj).floating = false := rfl

end PyCal
