import Verif.Model.DateTimeObject
import Verif.Props.C01_C05_Arithmetic

/-!
# C19: the cached absolute time is never stale

After any sequence of method calls on a `DateTime`, `getPosixTime()` is the value computed from
the current fields.

This is false as it stands, in three ways: a public call
`timeZoneSecondsOffset(relative_to_utc=True)` stores the other kind of offset in the cache
(`C19_fails_offset_query`); a `parse` that raises half way leaves new fields with old caches
(`C19_fails_parse`); `adjustToUTC` restores the cached value although the library's day count
jumps between the two calendar years (`C19_fails_century`).  It is proved for all sequences that
avoid these three situations (`C19_posix_partial`); for them the caches do not influence the fields
either.
-/

namespace PyCal.Obj
open DateTime

/-- A freshly made object with the given fields. -/
def fresh (t : DateTime) : Obj := ⟨t, none, false, 0⟩

/-- The situations in which a call cannot leave a stale cache behind. -/
def Safe (env : TzEnv) (o : Obj) : Op → Prop
  | .timeZoneSecondsOffset relativeToUtc => relativeToUtc = false
  | .parseFailing _ _ _ => False
  | .adjustToUTC => 1 ≤ o.dt.month ∧ o.dt.month ≤ 12 ∧
      NoSkip o.dt.year (o.adjustToUTC env).dt.year
  | _ => True

/-- Every call of a sequence is made in such a situation. -/
def SafeRun (env : TzEnv) : Obj → List Op → Prop
  | _, [] => True
  | o, op :: ops => Safe env o op ∧ SafeRun env (o.step env op) ops

/-- The caches agree with the fields. -/
def Good (env : TzEnv) (o : Obj) : Prop :=
  (∀ n, o.tzOff = some n → o.dt.utc = false → n = o.dt.tzOffset env) ∧
  (o.posixCached = true → o.dt.floating = false → o.posixTime = o.dt.posix env)

theorem good_fresh (env : TzEnv) (t : DateTime) : Good env (fresh t) := by
  simp [Good, fresh]

theorem good_assign (env : TzEnv) (o : Obj) (t : DateTime) : Good env (o.assign t) := by
  simp [Good, assign, changed]

theorem good_assignIfNew {env : TzEnv} {o : Obj} (h : Good env o) (t : DateTime) :
    Good env (o.assignIfNew t) := by
  unfold assignIfNew
  split
  · exact h
  · exact good_assign env o t

theorem assignIfNew_dt (o : Obj) (t : DateTime) : (o.assignIfNew t).dt = t := by
  unfold assignIfNew
  split
  · rename_i h; exact h.symm
  · rfl

theorem offset_value {env : TzEnv} {o : Obj} (h : Good env o) :
    (o.timeZoneSecondsOffset env false).1 = o.dt.tzOffset env := by
  unfold timeZoneSecondsOffset
  split
  · rename_i hu; simp [tzOffset, hu]
  · rename_i hu
    split
    · rename_i n hn; exact h.1 n hn (by simpa using hu)
    · rfl

theorem offset_dt (env : TzEnv) (o : Obj) (r : Bool) :
    (o.timeZoneSecondsOffset env r).2.dt = o.dt := by
  unfold timeZoneSecondsOffset
  split
  · rfl
  · split <;> rfl

theorem good_offset {env : TzEnv} {o : Obj} (h : Good env o) :
    Good env (o.timeZoneSecondsOffset env false).2 := by
  unfold timeZoneSecondsOffset
  split
  · exact h
  · split
    · exact h
    · refine ⟨fun n hn _ => ?_, h.2⟩
      simpa using hn.symm

theorem posix_value {env : TzEnv} {o : Obj} (h : Good env o) :
    (o.getPosixTime env).1 = o.dt.posix env := by
  unfold getPosixTime
  split
  · show _ = _
    simp only [offset_value h]
    rfl
  · rename_i hc
    simp only [Bool.or_eq_true, Bool.not_eq_true', not_or, Bool.not_eq_true] at hc
    exact h.2 (by simpa using hc.1) hc.2

theorem posix_dt (env : TzEnv) (o : Obj) : (o.getPosixTime env).2.dt = o.dt := by
  unfold getPosixTime
  split
  · exact offset_dt env o false
  · rfl

theorem good_posix {env : TzEnv} {o : Obj} (h : Good env o) : Good env (o.getPosixTime env).2 := by
  have hv := posix_value h
  have hd := offset_dt env o false
  have ho := good_offset h
  unfold getPosixTime at *
  split
  · rename_i hc
    rw [if_pos hc] at hv
    refine ⟨ho.1, fun _ _ => ?_⟩
    show _ = DateTime.posix env (o.timeZoneSecondsOffset env false).2.dt
    rw [hd]
    exact hv
  · exact h

theorem adjustToUTC_dt {env : TzEnv} {o : Obj} (h : Good env o) :
    (o.adjustToUTC env).dt = if o.dt.isLocal && !o.dt.dateOnly then
        ({ o.dt with utc := true, tzid := none } : DateTime).offsetSeconds (-o.dt.tzOffset env)
      else o.dt := by
  unfold adjustToUTC
  split
  · simp only [offset_value h]
    split <;> simp only [Obj.offsetSeconds, Obj.setTimezone, assign, changed, offset_dt]
  · rfl

/-- Moving to UTC keeps the absolute time when the library's day count does not jump. -/
theorem posix_toUTC (env : TzEnv) (t : DateTime) (hm1 : 1 ≤ t.month) (hm2 : t.month ≤ 12)
    (hd : t.dateOnly = false)
    (hs : NoSkip t.year
      (({ t with utc := true, tzid := none } : DateTime).offsetSeconds (-t.tzOffset env)).year) :
    (({ t with utc := true, tzid := none } : DateTime).offsetSeconds (-t.tzOffset env)).posix env =
      t.posix env := by
  generalize hn : -t.tzOffset env = n at hs ⊢
  generalize hu : ({ t with utc := true, tzid := none } : DateTime) = u at hs ⊢
  have hud : u.dateOnly = false := by subst hu; exact hd
  have hsec : (u.offsetSeconds n).secNum = u.secNum + n := addSeconds_secNum hud n
  have hv : (u.offsetSeconds n).Valid := normalise_valid _
  have huu : (u.offsetSeconds n).utc = true := by subst hu; rfl
  have hsu : u.secNum = t.secNum := by subst hu; rfl
  unfold secNum at hsec hsu
  rw [dayNumOf_of_month hv.month.1 hv.month.2] at hsec
  rw [dayNumOf_of_month hm1 hm2] at hsu
  have := hs.drift
  unfold posix
  rw [daysSince1970_dayNum, daysSince1970_dayNum]
  have h0 : (u.offsetSeconds n).tzOffset env = 0 := by simp [tzOffset, huu]
  rw [h0]
  omega

theorem good_adjustToUTC {env : TzEnv} {o : Obj} (h : Good env o)
    (hs : Safe env o .adjustToUTC) : Good env (o.adjustToUTC env) := by
  obtain ⟨hm1, hm2, hsk⟩ := hs
  by_cases hl : (o.dt.isLocal && !o.dt.dateOnly) = true
  · have hdt := adjustToUTC_dt h
    rw [if_pos hl] at hdt
    have hu : (o.adjustToUTC env).dt.utc = true := by rw [hdt]; rfl
    refine ⟨fun n _ hn => by rw [hu] at hn; simp at hn, fun hc _ => ?_⟩
    have hcached : o.posixCached = true := by
      unfold adjustToUTC at hc
      rw [if_pos hl] at hc
      split at hc
      · assumption
      · simp [Obj.offsetSeconds, Obj.setTimezone, assign, changed] at hc
    have hpt : (o.adjustToUTC env).posixTime = o.posixTime := by
      unfold adjustToUTC
      rw [if_pos hl]
      simp [hcached]
    simp only [Bool.and_eq_true, Bool.not_eq_true'] at hl
    have hnf : o.dt.floating = false := by
      have := hl.1
      simp only [isLocal, Bool.and_eq_true, Bool.not_eq_true'] at this
      simp [floating, this]
    rw [hpt, h.2 hcached hnf, hdt]
    rw [hdt] at hsk
    exact (posix_toUTC env o.dt hm1 hm2 hl.2 hsk).symm
  · unfold adjustToUTC
    rw [if_neg hl]
    exact h

theorem good_adjustTimezone {env : TzEnv} {o : Obj} (h : Good env o) (u : Bool)
    (z : Option TzId) : Good env (o.adjustTimezone env u z) := by
  unfold adjustTimezone
  split
  · exact good_assign _ _ _
  · exact h

theorem good_step {env : TzEnv} {o : Obj} (h : Good env o) (op : Op) (hs : Safe env o op) :
    Good env (o.step env op) := by
  cases op with
  | adjustTimezone u z => exact good_adjustTimezone h u z
  | adjustToUTC => exact good_adjustToUTC h hs
  | getPosixTime => exact good_posix h
  | timeZoneSecondsOffset r =>
    have hr : r = false := hs
    subst hr
    exact good_offset h
  | parseFailing y m d => exact hs.elim
  | duplicate => exact h
  | setWeekNo n =>
    simp only [step]
    split
    · exact h
    · exact good_assign _ _ _
  | setYYMMDD => exact good_assignIfNew h _
  | setYear => exact good_assignIfNew h _
  | setMonth => exact good_assignIfNew h _
  | setDay => exact good_assignIfNew h _
  | setHHMMSS => exact good_assignIfNew h _
  | setHours => exact good_assignIfNew h _
  | setMinutes => exact good_assignIfNew h _
  | setSeconds => exact good_assignIfNew h _
  | setTimezoneUTC => exact good_assignIfNew h _
  | _ => exact good_assign _ _ _

theorem setWeekNo_same (o : Obj) (n : Int) (h : o.dt.weekNo = n) : o.dt.setWeekNo n = o.dt := by
  simp [setWeekNo, h]

/-- One call changes the fields in a way that does not depend on the caches. -/
theorem step_dt {env : TzEnv} {o o' : Obj} (h : Good env o) (h' : Good env o') (hd : o.dt = o'.dt)
    (op : Op) : (o.step env op).dt = (o'.step env op).dt := by
  cases op with
  | adjustToUTC => simp only [step, adjustToUTC_dt h, adjustToUTC_dt h', hd]
  | adjustTimezone u z =>
    simp only [step, Obj.adjustTimezone, hd]
    split
    · have key : ∀ p q : Obj, p.dt = q.dt →
          (((p.setTimezone u z).timeZoneSecondsOffset env true).2.offsetSeconds
            ((p.setTimezone u z).timeZoneSecondsOffset env true).1).dt =
          (((q.setTimezone u z).timeZoneSecondsOffset env true).2.offsetSeconds
            ((q.setTimezone u z).timeZoneSecondsOffset env true).1).dt := by
        intro p q hpq
        simp only [Obj.offsetSeconds, assign, changed, offset_dt]
        simp only [Obj.setTimezone, assign, changed, timeZoneSecondsOffset, hpq]
        cases u <;> rfl
      apply key
      split
      · rw [adjustToUTC_dt h, adjustToUTC_dt h', hd]
      · exact hd
    · exact hd
  | getPosixTime => simp only [step, posix_dt, hd]
  | timeZoneSecondsOffset r => simp only [step, offset_dt, hd]
  | setWeekNo n =>
    simp only [step]
    rw [hd]
    split
    · exact hd
    · rfl
  | duplicate => exact hd
  | parseFailing => simp [step, parseFailing, hd]
  | setYYMMDD => simp [step, assignIfNew_dt, hd]
  | setYear => simp [step, assignIfNew_dt, hd]
  | setMonth => simp [step, assignIfNew_dt, hd]
  | setDay => simp [step, assignIfNew_dt, hd]
  | setHHMMSS => simp [step, assignIfNew_dt, hd]
  | setHours => simp [step, assignIfNew_dt, hd]
  | setMinutes => simp [step, assignIfNew_dt, hd]
  | setSeconds => simp [step, assignIfNew_dt, hd]
  | setTimezoneUTC => simp [step, assignIfNew_dt, hd]
  | _ => simp [step, Obj.setTimezone, Obj.offsetSeconds, assign, changed, hd]

theorem good_run {env : TzEnv} {o : Obj} (h : Good env o) (ops : List Op)
    (hs : SafeRun env o ops) : Good env (o.run env ops) := by
  induction ops generalizing o with
  | nil => exact h
  | cons op ops ih => exact ih (good_step h op hs.1) hs.2

/-- C19 (partial): after any sequence of safe calls on a new date-time object, `getPosixTime()`
and `timeZoneSecondsOffset()` return what the current fields say.

Missing: the calls that are not safe, `C19_fails_offset_query`, `C19_fails_parse` and `C19_fails_century`. -/
theorem C19_posix_partial (env : TzEnv) (t : DateTime) (ops : List Op)
    (hs : SafeRun env (fresh t) ops) :
    (((fresh t).run env ops).getPosixTime env).1 = ((fresh t).run env ops).dt.posix env ∧
    (((fresh t).run env ops).timeZoneSecondsOffset env false).1 =
      ((fresh t).run env ops).dt.tzOffset env :=
  ⟨posix_value (good_run (good_fresh env t) ops hs), offset_value (good_run (good_fresh env t) ops hs)⟩

/-- Calls that only look at the object. -/
def isQuery : Op → Bool
  | .getPosixTime => true
  | .timeZoneSecondsOffset _ => true
  | .duplicate => true
  | _ => false

/-- C19 (partial): queries have no influence — interspersing a sequence of calls with queries
(which fill the caches) leads to the same fields as the sequence without them.

Missing: the answers after calls that are not safe (as for `C19_posix_partial`). -/
theorem C19_queries_partial (env : TzEnv) (t : DateTime) (ops : List Op)
    (hs : SafeRun env (fresh t) ops) (hs' : SafeRun env (fresh t) (ops.filter (!isQuery ·))) :
    ((fresh t).run env ops).dt = ((fresh t).run env (ops.filter (!isQuery ·))).dt := by
  have key : ∀ (ops : List Op) (o o' : Obj), Good env o → Good env o' → o.dt = o'.dt →
      SafeRun env o ops → SafeRun env o' (ops.filter (!isQuery ·)) →
      (o.run env ops).dt = (o'.run env (ops.filter (!isQuery ·))).dt := by
    intro ops
    induction ops with
    | nil => intro o o' _ _ hd _ _; exact hd
    | cons op ops ih =>
      intro o o' h h' hd hs hs'
      by_cases hq : isQuery op = true
      · have hf : (op :: ops).filter (!isQuery ·) = ops.filter (!isQuery ·) := by simp [hq]
        rw [hf] at hs' ⊢
        refine ih (o.step env op) o' (good_step h op hs.1) h' ?_ hs.2 hs'
        rw [← hd]
        cases op <;> simp [isQuery] at hq
        · exact posix_dt env o
        · exact offset_dt env o _
        · rfl
      · have hf : (op :: ops).filter (!isQuery ·) = op :: ops.filter (!isQuery ·) := by simp [hq]
        rw [hf] at hs' ⊢
        exact ih _ _ (good_step h op hs.1) (good_step h' op hs'.1) (step_dt h h' hd op) hs.2 hs'.2
  exact key ops _ _ (good_fresh env t) (good_fresh env t) rfl hs hs'

/-- A zone whose clock is one hour ahead of UTC at all UTC times, and two hours by local times
(stands for a zone around a change of offset). -/
def twoEnv : TzEnv := fun _ _ r => if r then 3600 else 7200

/-- C19 fails: asking for the offset relative to UTC changes the absolute time. -/
theorem C19_fails_offset_query :
    ∃ (env : TzEnv) (t : DateTime), t.Valid ∧
      (((fresh t).run env [.timeZoneSecondsOffset true]).getPosixTime env).1 ≠
        ((fresh t).run env [.timeZoneSecondsOffset true]).dt.posix env :=
  ⟨twoEnv, ⟨2020, 1, 1, 12, 0, 0, false, false, some (.name "Z")⟩, by decide +kernel⟩

/-- C19 fails: a `parse` of `20210101X` raises, leaves the new date in the fields and the old
absolute time in the cache. -/
theorem C19_fails_parse :
    ∃ t : DateTime, t.Valid ∧
      (((fresh t).run .empty [.getPosixTime, .parseFailing 2021 1 1]).getPosixTime .empty).1 ≠
        ((fresh t).run .empty [.getPosixTime, .parseFailing 2021 1 1]).dt.posix .empty :=
  ⟨⟨2020, 1, 1, 12, 0, 0, false, true, none⟩, by decide +kernel⟩

/-- C19 fails: 2100-12-31T23:00:00-02:00 becomes 2101-01-01T01:00:00Z, whose absolute time the
library computes one day later than the restored cached value. -/
theorem C19_fails_century :
    ∃ t : DateTime, t.Valid ∧
      (((fresh t).run .empty [.getPosixTime, .adjustToUTC]).getPosixTime .empty).1 + 86400 =
        ((fresh t).run .empty [.getPosixTime, .adjustToUTC]).dt.posix .empty :=
  ⟨⟨2100, 12, 31, 23, 0, 0, false, false, some (.fixed (-7200))⟩, by decide +kernel⟩

/-- The hypotheses of `C19_posix_partial` are met by a sequence with cached values, a change of
zone and a move. -/
example : SafeRun twoEnv (fresh ⟨2020, 1, 31, 0, 30, 0, false, false, some (.name "Z")⟩)
    [.getPosixTime, .adjustToUTC, .getPosixTime, .offsetMonth 1, .adjustTimezone false (some (.name "Z")),
      .timeZoneSecondsOffset false, .getPosixTime] := by
  refine ⟨trivial, ⟨by decide +kernel, by decide +kernel, ?_⟩, trivial, trivial, trivial, rfl,
    trivial, trivial⟩
  have : ((fresh ⟨2020, 1, 31, 0, 30, 0, false, false, some (.name "Z")⟩).step twoEnv
      .getPosixTime).dt.year = 2020 := by decide +kernel
  rw [this]
  have : (((fresh ⟨2020, 1, 31, 0, 30, 0, false, false, some (.name "Z")⟩).step twoEnv
      .getPosixTime).adjustToUTC twoEnv).dt.year = 2020 := by decide +kernel
  rw [this]
  intro z hz
  omega

end PyCal.Obj
