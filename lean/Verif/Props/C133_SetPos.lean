import Verif.Props.C133_Count

/-!
# C133: BYSETPOS

-/

namespace PyCal.Rule
open Spec DateTime Period

namespace L133

/-! ## Positions in a list -/

theorem position {α : Type} {f : α → Int} {S : List α} (hS : S.Pairwise fun a b => f a < f b) {t : α} (ht : t ∈ S) (j : Nat) :
    S[j]? = some t ↔ ∃ l : List α, l.Nodup ∧ (∀ x, x ∈ l ↔ x ∈ S ∧ f x < f t) ∧ l.length = j := by
  obtain ⟨A, B, rfl⟩ := List.append_of_mem ht
  have hn : (A ++ t :: B).Nodup := hS.imp fun h e => by rw [e] at h; omega
  rw [List.pairwise_append, List.pairwise_cons] at hS
  obtain ⟨_, ⟨hB, _⟩, hA⟩ := hS
  have hmem : ∀ x, x ∈ A ↔ x ∈ A ++ t :: B ∧ f x < f t := by
    intro x
    constructor
    · intro h
      exact ⟨by simp [h], hA x h t (by simp)⟩
    · rintro ⟨h, hl⟩
      rcases List.mem_append.mp h with h | h
      · exact h
      · rcases List.mem_cons.mp h with rfl | h
        · omega
        · have := hB x h; omega
  have hnA : A.Nodup := (List.nodup_append.mp hn).1
  have hAt : (A ++ t :: B)[A.length]? = some t := by simp
  constructor
  · intro h
    obtain ⟨hj, _⟩ := List.getElem?_eq_some_iff.mp h
    exact ⟨A, hnA, hmem, ((List.getElem?_inj (by simp) hn).mp (hAt.trans h.symm))⟩
  · rintro ⟨l, hl, hm, rfl⟩
    have : l.Perm A := (List.perm_ext_iff_of_nodup hl hnA).mpr fun x => (hm x).trans (hmem x).symm
    rw [this.length_eq]; exact hAt

theorem nth_iff {S : List DateTime} {f : DateTime → Int} (hS : S.Pairwise fun a b => f a < f b) {t : DateTime}
    (ht : t ∈ S) (p : Int) :
    nth S p = some t ↔ ∃ l : List DateTime, l.Nodup ∧
      ((∀ x, x ∈ l ↔ x ∈ S ∧ f x < f t) ∧ p = l.length + 1 ∨ (∀ x, x ∈ l ↔ x ∈ S ∧ f t < f x) ∧ -p = l.length + 1) := by
  unfold nth
  have hR : S.reverse.Pairwise fun a b => -f a < -f b := by
    rw [List.pairwise_reverse]; exact hS.imp fun h => by omega
  split
  · next hp =>
    rw [position hS ht]
    constructor
    · rintro ⟨l, a, b, c⟩; exact ⟨l, a, Or.inl ⟨b, by omega⟩⟩
    · rintro ⟨l, a, ⟨b, c⟩ | ⟨b, c⟩⟩
      · exact ⟨l, a, b, by omega⟩
      · omega
  · split
    · next hp =>
      rw [position hR (List.mem_reverse.mpr ht)]
      constructor
      · rintro ⟨l, a, b, c⟩
        exact ⟨l, a, Or.inr ⟨fun x => by rw [b x, List.mem_reverse, Int.neg_lt_neg_iff], by omega⟩⟩
      · rintro ⟨l, a, ⟨b, c⟩ | ⟨b, c⟩⟩
        · omega
        · exact ⟨l, a, fun x => by rw [b x, List.mem_reverse, Int.neg_lt_neg_iff], by omega⟩
    · next hp hp' =>
      constructor
      · intro h; simp at h
      · rintro ⟨l, _, ⟨_, c⟩ | ⟨_, c⟩⟩ <;> omega

theorem candidates_picked {env : TzEnv} (r : Rule) (u : DateTime) :
    r.candidates env u = part r.bySetPos (r.bySetPosLimit env) (r.unpicked.candidates env u) := by
  have fin : ∀ items, r.finishSet env items = part r.bySetPos (r.bySetPosLimit env) (r.unpicked.finishSet env items) := by
    intro items
    unfold finishSet unpicked
    rw [part_nil]
  unfold candidates
  have e : r.unpicked.freq = r.freq := rfl
  rw [e]
  cases r.freq <;> exact fin _

/-- The dates of an interval are in one year or in two. -/
theorem step_year {f : Freq} {n : Nat} {ws : Int} {s x t : DateTime} (hs : s.Valid) (hx : x.Valid) (ht : t.Valid) {k : Nat}
    (hi : Rfc.InStep f n ws s x k) (hk : Rfc.InStep f n ws s t k) :
    t.year - 1 ≤ x.year ∧ x.year ≤ t.year + 1 ∧ (f ≠ .weekly → x.year = t.year) := by
  have hsd : s.date.Valid := hs.1.1
  have hxd : x.date.Valid := hx.1.1
  have htd : t.date.Valid := ht.1.1
  have ex : x.date.y = x.year := rfl
  have et : t.date.y = t.year := rfl
  unfold Rfc.InStep at hi hk
  cases f with
  | secondly =>
    have : x.civil = t.civil := hi.trans hk.symm
    have : x.date = t.date := (civil_fields.mp this).1
    rw [← ex, ← et, this]; simp
  | minutely =>
    have : ({ x.civil with s := 0 } : Time) = { t.civil with s := 0 } := hi.trans hk.symm
    have : x.date = t.date := congrArg Time.date this
    rw [← ex, ← et, this]; simp
  | hourly =>
    have : ({ x.civil with mi := 0, s := 0 } : Time) = { t.civil with mi := 0, s := 0 } := hi.trans hk.symm
    have : x.date = t.date := congrArg Time.date this
    rw [← ex, ← et, this]; simp
  | daily =>
    have : x.date = t.date := Eq.trans hi hk.symm
    rw [← ex, ← et, this]; simp
  | weekly =>
    obtain ⟨f, ⟨vf, wf, p, hp, ef⟩, vf', wf', p', hp', ef'⟩ := hi
    obtain ⟨g, ⟨vg, wg, q, hq, eg⟩, vg', wg', q', hq', eg'⟩ := hk
    rw [iter_num vf hsd] at ef
    rw [iter_num vg hsd] at eg
    rw [iter_num vf' hxd] at ef'
    rw [iter_num vg' htd] at eg'
    rw [(iter_num vf vf' (k * n * 7)).mp rfl] at ef'
    rw [(iter_num vg vg' (k * n * 7)).mp rfl] at eg'
    have := year_near' htd hxd (by omega) (by omega)
    exact ⟨this.1, this.2, fun h => absurd rfl h⟩
  | monthly =>
    simp only at hi hk
    have hxm : 1 ≤ x.month ∧ x.month ≤ 12 := ⟨hxd.1, hxd.2.1⟩
    have htm : 1 ≤ t.month ∧ t.month ≤ 12 := ⟨htd.1, htd.2.1⟩
    have : x.year = t.year := by omega
    exact ⟨by omega, by omega, fun _ => this⟩
  | yearly =>
    simp only at hi hk
    have : x.year = t.year := by omega
    exact ⟨by omega, by omega, fun _ => this⟩

theorem interval_year {r : Rule} {u x t : DateTime} (hx : x.Valid) (ht : t.Valid) (hi : r.InInterval u x)
    (hk : r.InInterval u t) : t.year - 1 ≤ x.year ∧ x.year ≤ t.year + 1 ∧ (r.freq ≠ .weekly → x.year = t.year) := by
  have hxd : x.date.Valid := hx.1.1
  have htd : t.date.Valid := ht.1.1
  have ex : x.date.y = x.year := rfl
  have et : t.date.y = t.year := rfl
  have near : num t.date - 300 ≤ num x.date → num x.date ≤ num t.date + 300 → t.year - 1 ≤ x.year ∧ x.year ≤ t.year + 1 :=
    fun a b => year_near' htd hxd a b
  have same : num x.date = num t.date → t.year - 1 ≤ x.year ∧ x.year ≤ t.year + 1 ∧ (r.freq ≠ .weekly → x.year = t.year) := by
    intro h
    have : x.date = t.date := date_inj hxd htd h
    rw [← ex, ← et, this]; simp
  obtain ⟨_, a1, a2, a3, a4, a5, a6⟩ := hx.1
  obtain ⟨_, b1, b2, b3, b4, b5, b6⟩ := ht.1
  have e1 : dayNum x.civil.date.y x.civil.date.m x.civil.date.d = num x.date := rfl
  have e2 : dayNum t.civil.date.y t.civil.date.m t.civil.date.d = num t.date := rfl
  have e3 : dayNum x.year x.month x.day = num x.date := rfl
  have e4 : dayNum t.year t.month t.day = num t.date := rfl
  unfold InInterval at hi hk
  cases hf : r.freq with
  | secondly => simp only [hf] at hi hk; unfold timeNum at hi hk; rw [e1] at hi; rw [e2] at hk; rw [← hf]; exact same (by omega)
  | minutely => simp only [hf] at hi hk; unfold timeNum at hi hk; rw [e1] at hi; rw [e2] at hk; rw [← hf]; exact same (by omega)
  | hourly => simp only [hf] at hi hk; unfold timeNum at hi hk; rw [e1] at hi; rw [e2] at hk; rw [← hf]; exact same (by omega)
  | daily => simp only [hf] at hi hk; rw [← ex, ← et, hi, hk]; simp
  | weekly =>
    simp only [hf] at hi hk
    obtain ⟨e, a, b, c⟩ := hi
    obtain ⟨e', a', b', c'⟩ := hk
    rw [e3] at a
    rw [e4] at a'
    have := near (by omega) (by omega)
    exact ⟨this.1, this.2, fun h => absurd rfl h⟩
  | monthly =>
    simp only [hf] at hi hk
    have : x.year = t.year := by omega
    exact ⟨by omega, by omega, fun _ => this⟩
  | yearly =>
    simp only [hf] at hi hk
    have : x.year = t.year := by omega
    exact ⟨by omega, by omega, fun _ => this⟩

/-- The years of the theorems below; a week can begin in the year before and end in the year after. -/
def Years (r : Rule) (x : DateTime) : Prop :=
  1902 ≤ x.year ∧ x.year ≤ 2098 ∧ (r.freq = .weekly → 1903 ≤ x.year ∧ x.year ≤ 2097)

instance (r : Rule) (x : DateTime) : Decidable (Years r x) := inferInstanceAs (Decidable (_ ∧ _ ∧ (_ → _)))

theorem distinct_unpicked {r : Rule} (h : Distinct r) : Distinct r.unpicked :=
  ⟨h.months, h.monthDays, h.days, h.hours, h.minutes, h.seconds, h.monthDay, h.day⟩

section
variable {env : TzEnv} {r : Rule} {s x t : DateTime} {n : Nat}

theorem tame_unpicked (h : Tame r s) : Tame r.unpicked s := by
  obtain ⟨⟩ := h
  constructor <;> assumption

theorem unpicked_in (x : DateTime) (hn : r.interval = n) (k : Nat) :
    Rfc.InStep r.unpicked.freq n r.unpicked.weekStart s x k ∧ Rfc.Matches r.unpicked s x ↔ Rfc.InSet r s k x := by
  unfold Rfc.InSet
  rw [show r.interval.toNat = n by omega]
  refine and_congr Iff.rfl ⟨fun h => ?_, fun h => ?_⟩
  · obtain ⟨a, b, c, d, e, f, g, i, j, kp⟩ := h
    exact ⟨a, b, c, d, e, f, g, i, j, ⟨kp.second, kp.minute, kp.hour, kp.weekday, kp.day, kp.month⟩⟩
  · obtain ⟨a, b, c, d, e, f, g, i, j, kp⟩ := h
    exact ⟨a, b, c, d, e, f, g, i, j, ⟨kp.second, kp.minute, kp.hour, kp.weekday, kp.day, kp.month⟩⟩

theorem raw_unpicked (s : DateTime) (k : Nat) : r.unpicked.raw s k = r.raw s k := by
  induction k with
  | zero => rfl
  | succ k ih => unfold raw; rw [ih]; rfl

theorem setPosLimit_eq (dates : List DateTime) :
    r.bySetPosLimit env dates = r.bySetPos.flatMap fun p => (nth (sortByPosix env dates) p).toList := by
  unfold bySetPosLimit
  simp only [pickPos_eq]
  rw [foldl_append, List.nil_append]

theorem part_setPos (hp : r.bySetPos ≠ []) (items : List DateTime) :
    part r.bySetPos (r.bySetPosLimit env) items = r.bySetPosLimit env items := by
  unfold part
  cases h : r.bySetPos with
  | nil => exact absurd h hp
  | cons a l => rfl

/-- BYSETPOS takes from the dates of the interval. -/
theorem steady_picked (h : Steady env r.unpicked s) : Steady env r s := by
  have hsub : ∀ k, ∀ a ∈ r.candidates env (r.raw s k), a ∈ r.unpicked.candidates env (r.unpicked.raw s k) := by
    intro k a ha
    rw [candidates_picked] at ha
    rw [raw_unpicked]
    by_cases hp : r.bySetPos = []
    · rwa [hp, part_nil] at ha
    · rw [part_setPos hp] at ha
      exact (C33_mem env r _ a).1 ha
  exact fun k a ha b hb => h k a (hsub k a ha) b (hsub k b hb)

/-- The dates of an interval before BYSETPOS. -/
theorem set_iff (hT : Tame r s) (hS : Standard r.unpicked) (hn : r.interval = n) (k : Nat) {y : DateTime} (a : 1902 ≤ y.year)
    (b : y.year ≤ 2098) : y ∈ r.unpicked.candidates env (r.raw s k) ↔ Rfc.InSet r s k y := by
  have hT' := tame_unpicked hT
  have hn' : r.unpicked.interval = n := hn
  rw [← unpicked_in (s := s) y hn k, ← step_iff (env := env) hT' hS hn' a b k]
  unfold occursIn
  rw [← raw_atTime (r := r.unpicked) hT'.valid (fun h => (hT'.dates h).1) hn' k, raw_unpicked]

theorem set_spec (hT : Tame r s) {k : Nat} {y : DateTime} (h : y ∈ r.unpicked.candidates env (r.raw s k)) :
    y.Valid ∧ SameKind y s ∧ r.unpicked.InInterval (r.unpicked.raw s k) y :=
  cand_spec (k := k) (tame_unpicked hT) (by rw [raw_unpicked]; exact h)

/-- Which date is at a position. -/
theorem position_iff (hT : Tame r s) (hS : Standard r.unpicked) (hD : Distinct r)
    (hst : Steady env r.unpicked s) (hn : r.interval = n) (hyx : Years r x) {k : Nat}
    (hx : x ∈ r.unpicked.candidates env (r.raw s k)) (p : Int) :
    nth (sortByPosix env (r.unpicked.candidates env (r.raw s k))) p = some x ↔ Rfc.AtPosition r s k x p := by
  have hset := fun {y : DateTime} => set_iff (env := env) (y := y) hT hS hn k
  have hspec := fun {y : DateTime} => set_spec (env := env) (k := k) (y := y) hT
  generalize hC : r.unpicked.candidates env (r.raw s k) = C at *
  have hperm : (sortByPosix env C).Perm C := List.perm_insertionSort _ _
  have hord : (sortByPosix env C).Pairwise (fun a b => a.posix env ≤ b.posix env) := by
    have : Std.Total fun a b : DateTime => a.posix env ≤ b.posix env := ⟨fun a b => by omega⟩
    have : IsTrans DateTime fun a b : DateTime => a.posix env ≤ b.posix env := ⟨fun a b c => by omega⟩
    exact List.pairwise_insertionSort _ _
  generalize sortByPosix env C = sorted at *
  have hxs := hspec hx
  have hnear : ∀ y ∈ C, 1902 ≤ y.year ∧ y.year ≤ 2098 := by
    intro y hy
    have hys := hspec hy
    obtain ⟨a, b, c⟩ := interval_year hys.1 hxs.1 hys.2.2 hxs.2.2
    by_cases hw : r.freq = .weekly
    · have := hyx.2.2 hw; omega
    · have := c hw; have := hyx.1; have := hyx.2.1; omega
  have hnd : C.Nodup := by
    have hr := raw_near (r := r) hT.valid k
    have := candidates_nodup (env := env) (tame_unpicked hT) hS (distinct_unpicked hD) (u := r.raw s k) (raw_timeOK hT.valid k) ⟨hr.1, hr.2.1⟩
      fun hf => raw_valid hT.valid (by rw [show r.freq = _ from hf]; simp) (by rw [show r.freq = _ from hf]; simp) k
    rw [hC, List.filter_eq_self.mpr] at this
    · exact this
    · intro y hy
      exact near_iff.mpr ⟨(hspec hy).1.1.1, hnear y hy⟩
  have hsnd : sorted.Nodup := hperm.nodup_iff.mpr hnd
  have hstrict : sorted.Pairwise fun a b => timeNum a.civil < timeNum b.civil := by
    refine (hord.and hsnd).imp_of_mem ?_
    intro a b ha hb h
    have ha' := hperm.mem_iff.mp ha
    have hb' := hperm.mem_iff.mp hb
    obtain ⟨va, ka, _⟩ := hspec ha'
    obtain ⟨vb, kb, _⟩ := hspec hb'
    by_contra hc
    rcases (by omega : timeNum b.civil < timeNum a.civil ∨ timeNum a.civil = timeNum b.civil) with hl | hl
    · have := hst k b (by rw [raw_unpicked, hC]; exact hb') a (by rw [raw_unpicked, hC]; exact ha') hl
      have := h.1
      omega
    · exact h.2 (eq_of_civil (kind_to ka kb) (timeNum_inj va.1 vb.1 hl))
  have hset' : ∀ y, y ∈ sorted ↔ Rfc.InSet r s k y := by
    intro y
    rw [hperm.mem_iff]
    constructor
    · intro hy
      obtain ⟨a, b⟩ := hnear y hy
      exact (hset a b).mp hy
    · intro hy
      have hxi := (hset hyx.1 hyx.2.1).mp hx
      obtain ⟨a, b, c⟩ := step_year hT.valid hy.2.valid hxs.1 hy.1 hxi.1
      have : 1902 ≤ y.year ∧ y.year ≤ 2098 := by
        by_cases hw : r.freq = .weekly
        · have := hyx.2.2 hw; omega
        · have := c hw; have := hyx.1; have := hyx.2.1; omega
      exact (hset this.1 this.2).mpr hy
  rw [nth_iff hstrict (hperm.mem_iff.mpr hx) p]
  unfold Rfc.AtPosition
  have e1 : ∀ y, (y ∈ sorted ∧ timeNum y.civil < timeNum x.civil) ↔ Rfc.InSet r s k y ∧ Rfc.Before y x := by
    intro y
    rw [hset']
    exact and_congr_right fun h => (before_iff h.2.valid hxs.1).symm
  have e2 : ∀ y, (y ∈ sorted ∧ timeNum x.civil < timeNum y.civil) ↔ Rfc.InSet r s k y ∧ Rfc.Before x y := by
    intro y
    rw [hset']
    exact and_congr_right fun h => (before_iff hxs.1 h.2.valid).symm
  simp only [e1, e2]

/-- The instances of one interval: those at the positions given by BYSETPOS. -/
theorem picked_iff (hp : r.bySetPos ≠ []) (hT : Tame r s) (hS : Standard r.unpicked) (hD : Distinct r)
    (hst : Steady env r.unpicked s) (hn : r.interval = n) (hyx : Years r x) (k : Nat) :
    x ∈ r.occursIn env n s k ↔ Rfc.InSet r s k x ∧ Limits r.bySetPos (Rfc.AtPosition r s k x) := by
  unfold occursIn
  rw [← raw_atTime hT.valid (fun h => (hT.dates h).1) hn k, candidates_picked, part_setPos hp,
    ← set_iff (env := env) hT hS hn k hyx.1 hyx.2.1]
  have hlim : Limits r.bySetPos (Rfc.AtPosition r s k x) ↔ ∃ p ∈ r.bySetPos, Rfc.AtPosition r s k x p := by
    unfold Limits; simp [hp]
  rw [hlim]
  by_cases hx : x ∈ r.unpicked.candidates env (r.raw s k)
  · simp only [← position_iff hT hS hD hst hn hyx hx, hx, true_and]
    rw [setPosLimit_eq]
    simp [List.mem_flatMap]
  · exact ⟨fun h => absurd ((C33_mem env r _ x).1 h) hx, fun h => absurd h.1 hx⟩

/-- No date of an interval is given twice, if no two positions are the same. -/
theorem picked_nodup (hp : r.bySetPos ≠ []) (hT : Tame r s) (hS : Standard r.unpicked) (hD : Distinct r)
    (hst : Steady env r.unpicked s) (hn : r.interval = n) (hnd : r.bySetPos.Nodup)
    (hone : ∀ k t, ∀ p ∈ r.bySetPos, ∀ q ∈ r.bySetPos, Rfc.AtPosition r s k t p → Rfc.AtPosition r s k t q → p = q)
    {q : DateTime → Bool} (hq : ∀ x, q x = true → Years r x) (k : Nat) :
    ((r.occursIn env n s k).filter q).Nodup := by
  unfold occursIn
  rw [← raw_atTime hT.valid (fun h => (hT.dates h).1) hn k, candidates_picked, part_setPos hp]
  have hsub : ∀ x ∈ r.bySetPosLimit env (r.unpicked.candidates env (r.raw s k)), x ∈ r.unpicked.candidates env (r.raw s k) :=
    fun x => (C33_mem env r _ x).1
  rw [setPosLimit_eq] at hsub ⊢
  refine nodup_flatMap (q0 := fun _ => true) (by simpa using hnd) (fun _ _ _ _ _ => rfl) ?_ ?_
  · intro p _
    refine List.Nodup.filter _ ?_
    cases nth (sortByPosix env (r.unpicked.candidates env (r.raw s k))) p <;> simp
  · intro a ha b hb x hxa hxb hqx
    have hyx := hq x hqx
    have hx := hsub x (List.mem_flatMap.mpr ⟨a, ha, hxa⟩)
    rw [Option.mem_toList, position_iff hT hS hD hst hn hyx hx] at hxa hxb
    exact hone k x a ha b hb hxa hxb

theorem between_picked (hp : r.bySetPos ≠ []) (hT : Tame r s) (hS : Standard r.unpicked) (hD : Distinct r)
    (hst : Steady env r.unpicked s) (hnd : r.bySetPos.Nodup)
    (hone : ∀ k t, ∀ p ∈ r.bySetPos, ∀ q ∈ r.bySetPos, Rfc.AtPosition r s k t p → Rfc.AtPosition r s k t q → p = q)
    (hy : Years r s) (hn : r.interval = n) {k : Nat}
    (ht : t ∈ r.occursIn env n s k) (ht2 : Years r t) (hb : Rfc.Before s t) :
    (((List.range (k + 1)).flatMap (r.occursIn env n s)).filter fun x => s.lt env x && x.lt env t).Nodup ∧
      ∀ x, x ∈ ((List.range (k + 1)).flatMap (r.occursIn env n s)).filter (fun x => s.lt env x && x.lt env t) ↔
        Rfc.OccursAt r s x ∧ Rfc.Before s x ∧ Rfc.Before x t := by
  obtain ⟨htv, htk⟩ := in_interval hT hn ht
  have hsv := hT.valid
  have hn1 : 1 ≤ n := by have := hT.interval; omega
  have hq : ∀ x : DateTime, x.Valid → SameKind x s →
      ((s.lt env x && x.lt env t) = true ↔ Rfc.Before s x ∧ Rfc.Before x t) := by
    intro x hv hk
    rw [Bool.and_eq_true, lt_iff_before hsv hv hk, lt_iff_before hv htv (kind_to htk hk)]
  have hyr : ∀ x : DateTime, x.Valid → Rfc.Before s x → Rfc.Before x t → Years r x := by
    intro x hv h1 h2
    rw [before_iff hsv hv] at h1
    rw [before_iff hv htv] at h2
    have := year_of_time hsv hv (by omega)
    have := year_of_time hv htv (by omega)
    obtain ⟨y1, y2, y3⟩ := hy
    obtain ⟨z1, z2, z3⟩ := ht2
    exact ⟨by omega, by omega, fun hw => by have := y3 hw; have := z3 hw; omega⟩
  have hstep : ∀ i, ∀ x ∈ r.occursIn env n s i, (s.lt env x && x.lt env t) = true →
      Rfc.InSet r s i x ∧ Limits r.bySetPos (Rfc.AtPosition r s i x) := by
    intro i x hx h
    obtain ⟨hv, hk⟩ := in_interval hT hn hx
    obtain ⟨a, b⟩ := (hq x hv hk).mp h
    exact (picked_iff hp hT hS hD hst hn (hyr x hv a b) i).mp hx
  have e : r.interval.toNat = n := by omega
  refine ⟨?_, ?_⟩
  · refine nodup_flatMap (q0 := fun _ => true) (by simpa using List.nodup_range) (fun _ _ _ _ _ => rfl) ?_ ?_
    · intro i _
      have e : (r.occursIn env n s i).filter (fun x => s.lt env x && x.lt env t) =
          ((r.occursIn env n s i).filter fun x => decide (Years r x)).filter
            fun x => s.lt env x && x.lt env t := by
        rw [List.filter_filter]
        refine List.filter_congr fun x hx => ?_
        by_cases h : (s.lt env x && x.lt env t) = true
        · obtain ⟨hv, hk⟩ := in_interval hT hn hx
          obtain ⟨a, b⟩ := (hq x hv hk).mp h
          rw [h, decide_eq_true (hyr x hv a b)]; rfl
        · simp only [Bool.not_eq_true] at h; rw [h]; rfl
      rw [e]
      exact List.Nodup.filter _ (picked_nodup hp hT hS hD hst hn hnd hone (fun x h => of_decide_eq_true h) i)
    · intro i _ j _ x hi hj h
      obtain ⟨hv, _⟩ := in_interval hT hn hi
      have a := (hstep i x hi h).1.1
      have b := (hstep j x hj h).1.1
      rw [e] at a b
      have := step_mono hn1 hsv hy.1 hy.2.1 hv hv le_rfl a b
      have := step_mono hn1 hsv hy.1 hy.2.1 hv hv le_rfl b a
      omega
  · intro x
    rw [List.mem_filter, List.mem_flatMap]
    constructor
    · rintro ⟨⟨i, _, hx⟩, h⟩
      obtain ⟨hv, hk⟩ := in_interval hT hn hx
      exact ⟨⟨i, hstep i x hx h⟩, (hq x hv hk).mp h⟩
    · rintro ⟨⟨i, hi, hm⟩, h⟩
      have hv := hi.2.valid
      have hyx := hyr x hv h.1 h.2
      have ht' := ((picked_iff hp hT hS hD hst hn ht2 k).mp ht).1.1
      have h2 := h.2
      rw [before_iff hv htv] at h2
      have hi' := hi.1
      rw [e] at hi' ht'
      have := step_mono hn1 hsv hy.1 hy.2.1 hv htv (by omega) hi' ht'
      exact ⟨⟨i, by rw [List.mem_range]; omega, (picked_iff hp hT hS hD hst hn hyx i).mpr ⟨hi, hm⟩⟩, (hq x hv hi.2.kind).mpr h⟩

theorem fewer_picked (hp : r.bySetPos ≠ []) (hT : Tame r s) (hS : Standard r.unpicked) (hD : Distinct r)
    (hst : Steady env r.unpicked s) (hnd : r.bySetPos.Nodup)
    (hone : ∀ k t, ∀ p ∈ r.bySetPos, ∀ q ∈ r.bySetPos, Rfc.AtPosition r s k t p → Rfc.AtPosition r s k t q → p = q)
    (hy : Years r s) (hn : r.interval = n) {k : Nat}
    (ht : t ∈ r.occursIn env n s k) (ht2 : Years r t) (hb : Rfc.Before s t) (c : Int) :
    (r.occurrencesBefore env n s k t : Int) < c ↔ Rfc.FewerBetweenAt r s t c := by
  obtain ⟨h1, h2⟩ := between_picked hp hT hS hD hst hnd hone hy hn ht ht2 hb
  unfold occurrencesBefore
  rw [List.countP_eq_length_filter]
  constructor
  · intro h; exact ⟨_, h1, h2, h⟩
  · rintro ⟨l, h3, h4, h5⟩
    have : l.Perm _ := (List.perm_ext_iff_of_nodup h3 h1).mpr fun x => (h4 x).trans (h2 x).symm
    rw [← this.length_eq]; exact h5

end
end L133

section
open L133
variable {env : TzEnv} {K : DateTime → Prop} {r : Rule} {start : DateTime} {range : Period} {off : Int}

/-- C133 (partial), rules with BYSETPOS and without COUNT: the expansion over a range consists of exactly the date-times that RFC
5545 describes: of the dates of one interval that match the other parts, those at one of the positions, from the start or the end of
the interval.

Needed: two values of a part give different dates (`Distinct`), as a date would otherwise have two positions; dates of one interval
have the same order by clock as by instant (`Steady`).

Missing: as for `C133_rule_partial`; a date can be in the list twice (`C33_fails`). -/
theorem C133_setpos_partial (h : Asked env K r start range off) (hp : r.bySetPos ≠ []) (hD : Distinct r)
    (hst : Steady env r.unpicked start) (hc : r.useCount = false) {fuel : Nat} {L : List DateTime}
    {lim : Bool} (hx : r.expandFresh env fuel start range off = some (.dates L lim)) (t : DateTime) (hy : t.year ≤ 2098)
    (hw : r.freq = .weekly → 1903 ≤ start.year ∧ t.year ≤ 2097) :
    t ∈ L ↔ Rfc.OccursAt r start t ∧ ¬ Rfc.Before t start ∧ range.isDateWithin env t = true ∧
      ∀ u, UntilBound r start off u → t.gt env u = false := by
  have hT := h.good.tame
  have hn : r.interval = r.interval.toNat := by have := hT.interval; omega
  have hb : ¬ r.Plain := fun hb => hp hb.2.2.2.2.2.2.2.2
  rw [(C54_exact_partial (h.limited (z := none) (by decide)) rfl hn h.untilDate hb hx).1 t]
  have hcand : ∀ k, t ∈ r.occursIn env r.interval.toNat start k → t.Valid ∧ SameKind t start := fun k a => in_interval hT hn a
  have hiff : t.Valid → SameKind t start → ¬ Rfc.Before t start → ∀ k, (t ∈ r.occursIn env r.interval.toNat start k ↔
      Rfc.InSet r start k t ∧ Limits r.bySetPos (Rfc.AtPosition r start k t)) := by
    intro hv hk hb k
    rw [before_iff hv hT.valid] at hb
    have := year_of_time hT.valid hv (by omega)
    have := h.year
    exact picked_iff hp hT h.standard hD hst hn ⟨by omega, hy, fun hf => by have := hw hf; omega⟩ k
  have hlt : t.Valid → SameKind t start → (t.lt env start = false ↔ ¬ Rfc.Before t start) := by
    intro hv hk
    rw [← lt_iff_before hv hT.valid (kind_to ⟨rfl, rfl, rfl⟩ hk) (env := env)]; simp
  constructor
  · rintro ⟨k, a, b, c, d, _⟩
    obtain ⟨hv, hk⟩ := hcand k a
    have c := (hlt hv hk).mp c
    exact ⟨⟨k, (hiff hv hk c k).mp a⟩, c, b, d⟩
  · rintro ⟨⟨k, a, a'⟩, c, b, d⟩
    have hv := a.2.valid
    have hk := a.2.kind
    exact ⟨k, (hiff hv hk c k).mpr ⟨a, a'⟩, b, (hlt hv hk).mpr c, d, by simp [hc]⟩

/-- C133 (partial), rules with BYSETPOS and COUNT: of the date-times after the start, the expansion over a range has exactly those
that RFC 5545 describes and that have fewer than COUNT - 1 others between the start and themselves; the start is the first.

Missing: as for `C133_setpos_partial`; positions of which two can be of the same date, which then counts twice (`C33_fails`). -/
theorem C133_setpos_count_partial (h : Asked env K r start range off) (hp : r.bySetPos ≠ []) (hD : Distinct r)
    (hst : Steady env r.unpicked start) (hc : r.useCount = true) (hu : r.useUntil = false) (hnd : r.bySetPos.Nodup)
    (hone : ∀ k t, ∀ p ∈ r.bySetPos, ∀ q ∈ r.bySetPos, Rfc.AtPosition r start k t p → Rfc.AtPosition r start k t q → p = q)
    {fuel : Nat} {L : List DateTime} {lim : Bool}
    (hx : r.expandFresh env fuel start range off = some (.dates L lim)) (t : DateTime) (hy : t.year ≤ 2098)
    (hw : r.freq = .weekly → 1903 ≤ start.year ∧ t.year ≤ 2097) :
    t ∈ L ↔ Rfc.OccursAt r start t ∧ Rfc.Before start t ∧ range.isDateWithin env t = true ∧
      Rfc.FewerBetweenAt r start t (r.count - 1) := by
  have hT := h.good.tame
  have hsv := hT.valid
  have hn : r.interval = r.interval.toNat := by have := hT.interval; omega
  have hb : ¬ r.Plain := fun hb => hp hb.2.2.2.2.2.2.2.2
  have hub : ∀ u, ¬ UntilBound r start off u := fun u hu' => by simp [UntilBound, hu] at hu'
  rw [(C54_exact_partial (h.limited (z := none) (by decide)) rfl hn h.untilDate hb hx).1 t]
  have hy3 := h.year
  have hyt : t.Valid → Rfc.Before start t → Years r start ∧ Years r t := by
    intro hv hb
    rw [before_iff hsv hv] at hb
    have := year_of_time hsv hv (by omega)
    exact ⟨⟨by omega, by omega, fun hf => by have := hw hf; omega⟩, by omega, hy, fun hf => by have := hw hf; omega⟩
  constructor
  · rintro ⟨k, a, b, c, d, e⟩
    obtain ⟨hv, hk⟩ := in_interval hT hn a
    obtain ⟨e1, e2⟩ := e hc
    have e1 := (lt_iff_before hsv hv hk).mp e1
    exact ⟨⟨k, (picked_iff hp hT h.standard hD hst hn (hyt hv e1).2 k).mp a⟩, e1, b,
      (fewer_picked hp hT h.standard hD hst hnd hone (hyt hv e1).1 hn a (hyt hv e1).2 e1 _).mp (by omega)⟩
  · rintro ⟨⟨k, a, a'⟩, c, b, d⟩
    have hv := a.2.valid
    have hlt := (lt_iff_before (env := env) hsv hv a.2.kind).mpr c
    have hin := (picked_iff (env := env) hp hT h.standard hD hst hn (hyt hv c).2 k).mpr ⟨a, a'⟩
    have := (fewer_picked hp hT h.standard hD hst hnd hone (hyt hv c).1 hn hin (hyt hv c).2 c _).mpr d
    exact ⟨k, hin, b, lt_asymm hlt, fun u hu' => absurd hu' (hub u), fun _ => ⟨hlt, by omega⟩⟩

end

namespace L133

/-- A date has one weekday. -/
theorem weekday_one {d : Date} (h : d.Valid) {a b : Int} (ha : Rfc.OnWeekday d a) (hb : Rfc.OnWeekday d b) : a = b := by
  have h0 : (⟨1970, 1, 1⟩ : Date).Valid := by decide
  unfold Rfc.OnWeekday at ha hb
  obtain ⟨i, ⟨a1, a2⟩ | ⟨a1, a2⟩⟩ := ha <;> obtain ⟨j, ⟨b1, b2⟩ | ⟨b1, b2⟩⟩ := hb
  · rw [iter_num h0 h] at a1 b1; omega
  · rw [iter_num h0 h] at a1; rw [iter_num h h0] at b1; omega
  · rw [iter_num h h0] at a1; rw [iter_num h0 h] at b1; omega
  · rw [iter_num h h0] at a1 b1; omega

/-- From Monday to Friday, at the given positions of each month. -/
def working (pos : List Int) (count : Int) : Rule :=
  { freq := .monthly, byDay := [(0, 1), (0, 2), (0, 3), (0, 4), (0, 5)], bySetPos := pos, useCount := count > 0, count := count }

def firstWorkingDay : DateTime := ⟨2024, 1, 1, 9, 0, 0, false, true, none⟩

def year2024 : Period := Period.ofEnd ⟨2024, 1, 1, 0, 0, 0, false, true, none⟩ ⟨2025, 1, 1, 0, 0, 0, false, true, none⟩

theorem working_asked (pos : List Int) (count : Int) :
    Asked .empty (InZone true none) (working pos count) firstWorkingDay year2024 0 ∧ Distinct (working pos count) ∧
      Steady .empty (working pos count).unpicked firstWorkingDay := by
  have ht : Tame (working pos count) firstWorkingDay := by
    constructor <;> first | decide +kernel | simp [working, firstWorkingDay]
  have he : InZone true none year2024.stop := by unfold InZone; decide +kernel
  refine ⟨⟨⟨ht, Or.inr (Or.inl ⟨true, none, rfl⟩), by unfold InZone; decide +kernel, by simp, he,
    fun _ => Or.inr (Or.inl ⟨_, _, rfl⟩), steady_of_fixed ht (Or.inl rfl),
    fun _ t h1 h2 => far_of_year (Or.inr ⟨_, _, rfl⟩) he (by decide +kernel) t h1 h2⟩,
    ⟨rfl, rfl, rfl, fun h => by simp [unpicked, working] at h, fun h => by simp [unpicked, working] at h⟩, by decide, ?_,
    by simp [working], ?_⟩,
    ⟨by simp [working], by simp [working], by simp [working], by simp [working], by simp [working], by simp [working], ?_, ?_⟩,
    steady_of_fixed (tame_unpicked ht) (Or.inl rfl)⟩
  · intro z _ u h
    simp [untilLimit, working] at h
  · intro u h
    simp [UntilBound, working] at h
  · intro t _ a ha
    simp [working] at ha
  · intro t hv a ha b hb h1 h2
    have hw := weekday_one hv.1.1 h1.1 h2.1
    have h0 : ∀ v ∈ (working pos count).byDay, v.1 = 0 := by
      show ∀ v ∈ ([(0, 1), (0, 2), (0, 3), (0, 4), (0, 5)] : List (Int × Int)), v.1 = 0
      decide
    exact Prod.ext ((h0 a ha).trans (h0 b hb).symm) hw

end L133

/-- The conditions of `C133_setpos_partial` are met: "the first and the last working day of every month" in UTC, for the year 2024. -/
example : (Asked .empty (InZone true none) (L133.working [1, -1] 0) L133.firstWorkingDay L133.year2024 0 ∧ Distinct (L133.working [1, -1] 0) ∧
      Steady .empty (L133.working [1, -1] 0).unpicked L133.firstWorkingDay) ∧ (L133.working [1, -1] 0).bySetPos ≠ [] ∧
    (L133.working [1, -1] 0).useCount = false ∧
    ∃ L, (L133.working [1, -1] 0).expandFresh .empty 100 L133.firstWorkingDay L133.year2024 0 = some (.dates L true) ∧ L.length = 24 ∧
      ⟨2024, 6, 28, 9, 0, 0, false, true, none⟩ ∈ L := by
  refine ⟨L133.working_asked _ _, by decide, by decide, ?_⟩
  have h2 : ((L133.working [1, -1] 0).expandFresh .empty 100 L133.firstWorkingDay L133.year2024 0).map (fun a => (a.list.length,
      decide (a = .dates a.list true), decide (⟨2024, 6, 28, 9, 0, 0, false, true, none⟩ ∈ a.list))) = some (24, true, true) := by
    decide +kernel
  simp only [Option.map_eq_some_iff, Prod.mk.injEq, decide_eq_true_eq] at h2
  obtain ⟨a, h3, h4, h5, h6⟩ := h2
  exact ⟨a.list, by rw [h3, ← h5], h4, h6⟩

/-- The conditions of `C133_setpos_count_partial` are met: "the last working day of every month, seven times"; the start, which is not
one, counts as the first. -/
example : (Asked .empty (InZone true none) (L133.working [-1] 7) L133.firstWorkingDay L133.year2024 0 ∧ Distinct (L133.working [-1] 7) ∧
      Steady .empty (L133.working [-1] 7).unpicked L133.firstWorkingDay) ∧ (L133.working [-1] 7).bySetPos ≠ [] ∧
    (L133.working [-1] 7).useCount = true ∧ (L133.working [-1] 7).useUntil = false ∧ (L133.working [-1] 7).bySetPos.Nodup ∧
    (∀ k t, ∀ p ∈ (L133.working [-1] 7).bySetPos, ∀ q ∈ (L133.working [-1] 7).bySetPos,
      Rfc.AtPosition (L133.working [-1] 7) L133.firstWorkingDay k t p →
      Rfc.AtPosition (L133.working [-1] 7) L133.firstWorkingDay k t q → p = q) ∧
    ∃ L, (L133.working [-1] 7).expandFresh .empty 100 L133.firstWorkingDay L133.year2024 0 = some (.dates L false) ∧ L.length = 6 := by
  refine ⟨L133.working_asked _ _, by decide, by decide, by decide, by decide, ?_, ?_⟩
  · intro k t p hp q hq _ _
    rw [List.mem_singleton.mp hp, List.mem_singleton.mp hq]
  have h2 : ((L133.working [-1] 7).expandFresh .empty 100 L133.firstWorkingDay L133.year2024 0).map (fun a => (a.list.length,
      decide (a = .dates a.list false))) = some (6, true) := by
    decide +kernel
  simp only [Option.map_eq_some_iff, Prod.mk.injEq, decide_eq_true_eq] at h2
  obtain ⟨a, h3, h4, h5⟩ := h2
  exact ⟨a.list, by rw [h3, ← h5], h4⟩

end PyCal.Rule
