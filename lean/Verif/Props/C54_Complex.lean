import Verif.Props.C53_Candidates
import Verif.Props.C29_C30_Cache

/-!
# C54: expansion of rules with BYxxx parts

The candidates of all intervals, in order, cut off by the start, COUNT, UNTIL and the range.
-/

namespace PyCal.Rule
open Spec DateTime Period

/-- The candidates of the `k`-th interval, sorted. -/
def slot (env : TzEnv) (r : Rule) (start : DateTime) (k : Nat) : List DateTime :=
  sortByPosix env (r.candidates env (r.raw start k))

/-- The candidates of the first `N` intervals. -/
def occ (env : TzEnv) (r : Rule) (start : DateTime) (N : Nat) : List DateTime :=
  (List.range N).flatMap (r.slot env start)

theorem occ_succ (env : TzEnv) (r : Rule) (start : DateTime) (N : Nat) :
    r.occ env start (N + 1) = r.occ env start N ++ r.slot env start N := by
  unfold occ
  rw [List.range_succ, List.flatMap_append]
  simp

theorem mem_slot {env : TzEnv} {r : Rule} {start t : DateTime} {k : Nat} :
    t ∈ r.slot env start k ↔ t ∈ r.candidates env (r.raw start k) := by
  unfold slot sortByPosix
  rw [List.mem_insertionSort]

theorem mem_occ {env : TzEnv} {r : Rule} {start t : DateTime} {N : Nat} :
    t ∈ r.occ env start N ↔ ∃ k, k < N ∧ t ∈ r.candidates env (r.raw start k) := by
  simp only [occ, List.mem_flatMap, List.mem_range, mem_slot]

theorem occ_append {env : TzEnv} {r : Rule} {start : DateTime} {M N : Nat} (h : M ≤ N) :
    ∃ rest, r.occ env start N = r.occ env start M ++ rest ∧
      ∀ t ∈ rest, ∃ k, M ≤ k ∧ t ∈ r.candidates env (r.raw start k) := by
  obtain ⟨d, rfl⟩ : ∃ d, N = M + d := ⟨N - M, by omega⟩
  clear h
  induction d with
  | zero => exact ⟨[], by simp, by simp⟩
  | succ d ih =>
    obtain ⟨rest, h1, h2⟩ := ih
    refine ⟨rest ++ r.slot env start (M + d), ?_, ?_⟩
    · rw [← Nat.add_assoc, occ_succ, h1, List.append_assoc]
    · intro t ht
      rcases List.mem_append.mp ht with ht | ht
      · exact h2 t ht
      · exact ⟨M + d, by omega, mem_slot.mp ht⟩

/-- What makes the early exits of the loop right: candidates of later intervals are later, except
those in the far future, which no range reaches. -/
structure Ordered (env : TzEnv) (K Far : DateTime → Prop) (r : Rule) (start : DateTime) :
    Prop where
  kind : Kind env K
  startK : K start
  cand : ∀ k, ∀ t ∈ r.candidates env (r.raw start k), K t
  inSlot : ∀ k, ∀ a ∈ r.candidates env (r.raw start k), ∀ b ∈ r.candidates env (r.raw start k),
    a.posix env ≤ b.posix env → b.lt env a = false
  later : ∀ j k, j < k → ∀ a ∈ r.candidates env (r.raw start j),
    ∀ b ∈ r.candidates env (r.raw start k), Far b ∨ a.lt env b = true
  stepped : ∀ j k, j < k → ∀ b ∈ r.candidates env (r.raw start k), ∀ s, K s → Far b ∨
    ((r.raw start j).lt env s = false → b.lt env s = false)

theorem lt_asymm {env : TzEnv} {a b : DateTime} (h : a.lt env b = true) : b.lt env a = false := by
  simp only [DateTime.lt, decide_eq_true_eq, decide_eq_false_iff_not, compare_neg env a b] at *
  omega

theorem lt_or {env : TzEnv} {a b : DateTime} (h : a.lt env b = false) (h' : a.eq env b = false) :
    b.lt env a = true := by
  simp only [DateTime.lt, DateTime.eq, decide_eq_true_eq, decide_eq_false_iff_not,
    compare_neg env a b] at *
  omega

theorem not_lt_of_eq {env : TzEnv} {a b : DateTime} (h : a.eq env b = true) :
    a.lt env b = false := by
  simp only [DateTime.lt, DateTime.eq, decide_eq_true_eq, decide_eq_false_iff_not] at *
  omega

theorem eq_symm {env : TzEnv} {a b : DateTime} (h : a.eq env b = true) : b.eq env a = true := by
  simp only [DateTime.eq, decide_eq_true_eq, compare_neg env a b] at *
  omega

/-- `b ≤ a` and `a ≤ c` give `b ≤ c`, for `≤` meaning "not greater". -/
theorem not_lt_trans {env : TzEnv} {K : DateTime → Prop} (hK : Kind env K) {a b c : DateTime}
    (ha : K a) (hb : K b) (hc : K c) (h1 : a.lt env b = false) (h2 : c.lt env a = false) :
    c.lt env b = false := by
  by_contra h
  have h : c.lt env b = true := by simpa using h
  cases he : a.eq env b with
  | true =>
    have := hK.transitive.lt_eq _ _ _ hc hb ha h (eq_symm he)
    rw [h2] at this; simp at this
  | false =>
    have := hK.transitive.lt_lt _ _ _ hc hb ha h (lt_or h1 he)
    rw [h2] at this; simp at this

theorem slot_pairwise {env : TzEnv} {K Far : DateTime → Prop} {r : Rule} {start : DateTime}
    (h : Ordered env K Far r start) (k : Nat) :
    (r.slot env start k).Pairwise fun a b => b.lt env a = false := by
  have h1 : (r.slot env start k).Pairwise fun a b => a.posix env ≤ b.posix env := by
    have : Std.Total fun a b : DateTime => a.posix env ≤ b.posix env := ⟨fun a b => by omega⟩
    have : IsTrans DateTime fun a b : DateTime => a.posix env ≤ b.posix env :=
      ⟨fun a b c => by omega⟩
    exact List.pairwise_insertionSort _ _
  refine List.Pairwise.imp_of_mem ?_ h1
  intro a b ha hb hab
  exact h.inSlot k a (mem_slot.mp ha) b (mem_slot.mp hb) hab

theorem occ_pairwise {env : TzEnv} {K Far : DateTime → Prop} {r : Rule} {start : DateTime}
    (h : Ordered env K Far r start) (N : Nat) :
    (r.occ env start N).Pairwise fun a b => Far b ∨ b.lt env a = false := by
  induction N with
  | zero => simp [occ]
  | succ N ih =>
    rw [occ_succ, List.pairwise_append]
    refine ⟨ih, (slot_pairwise h N).imp Or.inr, fun a ha b hb => ?_⟩
    obtain ⟨j, hj, hm⟩ := mem_occ.mp ha
    rcases h.later j N hj a hm b (mem_slot.mp hb) with h | h
    · exact Or.inl h
    · exact Or.inr (lt_asymm h)

/-! ## The loops -/

/-- Which candidates are listed at all: not before the start; with COUNT the start itself is
counted but not listed. -/
def keep (env : TzEnv) (r : Rule) (start x : DateTime) : Bool :=
  if r.useCount then start.lt env x else !x.lt env start

/-- A list of candidates the loop runs through without stopping. -/
def Clean (env : TzEnv) (r : Rule) (limit : Option DateTime) (start : DateTime) (range : Period)
    (l : List DateTime) : Prop :=
  (∀ x ∈ l, x.lt env start = false →
    range.isDateAfter env x = false ∧ pastUntil env limit x = false) ∧
  (r.useCount = true → ((l.filter (r.keep env start)).length : Int) + 1 < r.count)

/-- A list of candidates the loop does not run through to its end. -/
def StopsIn (env : TzEnv) (r : Rule) (limit : Option DateTime) (start : DateTime) (range : Period)
    (l items : List DateTime) (full : Bool) : Prop :=
  ∃ l1 x l2, l = l1 ++ x :: l2 ∧ Clean env r limit start range l1 ∧ x.lt env start = false ∧
    ((full = false ∧ range.isDateAfter env x = true ∧ items = l1.filter (r.keep env start)) ∨
     (full = true ∧ range.isDateAfter env x = false ∧ pastUntil env limit x = true ∧
       items = l1.filter (r.keep env start)) ∨
     (full = true ∧ range.isDateAfter env x = false ∧ pastUntil env limit x = false ∧
       r.useCount = true ∧ r.keep env start x = true ∧
       items = l1.filter (r.keep env start) ++ [x] ∧ r.count ≤ (items.length : Int) + 1))

/-- The counter belongs to the items found so far. -/
def CtrOK (r : Rule) (ctr : Int) (items : List DateTime) : Prop :=
  (r.useCount = true → ctr = 1 + items.length) ∧ (r.useCount = false → ctr = 0)

theorem setLoop_spec {env : TzEnv} {K Far : DateTime → Prop} {r : Rule} {limit : Option DateTime}
    {start : DateTime} {range : Period} (hK : Kind env K) (hs : K start)
    (hfar : ∀ t, Far t → range.isDateAfter env t = true) :
    ∀ (l p : List DateTime) (ctr : Int) (items : List DateTime),
      (∀ t ∈ p ++ l, K t) →
      ((p ++ l).Pairwise fun a b => Far b ∨ b.lt env a = false) →
      items = p.filter (r.keep env start) → CtrOK r ctr items →
      Clean env r limit start range p →
      match setLoop env r limit start range none l ctr items with
      | .next ctr' items' => items' = (p ++ l).filter (r.keep env start) ∧ CtrOK r ctr' items' ∧
          Clean env r limit start range (p ++ l)
      | .stop (.done items' full) => StopsIn env r limit start range (p ++ l) items' full
      | .stop (.tooMany _) => False := by
  intro l
  induction l with
  | nil =>
    intro p ctr items _ _ hi hc hcl
    simp only [setLoop, List.append_nil]
    exact ⟨hi, hc, hcl⟩
  | cons x l ih =>
    intro p ctr items hKl hp hi hc hcl
    -- going on with `x` taken into the prefix
    have go : ∀ ctr' items', items' = (p ++ [x]).filter (r.keep env start) → CtrOK r ctr' items' →
        Clean env r limit start range (p ++ [x]) →
        match setLoop env r limit start range none l ctr' items' with
        | .next ctr'' items'' => items'' = (p ++ x :: l).filter (r.keep env start) ∧
            CtrOK r ctr'' items'' ∧ Clean env r limit start range (p ++ x :: l)
        | .stop (.done items'' full) => StopsIn env r limit start range (p ++ x :: l) items'' full
        | .stop (.tooMany _) => False := by
      intro ctr' items' h1 h2 h3
      have := ih (p ++ [x]) ctr' items' (by simpa using hKl) (by simpa using hp) h1 h2 h3
      simpa using this
    rw [setLoop]
    by_cases h1 : x.lt env start = true
    · -- before the start
      rw [if_pos h1]
      have hk : r.keep env start x = false := by
        unfold keep
        split
        · exact lt_asymm h1
        · simp [h1]
      refine go ctr items (by rw [List.filter_append, hi]; simp [hk]) hc ⟨?_, ?_⟩
      · intro y hy hys
        rcases List.mem_append.mp hy with hy | hy
        · exact hcl.1 y hy hys
        · rw [List.mem_singleton] at hy
          rw [hy, h1] at hys; simp at hys
      · intro hu
        rw [List.filter_append]; simp only [List.filter_cons, hk, List.filter_nil]
        simpa using hcl.2 hu
    · have h1 : x.lt env start = false := by simpa using h1
      rw [if_neg (by simp [h1])]
      by_cases h2 : range.isDateAfter env x = true
      · rw [if_pos h2]
        exact ⟨p, x, l, rfl, hcl, h1, Or.inl ⟨rfl, h2, hi⟩⟩
      · have h2 : range.isDateAfter env x = false := by simpa using h2
        rw [if_neg (by simp [h2])]
        by_cases h3 : pastUntil env limit x = true
        · rw [if_pos h3]
          exact ⟨p, x, l, rfl, hcl, h1, Or.inr (Or.inl ⟨rfl, h2, h3, hi⟩)⟩
        · have h3 : pastUntil env limit x = false := by simpa using h3
          rw [if_neg (by simp [h3])]
          have hx1 : ∀ y ∈ p ++ [x], y.lt env start = false →
              range.isDateAfter env y = false ∧ pastUntil env limit y = false := by
            intro y hy hys
            rcases List.mem_append.mp hy with hy | hy
            · exact hcl.1 y hy hys
            · rw [List.mem_singleton] at hy
              rw [hy]; exact ⟨h2, h3⟩
          by_cases h4 : (decide (ctr = 1) && start.eq env x) = true
          · -- the start itself, counted already
            rw [if_pos h4]
            rw [Bool.and_eq_true, decide_eq_true_eq] at h4
            have hu : r.useCount = true := by
              cases h : r.useCount with
              | true => rfl
              | false => have := hc.2 h; omega
            have hk : r.keep env start x = false := by
              unfold keep; rw [if_pos hu]; exact not_lt_of_eq h4.2
            refine go ctr items (by rw [List.filter_append, hi]; simp [hk]) hc ⟨hx1, ?_⟩
            intro hu
            rw [List.filter_append]; simp only [List.filter_cons, hk, List.filter_nil]
            simpa using hcl.2 hu
          · rw [if_neg h4]
            -- so it is after the start
            have hk : r.keep env start x = true := by
              unfold keep
              by_cases hu : r.useCount = true
              · rw [if_pos hu]
                cases he : start.eq env x with
                | false =>
                  refine lt_or h1 ?_
                  by_contra hc'
                  have := eq_symm (by simpa using hc')
                  rw [he] at this; simp at this
                | true =>
                  exfalso
                  rw [he, Bool.and_true, decide_eq_true_eq] at h4
                  have hc1 := hc.1 hu
                  -- something after the start was found before
                  have hne : items ≠ [] := by
                    intro h; rw [h] at hc1; simp at hc1; exact h4 hc1
                  obtain ⟨y, hy⟩ := List.exists_mem_of_ne_nil _ hne
                  rw [hi, List.mem_filter] at hy
                  have hys : start.lt env y = true := by
                    have := hy.2
                    unfold keep at this; rwa [if_pos hu] at this
                  have hR := (List.pairwise_append.mp hp).2.2 y hy.1 x (by simp)
                  rcases hR with hR | hR
                  · rw [hfar x hR] at h2; simp at h2
                  · have := hK.transitive.eq_lt x start y (hKl x (by simp)) hs
                      (hKl y (by simp [hy.1])) (eq_symm he) hys
                    rw [hR] at this; simp at this
              · rw [if_neg hu]; simp [h1]
            have hf : (p ++ [x]).filter (r.keep env start) = items ++ [x] := by
              rw [List.filter_append, hi]; simp [hk]
            simp only [exceeds, Bool.false_eq_true, if_false]
            by_cases hu : r.useCount = true
            · rw [if_pos hu]
              have hc1 := hc.1 hu
              by_cases h5 : ctr + 1 ≥ r.count
              · rw [if_pos h5]
                refine ⟨p, x, l, rfl, hcl, h1, Or.inr (Or.inr ⟨rfl, h2, h3, hu, hk, ?_, ?_⟩)⟩
                · rw [hi]
                · rw [List.length_append, List.length_singleton]; push_cast; omega
              · rw [if_neg h5]
                refine go _ _ hf.symm ⟨fun _ => ?_, fun h => ?_⟩ ⟨hx1, fun _ => ?_⟩
                · rw [List.length_append, List.length_singleton]; push_cast; omega
                · rw [hu] at h; simp at h
                · rw [hf, List.length_append, List.length_singleton]; push_cast; omega
            · rw [if_neg hu]
              refine go _ _ hf.symm ⟨fun h => absurd h hu, hc.2⟩ ⟨hx1, fun h => absurd h hu⟩

/-- How the whole loop ends. -/
def Ends (env : TzEnv) (r : Rule) (limit : Option DateTime) (start : DateTime) (range : Period)
    (items : List DateTime) (full : Bool) (N : Nat) : Prop :=
  StopsIn env r limit start range (r.occ env start N) items full ∨
  (full = false ∧ items = (r.occ env start N).filter (r.keep env start) ∧
    Clean env r limit start range (r.occ env start N) ∧
    ∃ j, j < N ∧ range.isDateAfter env (r.raw start j) = true)

theorem complexLoop_spec {env : TzEnv} {K Far : DateTime → Prop} {r : Rule}
    {limit : Option DateTime} {start : DateTime} {range : Period}
    (ho : Ordered env K Far r start) (hfar : ∀ t, Far t → range.isDateAfter env t = true) :
    ∀ (fuel k : Nat) (ctr : Int) (items : List DateTime) (o : Outcome),
      items = (r.occ env start k).filter (r.keep env start) → CtrOK r ctr items →
      Clean env r limit start range (r.occ env start k) →
      complexLoop env r limit start range none fuel (r.raw start k) ctr items = some o →
      ∃ N items' full, o = .done items' full ∧ Ends env r limit start range items' full N := by
  intro fuel
  induction fuel with
  | zero => intro k ctr items o _ _ _ h; simp [complexLoop] at h
  | succ n ih =>
    intro k ctr items o hi hc hcl h
    rw [complexLoop] at h
    have hKl : ∀ t ∈ r.occ env start k ++ r.slot env start k, K t := by
      intro t ht
      rw [← occ_succ] at ht
      obtain ⟨j, _, hm⟩ := mem_occ.mp ht
      exact ho.cand j t hm
    have hp := occ_pairwise ho (k + 1)
    rw [occ_succ] at hp
    have hset := setLoop_spec (r := r) (limit := limit) (range := range) ho.kind ho.startK hfar
      (r.slot env start k) (r.occ env start k) ctr items hKl hp hi hc hcl
    rw [← occ_succ] at hset
    unfold slot at hset
    revert h hset
    cases setLoop env r limit start range none
        (sortByPosix env (r.candidates env (r.raw start k))) ctr items with
    | stop o' =>
      intro h hset
      cases o' with
      | tooMany l => exact absurd hset (by simp)
      | done items' full =>
        simp only [Option.some.injEq] at h
        exact ⟨k + 1, items', full, h.symm, Or.inl hset⟩
    | next ctr' items' =>
      intro h hset
      simp only at h hset
      split at h
      · next ha =>
        simp only [Option.some.injEq] at h
        exact ⟨k + 1, items', false, h.symm, Or.inr ⟨rfl, hset.1, hset.2.2, k, by omega, ha⟩⟩
      · exact ih (k + 1) ctr' items' o hset.1 hset.2.1 hset.2.2 h

/-- With COUNT, one less than the count are listed besides the start. -/
def cut (r : Rule) (l : List DateTime) : List DateTime :=
  if r.useCount then l.take (r.count - 1).toNat else l

/-- Past UNTIL, later dates are past it too. -/
theorem past_mono {env : TzEnv} {K : DateTime → Prop} (hK : Kind env K) {limit : Option DateTime}
    (hl : ∀ u, limit = some u → K u) {a b : DateTime} (ha : K a) (hb : K b)
    (hab : b.lt env a = false) (h : pastUntil env limit a = true) : pastUntil env limit b = true := by
  cases hlim : limit with
  | none => rw [hlim] at h; simp [pastUntil] at h
  | some u =>
    rw [hlim] at h
    simp only [pastUntil, gt_iff] at *
    cases he : a.eq env b with
    | true => exact hK.transitive.lt_eq _ _ _ (hl u hlim) ha hb h he
    | false =>
      refine hK.transitive.lt_lt _ _ _ (hl u hlim) ha hb h (lt_or hab ?_)
      by_contra hc
      have := eq_symm (by simpa using hc)
      rw [he] at this; simp at this

/-- The part of the result selected by a window `w` is the part of all the candidates selected by
it, if the window reaches no further than the expansion did. -/
theorem ends_filter {env : TzEnv} {K Far : DateTime → Prop} {r : Rule}
    {limit : Option DateTime} {start : DateTime} {range : Period}
    (ho : Ordered env K Far r start) (hl : ∀ u, limit = some u → K u) (he : K range.stop)
    {items : List DateTime} {full : Bool} {N : Nat}
    (h : Ends env r limit start range items full N) (w : DateTime → Bool)
    (hw : ∀ t, w t = true → ¬ Far t)
    (hw' : full = false → ∀ t, w t = true → range.isDateAfter env t = false) :
    ∀ M, N ≤ M → items.filter w =
      (r.cut ((r.occ env start M).filter (r.keep env start))).filter
        (fun t => w t && !pastUntil env limit t) := by
  intro M hM
  obtain ⟨rest, hrest, hrm⟩ := occ_append (env := env) (r := r) (start := start) hM
  have hpw := occ_pairwise ho M
  have hKall : ∀ t ∈ r.occ env start M, K t := by
    intro t ht
    obtain ⟨j, _, hm⟩ := mem_occ.mp ht
    exact ho.cand j t hm
  -- a kept element is not before the start
  have hkeep : ∀ t, r.keep env start t = true → t.lt env start = false := by
    intro t ht
    unfold keep at ht
    split at ht
    · exact lt_asymm ht
    · simpa using ht
  -- cutting a list whose beginning is clean
  have hcut : ∀ l1 l2 : List DateTime, Clean env r limit start range l1 →
      ∃ l2' : List DateTime, (∀ t ∈ l2', t ∈ l2) ∧
        r.cut ((l1 ++ l2).filter (r.keep env start)) =
          l1.filter (r.keep env start) ++ l2'.filter (r.keep env start) := by
    intro l1 l2 hcl
    unfold cut
    split
    · next hu =>
      refine ⟨(l2.filter (r.keep env start)).take
        ((r.count - 1).toNat - (l1.filter (r.keep env start)).length), ?_, ?_⟩
      · intro t ht
        exact (List.mem_filter.mp (List.mem_of_mem_take ht)).1
      · have := hcl.2 hu
        rw [List.filter_append, List.take_append, List.take_of_length_le (by omega)]
        congr 1
        symm
        rw [List.filter_eq_self]
        intro t ht
        exact (List.mem_filter.mp (List.mem_of_mem_take ht)).2
    · exact ⟨l2, fun _ h => h, List.filter_append ..⟩
  have hclean : ∀ l1 : List DateTime, Clean env r limit start range l1 →
      (l1.filter (r.keep env start)).filter (fun t => w t && !pastUntil env limit t) =
        (l1.filter (r.keep env start)).filter w := by
    intro l1 hcl
    refine List.filter_congr fun t ht => ?_
    rw [List.mem_filter] at ht
    rw [(hcl.1 t ht.1 (hkeep t ht.2)).2]
    simp
  -- after mono
  have hafter : ∀ a b, K a → K b → b.lt env a = false → range.isDateAfter env a = true →
      range.isDateAfter env b = true := by
    intro a b ha hb hab h
    unfold isDateAfter at *
    rw [ge_iff] at *
    intro hc
    have := not_lt_trans ho.kind ha he hb (by simpa using h) hab
    rw [this] at hc; simp at hc
  rcases h with ⟨l1, x, l2, hl12, hcl, hx, hcase⟩ | ⟨rfl, rfl, hcl, j, hj, ha⟩
  · rw [hl12, List.append_assoc, List.cons_append] at hrest
    rw [hrest] at hpw hKall ⊢
    have hxK : K x := hKall x (by simp)
    have hR : ∀ t ∈ l2 ++ rest, Far t ∨ t.lt env x = false := by
      intro t ht
      exact (List.pairwise_cons.mp (List.pairwise_append.mp hpw).2.1).1 t ht
    have hKt : ∀ t ∈ l2 ++ rest, K t := fun t ht => hKall t (by
      rw [List.mem_append, List.mem_cons]; exact Or.inr (Or.inr ht))
    rcases hcase with ⟨rfl, hax, rfl⟩ | ⟨rfl, _, hpx, rfl⟩ | ⟨rfl, hax, hpx, hu, hkx, rfl, hcount⟩
    · -- the range is exhausted
      obtain ⟨l', hl', e⟩ := hcut l1 (x :: (l2 ++ rest)) hcl
      rw [e, List.filter_append, hclean l1 hcl]
      rw [show (l'.filter (r.keep env start)).filter (fun t => w t && !pastUntil env limit t) = [] by
        rw [List.filter_eq_nil_iff]
        intro t ht
        have ht := hl' t (List.mem_filter.mp ht).1
        simp only [Bool.and_eq_true, not_and]
        intro hwt
        exfalso
        have hna := hw' rfl t hwt
        rcases List.mem_cons.mp ht with rfl | ht
        · rw [hax] at hna; simp at hna
        · rcases hR t ht with hf | hlt
          · exact hw t hwt hf
          · rw [hafter x t hxK (hKt t ht) hlt hax] at hna; simp at hna]
      simp
    · -- UNTIL is passed
      obtain ⟨l', hl', e⟩ := hcut l1 (x :: (l2 ++ rest)) hcl
      rw [e, List.filter_append, hclean l1 hcl]
      rw [show (l'.filter (r.keep env start)).filter (fun t => w t && !pastUntil env limit t) = [] by
        rw [List.filter_eq_nil_iff]
        intro t ht
        have ht := hl' t (List.mem_filter.mp ht).1
        simp only [Bool.and_eq_true, not_and]
        intro hwt
        rcases List.mem_cons.mp ht with rfl | ht
        · rw [hpx]; simp
        · rcases hR t ht with hf | hlt
          · exact absurd hf (hw t hwt)
          · rw [past_mono ho.kind hl hxK (hKt t ht) hlt hpx]; simp]
      simp
    · -- COUNT is reached
      have hlen := hcl.2 hu
      have e : r.cut ((l1 ++ x :: (l2 ++ rest)).filter (r.keep env start)) =
          l1.filter (r.keep env start) ++ [x] := by
        unfold cut
        rw [if_pos hu, List.filter_append, List.filter_cons, if_pos hkx]
        rw [List.length_append, List.length_singleton] at hcount
        push_cast at hcount
        rw [List.take_append, List.take_of_length_le (by omega),
          show (r.count - 1).toNat - (l1.filter (r.keep env start)).length = 1 by omega]
        rfl
      rw [e, List.filter_append, List.filter_append, hclean l1 hcl]
      congr 1
      refine List.filter_congr fun t ht => ?_
      rw [List.mem_singleton] at ht
      rw [ht, hpx]; simp
  · -- the iteration has left the range
    rw [hrest]
    obtain ⟨l', hl', e⟩ := hcut _ rest hcl
    rw [e, List.filter_append, hclean _ hcl]
    rw [show (l'.filter (r.keep env start)).filter (fun t => w t && !pastUntil env limit t) = [] by
      rw [List.filter_eq_nil_iff]
      intro t ht
      have ht := hl' t (List.mem_filter.mp ht).1
      simp only [Bool.and_eq_true, not_and]
      intro hwt
      exfalso
      have hna := hw' rfl t hwt
      obtain ⟨k, hk, hm⟩ := hrm t ht
      unfold isDateAfter at *
      rcases ho.stepped j k (by omega) t hm range.stop he with hf | hst
      · exact hw t hwt hf
      · rw [ge_iff] at ha
        have := hst (by simpa using ha)
        rw [Bool.eq_false_iff, ne_eq, ge_iff] at hna
        rw [this] at hna; simp at hna]
    simp

end PyCal.Rule
