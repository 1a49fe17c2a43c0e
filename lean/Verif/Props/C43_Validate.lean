import Mathlib.Tactic.Tauto
import Mathlib.Data.List.Perm.Subperm
import Verif.Model.Validate

/-!
# C43: validation, in check mode and in fix mode
-/

namespace PyCal
open Cont Valid PropText

namespace Valid43

mutual
theorem check_mode (v : Values) (parent : Option (List CProp)) : ∀ c : VComp,
    ∃ u, validate v false parent c = some ⟨c, [], u⟩
  | .mk t k tb st us ps cs => by
    have h2 : ∀ names ps, ∃ u, checkFixEmpty v t false names ps = ⟨ps, [], u⟩ := by
      intro names
      induction names with
      | nil => intro ps; exact ⟨_, rfl⟩
      | cons n names ih =>
        intro ps
        obtain ⟨u, hu⟩ := ih ps
        rw [checkFixEmpty, hu]
        split
        · exact ⟨_, rfl⟩
        · split
          · exact ⟨_, rfl⟩
          · exact ⟨_, rfl⟩
    have h5 : ∀ names ps, ∃ u, checkStatus v t false names ps = some ⟨ps, [], u⟩ := by
      intro names
      induction names with
      | nil => intro ps; exact ⟨_, rfl⟩
      | cons n names ih =>
        intro ps
        obtain ⟨u, hu⟩ := ih ps
        rw [checkStatus, hu]
        split
        · exact ⟨_, rfl⟩
        · exact ⟨_, rfl⟩
    have h8 : ∀ us, ∃ u, checkUntils t st false us = ⟨us, [], u⟩ := by
      intro us
      induction us with
      | nil => exact ⟨_, rfl⟩
      | cons x us ih =>
        obtain ⟨u, hu⟩ := ih
        cases st with
        | none => rw [checkUntils, hu]; exact ⟨_, rfl⟩
        | some s =>
          rw [checkUntils, hu]
          simp only
          split
          · exact ⟨_, rfl⟩
          · exact ⟨_, rfl⟩
    have hb : ∀ a b rem, ∃ u, checkBoth t false a b rem ps = ⟨ps, [], u⟩ := by
      intro a b rem
      unfold checkBoth
      split
      · exact ⟨_, rfl⟩
      · exact ⟨_, rfl⟩
    have h9 : ∀ subs, ∃ u, checkKind k t parent subs false ps = ⟨ps, [], u⟩ := by
      intro subs
      unfold checkKind
      cases k with
      | other => exact ⟨_, rfl⟩
      | event => obtain ⟨u, hu⟩ := hb "DTEND".toList "DURATION".toList "DTEND".toList
                 simp only [hu]; exact ⟨_, rfl⟩
      | todo => obtain ⟨u, hu⟩ := hb "DUE".toList "DURATION".toList "DURATION".toList
                simp only [hu]; exact ⟨_, rfl⟩
      | avail => exact hb _ _ _
      | timezone =>
        simp only
        split
        · exact ⟨_, rfl⟩
        · exact ⟨_, rfl⟩
      | alarm =>
        simp only
        split
        · exact ⟨_, rfl⟩
        · exact ⟨_, rfl⟩
    obtain ⟨u2, h2⟩ := h2 tb.fixEmpty ps
    obtain ⟨u5, h5⟩ := h5 tb.statusFix ps
    obtain ⟨u7, h7⟩ := check_modes v ps cs
    obtain ⟨u8, h8⟩ := h8 us
    obtain ⟨u9, h9⟩ := h9 (cs.map VComp.type)
    refine ⟨check1 t tb.one ps ++ u2 ++ check01 t tb.zeroOne ps ++ check1More t tb.oneMore ps ++ u5 ++
      checkValues v t ps ++ u7 ++ u8 ++ u9, ?_⟩
    rw [validate]
    simp only [h2, h5, h7, h8, h9, List.append_nil]

theorem check_modes (v : Values) (parent : List CProp) : ∀ cs : List VComp,
    ∃ u, validateAll v false parent cs = some ⟨cs, [], u⟩
  | [] => ⟨[], by rw [validateAll]⟩
  | c :: cs => by
    obtain ⟨u, hu⟩ := check_mode v (some parent) c
    obtain ⟨us, hus⟩ := check_modes v parent cs
    exact ⟨u ++ us, by rw [validateAll, hu, hus]; rfl⟩
end

/-! ### Counting -/

theorem count_congr {n m : List Char} (h : upper n = upper m) (ps : List CProp) :
    count ps n = count ps m := by unfold count; rw [h]

theorem has_iff (ps : List CProp) (n : List Char) : has ps n = true ↔ 0 < count ps n := by
  unfold has count
  rw [List.countP_pos_iff, List.any_eq_true]

theorem has_congr {ps qs : List CProp} {n : List Char} (h : count ps n = count qs n) :
    has ps n = has qs n := by
  rw [Bool.eq_iff_iff, has_iff, has_iff, h]

theorem count_add (ps : List CProp) (p : CProp) (n : List Char) :
    count (ps ++ [p]) n = count ps n + if p.key = upper n then 1 else 0 := by
  unfold count
  rw [List.countP_append]
  congr 1
  by_cases h : p.key = upper n <;> simp [h]

theorem filter_count {ps qs : List CProp} {n : List Char}
    (h : (ps.filter fun p => decide (p.key = upper n)) = qs.filter fun p => decide (p.key = upper n)) :
    count ps n = count qs n := by
  unfold count
  rw [List.countP_eq_length_filter, List.countP_eq_length_filter, h]

theorem filter_without {ps : List CProp} {m n : List Char} (h : upper n ≠ upper m) :
    ((without ps m).filter fun p => decide (p.key = upper n)) =
      ps.filter fun p => decide (p.key = upper n) := by
  unfold without
  rw [List.filter_filter]
  apply List.filter_congr
  intro p _
  by_cases hp : p.key = upper n
  · simp [hp, h]
  · simp [hp]

theorem count_without_self (ps : List CProp) {m n : List Char} (h : upper n = upper m) :
    count (without ps m) n = 0 := by
  unfold count without
  rw [List.countP_eq_zero]
  intro p hp
  have := (List.mem_filter.mp hp).2
  simp only [Bool.not_eq_eq_eq_not, Bool.not_true, decide_eq_false_iff_not] at this
  rw [h]
  simpa using this

/-- No count gets worse. -/
def Better (ps qs : List CProp) : Prop := ∀ n, (count ps n = 1 → count qs n = 1) ∧
  (0 < count ps n → 0 < count qs n) ∧ (count ps n ≤ 1 → count qs n ≤ 1)

theorem Better.trans {a b c : List CProp} (h : Better a b) (h' : Better b c) : Better a c := by
  intro n
  obtain ⟨h1, h2, h3⟩ := h n
  obtain ⟨h4, h5, h6⟩ := h' n
  exact ⟨fun h => h4 (h1 h), fun h => h5 (h2 h), fun h => h6 (h3 h)⟩

theorem Better.rfl {a : List CProp} : Better a a := fun _ => ⟨id, id, id⟩

theorem filterMap_sub {α β : Type} {l : List α} {f : α → β} {p q : α → Prop} [DecidablePred p]
    [DecidablePred q] (h : ∀ a ∈ l, p a → q a) :
    (l.filterMap fun a => if p a then some (f a) else none).Sublist
      (l.filterMap fun a => if q a then some (f a) else none) := by
  induction l with
  | nil => exact List.Sublist.refl _
  | cons a l ih =>
    have ih := ih fun b hb => h b (List.mem_cons_of_mem _ hb)
    simp only [List.filterMap_cons]
    by_cases hp : p a
    · simp only [hp, h a (by simp) hp, if_true]
      exact ih.cons_cons _
    · simp only [hp, if_false]
      by_cases hq : q a
      · simp only [hq, if_true]
        exact ih.cons _
      · simp only [hq, if_false]
        exact ih

/-! ### The checks in fix mode -/

theorem fixEmpty_fix (v : Values) (t : List Char) (names : List (List Char)) : ∀ ps : List CProp,
    Better ps (checkFixEmpty v t true names ps).val ∧
    (∀ n ∈ names, 0 < count (checkFixEmpty v t true names ps).val n) ∧
    (checkFixEmpty v t true names ps).unfixed =
      names.filterMap fun n => if count ps n > 1 then some ⟨t, .manyRequired, n⟩ else none := by
  induction names with
  | nil => intro ps; exact ⟨.rfl, by simp, rfl⟩
  | cons n names ih =>
    intro ps
    rw [checkFixEmpty]
    by_cases h1 : count ps n > 1
    · obtain ⟨a, b, c⟩ := ih ps
      rw [if_pos h1]
      refine ⟨a, ?_, by simp [h1, c]⟩
      intro m hm
      rcases List.mem_cons.mp hm with rfl | hm
      · exact (a m).2.1 (by omega)
      · exact b m hm
    · rw [if_neg h1]
      by_cases h0 : count ps n = 0
      · rw [if_pos h0, if_pos rfl]
        obtain ⟨a, b, c⟩ := ih (ps ++ [⟨n, v.line n []⟩])
        have hk : (⟨n, v.line n []⟩ : CProp).key = upper n := rfl
        have hadd : ∀ m, count (ps ++ [⟨n, v.line n []⟩]) m =
            if upper n = upper m then 1 else count ps m := by
          intro m
          rw [count_add, hk]
          split
          · rename_i he
            rw [← count_congr he, h0]
          · rfl
        have hb : Better ps (ps ++ [⟨n, v.line n []⟩]) := by
          intro m
          rw [hadd]
          split
          · exact ⟨fun _ => rfl, fun _ => by omega, fun _ => by omega⟩
          · exact ⟨id, id, id⟩
        refine ⟨hb.trans a, ?_, ?_⟩
        · intro m hm
          rcases List.mem_cons.mp hm with rfl | hm
          · exact (a m).2.1 (by rw [hadd]; simp)
          · exact b m hm
        · simp only
          rw [c, List.filterMap_cons, if_neg h1]
          simp only
          apply List.filterMap_congr
          intro m _
          rw [hadd]
          split
          · rename_i he
            rw [← count_congr he, h0]
            simp
          · rfl
      · rw [if_neg h0]
        obtain ⟨a, b, c⟩ := ih ps
        refine ⟨a, ?_, by simp [h1, c]⟩
        intro m hm
        rcases List.mem_cons.mp hm with rfl | hm
        · exact (a m).2.1 (by omega)
        · exact b m hm

theorem fixEmpty_again (v : Values) (t : List Char) (d : Bool) (names : List (List Char))
    (ps : List CProp) (h : ∀ n ∈ names, 0 < count ps n) :
    checkFixEmpty v t d names ps = ⟨ps, [],
      names.filterMap fun n => if count ps n > 1 then some ⟨t, .manyRequired, n⟩ else none⟩ := by
  induction names with
  | nil => rfl
  | cons n names ih =>
    have h0 := h n (by simp)
    rw [checkFixEmpty, ih fun m hm => h m (List.mem_cons_of_mem _ hm), List.filterMap_cons]
    split
    · rfl
    · rw [if_neg (by omega)]

/-- The properties with a key. -/
abbrev sel (ps : List CProp) (n : List Char) : List CProp := ps.filter fun p => decide (p.key = upper n)

theorem status_fix (v : Values) (t : List Char) (names : List (List Char)) :
    ∀ (ps : List CProp) (r : Out (List CProp)), checkStatus v t true names ps = some r →
    (∀ n, sel r.val n = sel ps n ∨
      (count ps n > 1 ∧ count r.val n = 1 ∧ cancelled v (sel ps n) = some true)) ∧
    (∀ n ∈ names, count r.val n > 1 → cancelled v (sel r.val n) = some false) ∧
    r.unfixed = names.filterMap fun n => if count r.val n > 1 then some ⟨t, .manyStatus, n⟩ else none := by
  induction names with
  | nil =>
    intro ps r h
    rw [checkStatus] at h
    cases h
    exact ⟨fun n => Or.inl rfl, by simp, rfl⟩
  | cons n names ih =>
    intro ps r h
    rw [checkStatus] at h
    by_cases h1 : count ps n > 1
    · rw [if_pos h1, if_pos rfl] at h
      cases hc : cancelled v (sel ps n) with
      | none => rw [hc] at h; cases h
      | some b =>
        cases b with
        | true =>
          rw [hc] at h
          simp only [Option.map_eq_some_iff] at h
          obtain ⟨r', h', rfl⟩ := h
          obtain ⟨a, b, c⟩ := ih _ _ h'
          have hk : (⟨n, v.line n "CANCELLED".toList⟩ : CProp).key = upper n := rfl
          have hsame : ∀ m, upper m ≠ upper n →
              sel (without ps n ++ [⟨n, v.line n "CANCELLED".toList⟩]) m = sel ps m := by
            intro m hm
            have hd : decide ((⟨n, v.line n "CANCELLED".toList⟩ : CProp).key = upper m) = false := by
              rw [hk, decide_eq_false_iff_not]
              exact Ne.symm hm
            rw [sel, List.filter_append, filter_without hm, List.filter_cons, hd]
            simp
          have hone : ∀ m, upper m = upper n →
              count (without ps n ++ [⟨n, v.line n "CANCELLED".toList⟩]) m = 1 := by
            intro m hm
            rw [count_add, count_without_self _ hm, hk, if_pos hm.symm]
          have hone' : ∀ m, upper m = upper n → count r'.val m = 1 := by
            intro m hm
            rcases a m with h | ⟨h, -⟩
            · rw [filter_count h, hone m hm]
            · rw [hone m hm] at h
              omega
          refine ⟨?_, ?_, ?_⟩
          · intro m
            by_cases hm : upper m = upper n
            · refine Or.inr ⟨by rw [count_congr hm]; exact h1, hone' m hm, ?_⟩
              rw [sel, hm]
              exact hc
            · rcases a m with h | ⟨h2, h3, h4⟩
              · exact Or.inl (h.trans (hsame m hm))
              · rw [hsame m hm] at h4
                rw [filter_count (hsame m hm)] at h2
                exact Or.inr ⟨h2, h3, h4⟩
          · intro m hm hcm
            rcases List.mem_cons.mp hm with rfl | hm
            · rw [hone' m rfl] at hcm
              omega
            · exact b m hm hcm
          · simp only
            rw [c, List.filterMap_cons, if_neg (by rw [hone' n rfl]; omega)]
        | false =>
          rw [hc] at h
          simp only [Option.map_eq_some_iff] at h
          obtain ⟨r', h', rfl⟩ := h
          obtain ⟨a, b, c⟩ := ih _ _ h'
          have hn : sel r'.val n = sel ps n := by
            rcases a n with h | ⟨-, -, h⟩
            · exact h
            · rw [hc] at h
              simp at h
          refine ⟨a, ?_, ?_⟩
          · intro m hm hcm
            rcases List.mem_cons.mp hm with rfl | hm
            · simp only
              rw [hn]
              exact hc
            · exact b m hm hcm
          · simp only
            rw [c, List.filterMap_cons, if_pos (by rw [filter_count hn]; exact h1)]
    · rw [if_neg h1] at h
      obtain ⟨a, b, c⟩ := ih _ _ h
      have hn : sel r.val n = sel ps n := by
        rcases a n with h | ⟨h, -⟩
        · exact h
        · omega
      have hc1 : ¬ count r.val n > 1 := by rw [filter_count hn]; exact h1
      refine ⟨a, ?_, ?_⟩
      · intro m hm hcm
        rcases List.mem_cons.mp hm with rfl | hm
        · omega
        · exact b m hm hcm
      · rw [c, List.filterMap_cons, if_neg hc1]

theorem status_again (v : Values) (t : List Char) (d : Bool) (names : List (List Char))
    (ps : List CProp) (h : ∀ n ∈ names, count ps n > 1 → cancelled v (sel ps n) = some false) :
    checkStatus v t d names ps = some ⟨ps, [],
      names.filterMap fun n => if count ps n > 1 then some ⟨t, .manyStatus, n⟩ else none⟩ := by
  induction names with
  | nil => rfl
  | cons n names ih =>
    rw [checkStatus, ih fun m hm => h m (List.mem_cons_of_mem _ hm), List.filterMap_cons]
    by_cases h1 : count ps n > 1
    · rw [if_pos h1, if_pos h1]
      have := h n (by simp) h1
      unfold sel at this
      rw [this]
      split
      · rfl
      · rfl
    · rw [if_neg h1, if_neg h1]

theorem until_again (t : List Char) (st : Option Bool) (d : Bool) (us : List Bool) :
    checkUntils t st d (checkUntils t st true us).val = ⟨(checkUntils t st true us).val, [], []⟩ := by
  induction us with
  | nil => rfl
  | cons u us ih =>
    cases st with
    | none =>
      rw [checkUntils]
      simp only
      rw [checkUntils, ih]
    | some s =>
      rw [checkUntils]
      simp only
      split
      · simp only [if_true]
        rw [checkUntils, ih]
        simp
      · rename_i hx
        rw [checkUntils, ih]
        simp only
        rw [if_neg hx]

/-- The property that the class removes. -/
def removed : Kind → Option (List Char)
  | .event => some "DTEND".toList
  | .avail => some "DTEND".toList
  | .todo => some "DURATION".toList
  | _ => none

/-- What the last check does to the properties. -/
theorem kind_val (k : Kind) (t : List Char) (parent : Option (List CProp)) (subs : List (List Char))
    (ps : List CProp) :
    (checkKind k t parent subs true ps).val = ps ∨
      ∃ n, removed k = some n ∧ (checkKind k t parent subs true ps).val = without ps n := by
  have hb : ∀ a b rem, (checkBoth t true a b rem ps).val = ps ∨
      (checkBoth t true a b rem ps).val = without ps rem := by
    intro a b rem
    unfold checkBoth
    split
    · right; rfl
    · left; rfl
  cases k with
  | other => left; rfl
  | event =>
    rcases hb "DTEND".toList "DURATION".toList "DTEND".toList with h | h
    · left; exact h
    · right; exact ⟨_, rfl, h⟩
  | todo =>
    rcases hb "DUE".toList "DURATION".toList "DURATION".toList with h | h
    · left; exact h
    · right; exact ⟨_, rfl, h⟩
  | avail =>
    rcases hb "DTEND".toList "DURATION".toList "DTEND".toList with h | h
    · left; exact h
    · right; exact ⟨_, rfl, h⟩
  | timezone =>
    left
    simp only [checkKind]
    split <;> rfl
  | alarm =>
    left
    simp only [checkKind]
    split <;> rfl

theorem both_again (t : List Char) (d : Bool) (a b rem : List Char) (ps : List CProp)
    (hr : rem = a ∨ rem = b) :
    checkBoth t d a b rem (checkBoth t true a b rem ps).val =
      ⟨(checkBoth t true a b rem ps).val, [], []⟩ := by
  by_cases h : (has ps a && has ps b) = true
  · have hv : (checkBoth t true a b rem ps).val = without ps rem := by
      unfold checkBoth
      rw [if_pos h]
      rfl
    rw [hv]
    unfold checkBoth
    rw [if_neg]
    intro hh
    rw [Bool.and_eq_true, has_iff, has_iff] at hh
    rcases hr with rfl | rfl
    · rw [count_without_self _ rfl] at hh; omega
    · rw [count_without_self _ rfl] at hh; omega
  · have hv : (checkBoth t true a b rem ps).val = ps := by
      unfold checkBoth
      rw [if_neg h]
    rw [hv]
    unfold checkBoth
    rw [if_neg h]

theorem has_without {ps : List CProp} {m n : List Char} (h : upper n ≠ upper m) :
    has (without ps m) n = has ps n :=
  has_congr (filter_count (filter_without h))

theorem both_has (t : List Char) (a b rem n : List Char) (ps : List CProp) (h : upper n ≠ upper rem) :
    has (checkBoth t true a b rem ps).val n = has ps n := by
  unfold checkBoth
  split
  · exact has_without h
  · rfl

theorem both_unfixed (t : List Char) (a b rem : List Char) (ps : List CProp) :
    (checkBoth t true a b rem ps).unfixed = [] := by
  unfold checkBoth
  split <;> rfl

/-- The parent has METHOD in the one case as in the other. -/
def SameMethod : Option (List CProp) → Option (List CProp) → Prop
  | none, none => True
  | some a, some b => has a "METHOD".toList = has b "METHOD".toList
  | _, _ => False

theorem kind_again (k : Kind) (t : List Char) {parent parent' : Option (List CProp)}
    (hpar : SameMethod parent parent') (subs : List (List Char)) (d : Bool) (ps : List CProp) :
    checkKind k t parent' subs d (checkKind k t parent subs true ps).val =
      ⟨(checkKind k t parent subs true ps).val, [], (checkKind k t parent subs true ps).unfixed⟩ := by
  cases k with
  | other => rfl
  | event =>
    simp only [checkKind, both_again t d "DTEND".toList "DURATION".toList "DTEND".toList ps (Or.inl rfl),
      both_unfixed, both_has t "DTEND".toList "DURATION".toList "DTEND".toList "DTSTART".toList ps (by decide)]
    cases parent with
    | none =>
      cases parent' with
      | none => rfl
      | some b => exact hpar.elim
    | some a =>
      cases parent' with
      | none => exact hpar.elim
      | some b =>
        have : has a "METHOD".toList = has b "METHOD".toList := hpar
        simp only [this, List.append_nil]
  | todo =>
    simp only [checkKind, both_unfixed,
      both_again t d "DUE".toList "DURATION".toList "DURATION".toList ps (Or.inr rfl)]
  | avail =>
    simp only [checkKind]
    rw [both_again _ _ _ _ _ _ (Or.inl rfl), both_unfixed]
  | timezone =>
    simp only [checkKind]
    split
    · rfl
    · rfl
  | alarm =>
    simp only [checkKind]
    split
    · rename_i h
      simp only [if_pos h]
    · rename_i h
      simp only [if_neg h]

/-- No class removes a property that its tables require. -/
inductive Sensible : VComp → Prop
  | mk {t k tb st us ps cs} (h : ∀ n ∈ tb.one ++ tb.fixEmpty ++ tb.oneMore, ∀ m, removed k = some m →
      upper n ≠ upper m) (hs : ∀ c ∈ cs, Sensible c) : Sensible (.mk t k tb st us ps cs)

theorem again {v : Values} {c : VComp} (hc : Sensible c) : ∀ {parent parent' : Option (List CProp)}
    {r : Out VComp}, SameMethod parent parent' → validate v true parent c = some r →
    r.val.type = c.type ∧ ∀ d, ∃ u, validate v d parent' r.val = some ⟨r.val, [], u⟩ ∧
      u.Sublist r.unfixed := by
  induction hc with
  | @mk t k tb st us ps cs hrem _ ih =>
    intro parent parent' r hpar h
    rw [validate] at h
    simp only at h
    obtain ⟨b2, p2, u2⟩ := fixEmpty_fix v t tb.fixEmpty ps
    generalize hr2 : checkFixEmpty v t true tb.fixEmpty ps = r2 at h b2 p2 u2
    split at h
    · cases h
    · rename_i r5 h5
      obtain ⟨a5, c5, u5⟩ := status_fix v t tb.statusFix _ _ h5
      split at h
      · cases h
      · rename_i r7 h7
        generalize hr8 : checkUntils t st true us = r8 at h
        generalize hr9 : checkKind k t parent (r7.val.map VComp.type) true r5.val = r9 at h
        cases h
        refine ⟨rfl, fun d => ?_⟩
        -- the counts
        have b5 : Better r2.val r5.val := by
          intro n
          rcases a5 n with h | ⟨h1, h2, -⟩
          · rw [filter_count h]
            exact ⟨id, id, id⟩
          · rw [h2]
            exact ⟨fun _ => rfl, fun _ => by omega, fun _ => by omega⟩
        have v9 : r9.val = r5.val ∨ ∃ n, removed k = some n ∧ r9.val = without r5.val n := by
          rw [← hr9]
          exact kind_val k t parent _ r5.val
        have keep : ∀ n, (∀ m, removed k = some m → upper n ≠ upper m) → sel r9.val n = sel r5.val n := by
          intro n hn
          rcases v9 with h | ⟨m, hm, h⟩
          · rw [h]
          · rw [h]
            exact filter_without (hn m hm)
        have drop : ∀ n, sel r9.val n = sel r5.val n ∨ count r9.val n = 0 := by
          intro n
          rcases v9 with h | ⟨m, hm, h⟩
          · left; rw [h]
          · by_cases he : upper n = upper m
            · right; rw [h]; exact count_without_self _ he
            · left; rw [h]; exact filter_without he
        have many : ∀ n, count r9.val n > 1 → count r5.val n > 1 := by
          intro n hn
          rcases drop n with h | h
          · rwa [filter_count h] at hn
          · omega
        have hmeth : has r5.val "METHOD".toList = has r9.val "METHOD".toList := by
          apply has_congr
          apply filter_count
          refine (keep _ ?_).symm
          intro m hm
          cases k <;> simp only [removed, Option.some.injEq, reduceCtorEq] at hm <;> subst hm <;> decide
        -- the components
        have hsub : ∀ (cs : List VComp) (r7 : Out (List VComp)), (∀ c ∈ cs, ∀ {p p' : Option (List CProp)}
            {r : Out VComp}, SameMethod p p' → validate v true p c = some r →
            r.val.type = c.type ∧ ∀ d, ∃ u, validate v d p' r.val = some ⟨r.val, [], u⟩ ∧
              u.Sublist r.unfixed) → validateAll v true r5.val cs = some r7 →
            ∃ u, validateAll v d r9.val r7.val = some ⟨r7.val, [], u⟩ ∧ u.Sublist r7.unfixed := by
          intro cs
          induction cs with
          | nil =>
            intro r7 _ h
            rw [validateAll] at h
            cases h
            exact ⟨[], by rw [validateAll], List.Sublist.refl _⟩
          | cons c cs ihc =>
            intro r7 hi h
            rw [validateAll] at h
            split at h
            · rename_i r rs h1 h2
              cases h
              obtain ⟨u1, e1, s1⟩ := (hi c (by simp) (p := some r5.val) (p' := some r9.val) hmeth h1).2 d
              obtain ⟨u2, e2, s2⟩ := ihc rs (fun c hc => hi c (List.mem_cons_of_mem _ hc)) h2
              refine ⟨u1 ++ u2, ?_, s1.append s2⟩
              rw [validateAll, e1, e2]
              rfl
            · cases h
        obtain ⟨u7, e7, s7⟩ := hsub cs r7 ih h7
        -- the second time
        have e2 := fixEmpty_again v t d tb.fixEmpty r9.val (by
          intro n hn
          rw [filter_count (keep n (hrem n (by simp [hn])))]
          exact (b5 n).2.1 (p2 n hn))
        have e5 := status_again v t d tb.statusFix r9.val (by
          intro n hn hcn
          rcases drop n with h | h
          · rw [h]
            exact c5 n hn (many n hcn)
          · omega)
        have e8 := until_again t st d us
        have e9 := kind_again k t hpar (r7.val.map VComp.type) d r5.val
        rw [hr8] at e8
        rw [hr9] at e9
        refine ⟨check1 t tb.one r9.val ++
          (tb.fixEmpty.filterMap fun n =>
            if count r9.val n > 1 then some ⟨t, .manyRequired, n⟩ else none) ++
          check01 t tb.zeroOne r9.val ++ check1More t tb.oneMore r9.val ++
          (tb.statusFix.filterMap fun n =>
            if count r9.val n > 1 then some ⟨t, .manyStatus, n⟩ else none) ++
          checkValues v t r9.val ++ u7 ++ r9.unfixed, ?_, ?_⟩
        · simp only
          rw [validate]
          simp only [e2, e5, e7, e8, e9, List.append_nil]
        · simp only
          refine List.Sublist.append (List.Sublist.trans (List.Sublist.append (List.Sublist.append
            (List.Sublist.append (List.Sublist.append (List.Sublist.append (List.Sublist.append ?_ ?_) ?_)
            ?_) ?_) ?_) s7) (List.sublist_append_left _ _)) (List.Sublist.refl _)
          · apply filterMap_sub
            intro n hn hne h1
            apply hne
            rw [filter_count (keep n (hrem n (by simp [hn])))]
            exact (b5 n).1 ((b2 n).1 h1)
          · rw [u2]
            apply filterMap_sub
            intro n _ hgt
            by_contra hle
            have := (b5 n).2.2 ((b2 n).2.2 (by omega))
            have := many n hgt
            omega
          · apply filterMap_sub
            intro n _ hgt
            by_contra hle
            have := (b5 n).2.2 (by omega)
            have := many n hgt
            omega
          · apply filterMap_sub
            intro n hn hne hpos
            apply hne
            rw [gt_iff_lt, filter_count (keep n (hrem n (by simp [hn])))]
            exact (b5 n).2.1 hpos
          · rw [u5]
            apply filterMap_sub
            intro n _ hgt
            exact many n hgt
          · apply List.Sublist.filterMap
            rcases v9 with h | ⟨m, hm, h⟩
            · rw [h]
            · rw [h]
              exact List.filter_sublist

end Valid43
open Valid43

/-- C43: in check mode nothing is changed, nothing is reported as fixed and there is no exception. -/
theorem C43_check (v : Values) (parent : Option (List CProp)) (c : VComp) :
    ∃ unfixed, validate v false parent c = some ⟨c, [], unfixed⟩ :=
  check_mode v parent c

/-- C43: after fix mode, a second `validate`, in either mode, changes and fixes nothing more, and all that
it reports was reported as not fixed.  Missing: tables that require the property that the class removes
(`C43_fails_tables`), and fix mode ends with an exception for a STATUS without text
(`C43_fails_exception`). -/
theorem C43_fix_partial (v : Values) (parent : Option (List CProp)) (c : VComp) (hc : Sensible c)
    (r : Out VComp) (h : validate v true parent c = some r) (doFix : Bool) :
    ∃ unfixed, validate v doFix parent r.val = some ⟨r.val, [], unfixed⟩ ∧
      unfixed.Subperm r.unfixed := by
  have hs : SameMethod parent parent := by cases parent <;> simp [SameMethod]
  obtain ⟨u, h1, h2⟩ := (again hc hs h).2 doFix
  exact ⟨u, h1, h2.subperm⟩

/-- A component that, like all in it, is of one of the classes. -/
inductive Valid43.Real : VComp → Prop
  | mk {t k tb st us ps cs} (h : (k, tb) ∈ classes) (hs : ∀ c ∈ cs, Real c) :
      Real (.mk t k tb st us ps cs)

theorem Valid43.sensible_of_real {c : VComp} (h : Real c) : Sensible c := by
  induction h with
  | @mk t k tb st us ps cs h _ ih =>
    refine .mk ?_ ih
    have key : ∀ x ∈ classes, ∀ n ∈ x.2.one ++ x.2.fixEmpty ++ x.2.oneMore,
        ∀ m ∈ (removed x.1).toList, upper n ≠ upper m := by decide +kernel
    intro n hn m hm
    exact key _ h n hn m (by rw [hm]; simp)

/-- C43, of the classes of the library: after fix mode, a second `validate`, in either mode, changes and
fixes nothing more, and all that it reports was reported as not fixed.  Missing: that fix mode does not end
with an exception, which is false (`C43_fails_exception`). -/
theorem C43_classes_partial (v : Values) (parent : Option (List CProp)) (c : VComp) (hc : Real c)
    (r : Out VComp) (h : validate v true parent c = some r) (doFix : Bool) :
    ∃ unfixed, validate v doFix parent r.val = some ⟨r.val, [], unfixed⟩ ∧
      unfixed.Subperm r.unfixed :=
  C43_fix_partial v parent c (sensible_of_real hc) r h doFix

/-- C43: where no STATUS is without text, fix mode ends without an exception. -/
theorem C43_no_exception (v : Values) (hv : ∀ p, (v.text p).isSome) (parent : Option (List CProp))
    (c : VComp) : (validate v true parent c).isSome := by
  have hcan : ∀ ps, (cancelled v ps).isSome := by
    intro ps
    induction ps with
    | nil => rfl
    | cons p ps ih =>
      rw [cancelled]
      obtain ⟨s, hs⟩ := Option.isSome_iff_exists.mp (hv p)
      rw [hs]
      simp only
      split
      · rfl
      · exact ih
  have hst : ∀ t names ps, (checkStatus v t true names ps).isSome := by
    intro t names
    induction names with
    | nil => intro ps; rfl
    | cons n names ih =>
      intro ps
      rw [checkStatus]
      split
      · rw [if_pos rfl]
        obtain ⟨b, hb⟩ := Option.isSome_iff_exists.mp (hcan (ps.filter fun p => decide (p.key = upper n)))
        rw [hb]
        cases b <;> simp [ih]
      · exact ih ps
  exact (main hst).1 parent c
where
  main (hst : ∀ t names ps, (checkStatus v t true names ps).isSome) :
      (∀ parent c, (validate v true parent c).isSome) ∧
      (∀ parent cs, (validateAll v true parent cs).isSome) :=
    ⟨fun parent c => one hst parent c, fun parent cs => all hst parent cs⟩
  one (hst : ∀ t names ps, (checkStatus v t true names ps).isSome) (parent : Option (List CProp)) :
      ∀ c, (validate v true parent c).isSome
    | .mk t k tb st us ps cs => by
      rw [validate]
      simp only
      obtain ⟨r5, h5⟩ := Option.isSome_iff_exists.mp
        (hst t tb.statusFix (checkFixEmpty v t true tb.fixEmpty ps).val)
      rw [h5]
      simp only
      obtain ⟨r7, h7⟩ := Option.isSome_iff_exists.mp (all hst r5.val cs)
      rw [h7]
      rfl
  all (hst : ∀ t names ps, (checkStatus v t true names ps).isSome) (parent : List CProp) :
      ∀ cs, (validateAll v true parent cs).isSome
    | [] => by rw [validateAll]; rfl
    | c :: cs => by
      obtain ⟨r, hr⟩ := Option.isSome_iff_exists.mp (one hst (some parent) c)
      obtain ⟨rs, hrs⟩ := Option.isSome_iff_exists.mp (all hst parent cs)
      rw [validateAll, hr, hrs]
      rfl

/-! ## Cases -/

namespace Valid43

def prop (name text : String) : CProp := ⟨name.toList, text.toList⟩

/-- The text is what follows the colon; all values pass; only STATUS with a parameter is no text. -/
def vals : Values where
  text := fun p => if ';' ∈ p.text then none else some (upper ((p.text.dropWhile fun c => decide (c ≠ ':')).tail))
  ok := fun _ => true
  line := fun n s => n ++ ':' :: s

def eventTable : Table := (classes.getD 1 (.other, {})).2
def displayTable : Table := (classes.getD 14 (.other, {})).2

def props : List CProp := [prop "DTSTAMP" "DTSTAMP:20260101T000000Z", prop "UID" "UID:1",
  prop "DTSTART" "DTSTART:20260101T000000Z"]

def event (more : List CProp) (subs : List VComp) : VComp :=
  .mk "VEVENT".toList .event eventTable (some true) [false] (props ++ more) subs

def alarm : VComp := .mk "VALARM".toList .alarm displayTable none [] [prop "ACTION" "ACTION:DISPLAY",
  prop "TRIGGER" "TRIGGER:PT0S", prop "REPEAT" "REPEAT:1"] []

end Valid43

/-- An event with two STATUS, DTEND and DURATION, an UNTIL of the wrong type and an alarm without
DESCRIPTION and with REPEAT alone: all but the last is fixed, and the last is what is reported again. -/
example : let c := Valid43.event [prop "STATUS" "STATUS:TENTATIVE", prop "STATUS" "STATUS:cancelled",
      prop "DTEND" "DTEND:20260102T000000Z", prop "DURATION" "DURATION:P1D"] [alarm]
    (validate vals true none c).map (fun r => (r.fixed.map Problem.what, r.unfixed)) =
      some ([.manyStatus, .missing, .types, .both "DURATION".toList],
        [⟨"VALARM".toList, .together "REPEAT".toList, "DURATION".toList⟩]) ∧
    ((validate vals true none c).bind fun r => validate vals true none r.val).map
        (fun r => (r.fixed, r.unfixed)) =
      some ([], [⟨"VALARM".toList, .together "REPEAT".toList, "DURATION".toList⟩]) :=
  ⟨by decide +kernel, by decide +kernel⟩

example : Real (Valid43.event [prop "STATUS" "STATUS:TENTATIVE"] [alarm]) := by
  refine .mk (by decide +kernel) ?_
  intro c hc
  simp only [List.mem_singleton] at hc
  subst hc
  exact .mk (by decide +kernel) (by simp)

/-- C43 fails for a table that requires what the class removes: a class like `VEvent` that requires DTEND
and adds an empty one.  It is missing again after the fix, and a second fix reports it again. -/
theorem C43_fails_tables : ∃ (c : VComp) (m : Problem) (r : Out VComp),
    validate vals true none c = some r ∧ m ∈ r.fixed ∧
      ((validate vals false none r.val).map fun r => decide (m ∈ r.unfixed)) = some true := by
  refine ⟨.mk "VEVENT".toList .event { fixEmpty := ["DTEND".toList] } none []
    [prop "DURATION" "DURATION:P1D"] [], ⟨"VEVENT".toList, .missing, "DTEND".toList⟩,
    ⟨.mk "VEVENT".toList .event { fixEmpty := ["DTEND".toList] } none []
      [prop "DURATION" "DURATION:P1D"] [], [⟨"VEVENT".toList, .missing, "DTEND".toList⟩,
      ⟨"VEVENT".toList, .both "DURATION".toList, "DTEND".toList⟩], []⟩, by rfl, by decide, by decide +kernel⟩

/-- C43 fails: fix mode ends with an exception if a STATUS among several has no text value. -/
theorem C43_fails_exception :
    (validate vals true none (Valid43.event [prop "STATUS" "STATUS;VALUE=INTEGER:1",
      prop "STATUS" "STATUS:CANCELLED"] [])).isNone := by decide +kernel

/-- C43 fails as to the text of problems: it does not say in which of two components the problem is, and
can be the same for one that was fixed and one that is reported again. -/
theorem C43_fails_text : ∃ c : VComp, ((validate vals true none c).bind fun r =>
    (validate vals true none r.val).map fun r2 => decide (∃ m ∈ r.fixed, m ∈ r2.unfixed)) = some true :=
  ⟨.mk "VCALENDAR".toList .other {} none [] []
    [Valid43.event [prop "STATUS" "STATUS:TENTATIVE", prop "STATUS" "STATUS:CANCELLED"] [],
     Valid43.event [prop "STATUS" "STATUS:TENTATIVE", prop "STATUS" "STATUS:CONFIRMED"] []],
    by decide +kernel⟩

end PyCal
