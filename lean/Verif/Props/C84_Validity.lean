import Verif.Spec.Validity
import Verif.Props.C43_Validate

/-!
# C84: what validation reports
-/

namespace PyCal
open Cont Valid PropText Spec Valid43

namespace Valid84

theorem count_eq (ps : List CProp) (n : List Char) : count ps n = occurrences ps n := by
  unfold count occurrences
  rw [List.countP_eq_length_filter]

theorem has_present (ps : List CProp) (n : String) : has ps n.toList = true ↔ Present ps n := by
  simp [has, Present]

theorem check1_nil (t : List Char) (names : List (List Char)) (ps : List CProp) :
    check1 t names ps = [] ↔ ∀ n ∈ names, occurrences ps n = 1 := by
  simp [check1, List.filterMap_eq_nil_iff, count_eq]

theorem check01_nil (t : List Char) (names : List (List Char)) (ps : List CProp) :
    check01 t names ps = [] ↔ ∀ n ∈ names, occurrences ps n ≤ 1 := by
  simp [check01, List.filterMap_eq_nil_iff, count_eq]

theorem check1More_nil (t : List Char) (names : List (List Char)) (ps : List CProp) :
    check1More t names ps = [] ↔ ∀ n ∈ names, 1 ≤ occurrences ps n := by
  simp only [check1More, List.filterMap_eq_nil_iff, count_eq]
  constructor
  · intro h n hn
    have := h n hn
    by_contra hc
    rw [if_pos (by omega)] at this
    cases this
  · intro h n hn
    rw [if_neg (by have := h n hn; omega)]

theorem checkValues_nil (v : Values) (t : List Char) (ps : List CProp) :
    checkValues v t ps = [] ↔ ∀ p ∈ ps, v.ok p = true := by
  simp only [checkValues, List.filterMap_eq_nil_iff]
  constructor
  · intro h p hp
    have := h p hp
    by_contra hc
    rw [if_neg hc] at this
    cases this
  · intro h p hp
    rw [if_pos (h p hp)]

theorem fixEmpty_nil (v : Values) (t : List Char) (ps : List CProp) : ∀ names : List (List Char),
    ∃ u, checkFixEmpty v t false names ps = ⟨ps, [], u⟩ ∧ (u = [] ↔ ∀ n ∈ names, occurrences ps n = 1)
  | [] => ⟨[], rfl, by simp⟩
  | n :: names => by
    obtain ⟨u, h1, h2⟩ := fixEmpty_nil v t ps names
    rw [checkFixEmpty, h1]
    simp only [count_eq]
    split
    · refine ⟨_, rfl, ?_⟩
      simp only [List.mem_cons, forall_eq_or_imp]
      constructor
      · intro h; cases h
      · intro h; omega
    · split
      · refine ⟨_, rfl, ?_⟩
        simp only [List.mem_cons, forall_eq_or_imp]
        constructor
        · intro h; cases h
        · intro h; omega
      · refine ⟨_, rfl, ?_⟩
        simp only [List.mem_cons, forall_eq_or_imp, h2]
        constructor
        · intro h; exact ⟨by omega, h⟩
        · intro h; exact h.2

theorem status_nil (v : Values) (t : List Char) (ps : List CProp) : ∀ names : List (List Char),
    ∃ u, checkStatus v t false names ps = some ⟨ps, [], u⟩ ∧
      (u = [] ↔ ∀ n ∈ names, occurrences ps n ≤ 1)
  | [] => ⟨[], rfl, by simp⟩
  | n :: names => by
    obtain ⟨u, h1, h2⟩ := status_nil v t ps names
    rw [checkStatus, h1]
    simp only [count_eq]
    split
    · refine ⟨_, rfl, ?_⟩
      simp only [List.mem_cons, forall_eq_or_imp]
      constructor
      · intro h; cases h
      · intro h; omega
    · refine ⟨_, rfl, ?_⟩
      simp only [List.mem_cons, forall_eq_or_imp, h2]
      constructor
      · intro h; exact ⟨by omega, h⟩
      · intro h; exact h.2

theorem untils_nil (t : List Char) (st : Option Bool) : ∀ us : List Bool,
    ∃ u, checkUntils t st false us = ⟨us, [], u⟩ ∧ (u = [] ↔ ∀ d, st = some d → ∀ x ∈ us, x = d)
  | [] => ⟨[], rfl, by simp⟩
  | x :: us => by
    obtain ⟨u, h1, h2⟩ := untils_nil t st us
    cases st with
    | none =>
      refine ⟨u, by rw [checkUntils, h1], ?_⟩
      rw [h2]
      simp
    | some s =>
      rw [checkUntils, h1]
      simp only
      split
      · rename_i hx
        refine ⟨_, rfl, ?_⟩
        constructor
        · intro h; cases h
        · intro h
          have := h s rfl x (by simp)
          subst this
          simp at hx
      · rename_i hx
        refine ⟨_, rfl, ?_⟩
        rw [h2]
        have : x = s := by revert hx; cases x <;> cases s <;> simp
        subst this
        constructor
        · intro h d hd y hy
          rcases List.mem_cons.mp hy with rfl | hy
          · exact Option.some.inj hd
          · exact h d hd y hy
        · intro h d hd y hy
          exact h d hd y (List.mem_cons_of_mem _ hy)

theorem both_nil (t : List Char) (a b : String) (rem : List Char) (ps : List CProp) :
    ∃ u, checkBoth t false a.toList b.toList rem ps = ⟨ps, [], u⟩ ∧
      (u = [] ↔ ¬ (Present ps a ∧ Present ps b)) := by
  unfold checkBoth
  rw [← has_present, ← has_present]
  split
  · rename_i h
    refine ⟨_, rfl, ?_⟩
    simp only [Bool.and_eq_true] at h
    simp [h.1, h.2]
  · rename_i h
    refine ⟨_, rfl, ?_⟩
    simp only [Bool.and_eq_true] at h
    simp only [true_iff]
    exact h

theorem opt_nil {α : Type} (c : Bool) (x : α) : (if c = true then [x] else []) = [] ↔ c = false := by
  cases c <;> simp

theorem kind_nil (k : Kind) (t : List Char) (parent : Option (List CProp)) (subs : List (List Char))
    (ps : List CProp) : ∃ u, checkKind k t parent subs false ps = ⟨ps, [], u⟩ ∧
      (u = [] ↔ ExtraRules k parent subs ps) := by
  unfold checkKind ExtraRules
  cases k with
  | other => exact ⟨_, rfl, by simp⟩
  | event =>
    obtain ⟨u, h1, h2⟩ := both_nil t "DTEND" "DURATION" "DTEND".toList ps
    simp only [h1]
    refine ⟨_, rfl, ?_⟩
    rw [List.append_eq_nil_iff, h2, and_comm]
    refine and_congr Iff.rfl ?_
    cases parent with
    | none => simp
    | some pp =>
      simp only [Option.some.injEq, forall_eq', ← has_present]
      rw [opt_nil]
      cases has pp "METHOD".toList <;> cases has ps "DTSTART".toList <;> decide
  | todo =>
    obtain ⟨u, h1, h2⟩ := both_nil t "DUE" "DURATION" "DURATION".toList ps
    simp only [h1]
    refine ⟨_, rfl, ?_⟩
    rw [List.append_eq_nil_iff, h2]
    refine and_congr Iff.rfl ?_
    simp only [← has_present]
    rw [opt_nil]
    cases has ps "DURATION".toList <;> cases has ps "DTSTART".toList <;> decide
  | avail => exact both_nil t "DTEND" "DURATION" "DTEND".toList ps
  | timezone =>
    simp only
    split
    · rename_i h
      refine ⟨_, rfl, ?_⟩
      simp only [true_iff]
      simp only [List.any_eq_true, decide_eq_true_eq] at h
      obtain ⟨s, hs, rfl | rfl⟩ := h
      · exact .inl hs
      · exact .inr hs
    · rename_i h
      refine ⟨_, rfl, ?_⟩
      constructor
      · intro h; cases h
      · intro h'
        refine absurd ?_ h
        simp only [List.any_eq_true, decide_eq_true_eq]
        rcases h' with h' | h'
        · exact ⟨_, h', .inl rfl⟩
        · exact ⟨_, h', .inr rfl⟩
  | alarm =>
    simp only [← has_present]
    cases has ps "DURATION".toList <;> cases has ps "REPEAT".toList
    · exact ⟨_, rfl, by decide⟩
    · exact ⟨_, rfl, iff_of_false (by intro h; cases h) (by decide)⟩
    · exact ⟨_, rfl, iff_of_false (by intro h; cases h) (by decide)⟩
    · exact ⟨_, rfl, by decide⟩

mutual
theorem reports (v : Values) (parent : Option (List CProp)) : ∀ c : VComp,
    ∃ u, validate v false parent c = some ⟨c, [], u⟩ ∧ (u = [] ↔ Meets v parent c)
  | .mk t k tb st us ps cs => by
    obtain ⟨u2, h2, n2⟩ := fixEmpty_nil v t ps tb.fixEmpty
    obtain ⟨u5, h5, n5⟩ := status_nil v t ps tb.statusFix
    obtain ⟨u7, h7, n7⟩ := reports_all v ps cs
    obtain ⟨u8, h8, n8⟩ := untils_nil t st us
    obtain ⟨u9, h9, n9⟩ := kind_nil k t parent (cs.map VComp.type) ps
    refine ⟨check1 t tb.one ps ++ u2 ++ check01 t tb.zeroOne ps ++ check1More t tb.oneMore ps ++ u5 ++
      checkValues v t ps ++ u7 ++ u8 ++ u9, ?_, ?_⟩
    · rw [validate]
      simp only [h2, h5, h7, h8, h9, List.append_nil]
    · simp only [List.append_eq_nil_iff, check1_nil, check01_nil, check1More_nil, checkValues_nil, n2, n5,
        n7, n8, n9]
      constructor
      · rintro ⟨⟨⟨⟨⟨⟨⟨⟨a1, a2⟩, a3⟩, a4⟩, a5⟩, a6⟩, a7⟩, a8⟩, a9⟩
        exact .mk a1 a2 a3 a4 a5 a6 a8 a9 a7
      · intro h
        cases h with
        | mk a1 a2 a3 a4 a5 a6 a8 a9 a7 => exact ⟨⟨⟨⟨⟨⟨⟨⟨a1, a2⟩, a3⟩, a4⟩, a5⟩, a6⟩, a7⟩, a8⟩, a9⟩

theorem reports_all (v : Values) (parent : List CProp) : ∀ cs : List VComp,
    ∃ u, validateAll v false parent cs = some ⟨cs, [], u⟩ ∧ (u = [] ↔ ∀ c ∈ cs, Meets v (some parent) c)
  | [] => ⟨[], by rw [validateAll], by simp⟩
  | c :: cs => by
    obtain ⟨u, hu, n⟩ := reports v (some parent) c
    obtain ⟨us, hus, ns⟩ := reports_all v parent cs
    refine ⟨u ++ us, by rw [validateAll, hu, hus]; rfl, ?_⟩
    rw [List.append_eq_nil_iff, n, ns]
    simp
end

theorem tables : ∀ e ∈ rfc5545, ∀ c, (classNames.zip classes).lookup e.1 = some c →
    (∀ n ∈ e.2.once, n.toList ∈ c.2.one ∨ n.toList ∈ c.2.fixEmpty) ∧
    (∀ n ∈ e.2.atMostOnce, n.toList ∈ c.2.zeroOne ∨ n.toList ∈ c.2.statusFix) ∧
    ∀ n ∈ e.2.atLeastOnce, n.toList ∈ c.2.oneMore := by
  have key : ∀ e ∈ rfc5545, ∀ c ∈ (classNames.zip classes).lookup e.1,
      (∀ n ∈ e.2.once, n.toList ∈ c.2.one ∨ n.toList ∈ c.2.fixEmpty) ∧
        (∀ n ∈ e.2.atMostOnce, n.toList ∈ c.2.zeroOne ∨ n.toList ∈ c.2.statusFix) ∧
        ∀ n ∈ e.2.atLeastOnce, n.toList ∈ c.2.oneMore := by decide +kernel
  exact fun e he c hc => key e he c hc

end Valid84
open Valid84

/-- C84: `validate` reports no problem exactly for the components that meet the requirements of their
class, at any depth. -/
theorem C84_reports (v : Values) (parent : Option (List CProp)) (c : VComp) :
    ∃ unfixed, validate v false parent c = some ⟨c, [], unfixed⟩ ∧ (unfixed = [] ↔ Meets v parent c) :=
  reports v parent c

/-- C84: with `doRaise`, a container is rejected exactly if it does not meet them. -/
theorem C84_raises (v : Values) (c : VComp) :
    (validateContainer v false true c).isSome ↔ Meets v none c := by
  obtain ⟨u, h1, h2⟩ := reports v none c
  rw [validateContainer, h1, ← h2]
  cases u <;> simp

/-- C84: in a component without problems the properties occur as often as RFC 5545 says.  Missing: the
DTSTART of an event, which may occur several times (`C84_fails_dtstart`). -/
theorem C84_rfc_partial (v : Values) (parent : Option (List CProp)) (name : String) (r : Numbers)
    (hr : (name, r) ∈ rfc5545) (k : Kind) (tb : Table)
    (hc : (classNames.zip classes).lookup name = some (k, tb)) (t : List Char) (st : Option Bool)
    (us : List Bool) (ps : List CProp) (cs : List VComp)
    (h : validate v false parent (.mk t k tb st us ps cs) = some ⟨.mk t k tb st us ps cs, [], []⟩) :
    r.Hold ps := by
  obtain ⟨u, h1, h2⟩ := reports v parent (.mk t k tb st us ps cs)
  rw [h] at h1
  have hu : u = [] := by
    have := congrArg Out.unfixed (Option.some.inj h1)
    exact this.symm
  have hm := h2.mp hu
  obtain ⟨t1, t2, t3⟩ := tables (name, r) hr (k, tb) hc
  cases hm with
  | mk a1 a2 a3 a4 a5 a6 a8 a9 a7 =>
    refine ⟨fun n hn => ?_, fun n hn => ?_, fun n hn => ?_⟩
    · rcases t1 n hn with h | h
      · exact a1 _ h
      · exact a2 _ h
    · rcases t2 n hn with h | h
      · exact a3 _ h
      · exact a5 _ h
    · exact a4 _ (t3 n hn)

/-- C84: after fix mode, the properties of which problems are reported are the only ones that occur in
wrong numbers: a component of which nothing is left unfixed meets the requirements. -/
theorem C84_fixed (v : Values) (parent : Option (List CProp)) (c : VComp) (hc : Sensible c)
    (r : Out VComp) (h : validate v true parent c = some r) (hu : r.unfixed = []) :
    Meets v parent r.val := by
  obtain ⟨u, h1, h2⟩ := C43_fix_partial v parent c hc r h false
  obtain ⟨u', h3, h4⟩ := reports v parent r.val
  rw [h1] at h3
  rw [hu] at h2
  have e : u = u' := congrArg Out.unfixed (Option.some.inj h3)
  rw [← h4, ← e]
  exact List.subperm_nil.mp h2

/-- An event with an alarm that meets the requirements, and a component of each class of RFC 5545 is
registered. -/
example : Meets vals none (.mk "VEVENT".toList .event eventTable (some true) [true] props
      [.mk "VALARM".toList .alarm displayTable none [] [prop "ACTION" "ACTION:DISPLAY",
        prop "TRIGGER" "TRIGGER:PT0S", prop "DESCRIPTION" "DESCRIPTION:a"] []]) ∧
    ∀ e ∈ rfc5545, ((classNames.zip classes).lookup e.1).isSome := by
  refine ⟨?_, by decide +kernel⟩
  obtain ⟨u, h1, h2⟩ := C84_reports vals none (.mk "VEVENT".toList .event eventTable (some true) [true] props
      [.mk "VALARM".toList .alarm displayTable none [] [prop "ACTION" "ACTION:DISPLAY",
        prop "TRIGGER" "TRIGGER:PT0S", prop "DESCRIPTION" "DESCRIPTION:a"] []])
  rw [← h2]
  have : (validate vals false none (.mk "VEVENT".toList .event eventTable (some true) [true] props
      [.mk "VALARM".toList .alarm displayTable none [] [prop "ACTION" "ACTION:DISPLAY",
        prop "TRIGGER" "TRIGGER:PT0S", prop "DESCRIPTION" "DESCRIPTION:a"] []])).map Out.unfixed = some [] := by
    decide +kernel
  rw [h1] at this
  exact Option.some.inj this

/-- An event with DTEND, DURATION and two STATUS, everything in which is fixed. -/
example : let c := Valid43.event [prop "STATUS" "STATUS:TENTATIVE", prop "STATUS" "STATUS:cancelled",
      prop "DTEND" "DTEND:20260102T000000Z", prop "DURATION" "DURATION:P1D"] []
    Sensible c ∧ (validate vals true none c).map Out.unfixed = some [] := by
  refine ⟨sensible_of_real (.mk (by decide +kernel) (by simp)), by decide +kernel⟩

/-- C84 fails: an event with two DTSTART is reported to be valid. -/
theorem C84_fails_dtstart : ∃ c : VComp,
    c = .mk "VEVENT".toList .event eventTable (some false) [] (props ++
      [prop "DTSTART" "DTSTART:20260102T000000Z"]) [] ∧
    (classNames.zip classes).lookup "VEVENT" = some (.event, eventTable) ∧
    occurrences (props ++ [prop "DTSTART" "DTSTART:20260102T000000Z"]) "DTSTART".toList = 2 ∧
    (validate vals false (some []) c).map Out.unfixed = some [] :=
  ⟨_, rfl, by decide +kernel, by decide +kernel, by decide +kernel⟩

end PyCal
