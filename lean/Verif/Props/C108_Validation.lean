import Verif.Props.C43_Validate

/-!
# C108: each problem that is reported is one, and each is reported
-/

namespace PyCal
open Cont Valid PropText

namespace W108

/-- How often a property with a name (in whatever case) is among the properties. -/
def number (ps : List CProp) (n : List Char) : Nat := ((ps.map fun p => upper p.name).filter (· = upper n)).length

/-- Whether there is one. -/
def Has (ps : List CProp) (n : String) : Prop := ∃ p ∈ ps, upper p.name = n.toList

/-- What each class requires besides the numbers of properties: of a component with the properties `ps`, the types `subs` of
its components, and the properties of its parent. -/
inductive ClassWrong (t : List Char) : Kind → Option (List CProp) → List (List Char) → List CProp → Problem → Prop
  | eventEnd {parent subs ps} (h1 : Has ps "DTEND") (h2 : Has ps "DURATION") :
      ClassWrong t .event parent subs ps ⟨t, .both "DURATION".toList, "DTEND".toList⟩
  | eventStart {pp subs ps} (h1 : ¬ Has pp "METHOD") (h2 : ¬ Has ps "DTSTART") :
      ClassWrong t .event (some pp) subs ps ⟨t, .missing, "DTSTART".toList⟩
  | todoDue {parent subs ps} (h1 : Has ps "DUE") (h2 : Has ps "DURATION") :
      ClassWrong t .todo parent subs ps ⟨t, .both "DURATION".toList, "DUE".toList⟩
  | todoDuration {parent subs ps} (h1 : Has ps "DURATION") (h2 : ¬ Has ps "DTSTART") :
      ClassWrong t .todo parent subs ps ⟨t, .needs "DURATION".toList, "DTSTART".toList⟩
  | availEnd {parent subs ps} (h1 : Has ps "DTEND") (h2 : Has ps "DURATION") :
      ClassWrong t .avail parent subs ps ⟨t, .both "DURATION".toList, "DTEND".toList⟩
  | zone {parent subs ps} (h1 : "STANDARD".toList ∉ subs) (h2 : "DAYLIGHT".toList ∉ subs) :
      ClassWrong t .timezone parent subs ps ⟨t, .noComponent, []⟩
  | alarm {parent subs ps} (h : ¬ (Has ps "DURATION" ↔ Has ps "REPEAT")) :
      ClassWrong t .alarm parent subs ps ⟨t, .together "REPEAT".toList, "DURATION".toList⟩

/-- What is wrong with a component, or with one in it. -/
inductive Wrong (v : Values) : Option (List CProp) → VComp → Problem → Prop
  | one {parent t k tb st us ps cs n} (h : n ∈ tb.one) (hn : number ps n ≠ 1) :
      Wrong v parent (.mk t k tb st us ps cs) ⟨t, .missingOrMany, n⟩
  | requiredMany {parent t k tb st us ps cs n} (h : n ∈ tb.fixEmpty) (hn : number ps n > 1) :
      Wrong v parent (.mk t k tb st us ps cs) ⟨t, .manyRequired, n⟩
  | requiredMissing {parent t k tb st us ps cs n} (h : n ∈ tb.fixEmpty ∨ n ∈ tb.oneMore) (hn : number ps n = 0) :
      Wrong v parent (.mk t k tb st us ps cs) ⟨t, .missing, n⟩
  | many {parent t k tb st us ps cs n} (h : n ∈ tb.zeroOne) (hn : number ps n > 1) :
      Wrong v parent (.mk t k tb st us ps cs) ⟨t, .many, n⟩
  | status {parent t k tb st us ps cs n} (h : n ∈ tb.statusFix) (hn : number ps n > 1) :
      Wrong v parent (.mk t k tb st us ps cs) ⟨t, .manyStatus, n⟩
  | value {parent t k tb st us ps cs p} (h : p ∈ ps) (hv : v.ok p = false) :
      Wrong v parent (.mk t k tb st us ps cs) ⟨t, .value, upper p.name⟩
  | stop {parent t k tb s us ps cs u} (h : u ∈ us) (hn : u ≠ s) :
      Wrong v parent (.mk t k tb (some s) us ps cs) ⟨t, .types, "UNTIL".toList⟩
  | kind {parent t k tb st us ps cs m} (h : ClassWrong t k parent (cs.map VComp.type) ps m) :
      Wrong v parent (.mk t k tb st us ps cs) m
  | sub {parent t k tb st us ps cs c m} (h : c ∈ cs) (hw : Wrong v (some ps) c m) :
      Wrong v parent (.mk t k tb st us ps cs) m

theorem count_number (ps : List CProp) (n : List Char) : count ps n = number ps n := by
  unfold count number
  rw [List.countP_eq_length_filter, List.filter_map, List.length_map]
  rfl

theorem has_iff (ps : List CProp) (n : String) (hn : upper n.toList = n.toList) : has ps n.toList = true ↔ Has ps n := by
  unfold has Has
  rw [hn, List.any_eq_true]
  refine exists_congr fun p => and_congr_right fun _ => ?_
  exact decide_eq_true_iff

theorem fixEmpty_mem (v : Values) (t : List Char) (ps : List CProp) (m : Problem) : ∀ names : List (List Char),
    m ∈ (checkFixEmpty v t false names ps).unfixed ↔
      ∃ n ∈ names, number ps n > 1 ∧ m = ⟨t, .manyRequired, n⟩ ∨ number ps n = 0 ∧ m = ⟨t, .missing, n⟩
  | [] => by simp [checkFixEmpty]
  | n :: names => by
    have ih := fixEmpty_mem v t ps m names
    rw [checkFixEmpty]
    simp only [List.exists_mem_cons_iff, ← ih, count_number]
    split
    · next h =>
      have : number ps n ≠ 0 := by omega
      simp [h, this]
    · next h =>
      split
      · next h' => simp [h, h']
      · next h' => simp [h, h']

theorem status_mem (v : Values) (t : List Char) (ps : List CProp) (m : Problem) : ∀ names : List (List Char),
    ∃ r, checkStatus v t false names ps = some r ∧ r.val = ps ∧ (m ∈ r.unfixed ↔
      ∃ n ∈ names, number ps n > 1 ∧ m = ⟨t, .manyStatus, n⟩)
  | [] => ⟨_, rfl, rfl, by simp⟩
  | n :: names => by
    obtain ⟨r, h1, h2, h3⟩ := status_mem v t ps m names
    rw [checkStatus]
    simp only [List.exists_mem_cons_iff, ← h3, count_number]
    split
    · next h =>
      rw [if_neg (by simp), h1]
      exact ⟨_, rfl, h2, by simp [h]⟩
    · next h => exact ⟨r, h1, h2, by simp [h]⟩

theorem untils_mem (t : List Char) (st : Option Bool) (m : Problem) : ∀ us : List Bool,
    m ∈ (checkUntils t st false us).unfixed ↔ ∃ s, st = some s ∧ ∃ u ∈ us, u ≠ s ∧ m = ⟨t, .types, "UNTIL".toList⟩
  | [] => by simp [checkUntils]
  | u :: us => by
    have ih := untils_mem t st m us
    cases st with
    | none => rw [checkUntils]; simpa using ih
    | some s =>
      simp only [Option.some.injEq, exists_eq_left', List.exists_mem_cons_iff] at ih ⊢
      rw [← ih, checkUntils]
      cases u <;> cases s <;> simp

theorem both_mem (t : List Char) (a b rem : String) (ha : upper a.toList = a.toList) (hb : upper b.toList = b.toList)
    (ps : List CProp) (m : Problem) : (checkBoth t false a.toList b.toList rem.toList ps).val = ps ∧
    (m ∈ (checkBoth t false a.toList b.toList rem.toList ps).unfixed ↔
      (Has ps a ∧ Has ps b) ∧ m = ⟨t, .both b.toList, a.toList⟩) := by
  rw [← has_iff ps a ha, ← has_iff ps b hb, ← Bool.and_eq_true]
  unfold checkBoth
  split
  · next h => simp [h]
  · next h => simp [h]

theorem kind_mem (k : Kind) (t : List Char) (parent : Option (List CProp)) (subs : List (List Char)) (ps : List CProp)
    (m : Problem) : m ∈ (checkKind k t parent subs false ps).unfixed ↔ ClassWrong t k parent subs ps m := by
  have g : ∀ l, has l "DURATION".toList = true ↔ Has l "DURATION" := fun l => has_iff l _ (by decide +kernel)
  have g' : ∀ l, has l "REPEAT".toList = true ↔ Has l "REPEAT" := fun l => has_iff l _ (by decide +kernel)
  have g1 : ∀ l, has l "DTSTART".toList = true ↔ Has l "DTSTART" := fun l => has_iff l _ (by decide +kernel)
  have g2 : ∀ l, has l "METHOD".toList = true ↔ Has l "METHOD" := fun l => has_iff l _ (by decide +kernel)
  have b1 := both_mem t "DTEND" "DURATION" "DTEND" (by decide +kernel) (by decide +kernel) ps m
  have b2 := both_mem t "DUE" "DURATION" "DURATION" (by decide +kernel) (by decide +kernel) ps m
  unfold checkKind
  cases k with
  | other =>
    simp only [List.not_mem_nil, false_iff]
    rintro ⟨⟩
  | event =>
    simp only [List.mem_append, b1.2]
    constructor
    · rintro (h | ⟨⟨h1, h2⟩, rfl⟩)
      · cases parent with
        | none => simp at h
        | some pp =>
          simp only at h
          split at h
          · next hc =>
            simp only [Bool.and_eq_true, Bool.not_eq_true', ← Bool.not_eq_true, g1, g2] at hc
            rw [List.mem_singleton.1 h]
            exact .eventStart hc.1 hc.2
          · simp at h
      · exact .eventEnd h1 h2
    · intro h
      cases h with
      | eventEnd h1 h2 => exact .inr ⟨⟨h1, h2⟩, rfl⟩
      | eventStart h1 h2 =>
        left
        simp only
        rw [if_pos]
        · simp
        · simp only [Bool.and_eq_true, Bool.not_eq_true', ← Bool.not_eq_true, g1, g2]
          exact ⟨h1, h2⟩
  | todo =>
    simp only [List.mem_append, b2.2, b2.1]
    constructor
    · rintro (⟨⟨h1, h2⟩, rfl⟩ | h)
      · exact .todoDue h1 h2
      · split at h
        · next hc =>
          simp only [Bool.and_eq_true, Bool.not_eq_true', ← Bool.not_eq_true, g1, g] at hc
          rw [List.mem_singleton.1 h]
          exact .todoDuration hc.1 hc.2
        · simp at h
    · intro h
      cases h with
      | todoDue h1 h2 => exact .inl ⟨⟨h1, h2⟩, rfl⟩
      | todoDuration h1 h2 =>
        right
        rw [if_pos]
        · simp
        · simp only [Bool.and_eq_true, Bool.not_eq_true', ← Bool.not_eq_true, g1, g]
          exact ⟨h1, h2⟩
  | avail =>
    simp only [b1.2]
    constructor
    · rintro ⟨⟨h1, h2⟩, rfl⟩
      exact .availEnd h1 h2
    · intro h
      cases h with
      | availEnd h1 h2 => exact ⟨⟨h1, h2⟩, rfl⟩
  | timezone =>
    have e : (subs.any fun s => decide (s = "STANDARD".toList ∨ s = "DAYLIGHT".toList)) = true ↔
        "STANDARD".toList ∈ subs ∨ "DAYLIGHT".toList ∈ subs := by
      rw [List.any_eq_true]
      constructor
      · rintro ⟨s, hs, h⟩
        rcases of_decide_eq_true h with rfl | rfl
        · exact .inl hs
        · exact .inr hs
      · rintro (h | h)
        · exact ⟨_, h, by simp⟩
        · exact ⟨_, h, by simp⟩
    simp only
    split
    · next h =>
      rw [e] at h
      simp only [List.not_mem_nil, false_iff]
      intro h'
      cases h' with
      | zone h1 h2 => exact h.elim h1 h2
    · next h =>
      rw [e, not_or] at h
      simp only [List.mem_singleton]
      constructor
      · rintro rfl
        exact .zone h.1 h.2
      · intro h'
        cases h'
        rfl
  | alarm =>
    have e : (has ps "DURATION".toList ^^ has ps "REPEAT".toList) = true ↔ ¬ (Has ps "DURATION" ↔ Has ps "REPEAT") := by
      rw [← g, ← g']
      cases has ps "DURATION".toList <;> cases has ps "REPEAT".toList <;> simp
    simp only
    split
    · next h =>
      rw [e] at h
      simp only [List.mem_singleton]
      constructor
      · rintro rfl
        exact .alarm h
      · intro h'
        cases h'
        rfl
    · next h =>
      rw [e] at h
      simp only [List.not_mem_nil, false_iff]
      intro h'
      cases h' with
      | alarm h' => exact h h'

mutual
theorem exact_one (v : Values) (parent : Option (List CProp)) : ∀ (c : VComp) (r : Out VComp),
    validate v false parent c = some r → ∀ m, m ∈ r.unfixed ↔ Wrong v parent c m
  | .mk t k tb st us ps cs, r, h, m => by
    have h2 : (checkFixEmpty v t false tb.fixEmpty ps).val = ps := by
      generalize tb.fixEmpty = names
      induction names with
      | nil => rfl
      | cons n names ih => rw [checkFixEmpty]; split <;> (try split) <;> simp [ih]
    obtain ⟨r5, e5, v5, m5⟩ := status_mem v t ps m tb.statusFix
    obtain ⟨u7, e7⟩ := Valid43.check_modes v ps cs
    have m7 := exact_all v ps cs _ e7 m
    rw [validate] at h
    simp only [h2, e5, v5, e7, Option.some.injEq] at h
    subst h
    simp only [List.mem_append, fixEmpty_mem, m5, m7, untils_mem, kind_mem, or_assoc]
    constructor
    · rintro (h | ⟨n, hn, ⟨h, rfl⟩ | ⟨h, rfl⟩⟩ | h | h | ⟨n, hn, h, rfl⟩ | h | ⟨c, hc, h⟩ | ⟨s, rfl, u, hu, h, rfl⟩ | h)
      · obtain ⟨n, hn, h⟩ := List.mem_filterMap.1 h
        split at h
        · next h' => cases h; exact .one hn (by rwa [← count_number])
        · cases h
      · exact .requiredMany hn h
      · exact .requiredMissing (.inl hn) h
      · obtain ⟨n, hn, h⟩ := List.mem_filterMap.1 h
        split at h
        · next h' => cases h; exact .many hn (by rwa [← count_number])
        · cases h
      · obtain ⟨n, hn, h⟩ := List.mem_filterMap.1 h
        split at h
        · next h' => cases h; exact .requiredMissing (.inr hn) (by rw [← count_number]; omega)
        · cases h
      · exact .status hn h
      · obtain ⟨p, hp, h⟩ := List.mem_filterMap.1 h
        split at h
        · cases h
        · next h' => cases h; exact .value hp (by simpa using h')
      · exact .sub hc h
      · exact .stop hu h
      · exact .kind h
    · intro h
      cases h with
      | @one _ _ _ _ _ _ _ _ n h hn =>
        exact .inl (List.mem_filterMap.2 ⟨n, h, by rw [if_pos (by rwa [count_number])]⟩)
      | requiredMany h hn => exact .inr (.inl ⟨_, h, .inl ⟨hn, rfl⟩⟩)
      | @requiredMissing _ _ _ _ _ _ _ _ n h hn =>
        rcases h with h | h
        · exact .inr (.inl ⟨_, h, .inr ⟨hn, rfl⟩⟩)
        · exact .inr (.inr (.inr (.inl (List.mem_filterMap.2 ⟨n, h, by rw [if_pos (by rw [count_number]; omega)]⟩))))
      | @many _ _ _ _ _ _ _ _ n h hn =>
        exact .inr (.inr (.inl (List.mem_filterMap.2 ⟨n, h, by rw [if_pos (by rwa [count_number])]⟩)))
      | status h hn => exact .inr (.inr (.inr (.inr (.inl ⟨_, h, hn, rfl⟩))))
      | @value _ _ _ _ _ _ _ _ p h hn =>
        exact .inr (.inr (.inr (.inr (.inr (.inl (List.mem_filterMap.2 ⟨p, h, by rw [if_neg (by simp [hn])]; rfl⟩))))))
      | sub h hw => exact .inr (.inr (.inr (.inr (.inr (.inr (.inl ⟨_, h, hw⟩))))))
      | stop h hn => exact .inr (.inr (.inr (.inr (.inr (.inr (.inr (.inl ⟨_, rfl, _, h, hn, rfl⟩)))))))
      | kind h => exact .inr (.inr (.inr (.inr (.inr (.inr (.inr (.inr h)))))))

theorem exact_all (v : Values) (ps : List CProp) : ∀ (cs : List VComp) (r : Out (List VComp)),
    validateAll v false ps cs = some r → ∀ m, m ∈ r.unfixed ↔ ∃ c ∈ cs, Wrong v (some ps) c m
  | [], r, h, m => by rw [validateAll] at h; cases h; simp
  | c :: cs, r, h, m => by
    obtain ⟨u, e⟩ := Valid43.check_mode v (some ps) c
    obtain ⟨u', e'⟩ := Valid43.check_modes v ps cs
    rw [validateAll, e, e'] at h
    cases h
    rw [List.mem_append, exact_one v (some ps) c _ e m, exact_all v ps cs _ e' m]
    simp
end

end W108
open W108

/-- Checking tells exactly what is wrong with a component and those in it. -/
theorem C108_exact (v : Values) (parent : Option (List CProp)) (c : VComp) :
    ∃ unfixed, validate v false parent c = some ⟨c, [], unfixed⟩ ∧ ∀ m, m ∈ unfixed ↔ Wrong v parent c m := by
  obtain ⟨u, e⟩ := Valid43.check_mode v parent c
  exact ⟨u, e, exact_one v parent c _ e⟩

namespace W108

/-- What RFC 5545 says of the numbers of properties in a component: the names that must occur exactly once, at most once,
and at least once. -/
structure Rfc where
  name : String
  once : List (List Char)
  atMostOnce : List (List Char)
  atLeastOnce : List (List Char) := []

/-- RFC 5545, 3.6, 3.6.1 to 3.6.6, with the ACKNOWLEDGED of RFC 9074. -/
def rfc5545 : List Rfc := [
  ⟨"VCALENDAR", names "PRODID VERSION", names "CALSCALE METHOD", []⟩,
  ⟨"VEVENT", names "DTSTAMP UID", names "DTSTART CLASS CREATED DESCRIPTION GEO LAST-MODIFIED LOCATION ORGANIZER PRIORITY \
    SEQUENCE STATUS SUMMARY TRANSP URL RECURRENCE-ID RRULE DTEND DURATION", []⟩,
  ⟨"VTODO", names "DTSTAMP UID", names "CLASS COMPLETED CREATED DESCRIPTION DTSTART GEO LAST-MODIFIED LOCATION ORGANIZER \
    PERCENT-COMPLETE PRIORITY RECURRENCE-ID SEQUENCE STATUS SUMMARY URL RRULE DUE DURATION", []⟩,
  ⟨"VJOURNAL", names "DTSTAMP UID", names "CLASS CREATED DTSTART LAST-MODIFIED ORGANIZER RECURRENCE-ID SEQUENCE STATUS \
    SUMMARY URL RRULE", []⟩,
  ⟨"VFREEBUSY", names "DTSTAMP UID", names "CONTACT DTSTART DTEND ORGANIZER URL", []⟩,
  ⟨"VTIMEZONE", names "TZID", names "LAST-MODIFIED TZURL", []⟩,
  ⟨"STANDARD", names "DTSTART TZOFFSETTO TZOFFSETFROM", names "RRULE", []⟩,
  ⟨"AUDIO", names "ACTION TRIGGER", names "DURATION REPEAT ATTACH ACKNOWLEDGED", []⟩,
  ⟨"DISPLAY", names "ACTION DESCRIPTION TRIGGER", names "DURATION REPEAT ACKNOWLEDGED", []⟩,
  ⟨"EMAIL", names "ACTION DESCRIPTION TRIGGER SUMMARY", names "DURATION REPEAT ACKNOWLEDGED", names "ATTENDEE"⟩]

/-- The class for a name. -/
def classOf (name : String) : Option (Kind × Table) := (classNames.zip classes).lookup name

/-- The table of a class says the same, but for one. -/
def Agrees (r : Rfc) (x : Table) : Prop :=
  (∀ n ∈ r.once, n ∈ x.one ∨ n ∈ x.fixEmpty) ∧ (∀ n ∈ x.one ++ x.fixEmpty, n ∈ r.once) ∧
  (∀ n ∈ r.atMostOnce, n ∈ x.zeroOne ∨ n ∈ x.statusFix ∨ (r.name, n) = ("VEVENT", "DTSTART".toList)) ∧
  (∀ n ∈ x.zeroOne ++ x.statusFix, n ∈ r.atMostOnce) ∧
  (∀ n ∈ r.atLeastOnce, n ∈ x.oneMore) ∧ (∀ n ∈ x.oneMore, n ∈ r.atLeastOnce)

instance (r : Rfc) (x : Table) : Decidable (Agrees r x) := by
  unfold Agrees
  refine @instDecidableAnd _ _ ?_ (@instDecidableAnd _ _ ?_ (@instDecidableAnd _ _ ?_ (@instDecidableAnd _ _ ?_ (@instDecidableAnd _ _ ?_ ?_)))) <;>
    exact List.decidableBAll _ _

theorem tables_rfc : ∀ r ∈ rfc5545, ∃ x ∈ (classOf r.name).toList, Agrees r x.2 ∧
    (x.1 = .event → r.name = "VEVENT") := by decide +kernel

end W108

/-- What is reported of the numbers of properties in a component of RFC 5545, other than of those in it, is against RFC 5545. -/
theorem C108_rfc (v : Values) (parent : Option (List CProp)) (r : Rfc) (hr : r ∈ rfc5545) (t : List Char) (k : Kind) (tb : Table)
    (hk : classOf r.name = some (k, tb)) (st : Option Bool) (us : List Bool) (ps : List CProp) (cs : List VComp)
    (unfixed : List Problem)
    (h : validate v false parent (.mk t k tb st us ps cs) = some ⟨.mk t k tb st us ps cs, [], unfixed⟩) (m : Problem)
    (hm : m ∈ unfixed) (hs : ∀ c ∈ cs, ¬ Wrong v (some ps) c m) :
    ((m.what = .missingOrMany ∨ m.what = .manyRequired ∨ m.what = .many ∨ m.what = .manyStatus) →
      (m.name ∈ r.once ∧ number ps m.name ≠ 1) ∨ (m.name ∈ r.atMostOnce ∧ number ps m.name > 1)) ∧
    (m.what = .missing → number ps m.name = 0 ∧
      (m.name ∈ r.once ∨ m.name ∈ r.atLeastOnce ∨
        (r.name = "VEVENT" ∧ m.name = "DTSTART".toList ∧ ∃ pp, parent = some pp ∧ number pp "METHOD".toList = 0))) := by
  obtain ⟨u, e, hu⟩ := C108_exact v parent (.mk t k tb st us ps cs)
  rw [e] at h
  cases h
  rw [hu] at hm
  obtain ⟨x, hx, ⟨-, h2, -, h4, -, h6⟩, h7⟩ := tables_rfc r hr
  rw [hk, Option.toList_some, List.mem_singleton] at hx
  subst hx
  have none_of : ∀ {ps : List CProp} {n : String}, upper n.toList = n.toList → ¬ Has ps n → number ps n.toList = 0 := by
    intro ps n hn h
    unfold number
    rw [hn, List.length_eq_zero_iff, List.filter_eq_nil_iff]
    intro a ha
    obtain ⟨p, hp, rfl⟩ := List.mem_map.mp ha
    simp only [decide_eq_true_eq]
    exact fun hc => h ⟨p, hp, hc⟩
  cases hm with
  | one h hn => exact ⟨fun _ => .inl ⟨h2 _ (by simp [h]), hn⟩, by simp⟩
  | requiredMany h hn => exact ⟨fun _ => .inl ⟨h2 _ (by simp [h]), by simp only; omega⟩, by simp⟩
  | requiredMissing h hn =>
    refine ⟨by simp, fun _ => ⟨hn, ?_⟩⟩
    rcases h with h | h
    · exact .inl (h2 _ (by simp [h]))
    · exact .inr (.inl (h6 _ h))
  | many h hn => exact ⟨fun _ => .inr ⟨h4 _ (by simp [h]), hn⟩, by simp⟩
  | status h hn => exact ⟨fun _ => .inr ⟨h4 _ (by simp [h]), hn⟩, by simp⟩
  | value => simp
  | stop => simp
  | kind h =>
    cases h with
    | eventStart h1 h3 =>
      exact ⟨by simp, fun _ => ⟨none_of (by decide +kernel) h3, .inr (.inr ⟨h7 rfl, rfl, _, rfl, none_of (by decide +kernel) h1⟩)⟩⟩
    | _ => simp
  | sub h hw => exact absurd hw (hs _ h)

/-- The event of `C43` with an alarm: what is wrong with it. -/
example : ∀ m, Wrong Valid43.vals none (Valid43.event [] [Valid43.alarm]) m ↔
    m ∈ [⟨"VALARM".toList, .missing, "DESCRIPTION".toList⟩, ⟨"VALARM".toList, .together "REPEAT".toList, "DURATION".toList⟩,
      (⟨"VEVENT".toList, .types, "UNTIL".toList⟩ : Problem)] := by
  obtain ⟨u, e, h⟩ := C108_exact Valid43.vals none (Valid43.event [] [Valid43.alarm])
  have : (validate Valid43.vals false none (Valid43.event [] [Valid43.alarm])).map (·.unfixed) =
      some [⟨"VALARM".toList, .missing, "DESCRIPTION".toList⟩, ⟨"VALARM".toList, .together "REPEAT".toList, "DURATION".toList⟩,
        ⟨"VEVENT".toList, .types, "UNTIL".toList⟩] := by decide +kernel
  rw [e] at this
  cases this
  exact fun m => (h m).symm

end PyCal
