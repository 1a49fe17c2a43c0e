import Mathlib.Data.List.Perm.Basic
import Verif.Spec.RecurJSON
import Verif.Props.C44_C45_RuleText

/-!
# C83: recurrence rules in jCal
-/

namespace PyCal
open Spec Spec.Recur DateTime

/-- The text of a date in jCal: "2026-01-31", "2026-01-31T12:00:00" or "2026-01-31T12:00:00Z". -/
def JUntilText (s : List Char) (t : DateTime) : Prop :=
  s = t.getXMLText ∧ t.Valid ∧ (0 ≤ t.year ∧ t.year ≤ 9999) ∧ (t.dateOnly = true → t.utc = false) ∧
  t.tzid = none

namespace RJson

theorem filter_pad4 {n : Int} (h0 : 0 ≤ n) (h1 : n < 10000) :
    (padInt 4 n).filter (fun c => c ≠ '-' && c ≠ ':') = padInt 4 n := by
  rw [List.filter_eq_self]
  intro c hc
  rw [padInt4 h0 h1] at hc
  have := d4_digits (by omega) c hc
  by_cases h : c = '-'
  · subst h; revert this; decide
  · by_cases h' : c = ':'
    · subst h'; revert this; decide
    · simp [h, h']

theorem filter_pad2 {n : Int} (h0 : 0 ≤ n) (h1 : n < 100) :
    (padInt 2 n).filter (fun c => c ≠ '-' && c ≠ ':') = padInt 2 n := by
  rw [List.filter_eq_self]
  intro c hc
  rw [padInt2 h0 h1] at hc
  have := d2_digits (by omega) c hc
  by_cases h : c = '-'
  · subst h; revert this; decide
  · by_cases h' : c = ':'
    · subst h'; revert this; decide
    · simp [h, h']

theorem until_text {s : List Char} {t : DateTime} (h : JUntilText s t) :
    UntilText (s.filter fun c => c ≠ '-' && c ≠ ':') t := by
  obtain ⟨rfl, hv, hy, hd, hz⟩ := h
  refine ⟨?_, hv, hy, hd, hz⟩
  obtain ⟨r1, r2, r3, r4, r5⟩ := hv.ranges
  have e1 := filter_pad4 hy.1 (by omega)
  have e2 := filter_pad2 (n := t.month) (by omega) (by omega)
  have e3 := filter_pad2 (n := t.day) (by omega) (by omega)
  have e4 := filter_pad2 (n := t.hours) (by omega) (by omega)
  have e5 := filter_pad2 (n := t.minutes) (by omega) (by omega)
  have e6 := filter_pad2 (n := t.seconds) (by omega) (by omega)
  unfold getXMLText getText dateText timeText zoneText
  rw [hz]
  by_cases h : t.dateOnly = true <;> by_cases hu : t.utc = true <;>
    simp only [h, hu, if_true, if_false, List.filter_append, e1, e2, e3, e4, e5, e6,
      Bool.false_eq_true] <;> simp

theorem upper_name (k : By) : k.jsonName.map Char.toUpper = k.name := by cases k <;> decide

theorem name_list (k : By) : k.jsonName ∈ Rule.listNames := by cases k <;> decide

theorem name_until (k : By) : k.jsonName ≠ "until".toList := by cases k <;> decide

theorem sep_days {ss : List (List Char)} {vals : List (Int × Int)} (h : List.Forall₂ DayNum ss vals) :
    vals ≠ [] → Sep ',' DayNum (Rule.commaSep ss) vals := by
  induction h with
  | nil => intro h; exact absurd rfl h
  | @cons s v ss vals h hs ih =>
    intro _
    cases hs with
    | nil => exact .one h
    | cons h1 h2 => exact .more h (ih (by simp))

/-- What a member becomes is the text of the part that it is. -/
theorem member_text {m : List Char × JVal} {p : Part} (h : Member JUntilText m p) :
    ∃ s, Rule.memberText m = some s ∧ PartText UntilText s p := by
  cases h with
  | freq h => exact ⟨_, rfl, .freq h⟩
  | upto h =>
    refine ⟨"UNTIL=".toList ++ _, rfl, .upto (until_text h)⟩
  | @count n h => exact ⟨_, rfl, .count (number_decInt n) h⟩
  | @interval n h => exact ⟨_, rfl, .interval (number_decInt n) h⟩
  | @num k v h =>
    refine ⟨k.name ++ '=' :: decInt v, ?_, .num (.one (number_decInt v)) (by simpa using h)⟩
    rw [Rule.memberText, Rule.memberValue]
    simp only [if_neg (name_until k), Option.map_some, upper_name, JItem.text]
  | @nums k vals h0 h =>
    refine ⟨k.name ++ '=' :: Rule.commaSep (vals.map decInt), ?_,
      .num (sep_comma h0 fun v _ => number_decInt v) h⟩
    rw [Rule.memberText, Rule.memberValue]
    simp only [if_pos (name_list k), Option.map_some, upper_name, List.map_map]
    rfl
  | day h hv => exact ⟨_, rfl, .byDay (.one h) (by simpa using hv)⟩
  | @days ss vals h0 h hv =>
    refine ⟨"BYDAY=".toList ++ Rule.commaSep ss, ?_, .byDay (sep_days h h0) hv⟩
    rw [Rule.memberText, Rule.memberValue]
    simp only [if_pos (show "byday".toList ∈ Rule.listNames by decide), Option.map_some, List.map_map]
    have : ss.map (JItem.text ∘ JItem.str) = ss := by
      conv => rhs; rw [← List.map_id ss]
      rfl
    rw [this]
    rfl
  | wkst h => exact ⟨_, rfl, .wkst h⟩

theorem members_text {ms : List (List Char × JVal)} {ps : List Part}
    (h : List.Forall₂ (Member JUntilText) ms ps) : ps ≠ [] →
    ∃ items, ms.mapM Rule.memberText = some items ∧
      Sep ';' (PartText UntilText) (joinSep ';' items) ps := by
  induction h with
  | nil => intro h; exact absurd rfl h
  | @cons m p ms ps h hs ih =>
    intro _
    obtain ⟨s, h1, h2⟩ := member_text h
    cases hs with
    | nil => exact ⟨[s], by simp [h1], .one h2⟩
    | @cons m' p' ms' ps' h' hs' =>
      obtain ⟨items, h3, h4⟩ := ih (by simp)
      refine ⟨s :: items, by rw [List.mapM_cons, h1, h3]; rfl, ?_⟩
      cases items with
      | nil =>
        rw [List.mapM_cons] at h3
        cases e1 : Rule.memberText m' with
        | none => rw [e1] at h3; cases h3
        | some a =>
          cases e2 : ms'.mapM Rule.memberText with
          | none => rw [e1, e2] at h3; cases h3
          | some b => rw [e1, e2] at h3; cases h3
      | cons i items => exact .more h2 h4

theorem clash_symm {a b : Part} (h : ¬ a.Clash b) : ¬ b.Clash a := by
  intro h'
  apply h
  cases a <;> cases b <;> simp_all [Part.Clash]

theorem find_perm {α : Type} {f : Part → Option α}
    (hf : ∀ a b, (f a).isSome → (f b).isSome → a.Clash b) {ps qs : List Part} (hp : ps.Perm qs) :
    ps.Pairwise (fun a b => ¬ a.Clash b) → ps.findSome? f = qs.findSome? f := by
  induction hp with
  | nil => intro _; rfl
  | cons x _ ih =>
    intro h
    rw [List.findSome?_cons, List.findSome?_cons, ih (List.pairwise_cons.mp h).2]
  | swap x y l =>
    intro h
    have := (List.pairwise_cons.mp h).1 x (by simp)
    simp only [List.findSome?_cons]
    cases h1 : f x with
    | none => rfl
    | some a =>
      cases h2 : f y with
      | none => rfl
      | some b => exact absurd (hf y x (by simp [h2]) (by simp [h1])) this
  | trans h1 _ ih1 ih2 =>
    intro h
    rw [ih1 h, ih2 (h1.pairwise h fun hab => clash_symm hab)]

/-- The order of the parts does not matter. -/
theorem rule_perm {ps qs : List Part} (hp : ps.Perm qs)
    (h : ps.Pairwise fun a b => ¬ a.Clash b) : rule ps = rule qs := by
  have e1 := find_perm (f := freqOf) (by intro a b; cases a <;> cases b <;> simp [freqOf, Part.Clash]) hp h
  have e2 := find_perm (f := countOf) (by intro a b; cases a <;> cases b <;> simp [countOf, Part.Clash]) hp h
  have e3 := find_perm (f := uptoOf) (by intro a b; cases a <;> cases b <;> simp [uptoOf, Part.Clash]) hp h
  have e4 := find_perm (f := intervalOf)
    (by intro a b; cases a <;> cases b <;> simp [intervalOf, Part.Clash]) hp h
  have e5 := find_perm (f := byDayOf) (by intro a b; cases a <;> cases b <;> simp [byDayOf, Part.Clash]) hp h
  have e6 := find_perm (f := wkstOf) (by intro a b; cases a <;> cases b <;> simp [wkstOf, Part.Clash]) hp h
  have e7 : ∀ k, ps.findSome? (byOf k) = qs.findSome? (byOf k) := fun k => find_perm (f := byOf k)
    (by
      intro a b
      cases a <;> cases b <;> simp only [byOf, Part.Clash, Option.isSome_none, Bool.false_eq_true,
        false_implies, implies_true]
      rename_i k1 v1 k2 v2
      by_cases h1 : k1 = k <;> by_cases h2 : k2 = k <;> simp [h1, h2]) hp h
  simp only [rule, e1, e2, e3, e4, e5, e6, e7]

end RJson
open RJson

/-- C83: every object that RFC 7265 allows for a rule is accepted, and the rule is what its members
say. -/
theorem C83_accepts (sr : Bool) (ms : List (List Char × JVal)) (ps : List Part)
    (h : RuleObject JUntilText ms ps) : Rule.parseJSON sr ms = some (rule ps) := by
  obtain ⟨h0, h1, h2⟩ := h
  obtain ⟨items, h3, h4⟩ := members_text h1 h0
  rw [Rule.parseJSON, h3, Option.bind_some]
  exact C56_accepts sr _ ps ⟨h4, h2⟩

namespace RJson

theorem num_members {k : By} {vals : List Int} (h : ∀ v ∈ vals, k.Allows v) :
    List.Forall₂ (Member JUntilText) (Rule.numMember k.jsonName vals) (optNum k vals) := by
  unfold Rule.numMember optNum
  split
  · exact .nil
  · rename_i h0
    exact .cons (.nums h0 h) .nil

theorem opt_members {c : Prop} [Decidable c] {m : List Char × JVal} {p : Part}
    (h : c → Member JUntilText m p) :
    List.Forall₂ (Member JUntilText) (if c then [m] else []) (if c then [p] else []) := by
  split
  · rename_i hc
    exact .cons (h hc) .nil
  · exact .nil

theorem days_text {l : List (Int × Int)} (h : ∀ v ∈ l, 0 ≤ v.2 ∧ v.2 < 7) :
    List.Forall₂ DayNum (l.map Rule.dayText) l := by
  induction l with
  | nil => exact .nil
  | cons v l ih =>
    exact .cons (dayNum_text (h v (by simp))) (ih fun w hw => h w (List.mem_cons_of_mem _ hw))

theorem limit_members {r : Rule} (hw : Writable r) :
    ∃ limit, r.limitMember = some limit ∧ List.Forall₂ (Member JUntilText) limit (limitParts r) := by
  unfold Rule.limitMember limitParts
  by_cases hc : r.useCount = true
  · have := hw.count
    rw [if_pos hc] at this
    rw [if_pos hc, if_pos hc]
    exact ⟨_, rfl, .cons (.count this.1) .nil⟩
  · rw [if_neg hc, if_neg hc]
    have := hw.until_
    by_cases hu : r.useUntil = true
    · rw [if_pos hu] at this ⊢
      obtain ⟨t, ht, hT⟩ := this
      rw [ht]
      exact ⟨_, rfl, .cons (.upto ⟨rfl, hT.2⟩) .nil⟩
    · rw [if_neg hu] at this ⊢
      rw [this]
      exact ⟨[], rfl, .nil⟩

end RJson

/-- C83: what is written for a rule is an object that RFC 7265 allows, and it says what the rule is. -/
theorem C83_written (r : Rule) (hw : Writable r) :
    ∃ ms ps, r.writeJSON = some ms ∧ RuleObject JUntilText ms ps ∧ rule ps = r := by
  obtain ⟨limit, h1, h2⟩ := limit_members hw
  refine ⟨_, partsOf r, by rw [Rule.writeJSON, h1]; rfl, ⟨?_, ?_, partsOf_noclash r⟩, partsOf_rule hw⟩
  · simp [partsOf]
  · unfold partsOf
    simp only [List.append_assoc, List.cons_append, List.nil_append]
    refine .cons (.freq (freqWord_text r.freq)) ?_
    refine List.rel_append h2 ?_
    refine List.rel_append (opt_members fun h => .interval (by omega)) ?_
    refine List.rel_append (num_members (k := .second) hw.bySeconds) ?_
    refine List.rel_append (num_members (k := .minute) hw.byMinutes) ?_
    refine List.rel_append (num_members (k := .hour) hw.byHours) ?_
    refine List.rel_append ?_ ?_
    · split
      · exact .nil
      · rename_i h0
        have := Member.days (D := JUntilText) h0 (days_text fun v hv => (hw.byDay v hv).1)
          fun v hv h0 => by have := (hw.byDay v hv).2; omega
        rw [List.map_map] at this
        exact .cons this .nil
    refine List.rel_append (num_members (k := .monthDay) hw.byMonthDay) ?_
    refine List.rel_append (num_members (k := .yearDay) hw.byYearDay) ?_
    refine List.rel_append (num_members (k := .weekNo) hw.byWeekNo) ?_
    refine List.rel_append (num_members (k := .month) hw.byMonth) ?_
    refine List.rel_append (num_members (k := .setPos) hw.bySetPos) ?_
    refine opt_members fun h => .wkst ?_
    have := dayWord_text hw.weekStart
    rw [if_neg this.ne_nil]
    exact this

/-- C83: a rule that is written in jCal and read again is the same rule, in whatever order the members
come.  Missing: rules that are not `Writable`, of which those with an UNTIL in a time zone can occur
(`C83_fails_zone`). -/
theorem C83_roundtrip_partial (sr : Bool) (r : Rule) (hw : Writable r) :
    ∃ ms, r.writeJSON = some ms ∧ ∀ ms', ms'.Perm ms → Rule.parseJSON sr ms' = some r := by
  obtain ⟨ms, ps, h1, ⟨h0, h2, h3⟩, h4⟩ := C83_written r hw
  refine ⟨ms, h1, fun ms' hp => ?_⟩
  obtain ⟨ps', h5, h6⟩ := List.perm_comp_forall₂ hp h2
  rw [C83_accepts sr ms' ps' ⟨?_, h5, ?_⟩, ← h4]
  · exact congrArg some (rule_perm h6.symm h3).symm
  · intro h
    rw [h] at h6
    exact h0 (List.nil_perm.mp h6)
  · exact h6.symm.pairwise h3 fun h => clash_symm h

/-- Every other month on the last Friday and the second Monday, the week starting on Sunday, until the end
of 2021. -/
def RJson.sample : Rule :=
  { freq := .monthly, interval := 2, byDay := [(-1, 5), (2, 1)], bySetPos := [-1], weekStart := 0,
    useUntil := true, untilDate := some ⟨2021, 12, 31, 23, 59, 59, false, true, none⟩ }

/-- It can be written. -/
theorem RJson.sample_writable : Writable RJson.sample := by
  constructor
  · decide
  · exact ⟨_, rfl, rfl, by decide +kernel⟩
  all_goals simp [RJson.sample, By.Allows]

/-- It is written as this object, which is read also in another order. -/
example : RJson.sample.writeJSON = some [("freq".toList, .one (.str "MONTHLY".toList)),
      ("until".toList, .one (.str "2021-12-31T23:59:59Z".toList)), ("interval".toList, .one (.num 2)),
      ("byday".toList, .many [.str "-1FR".toList, .str "2MO".toList]),
      ("bysetpos".toList, .many [.num (-1)]), ("wkst".toList, .one (.str "SU".toList))] ∧
    Rule.parseJSON true [("bysetpos".toList, .one (.num (-1))), ("wkst".toList, .one (.str "SU".toList)),
      ("byday".toList, .many [.str "-1FR".toList, .str "+2MO".toList]),
      ("until".toList, .one (.str "2021-12-31T23:59:59Z".toList)), ("interval".toList, .one (.num 2)),
      ("freq".toList, .one (.str "MONTHLY".toList))] = some RJson.sample := by
  exact ⟨by decide +kernel, by decide +kernel⟩

/-- C83 fails: a zone of UNTIL, which a rule made in a program may have, is lost. -/
theorem C83_fails_zone : ∃ (r r' : Rule) (t : DateTime) (ms : List (List Char × JVal)),
    r.useUntil = true ∧ r.untilDate = some t ∧ t.Valid ∧ t.tzid = some (.name "X") ∧
    r.writeJSON = some ms ∧ Rule.parseJSON true ms = some r' ∧
    r'.untilDate = some { t with tzid := none } :=
  ⟨{ useUntil := true, untilDate := some ⟨2020, 1, 1, 12, 0, 0, false, false, some (.name "X")⟩ },
    { useUntil := true, untilDate := some ⟨2020, 1, 1, 12, 0, 0, false, false, none⟩ },
    ⟨2020, 1, 1, 12, 0, 0, false, false, some (.name "X")⟩,
    [("freq".toList, .one (.str "YEARLY".toList)),
      ("until".toList, .one (.str "2020-01-01T12:00:00".toList))],
    rfl, rfl, by decide +kernel, rfl, by decide +kernel, by decide +kernel, rfl⟩

/-- C83 fails: objects are accepted that are not rules: the name or the value of a member may itself hold
members, the signs of a date may be anywhere, and no FREQ is needed. -/
theorem C83_fails_lenient :
    Rule.parseJSON true [("freq=daily;count".toList, .one (.num 3))] =
      some { freq := .daily, useCount := true, count := 3 } ∧
    Rule.parseJSON true [("freq".toList, .one (.str "DAILY;COUNT=3".toList))] =
      some { freq := .daily, useCount := true, count := 3 } ∧
    Rule.parseJSON true [("until".toList, .one (.str "2-02:60101-".toList))] =
      some { useUntil := true, untilDate := some ⟨2026, 1, 1, 0, 0, 0, true, false, none⟩ } :=
  ⟨by decide +kernel, by decide +kernel, by decide +kernel⟩

end PyCal
