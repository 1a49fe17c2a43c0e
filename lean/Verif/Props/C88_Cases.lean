import Verif.Props.C88_VTimezone
import Mathlib.Data.List.Sort

/-! # C88: a zone that is written as it should be, and some that are not -/

namespace PyCal
namespace Zonal
open Spec Spec.Zic DateTime

/-! ## Expansion by a sort that the kernel can run -/

/-- Sorted, if no two are at the same time. -/
def strictSort {α : Type} (k : α → DateTime) (l : List α) : Option (List α) :=
  let s := l.insertionSort fun a b => (k a).cmpFields (k b) ≤ 0
  if s.Pairwise fun a b => (k a).cmpFields (k b) < 0 then some s else none

theorem strictSort_eq {α : Type} {k : α → DateTime} {l s : List α} (h : strictSort k l = some s) :
    l.mergeSort (fun a b => decide ((k a).cmpFields (k b) ≤ 0)) = s := by
  unfold strictSort at h
  simp only at h
  split at h
  · rename_i hp
    injection h with h
    rw [h] at hp
    exact sorted_by k (h ▸ List.perm_insertionSort _ _) hp
  · cases h

/-- `ZoneRule.expand` so sorted. -/
def lineBy (z : ZoneRule) (rules : List Char → Option (List RuleObj)) (lastUntil : DateTime)
    (lastOffset lastStd maxYear : Int) : Option (List Entry × Int × Int) :=
  match z.isNumericOffset, z.getUTCOffset with
  | some true, some _ => z.expand rules lastUntil lastOffset lastStd maxYear
  | some false, some std =>
    match rules z.rule with
    | none => none
    | some rs =>
      match expandRules rs std maxYear, z.getUntilDate with
      | some temp, some finalUntil =>
        match strictSort (fun x => x.1.dt) temp with
        | none => none
        | some sorted =>
          let res := ruleLoop z std finalUntil lastUntil sorted false false lastOffset lastStd none
          some (if res.2.2.2 then res.1 else res.1 ++ [⟨lastUntil, res.2.1, z, none⟩], res.2.1, res.2.2.1)
      | _, _ => none
  | _, _ => none

theorem lineBy_eq {z : ZoneRule} {rules : List Char → Option (List RuleObj)} {lastUntil : DateTime}
    {lastOffset lastStd maxYear : Int} {res : List Entry × Int × Int}
    (h : lineBy z rules lastUntil lastOffset lastStd maxYear = some res) :
    z.expand rules lastUntil lastOffset lastStd maxYear = some res := by
  unfold lineBy at h
  unfold ZoneRule.expand at h ⊢
  generalize z.isNumericOffset = a at *
  generalize z.getUTCOffset = b at *
  match a, b with
  | some true, some std => exact h
  | some false, some std =>
    simp only at h ⊢
    generalize rules z.rule = rs at *
    cases rs with
    | none => cases h
    | some rs =>
    simp only at h ⊢
    generalize expandRules rs std maxYear = temp at *
    generalize z.getUntilDate = u at *
    match temp, u with
    | some temp, some u =>
      simp only at h ⊢
      cases hs : strictSort (fun x : TzTime × Int × TzRule => x.1.dt) temp with
      | none => rw [hs] at h; cases h
      | some s =>
        rw [hs] at h
        rw [strictSort_eq hs]
        exact h
    | none, _ => cases h
    | some _, none => cases h
  | none, _ => cases h
  | some true, none => cases h
  | some false, none => cases h

/-- `linesLoop` so sorted. -/
def linesBy (rules : List Char → Option (List RuleObj)) (maxYear : Int) :
    List ZoneRule → DateTime → (off stdoff : Int) → Option (List (List Entry))
  | [], _, _, _ => some []
  | z :: zs, lastUntil, off, stdoff =>
    match lineBy z rules lastUntil off stdoff maxYear, z.getUntilDate with
    | some (es, off', stdoff'), some u =>
      (linesBy rules maxYear zs (u.getUTC off' stdoff') off' stdoff').map (es :: ·)
    | _, _ => none

theorem linesBy_eq {rules : List Char → Option (List RuleObj)} {maxYear : Int} : ∀ {zs : List ZoneRule}
    {lastUntil : DateTime} {off stdoff : Int} {ess : List (List Entry)},
    linesBy rules maxYear zs lastUntil off stdoff = some ess →
    linesLoop rules maxYear zs lastUntil off stdoff = some ess
  | [], _, _, _, _, h => h
  | z :: zs, lastUntil, off, stdoff, ess, h => by
    rw [linesBy] at h
    rw [linesLoop]
    cases hl : lineBy z rules lastUntil off stdoff maxYear with
    | none => rw [hl] at h; cases h
    | some res =>
      obtain ⟨es, off', stdoff'⟩ := res
      rw [hl] at h
      rw [lineBy_eq hl]
      cases hu : z.getUntilDate with
      | none => rw [hu] at h; cases h
      | some u =>
        rw [hu] at h
        simp only [Option.map_eq_some_iff] at h ⊢
        obtain ⟨ess', h1, h2⟩ := h
        exact ⟨ess', linesBy_eq h1, h2⟩

/-- `Zone.expand` so sorted. -/
def expandBy (zn : Zone) (rules : List Char → Option (List RuleObj)) (minYear maxYear : Int) :
    Option (List Transition) :=
  match zn.rules with
  | [] => none
  | z :: _ =>
    match z.getUTCOffset with
    | none => none
    | some start =>
      match linesBy rules maxYear zn.rules zoneStart start start with
      | none => none
      | some ess =>
        (strictSort (fun e : Entry => e.dt) (counted zn ess)).map fun s => scan minYear start s (zoneStart, start) []

theorem expandBy_eq {zn : Zone} {rules : List Char → Option (List RuleObj)} {minYear maxYear : Int}
    {ts : List Transition} (h : expandBy zn rules minYear maxYear = some ts) :
    zn.expand rules minYear maxYear = some ts := by
  unfold expandBy counted at h
  unfold Zone.expand
  generalize zn.rules = rs at *
  cases rs with
  | nil => cases h
  | cons z zs =>
    simp only at h ⊢
    cases hs : z.getUTCOffset with
    | none => rw [hs] at h; cases h
    | some start =>
      rw [hs] at h
      simp only at h ⊢
      cases hl : linesBy rules maxYear (z :: zs) zoneStart start start with
      | none => rw [hl] at h; cases h
      | some ess =>
        rw [hl] at h
        rw [linesBy_eq hl]
        simp only at h ⊢
        rw [Option.map_eq_some_iff] at h
        obtain ⟨s, h1, h2⟩ := h
        have := strictSort_eq h1
        rw [← h2, this]

/-- A rule as it is written. -/
def ruleLine (s : String) : Option TzRule := TzRule.parse s.toList

/-- The rule sets with these lines. -/
def ruleSet (ls : List String) : List Char → Option (List RuleObj) := fun _ =>
  ls.mapM fun s => (ruleLine s).map fun r => ⟨r, none⟩

def zoneOf (ls : List String) : Zone := ⟨"Z".toList, ls.filterMap fun s => ZoneRule.parse s.toList false⟩

/-- The rules of the European Union, as they are since 1996 but from 1980 on. -/
def euRules : List Char → Option (List RuleObj) :=
  ruleSet ["Rule R 1980 max - Mar lastSun 1:00u 1:00 S", "Rule R 1980 max - Oct lastSun 1:00u 0 -"]

instance (t : DateTime) : Decidable (Real t) := by unfold Real; infer_instance

instance (a b : DateTime) : Decidable (SameClock a b) := by unfold SameClock; infer_instance

instance (o : Observance) (t : DateTime) : Decidable (Onset o t) :=
  decidable_of_iff (t = o.start ∨ t ∈ o.rdates ∨ ∃ x ∈ o.rrule.toList, Real t ∧ SameClock o.start t ∧
      RuleMatch x.1 o.start t ∧ clockSec o.start ≤ clockSec t ∧
      ∀ w ∈ x.2.toList, clockSec t - o.offsetFrom ≤ clockSec w) (by
    unfold Onset
    refine or_congr Iff.rfl (or_congr Iff.rfl ?_)
    simp only [Option.mem_toList, Prod.exists])

instance (os : List Observance) (f u : Int) (d : Bool) (t : DateTime) : Decidable (Written os f u d t) := by
  unfold Written; infer_instance

/-- A time of the clock. -/
def clock (y mo d h mi : Int) : DateTime := { year := y, month := mo, day := d, hours := h, minutes := mi, seconds := 0 }

theorem infix_three {α} {x a b first : α} {rest : List α} (h : first :: rest <:+: [x, a, b]) (hne : rest ≠ []) :
    first = x ∧ rest = [a] ∨ first = x ∧ rest = [a, b] ∨ first = a ∧ rest = [b] := by
  obtain ⟨s, t, e⟩ := h
  rcases s with _ | ⟨s1, _ | ⟨s2, s⟩⟩
  · rcases rest with _ | ⟨r1, _ | ⟨r2, _ | ⟨r3, r⟩⟩⟩
    · exact absurd rfl hne
    · simp at e; simp [e]
    · simp at e; simp [e]
    · simp at e
  · rcases rest with _ | ⟨r1, _ | ⟨r2, r⟩⟩
    · exact absurd rfl hne
    · simp at e; simp [e]
    · simp at e
  · rcases rest with _ | ⟨r1, r⟩
    · exact absurd rfl hne
    · have := congrArg List.length e; simp at this; omega

theorem infix_two {α} {a b first : α} {rest : List α} (h : first :: rest <:+: [a, b]) (hne : rest ≠ []) :
    first = a ∧ rest = [b] := by
  obtain ⟨s, t, e⟩ := h
  rcases s with _ | ⟨s1, s⟩
  · rcases rest with _ | ⟨r1, _ | ⟨r2, r⟩⟩
    · exact absurd rfl hne
    · simp at e; simp [e]
    · simp at e
  · rcases rest with _ | ⟨r1, r⟩
    · exact absurd rfl hne
    · have := congrArg List.length e; simp at this; omega

/-! ## A zone for which it works -/

/-- Central European time from 1990. -/
def cet : Zone := zoneOf ["0:00 - LMT 1990", "1:00 R C%sT"]

/-- Its line with rules. -/
def cetLine : ZoneRule := ⟨"1:00".toList, "R".toList, "C%sT".toList, none⟩

/-- The rule for summer time. -/
def euMar : TzRule := ⟨"R".toList, "1980".toList, "max".toList, "-".toList, "Mar".toList, "lastSun".toList,
  "1:00u".toList, "1:00".toList, "S".toList⟩

/-- The rule for winter time. -/
def euOct : TzRule := ⟨"R".toList, "1980".toList, "max".toList, "-".toList, "Oct".toList, "lastSun".toList,
  "1:00u".toList, "0".toList, "-".toList⟩

/-- Its transitions in 1990 and 1991. -/
def cetTransitions : List Transition :=
  [⟨clock 1990 1 1 0 0, 0, 3600, cetLine, some euOct⟩, ⟨clock 1990 3 25 2 0, 3600, 7200, cetLine, some euMar⟩,
   ⟨clock 1990 10 28 3 0, 7200, 3600, cetLine, some euOct⟩, ⟨clock 1991 3 31 2 0, 3600, 7200, cetLine, some euMar⟩,
   ⟨clock 1991 10 27 3 0, 7200, 3600, cetLine, some euOct⟩]

/-- How its rules are read. -/
def cetReading : Reading := ⟨fun r => if r.inMonth = "Mar".toList then 3 else 10, fun _ => .last 0, fun _ _ _ => 0⟩

theorem rowsOf_mar : rowsOf cetTransitions (some euMar) =
    [⟨clock 1990 3 25 2 0, 3600, 7200⟩, ⟨clock 1991 3 31 2 0, 3600, 7200⟩] := by decide +kernel

theorem rowsOf_oct : rowsOf cetTransitions (some euOct) = [⟨clock 1990 1 1 0 0, 0, 3600⟩,
    ⟨clock 1990 10 28 3 0, 7200, 3600⟩, ⟨clock 1991 10 27 3 0, 7200, 3600⟩] := by decide +kernel

theorem rowsOf_other {k : Option TzRule} (h1 : k ≠ some euMar) (h2 : k ≠ some euOct) : rowsOf cetTransitions k = [] := by
  unfold rowsOf
  rw [List.map_eq_nil_iff, List.filter_eq_nil_iff]
  intro t ht
  simp only [decide_eq_true_eq]
  have : t.rule = some euMar ∨ t.rule = some euOct := by
    revert t; decide +kernel
  rintro rfl
  rcases this with e | e
  · exact h1 e
  · exact h2 e

theorem cet_days {m d1 d2 : Int} (hm : m = 3 ∧ d1 = 25 ∧ d2 = 31 ∨ m = 10 ∧ d1 = 28 ∧ d2 = 27) (h : Int) :
    DayIn 1990 m (.last 0) 0 (clock 1990 m d1 h 0) ∧ DayIn 1991 m (.last 0) 0 (clock 1991 m d2 h 0) := by
  rcases hm with ⟨rfl, rfl, rfl⟩ | ⟨rfl, rfl, rfl⟩
  · exact ⟨⟨⟨1990, 3, 25⟩, by rw [last_iff (by decide)]; decide +kernel, by decide,
      by show (Date.mk 1990 3 25).Valid; decide, Or.inl ⟨rfl, rfl⟩⟩,
      ⟨1991, 3, 31⟩, by rw [last_iff (by decide)]; decide +kernel, by decide,
      by show (Date.mk 1991 3 31).Valid; decide, Or.inl ⟨rfl, rfl⟩⟩
  · exact ⟨⟨⟨1990, 10, 28⟩, by rw [last_iff (by decide)]; decide +kernel, by decide,
      by show (Date.mk 1990 10 28).Valid; decide, Or.inl ⟨rfl, rfl⟩⟩,
      ⟨1991, 10, 27⟩, by rw [last_iff (by decide)]; decide +kernel, by decide,
      by show (Date.mk 1991 10 27).Valid; decide, Or.inl ⟨rfl, rfl⟩⟩

theorem cet_ok : LineOk cetReading cetLine cetTransitions where
  ends := Or.inl rfl
  runs := by
    intro r first rest h hne hs
    by_cases h1 : r = euMar
    · subst h1
      rw [rowsOf_mar] at h
      obtain ⟨rfl, rfl⟩ := infix_two h hne
      refine ⟨by decide, OnText.last 0 (by decide), ⟨by decide, by decide, Or.inl rfl⟩, Or.inl rfl, ⟨1990, ?_⟩, by decide +kernel⟩
      intro i hi
      have := cet_days (m := 3) (d1 := 25) (d2 := 31) (by simp) 2
      simp only [List.length_cons, List.length_nil] at hi
      interval_cases i
      · exact this.1
      · exact this.2
    · by_cases h2 : r = euOct
      · subst h2
        rw [rowsOf_oct] at h
        rcases infix_three h hne with ⟨rfl, rfl⟩ | ⟨rfl, rfl⟩ | ⟨rfl, rfl⟩
        · exact absurd (hs _ (List.mem_cons_self ..)).1 (by decide)
        · exact absurd (hs _ (List.mem_cons_self ..)).1 (by decide)
        · refine ⟨by decide, OnText.last 0 (by decide), ⟨by decide, by decide, Or.inl rfl⟩, Or.inl rfl, ⟨1990, ?_⟩, by decide +kernel⟩
          intro i hi
          have := cet_days (m := 10) (d1 := 28) (d2 := 27) (by simp) 3
          simp only [List.length_cons, List.length_nil] at hi
          interval_cases i
          · exact this.1
          · exact this.2
      · rw [rowsOf_other (by simpa using h1) (by simpa using h2)] at h
        simp at h
  noRule := by decide +kernel
  settled := by
    intro r _ pre a b post h hs
    by_cases h1 : r = euMar
    · subst h1
      rw [rowsOf_mar] at h
      have : post = [] := by
        have := congrArg List.length h
        simp only [List.length_cons, List.length_nil, List.length_append] at this
        exact List.length_eq_zero_iff.1 (by omega)
      subst this; simp
    · by_cases h2 : r = euOct
      · subst h2
        rw [rowsOf_oct] at h
        cases pre with
        | nil =>
          simp only [List.nil_append, List.cons.injEq] at h
          obtain ⟨rfl, rfl, -⟩ := h
          exact absurd hs.1 (by decide)
        | cons p pre =>
          have : post = [] := by
            have := congrArg List.length h
            simp only [List.length_cons, List.length_nil, List.length_append] at this
            exact List.length_eq_zero_iff.1 (by omega)
          subst this; simp
      · rw [rowsOf_other (by simpa using h1) (by simpa using h2)] at h
        simp at h

/-- The hypotheses of `C88_exact_partial` are met by this zone; the components written for it say that summer time
begins on 27 March 2033. -/
example : ∃ os, cet.vtimezone euRules 1990 1992 = some os ∧
    cet.expand euRules 1990 1992 = some ([] ++ ([(cetLine, cetTransitions)] : Lines).flatMap (·.2)) ∧
    (∀ s ∈ ([(cetLine, cetTransitions)] : Lines),
      s.1.format ≠ "LMT".toList ∧ s.2 ≠ [] ∧ ∀ t ∈ s.2, t.zone = s.1) ∧
    (∀ s ∈ ([(cetLine, cetTransitions)] : Lines), LineOk cetReading s.1 s.2) ∧
    Written os 3600 7200 true (clock 2033 3 27 2 0) := by
  have he : cet.expand euRules 1990 1992 = some cetTransitions := expandBy_eq (by decide +kernel)
  have hw : ((vtLoop none [] cetTransitions).map compressRDates).map
      (fun os => decide (Written os 3600 7200 true (clock 2033 3 27 2 0))) = some true := by decide +kernel
  rw [Option.map_eq_some_iff] at hw
  obtain ⟨os, h1, h2⟩ := hw
  refine ⟨os, ?_, by simpa using he, by decide +kernel, ?_, of_decide_eq_true h2⟩
  · unfold Zone.vtimezone
    rw [he]; exact h1
  · intro s hs
    rw [List.mem_singleton.1 hs]
    exact cet_ok

/-! ## Zones for which it does not -/

/-- A transition of the zone at which no component takes effect. -/
def Loses (zn : Zone) (rules : List Char → Option (List RuleObj)) (minYear maxYear : Int) : Prop :=
  ∃ ts os, zn.expand rules minYear maxYear = some ts ∧ zn.vtimezone rules minYear maxYear = some os ∧
    ∃ tr ∈ ts, tr.zone.format ≠ "LMT".toList ∧ ∀ f u d, ¬ Written os f u d tr.dt

/-- A component takes effect, in the time for which the zone was expanded, where there is no transition. -/
def Invents (zn : Zone) (rules : List Char → Option (List RuleObj)) (minYear maxYear : Int) : Prop :=
  ∃ ts os, zn.expand rules minYear maxYear = some ts ∧ zn.vtimezone rules minYear maxYear = some os ∧
    ∃ f u d t, Written os f u d t ∧ (∀ tr ∈ ts, tr.dt ≠ t) ∧ ∃ tr ∈ ts, clockSec t < clockSec tr.dt

/-- The times at which components take effect. -/
def Silent (os : List Observance) (t : DateTime) : Prop := ∀ o ∈ os, ¬ Onset o t

instance (os : List Observance) (t : DateTime) : Decidable (Silent os t) := by unfold Silent; infer_instance

theorem loses_of {zn : Zone} {rules : List Char → Option (List RuleObj)} {minYear maxYear : Int} (t : DateTime)
    (h : ((expandBy zn rules minYear maxYear).bind fun ts => ((vtLoop none [] ts).map compressRDates).map fun os =>
      decide ((∃ tr ∈ ts, tr.zone.format ≠ "LMT".toList ∧ tr.dt = t) ∧ Silent os t)) = some true) :
    Loses zn rules minYear maxYear := by
  rw [Option.bind_eq_some_iff] at h
  obtain ⟨ts, h1, h2⟩ := h
  rw [Option.map_eq_some_iff] at h2
  obtain ⟨os, h3, h4⟩ := h2
  obtain ⟨⟨tr, htr, hf, rfl⟩, hs⟩ := of_decide_eq_true h4
  refine ⟨ts, os, expandBy_eq h1, ?_, tr, htr, hf, ?_⟩
  · unfold Zone.vtimezone
    rw [expandBy_eq h1]; exact h3
  · rintro f u d ⟨o, ho, -, -, -, hon⟩
    exact hs o ho hon

theorem invents_of {zn : Zone} {rules : List Char → Option (List RuleObj)} {minYear maxYear : Int} (f u : Int) (d : Bool)
    (t : DateTime)
    (h : ((expandBy zn rules minYear maxYear).bind fun ts => ((vtLoop none [] ts).map compressRDates).map fun os =>
      decide (Written os f u d t ∧ (∀ tr ∈ ts, tr.dt ≠ t) ∧ ∃ tr ∈ ts, clockSec t < clockSec tr.dt)) = some true) :
    Invents zn rules minYear maxYear := by
  rw [Option.bind_eq_some_iff] at h
  obtain ⟨ts, h1, h2⟩ := h
  rw [Option.map_eq_some_iff] at h2
  obtain ⟨os, h3, h4⟩ := h2
  refine ⟨ts, os, expandBy_eq h1, ?_, f, u, d, t, of_decide_eq_true h4⟩
  unfold Zone.vtimezone
  rw [expandBy_eq h1]; exact h3

/-- C88 fails where a line begins with the change that a rule makes later in the year: it is taken for the first change
by that rule, and as 1 January 1990 is a Monday, winter time is written to begin on Mondays. -/
theorem C88_fails_start :
    let zn := zoneOf ["0:00 - LMT 1980", "2:00 1:00 A 1990", "2:00 R E%sT"]
    Loses zn euRules 1989 1992 ∧ Invents zn euRules 1989 1992 :=
  ⟨loses_of (clock 1990 10 28 4 0) (by decide +kernel), invents_of 10800 7200 false (clock 1990 10 29 0 0) (by decide +kernel)⟩

/-- C88 fails where a line has two transitions without a rule, the second one a change of the clock back that is
followed by another before local time has caught up: the second is not written. -/
theorem C88_fails_none : Loses (zoneOf ["0:00 - LMT 1980", "0:00 R X"])
    (ruleSet ["Rule R 1990 only - Mar 1 0:00 2:00 S", "Rule R 1990 only - Oct 1 1:00u 0 -",
      "Rule R 1990 only - Oct 1 1:30u 1:00 -"]) 1980 1991 :=
  loses_of (clock 1990 10 1 3 0) (by decide +kernel)

/-- C88 fails where a rule that goes on for ever first follows one offset and then another: the first component is
written without an end. -/
theorem C88_fails_until : Invents (zoneOf ["0:00 - LMT 1989", "0:00 R X"])
    (ruleSet ["Rule R 1990 max - Mar lastSun 1:00u 1:00 S", "Rule R 1990 1991 - Oct lastSun 1:00u 0 -",
      "Rule R 1992 max - Oct lastSun 1:00u 0:30 -"]) 1980 1995 :=
  invents_of 0 3600 true (clock 1993 3 28 1 0) (by decide +kernel)

/-- C88 fails for the name where a line begins without a rule: `%s` is then an S, also for standard time that is not
daylight saving (`CET` should be the name). -/
theorem C88_fails_name : ∃ os, (zoneOf ["0:00 - LMT 1990", "1:00 R CE%sT"]).vtimezone
      (ruleSet ["Rule R 1991 max - Mar lastSun 1:00u 1:00 S", "Rule R 1991 max - Oct lastSun 1:00u 0 -"]) 1990 1993 = some os ∧
    ∃ o ∈ os, o.daylight = false ∧ o.offsetTo = 3600 ∧ o.name = "CEST".toList := by
  have hw : ((expandBy (zoneOf ["0:00 - LMT 1990", "1:00 R CE%sT"])
      (ruleSet ["Rule R 1991 max - Mar lastSun 1:00u 1:00 S", "Rule R 1991 max - Oct lastSun 1:00u 0 -"]) 1990 1993).bind
      fun ts => ((vtLoop none [] ts).map compressRDates).map fun os =>
        decide (∃ o ∈ os, o.daylight = false ∧ o.offsetTo = 3600 ∧ o.name = "CEST".toList)) = some true := by
    decide +kernel
  rw [Option.bind_eq_some_iff] at hw
  obtain ⟨ts, h1, h2⟩ := hw
  rw [Option.map_eq_some_iff] at h2
  obtain ⟨os, h3, h4⟩ := h2
  refine ⟨os, ?_, of_decide_eq_true h4⟩
  unfold Zone.vtimezone
  rw [expandBy_eq h1]; exact h3

end Zonal
end PyCal
