import Verif.Model.ValueCheck
import Verif.Props.C69_C71_ZonalRules
import Verif.Props.C20_C21_Escaping

/-!
# C107: a value that is not allowed is reported, and no other
-/

namespace PyCal
open ValueType ValueCheck
open PropJSON (lower)

namespace VC107

/-- The properties whose times must be in UTC. -/
def utcNames : List String := ["COMPLETED", "CREATED", "DTSTAMP", "LAST-MODIFIED", "ACKNOWLEDGED"]

/-- The properties that have numbers, with the least and, if there is one, the greatest. -/
def ranges : List (String × Int × Option Int) :=
  [("PERCENT-COMPLETE", 0, some 100), ("PRIORITY", 0, some 9), ("REPEAT", 0, none), ("SEQUENCE", 0, none)]

theorem slice_last {data : List Char} {i j : Nat} (hij : i < data.length) (hj : data.length ≤ j) (c : Char)
    (hc : data.getLast? = some c) : c ∈ slice data i j := by
  unfold slice
  rw [List.take_of_length_le (by rw [List.length_drop]; omega)]
  have : (data.drop i).getLast? = some c := by
    rw [List.getLast?_drop, if_neg (by omega), hc]
  exact List.mem_of_getLast? this

theorem pyInt_noZ {s : List Char} {n : Int} (h : pyInt s = some n) : 'Z' ∉ s := fun hz => by
  rw [Zonal.pyInt_bad hz (by decide) (by decide) (by decide) (by decide)] at h
  cases h

theorem slice_empty {data : List Char} {i j : Nat} (h : data.length ≤ i) : slice data i j = [] := by
  unfold slice
  rw [List.drop_eq_nil_of_le h, List.take_nil]

/-- A date-time that can be read is in UTC just if its text ends with Z. -/
theorem parse_utc {sr : Bool} {data : List Char} {t : DateTime} (h : DateTime.parseText sr data = some t) :
    t.utc = true ↔ data.getLast? = some 'Z' := by
  unfold DateTime.parseText DateTime.parse at h
  split at h
  · cases h
  · next d index hd =>
    have hd' : d.utc = false ∧ index = 8 ∧ ∃ n, pyInt (slice data 6 8) = some n := by
      unfold DateTime.parseDate DateTime.skipSep at hd
      simp only [Bool.false_eq_true, if_false, Option.bind_eq_bind, Option.bind_some, Option.bind_eq_some_iff] at hd
      obtain ⟨y, -, m, -, dd, h3, hd⟩ := hd
      split at hd
      · cases hd
      · split at hd
        · cases hd
        · cases hd
          exact ⟨rfl, rfl, dd, h3⟩
    obtain ⟨hu, rfl, n, hn⟩ := hd'
    split at h
    · next hl =>
      cases h
      simp only [hu, Bool.false_eq_true, false_iff]
      intro hz
      refine pyInt_noZ hn (slice_last ?_ (List.getElem?_eq_none_iff.1 hl) _ hz)
      by_contra hc
      rw [slice_empty (by omega)] at hn
      cases hn
    · next c hc =>
      split at h
      · cases h
      · split at h
        · cases h
        · next t' index' ht =>
          have ht' : index' = 15 ∧ ∃ n, pyInt (slice data 13 15) = some n := by
            unfold DateTime.parseTime DateTime.skipSep at ht
            simp only [Bool.false_eq_true, if_false, Option.bind_eq_bind, Option.bind_some, Option.bind_eq_some_iff,
              Option.some.injEq, Prod.mk.injEq] at ht
            obtain ⟨y, -, m, -, s, h3, -, h4⟩ := ht
            exact ⟨h4.symm, s, h3⟩
          obtain ⟨rfl, n', hn'⟩ := ht'
          simp only [Bool.false_eq_true, if_false] at h
          split at h
          · next hlt =>
            split at h
            · cases h
            · next hz =>
              split at h
              · cases h
              · next hle =>
                cases h
                simp only [true_iff]
                rw [not_not] at hz
                rw [List.getLast?_eq_getElem?, show data.length - 1 = 15 by omega]
                exact hz
          · next hlt =>
            cases h
            simp only [Bool.false_eq_true, false_iff]
            intro hz
            refine pyInt_noZ hn' (slice_last ?_ (by omega) _ hz)
            by_contra hc
            rw [slice_empty (by omega)] at hn'
            cases hn'

end VC107
open VC107

/-- A time that must be in UTC passes just if its text ends with Z. -/
theorem C107_utc (colon bad : PMode) (fix sr : Bool) (name : String) (hn : name ∈ utcNames) (data : List Char) (v : PropValue)
    (h : readValue colon bad fix sr name none none data = some v) :
    passes name v = true ↔ data.getLast? = some 'Z' := by
  have ht : determine ical name none = .dateTime := by
    simp only [utcNames, List.mem_cons, List.not_mem_nil, or_false] at hn
    rcases hn with rfl | rfl | rfl | rfl | rfl <;> decide +kernel
  have hp : ∀ t, passes name (.dateTime t) = t.utc := by
    simp only [utcNames, List.mem_cons, List.not_mem_nil, or_false] at hn
    rcases hn with rfl | rfl | rfl | rfl | rfl <;> intro t <;> rfl
  unfold ValueCheck.readValue at h
  rw [ht] at h
  obtain ⟨t, h1, rfl⟩ := Option.map_eq_some_iff.1 h
  rw [hp]
  exact parse_utc h1

/-- A time with a TZID does not pass, nor a value that is no time. -/
theorem C107_utc_tzid (colon bad : PMode) (fix sr : Bool) (name : String) (hn : name ∈ utcNames) (z : TzId)
    (data : List Char) (v : PropValue) (h : readValue colon bad fix sr name none (some z) data = some v) :
    passes name v = false := by
  have ht : determine ical name none = .dateTime := by
    simp only [utcNames, List.mem_cons, List.not_mem_nil, or_false] at hn
    rcases hn with rfl | rfl | rfl | rfl | rfl <;> decide +kernel
  have hp : ∀ t, passes name (.dateTime t) = t.utc := by
    simp only [utcNames, List.mem_cons, List.not_mem_nil, or_false] at hn
    rcases hn with rfl | rfl | rfl | rfl | rfl <;> intro t <;> rfl
  unfold ValueCheck.readValue at h
  rw [ht] at h
  obtain ⟨t, h1, rfl⟩ := Option.map_eq_some_iff.1 h
  rw [hp]
  rfl

/-- A number passes just if it is in the range of the property; every number that is written can be read. -/
theorem C107_number (colon bad : PMode) (fix sr : Bool) (name : String) (low : Int) (high : Option Int)
    (hn : (name, low, high) ∈ ranges) (tzid : Option TzId) :
    (∀ n : Int, readValue colon bad fix sr name none tzid (decInt n) = some (.integer n)) ∧
    ∀ (data : List Char) (v : PropValue), readValue colon bad fix sr name none tzid data = some v →
      ∃ n, pyInt data = some n ∧ (passes name v = true ↔ low ≤ n ∧ ∀ m, high = some m → n ≤ m) := by
  have ht : determine ical name none = .integer := by
    simp only [ranges, List.mem_cons, List.not_mem_nil, or_false, Prod.mk.injEq] at hn
    rcases hn with ⟨rfl, -⟩ | ⟨rfl, -⟩ | ⟨rfl, -⟩ | ⟨rfl, -⟩ <;> decide +kernel
  have hp : ∀ n, passes name (.integer n) = true ↔ low ≤ n ∧ ∀ m, high = some m → n ≤ m := by
    simp only [ranges, List.mem_cons, List.not_mem_nil, or_false, Prod.mk.injEq] at hn
    rcases hn with ⟨rfl, rfl, rfl⟩ | ⟨rfl, rfl, rfl⟩ | ⟨rfl, rfl, rfl⟩ | ⟨rfl, rfl, rfl⟩ <;> intro n
    · show numericRange 0 100 (.integer n) = true ↔ _
      simp [numericRange]
    · show numericRange 0 9 (.integer n) = true ↔ _
      simp [numericRange]
    · show positiveIntegerOrZero (.integer n) = true ↔ _
      simp [positiveIntegerOrZero]
    · show positiveIntegerOrZero (.integer n) = true ↔ _
      simp [positiveIntegerOrZero]
  unfold ValueCheck.readValue
  rw [ht]
  refine ⟨fun n => ?_, fun data v h => ?_⟩
  · have : pyInt (decInt n) = some n := by
      unfold decInt
      split
      · rw [Zonal.pyInt_minus]
        congr 1
        omega
      · rw [Zonal.pyInt_decNat]
        congr 1
        omega
    simp [this]
  · obtain ⟨n, h1, rfl⟩ := Option.map_eq_some_iff.1 h
    exact ⟨n, h1, hp n⟩

namespace VC107

/-- What is not a small letter comes from itself only. -/
theorem of_toLower {c d : Char} (hd : d.toNat < 97) (h : c.toLower = d) : c = d := by
  unfold Char.toLower at h
  split at h
  · next hc =>
    exfalso
    have h1 := hc.1
    have h2 := hc.2
    rw [← h] at hd
    rw [ge_iff_le, UInt32.le_iff_toNat_le] at h1
    rw [UInt32.le_iff_toNat_le] at h2
    have e : (c.val + ('a'.val - 'A'.val)).toNat = c.val.toNat + 32 := by
      rw [UInt32.toNat_add]
      have : ('a'.val - 'A'.val).toNat = 32 := by decide
      rw [this]
      have : 'Z'.val.toNat = 90 := by decide
      omega
    have : 'A'.val.toNat = 65 := by decide
    simp only [Char.toNat] at hd
    rw [e] at hd
    omega
  · exact h

theorem lower_version (s : List Char) : lower s = lower "2.0".toList ↔ s = "2.0".toList := by
  constructor
  · intro h
    rw [show lower "2.0".toList = ['2', '.', '0'] by decide +kernel] at h
    unfold lower at h
    obtain ⟨a, s, rfl, ha, h⟩ := List.map_eq_cons_iff.1 h
    obtain ⟨b, s, rfl, hb, h⟩ := List.map_eq_cons_iff.1 h
    obtain ⟨c, s, rfl, hc, h⟩ := List.map_eq_cons_iff.1 h
    rw [List.map_eq_nil_iff.1 h, of_toLower (by decide) ha, of_toLower (by decide) hb,
      of_toLower (by decide) hc]
    rfl
  · rintro rfl; rfl

end VC107

/-- VERSION passes just if its text is 2.0, CALSCALE just if its text is GREGORIAN in whatever case. -/
theorem C107_text (colon bad : PMode) (fix sr : Bool) (tzid : Option TzId) (s : List Char) :
    (∃ v, readValue colon bad fix sr "VERSION" none tzid (escapeText s) = some v ∧
      (passes "VERSION" v = true ↔ s = "2.0".toList)) ∧
    ∃ v, readValue colon bad fix sr "CALSCALE" none tzid (escapeText s) = some v ∧
      (passes "CALSCALE" v = true ↔ lower s = "gregorian".toList) := by
  have h1 : determine ical "VERSION" none = .text := by decide +kernel
  have h2 : determine ical "CALSCALE" none = .text := by decide +kernel
  unfold ValueCheck.readValue
  rw [h1, h2]
  simp only [C20_decode_escape, Option.map_some, Option.some.injEq, exists_eq_left']
  refine ⟨?_, ?_⟩
  · show decide (lower s = lower "2.0".toList) = true ↔ _
    rw [decide_eq_true_iff, lower_version]
  · show decide (lower s = lower "GREGORIAN".toList) = true ↔ _
    rw [decide_eq_true_iff, show lower "GREGORIAN".toList = "gregorian".toList by decide +kernel]

/-- All other properties pass. -/
theorem C107_others (name : String) (v : PropValue) (h1 : name ∉ utcNames) (h2 : name ∉ ranges.map (·.1)) (h3 : name ≠ "VERSION")
    (h4 : name ≠ "CALSCALE") : passes name v = true := by
  have : table.lookup name = none := by
    rw [List.lookup_eq_none_iff]
    intro p hp
    simp only [utcNames, ranges, List.map_cons, List.map_nil, List.mem_cons, List.not_mem_nil, or_false, not_or] at h1 h2
    simp only [table, List.mem_cons, List.not_mem_nil, or_false] at hp
    rcases hp with rfl | rfl | rfl | rfl | rfl | rfl | rfl | rfl | rfl | rfl | rfl <;> simp [*]
  unfold passes
  rw [this]

/-- A value whose VALUE parameter says that it is of another kind than the check is for does not pass: for a time neither
a date nor a time, for a number no number, for the two texts a number, a time or another value without a plain text. -/
theorem C107_kind (colon bad : PMode) (fix sr : Bool) (name value : String) (tzid : Option TzId) (data : List Char)
    (v : PropValue) (hv : value ∈ ical.byName.map (·.1))
    (hk : name ∈ utcNames ∧ value ∉ ["DATE", "DATE-TIME"] ∨ name ∈ ranges.map (·.1) ∧ value ≠ "INTEGER" ∨
      name ∈ ["VERSION", "CALSCALE"] ∧ value ∉ ["TEXT", "URI", "CAL-ADDRESS", "BINARY", "BOOLEAN", "TIME"])
    (h : readValue colon bad fix sr name (some value) tzid data = some v) : passes name v = false := by
  have hs : ical.special.lookup name = none := by
    simp only [utcNames, ranges, List.map_cons, List.map_nil, List.mem_cons, List.not_mem_nil, or_false] at hk
    rcases hk with ⟨h | h | h | h | h, -⟩ | ⟨h | h | h | h, -⟩ | ⟨h | h, -⟩ <;> subst h <;> rfl
  have hl : ∃ t, ical.byName.lookup value = some t ∧
      ∀ v, readValue colon bad fix sr name (some value) tzid data = some v →
        (∃ s, v = .plain s ∧ value ∈ ["TEXT", "URI", "CAL-ADDRESS", "BINARY", "BOOLEAN", "TIME"]) ∨
        (∃ n, v = .integer n ∧ value = "INTEGER") ∨ (∃ t, v = .dateTime t ∧ value ∈ ["DATE", "DATE-TIME"]) ∨ v = .other := by
    have ht : ∀ t, ical.byName.lookup value = some t → determine ical name (some value) = t := by
      intro t h
      unfold determine Tables.asked
      simp only [hs, h, Option.getD_some]
    simp only [ical, List.map_cons, List.map_nil, List.mem_cons, List.not_mem_nil, or_false] at hv
    have key : ∀ t, ical.byName.lookup value = some t → ∀ v, readValue colon bad fix sr name (some value) tzid data = some v →
        (match t with
          | .text | .uri | .unknown | .calAddress | .binary | .boolean | .time | .vcard => ∃ s, v = .plain s
          | .integer => ∃ n, v = .integer n
          | .date | .dateTime => ∃ t, v = .dateTime t
          | _ => v = .other) := by
      intro t h v hv
      unfold ValueCheck.readValue at hv
      rw [ht t h] at hv
      cases t <;> simp only [Option.map_eq_some_iff, Option.some.injEq] at hv <;>
        first
          | (obtain ⟨a, -, e⟩ := hv; exact ⟨_, e.symm⟩)
          | exact ⟨_, hv.symm⟩
          | exact hv.symm
    rcases hv with e | e | e | e | e | e | e | e | e | e | e | e | e | e <;> subst e <;>
      refine ⟨_, rfl, fun v h => ?_⟩ <;> have := key _ rfl v h <;> simp only at this <;>
      first
        | (obtain ⟨s, e⟩ := this; exact .inl ⟨s, e, by decide⟩)
        | (obtain ⟨s, e⟩ := this; exact .inr (.inl ⟨s, e, by decide⟩))
        | (obtain ⟨s, e⟩ := this; exact .inr (.inr (.inl ⟨s, e, by decide⟩)))
        | exact .inr (.inr (.inr this))
  obtain ⟨-, -, hl⟩ := hl
  have hl := hl v h
  simp only [utcNames, ranges, List.map_cons, List.map_nil, List.mem_cons (a := name), List.not_mem_nil, or_false] at hk
  rcases hl with ⟨s, rfl, hm⟩ | ⟨s, rfl, hm⟩ | ⟨s, rfl, hm⟩ | rfl <;>
    rcases hk with ⟨h | h | h | h | h, hn⟩ | ⟨h | h | h | h, hn⟩ | ⟨h | h, hn⟩ <;> subst h <;>
    first | rfl | exact absurd hm hn

/-- The hypotheses can be met. -/
example : ∃ v, readValue .fix .raise true false "DTSTAMP" (some "INTEGER") none "5".toList = some v :=
  ⟨.integer 5, by decide +kernel⟩

/-- C107 fails: a property with a VALUE that it must not have may pass: a DTSTAMP that is said to be a DATE, a VERSION that is
said to be a URI; and one with a value that it must not have passes if there is no check for it: an ACTION that is a number. -/
theorem C107_fails_type (colon bad : PMode) :
    (∃ v, readValue colon bad false true "DTSTAMP" (some "DATE") none "20260101T000000Z".toList = some v ∧
      passes "DTSTAMP" v = true) ∧
    (∃ v, readValue colon bad false true "VERSION" (some "URI") none "2.0".toList = some v ∧ passes "VERSION" v = true) ∧
    ∃ v, readValue colon bad false true "ACTION" (some "INTEGER") none "1".toList = some v ∧ passes "ACTION" v = true := by
  refine ⟨⟨.dateTime ⟨2026, 1, 1, 0, 0, 0, false, true, none⟩, ?_, by decide +kernel⟩, ⟨.plain "2.0".toList, ?_, by decide +kernel⟩,
    .integer 1, ?_, by decide +kernel⟩ <;> cases colon <;> cases bad <;> decide +kernel

namespace VC107

theorem mem_controls (c : Nat) : c ∈ controls ↔ c < 32 ∧ c ≠ 9 ∧ c ≠ 10 ∧ c ≠ 13 := by
  constructor
  · intro h
    simp only [controls, List.mem_cons, List.not_mem_nil, or_false] at h
    omega
  · rintro ⟨h, h1, h2, h3⟩
    simp only [controls, List.mem_cons, List.not_mem_nil, or_false]
    omega

theorem mem_loop (c i : Nat) : ∀ (data : List Nat) (n : Nat),
    (c, i) ∈ controlLoop n data ↔ n ≤ i ∧ data[i - n]? = some c ∧ c ∈ controls
  | [], n => by simp [controlLoop]
  | d :: data, n => by
    have ih := mem_loop c i data (n + 1)
    have e : n ≤ i ∧ (d :: data)[i - n]? = some c ∧ c ∈ controls ↔
        (i = n ∧ d = c ∧ c ∈ controls) ∨ (n + 1 ≤ i ∧ data[i - (n + 1)]? = some c ∧ c ∈ controls) := by
      by_cases h : i = n
      · subst h
        simp
      · by_cases h' : n ≤ i
        · rw [show i - n = (i - (n + 1)) + 1 by omega, List.getElem?_cons_succ]
          have : n + 1 ≤ i := by omega
          simp [h, h', this]
        · have : ¬ n + 1 ≤ i := by omega
          simp [h, h', this]
    rw [e, ← ih, controlLoop]
    split
    · next hd =>
      simp only [List.mem_cons, Prod.mk.injEq]
      constructor
      · rintro (⟨rfl, rfl⟩ | h)
        · exact .inl ⟨rfl, rfl, hd⟩
        · exact .inr h
      · rintro (⟨rfl, rfl, -⟩ | h)
        · exact .inl ⟨rfl, rfl⟩
        · exact .inr h
    · next hd =>
      constructor
      · exact .inr
      · rintro (⟨rfl, rfl, h⟩ | h)
        · exact absurd h hd
        · exact h

/-- The quick test before the loop changes nothing. -/
theorem check_eq (data : List Nat) : controlCheck data = controlLoop 0 data := by
  unfold controlCheck
  split
  · rfl
  · next h =>
    rw [not_not] at h
    have : ∀ (data : List Nat) (n : Nat), (data.filter (· ∉ controls)).length = data.length → controlLoop n data = [] := by
      intro data
      induction data with
      | nil => intro n _; rfl
      | cons d data ih =>
        intro n h
        have hl := List.length_filter_le (fun x => decide (x ∉ controls)) data
        by_cases hd : d ∈ controls
        · simp only [List.filter_cons, hd, not_true_eq_false, decide_false, Bool.false_eq_true, if_false, List.length_cons] at h
          omega
        · rw [controlLoop, if_neg hd]
          refine ih _ ?_
          simp only [List.filter_cons, hd, not_false_eq_true, decide_true, if_true, List.length_cons] at h
          omega
    exact (this data 0 h).symm

end VC107

/-- The control character check finds exactly the control characters other than tabs and line ends, with their positions. -/
theorem C107_control (data : List Nat) (c i : Nat) :
    (c, i) ∈ controlCheck data ↔ data[i]? = some c ∧ c < 32 ∧ c ≠ 9 ∧ c ≠ 10 ∧ c ≠ 13 := by
  rw [check_eq, mem_loop, mem_controls]
  simp

/-- The positions are told in order, each once. -/
theorem C107_control_order (data : List Nat) : ((controlCheck data).map (·.2)).Pairwise (· < ·) := by
  rw [check_eq]
  have : ∀ (data : List Nat) (n : Nat), ((controlLoop n data).map (·.2)).Pairwise (· < ·) := by
    intro data
    induction data with
    | nil => simp [controlLoop]
    | cons d data ih =>
      intro n
      rw [controlLoop]
      split
      · rw [List.map_cons, List.pairwise_cons]
        refine ⟨fun i hi => ?_, ih _⟩
        obtain ⟨⟨c, j⟩, hx, rfl⟩ := List.mem_map.1 hi
        have := ((mem_loop c j data (n + 1)).1 hx).1
        simp only
        omega
      · exact ih _
  exact this data 0

end PyCal
