import Verif.Spec.PropertyJSON
import Verif.Model.XCal

/-!
# RFC 6321: xCal, the XML form of iCalendar
-/

namespace Spec.XCal
open PyCal PropText ValueType PyCal.XCal Spec.Recur

/-- An element that has only a text. -/
def Leaf (tag : String) (s : List Char) (x : Xml) : Prop := x = .elem tag.toList (.str s) []

/-! ## Section 3.3: values -/

/-- Four digits. -/
def four (n : Nat) : List Char := PropJSON.two (n / 100) ++ PropJSON.two (n % 100)

/-- A date or a date-time, as "2026-01-31", "2026-01-31T12:00:00" or "2026-01-31T12:00:00Z". -/
def DateText (s : List Char) (t : DateTime) : Prop :=
  ∃ y mo d h mi se : Nat, t.year = y ∧ t.month = mo ∧ t.day = d ∧ t.hours = h ∧ t.minutes = mi ∧
    t.seconds = se ∧
    s = four y ++ '-' :: (PropJSON.two mo ++ '-' :: (PropJSON.two d ++
      if t.dateOnly then [] else 'T' :: (PropJSON.two h ++ ':' :: (PropJSON.two mi ++ ':' ::
        (PropJSON.two se ++ if t.utc then ['Z'] else [])))))

/-- The element for a date or a date-time. -/
inductive DateForm : DateTime → Xml → Prop
  | date {t s x} : t.dateOnly = true → DateText s t → Leaf "date" s x → DateForm t x
  | dateTime {t s x} : t.dateOnly = false → DateText s t → Leaf "date-time" s x → DateForm t x

/-- The tag of a numeric BYxxx part. -/
def byTag : By → String
  | .second => "bysecond"
  | .minute => "byminute"
  | .hour => "byhour"
  | .monthDay => "bymonthday"
  | .yearDay => "byyearday"
  | .weekNo => "byweekno"
  | .month => "bymonth"
  | .setPos => "bysetpos"

/-- The elements for a part of a rule: one for each value. -/
inductive PartForm : Part → List Xml → Prop
  | freq {f s x} : FreqWord s f → Leaf "freq" s x → PartForm (.freq f) [x]
  | upto {t x} : DateForm t x → PartForm (.upto t) [.elem "until".toList .none [x]]
  | count {n s x} : Number s n → 1 ≤ n → Leaf "count" s x → PartForm (.count n) [x]
  | interval {n s x} : Number s n → 1 ≤ n → Leaf "interval" s x → PartForm (.interval n) [x]
  | num {k vals xs} : (∀ v ∈ vals, k.Allows v) →
      List.Forall₂ (fun v x => ∃ s, Number s v ∧ Leaf (byTag k) s x) vals xs → PartForm (.num k vals) xs
  | byDay {vals xs} : List.Forall₂ (fun v x => ∃ s, DayNum s v ∧ Leaf "byday" s x) vals xs →
      PartForm (.byDay vals) xs
  | wkst {d s x} : DayWord s d → Leaf "wkst" s x → PartForm (.wkst d) [x]

/-- The place of a part in the grammar of section 3.3.10. -/
def place : Part → Nat
  | .freq _ => 0
  | .upto _ => 1
  | .count _ => 1
  | .interval _ => 2
  | .num .second _ => 3
  | .num .minute _ => 4
  | .num .hour _ => 5
  | .byDay _ => 6
  | .num .monthDay _ => 7
  | .num .yearDay _ => 8
  | .num .weekNo _ => 9
  | .num .month _ => 10
  | .num .setPos _ => 11
  | .wkst _ => 12

/-- The elements for a rule: those of its parts, each part at most once, in the order of the grammar. -/
def RecurForm (r : Rule) (xs : List Xml) : Prop :=
  ∃ ps xss, List.Forall₂ PartForm ps xss ∧ xs = xss.flatten ∧
    (ps.map place).Pairwise (· < ·) ∧ rule ps = r

/-- The types that are one text. -/
inductive TextType : VType → String → Prop
  | text : TextType .text "text"
  | uri : TextType .uri "uri"
  | binary : TextType .binary "binary"
  | calAddress : TextType .calAddress "cal-address"
  | unknown : TextType .unknown "unknown"

/-- The elements inside a property for a value. -/
inductive ValueForm : XVal → List Xml → Prop
  | plain {t s n x} : TextType t n → Leaf n s x → ValueForm (.plain t s) [x]
  | int {n s x} : Number s n → Leaf "integer" s x → ValueForm (.int n) [x]
  | float {s x} : Leaf "float" s x → ValueForm (.float s) [x]
  | offset {n s x} : PropJSON.OffsetText s n → Leaf "utc-offset" s x → ValueForm (.offset n) [x]
  | recur {r xs} : RecurForm r xs → ValueForm (.recur r) [.elem "recur".toList .none xs]
  | date {t x} : DateForm t x → ValueForm (.date t) [x]
  | duration {d x} : Leaf "duration" d.generate x → ValueForm (.duration d) [x]
  | periodEnd {p s e b x y} : p.stop = some e → p.useDuration = false → DateText s p.start → DateText b e →
      Leaf "start" s x → Leaf "end" b y → ValueForm (.period p) [.elem "period".toList .none [x, y]]
  | periodDuration {p s d x y} : p.duration = some d → p.useDuration = true → DateText s p.start →
      Leaf "start" s x → Leaf "duration" d.generate y →
      ValueForm (.period p) [.elem "period".toList .none [x, y]]
  | status2 {a b x y} : Leaf "code" a x → Leaf "description" b y → ValueForm (.status [a, b]) [x, y]
  | status3 {a b c x y z} : Leaf "code" a x → Leaf "description" b y → Leaf "data" c z →
      ValueForm (.status [a, b, c]) [x, y, z]
  | geo {a b x y} : Leaf "latitude" a x → Leaf "longitude" b y → ValueForm (.geo a b) [x, y]

/-! ## Section 3.5: parameters -/

/-- The parameters whose values are not texts, and the tag of their values. -/
def otherParams : List (List Char × String) :=
  [("ALTREP".toList, "uri"), ("DIR".toList, "uri"), ("DELEGATED-FROM".toList, "cal-address"),
   ("DELEGATED-TO".toList, "cal-address"), ("MEMBER".toList, "cal-address"),
   ("SENT-BY".toList, "cal-address"), ("RSVP".toList, "boolean")]

/-- The parameters whose values are texts. -/
def textParams : List (List Char) :=
  ["CN".toList, "CUTYPE".toList, "FMTTYPE".toList, "FBTYPE".toList, "LANGUAGE".toList, "PARTSTAT".toList,
   "RANGE".toList, "RELATED".toList, "RELTYPE".toList, "ROLE".toList, "TZID".toList, "ENCODING".toList]

/-- The tag of the values of a parameter; of those that are not in RFC 5545 it is "unknown". -/
def paramType (key : List Char) : String :=
  if key ∈ textParams then "text" else (otherParams.lookup key).getD "unknown"

/-- The element for a parameter: one element inside for each value. -/
def ParamForm (p : Param) (x : Xml) : Prop :=
  ∃ xs, x = .elem (p.name.map Char.toLower) .none xs ∧
    List.Forall₂ (fun v y => Leaf (paramType (upper p.name)) v y) p.values xs

/-- The element for a property: its name in small letters; the parameters other than VALUE, in any order,
in an element of their own (which may be left out if it is empty); the values. -/
def PropertyForm (p : XProp) (x : Xml) : Prop :=
  ∃ qs ys hd vss, (qs.Perm (p.params.filter fun q => decide (upper q.name ≠ "VALUE".toList))) ∧
    List.Forall₂ ParamForm qs ys ∧
    (hd = [.elem "parameters".toList .none ys] ∨ hd = [] ∧ ys = []) ∧
    List.Forall₂ ValueForm p.values vss ∧
    x = .elem (p.name.map Char.toLower) .none (hd ++ vss.flatten)

/-! ## Section 3.2 and 3.4: components -/

open Cont

/-- The element for a component: its type in small letters; the properties and the components in elements
of their own, the latter left out if there are none. -/
inductive TreeForm (W : CProp → Xml → Prop) : Component → Xml → Prop
  | mk {t ps cs qs xs l subs hd} (hq : qs.Perm ps) (hx : List.Forall₂ W qs xs) (hl : l.Perm cs)
      (hs : List.Forall₂ (TreeForm W) l subs)
      (hh : hd = if cs = [] then [] else [.elem "components".toList .none subs]) :
      TreeForm W (.mk t ps cs)
        (.elem (t.map Char.toLower) .none (.elem "properties".toList .none xs :: hd))

end Spec.XCal
