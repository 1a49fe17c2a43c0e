import Verif.Model.Container

/-!
# Validation

`ComponentBase.validate` (componentbase.py), `ComponentRecur.validate` and the validation of the component
classes (icalendar/*.py).
-/

namespace PyCal
namespace Valid
open Cont PropText

/-- The class attributes with the names of properties, componentbase.py:28-33 and, for the special check of
STATUS, componentrecur.py:30-32 (empty for a class that is no `ComponentRecur`). -/
structure Table where
  one : List (List Char) := []
  fixEmpty : List (List Char) := []
  zeroOne : List (List Char) := []
  oneMore : List (List Char) := []
  statusFix : List (List Char) := []
deriving DecidableEq, Repr

/-- The classes that check more: `VEvent`, `VToDo`, `Available` and `VAvailability`, `VTimezone`,
`VAlarm`. -/
inductive Kind where
  | other
  | event
  | todo
  | avail
  | timezone
  | alarm
deriving DecidableEq, Repr

/-- The texts of problems. -/
inductive What where
  | missingOrMany
  | manyRequired
  | missing
  | many
  | manyStatus
  | value
  | types
  | both (other : List Char)
  | needs (other : List Char)
  | together (other : List Char)
  | noComponent
deriving DecidableEq, Repr

/-- A problem: the component's type, the text and the name of the property. -/
structure Problem where
  type : List Char
  what : What
  name : List Char
deriving DecidableEq, Repr

/-- Names, written as one text. -/
def names (s : String) : List (List Char) := s.toList.splitOn ' '

/-- The classes of icalendar/*.py with their tables; for `VAlarm` those of its actions. -/
def classes : List (Kind × Table) := [
  -- calendar.py:58-66
  (.other, {
      one := names "PRODID VERSION"
      zeroOne := names "CALSCALE METHOD" }),
  -- vevent.py:27-50
  (.event, {
      one := names "DTSTAMP UID"
      zeroOne := names "CLASS CREATED DESCRIPTION GEO LAST-MODIFIED LOCATION ORGANIZER PRIORITY SEQUENCE \
      SUMMARY TRANSP URL RECURRENCE-ID RRULE DTEND DURATION"
      statusFix := names "STATUS" }),
  -- vtodo.py:88-113
  (.todo, {
      one := names "DTSTAMP UID"
      zeroOne := names "CLASS COMPLETED CREATED DESCRIPTION DTSTART GEO LAST-MODIFIED LOCATION ORGANIZER \
      PERCENT-COMPLETE PRIORITY RECURRENCE-ID SEQUENCE SUMMARY URL RRULE DUE DURATION"
      statusFix := names "STATUS" }),
  -- vjournal.py:26-43
  (.other, {
      one := names "DTSTAMP UID"
      zeroOne := names "CLASS CREATED DTSTART LAST-MODIFIED ORGANIZER RECURRENCE-ID SEQUENCE SUMMARY URL \
      RRULE"
      statusFix := names "STATUS" }),
  -- vfreebusy.py:31-42
  (.other, {
      one := names "DTSTAMP UID"
      zeroOne := names "CONTACT DTSTART DTEND ORGANIZER URL" }),
  -- vtimezone.py:25-32
  (.timezone, {
      one := names "TZID"
      zeroOne := names "LAST-MODIFIED TZURL" }),
  -- vtimezoneelement.py:29-37
  (.other, {
      one := names "DTSTART TZOFFSETTO TZOFFSETFROM"
      zeroOne := names "RRULE" }),
  -- vavailability.py:25-44
  (.avail, {
      one := names "DTSTAMP UID"
      zeroOne := names "BUSYTYPE CLASS CREATED DESCRIPTION DTSTART LAST-MODIFIED ORGANIZER SEQUENCE \
      SUMMARY URL RECURRENCE-ID DTEND DURATION" }),
  -- available.py:25-43
  (.avail, {
      one := names "DTSTAMP DTSTART UID"
      zeroOne := names "CREATED DESCRIPTION GEO LAST-MODIFIED LOCATION RECURRENCE-ID RRULE SEQUENCE \
      SUMMARY DTEND DURATION"
      statusFix := names "STATUS" }),
  -- vpoll.py:25-49
  (.other, {
      one := names "DTSTAMP UID ORGANIZER"
      zeroOne := names "ACCEPT-RESPONSE CLASS CREATED COMPLETED DESCRIPTION DTSTART DTEND DURATION \
      LAST-MODIFIED POLL-MODE POLL-PROPERTIES POLL-WINNER PRIORITY SEQUENCE STATUS \
      SUMMARY URL" }),
  -- vvoter.py:24-34
  (.other, {
      one := names "VOTER"
      zeroOne := names "CREATED DESCRIPTION LAST-MODIFIED SUMMARY URL" }),
  -- vote.py:24-30
  (.other, {
      zeroOne := names "POLL-ITEM-ID RESPONSE" }),
  -- vunknown.py
  (.other, { }),
  -- valarm.py:75-85 (audio)
  (.alarm, {
      one := names "ACTION TRIGGER"
      zeroOne := names "DURATION REPEAT ATTACH ACKNOWLEDGED" }),
  -- valarm.py:116-129 (display)
  (.alarm, {
      one := names "ACTION TRIGGER"
      fixEmpty := names "DESCRIPTION"
      zeroOne := names "DURATION REPEAT ACKNOWLEDGED" }),
  -- valarm.py:157-175 (email)
  (.alarm, {
      one := names "ACTION TRIGGER"
      fixEmpty := names "DESCRIPTION SUMMARY"
      zeroOne := names "DURATION REPEAT ACKNOWLEDGED"
      oneMore := names "ATTENDEE" }),
  -- valarm.py:231-240 (unknown)
  (.alarm, {
      one := names "ACTION TRIGGER"
      zeroOne := names "DURATION REPEAT ACKNOWLEDGED" }),
  -- valarm.py:250-260 (uri)
  (.alarm, {
      one := names "ACTION TRIGGER URL"
      zeroOne := names "DURATION REPEAT ACKNOWLEDGED" }),
  -- valarm.py:288-290 (none)
  (.alarm, {
      one := names "ACTION" })]

/-- The names of the classes, in the order of `classes`: the types that are registered for them
(`registerComponent` at the end of the modules; `Daylight` has the tables of `Standard`), and of `VAlarm`
the actions. -/
def classNames : List String :=
  ["VCALENDAR", "VEVENT", "VTODO", "VJOURNAL", "VFREEBUSY", "VTIMEZONE", "STANDARD", "VAVAILABILITY",
   "AVAILABLE", "VPOLL", "VVOTER", "VOTE", "UNKNOWN", "AUDIO", "DISPLAY", "EMAIL", "other", "URI", "NONE"]

/-- A component with what `validate` needs of it: type, class, tables (of `VAlarm` those of its action,
valarm.py:483-487), the cached start (`none` if there is none or the component has no recurrences, else
`isDateOnly()`), `isDateOnly()` of the UNTIL of each rule that has one, the properties and components. -/
inductive VComp where
  | mk (type : List Char) (kind : Kind) (table : Table) (start : Option Bool) (untils : List Bool)
      (props : List CProp) (subs : List VComp)

def VComp.type : VComp → List Char
  | .mk t _ _ _ _ _ _ => t

/-- The upper case text of a property (`none`: it has no text value, which is an exception), whether the
value passes the check in `propertyValueChecks` if there is one for it, and the line of a new property. -/
structure Values where
  text : CProp → Option (List Char)
  ok : CProp → Bool
  line : List Char → List Char → List Char

/-- `countProperty`, componentbase.py:171-172. -/
def count (ps : List CProp) (name : List Char) : Nat := ps.countP fun p => decide (p.key = upper name)

/-- `hasProperty`, componentbase.py:168-169. -/
def has (ps : List CProp) (name : List Char) : Bool := ps.any fun p => decide (p.key = upper name)

/-- `removeProperties`, componentbase.py:183-185. -/
def without (ps : List CProp) (name : List Char) : List CProp :=
  ps.filter fun p => !decide (p.key = upper name)

/-- What a check leaves and appends to `fixed` and `unfixed`. -/
structure Out (α : Type) where
  val : α
  fixed : List Problem
  unfixed : List Problem
deriving DecidableEq, Repr

/-- `check_cardinality_1`, componentbase.py:233-237. -/
def check1 (t : List Char) (names : List (List Char)) (ps : List CProp) : List Problem :=
  names.filterMap fun n => if count ps n ≠ 1 then some ⟨t, .missingOrMany, n⟩ else none

/-- `check_cardinality_1_Fix_Empty`, componentbase.py:239-250, of the iCalendar classes. -/
def checkFixEmpty (v : Values) (t : List Char) (doFix : Bool) :
    List (List Char) → List CProp → Out (List CProp)
  | [], ps => ⟨ps, [], []⟩
  | n :: names, ps =>
    if count ps n > 1 then
      let r := checkFixEmpty v t doFix names ps
      { r with unfixed := ⟨t, .manyRequired, n⟩ :: r.unfixed }
    else if count ps n = 0 then
      if doFix then
        let r := checkFixEmpty v t doFix names (ps ++ [⟨n, v.line n []⟩])
        { r with fixed := ⟨t, .missing, n⟩ :: r.fixed }
      else
        let r := checkFixEmpty v t doFix names ps
        { r with unfixed := ⟨t, .missing, n⟩ :: r.unfixed }
    else checkFixEmpty v t doFix names ps

/-- `check_cardinality_0_1`, componentbase.py:252-256. -/
def check01 (t : List Char) (names : List (List Char)) (ps : List CProp) : List Problem :=
  names.filterMap fun n => if count ps n > 1 then some ⟨t, .many, n⟩ else none

/-- `check_cardinality_1_More`, componentbase.py:258-262. -/
def check1More (t : List Char) (names : List (List Char)) (ps : List CProp) : List Problem :=
  names.filterMap fun n => if ¬ count ps n > 0 then some ⟨t, .missing, n⟩ else none

/-- Whether one of the properties is CANCELLED, componentrecur.py:339-340: they are looked at in order
(`none` is an exception). -/
def cancelled (v : Values) : List CProp → Option Bool
  | [] => some false
  | p :: ps =>
    match v.text p with
    | none => none
    | some s => if s = "CANCELLED".toList then some true else cancelled v ps

/-- `check_cardinality_STATUS_Fix`, componentrecur.py:329-348. -/
def checkStatus (v : Values) (t : List Char) (doFix : Bool) :
    List (List Char) → List CProp → Option (Out (List CProp))
  | [], ps => some ⟨ps, [], []⟩
  | n :: names, ps =>
    if count ps n > 1 then
      if doFix then
        match cancelled v (ps.filter fun p => decide (p.key = upper n)) with
        | none => none
        | some true =>
          (checkStatus v t doFix names
            (without ps n ++ [⟨n, v.line n "CANCELLED".toList⟩])).map fun r =>
              { r with fixed := ⟨t, .manyStatus, n⟩ :: r.fixed }
        | some false =>
          (checkStatus v t doFix names ps).map fun r =>
            { r with unfixed := ⟨t, .manyStatus, n⟩ :: r.unfixed }
      else
        (checkStatus v t doFix names ps).map fun r =>
          { r with unfixed := ⟨t, .manyStatus, n⟩ :: r.unfixed }
    else checkStatus v t doFix names ps

/-- The loop over `propertyValueChecks`, componentbase.py:214-224.  The dictionary's order is not in the
model. -/
def checkValues (v : Values) (t : List Char) (ps : List CProp) : List Problem :=
  ps.filterMap fun p => if v.ok p then none else some ⟨t, .value, p.key⟩

/-- The check of UNTIL, componentrecur.py:307-325. -/
def checkUntils (t : List Char) (start : Option Bool) (doFix : Bool) : List Bool → Out (List Bool)
  | [] => ⟨[], [], []⟩
  | u :: us =>
    let r := checkUntils t start doFix us
    match start with
    | none => { r with val := u :: r.val }
    | some s =>
      if (u ^^ s) = true then
        if doFix then ⟨s :: r.val, ⟨t, .types, "UNTIL".toList⟩ :: r.fixed, r.unfixed⟩
        else ⟨u :: r.val, r.fixed, ⟨t, .types, "UNTIL".toList⟩ :: r.unfixed⟩
      else { r with val := u :: r.val }

/-- The check that two properties are not both present; the fix removes `rem`.  vevent.py:110-121,
vtodo.py:276-287, available.py:66-77, vavailability.py:73-84. -/
def checkBoth (t : List Char) (doFix : Bool) (a b rem : List Char) (ps : List CProp) : Out (List CProp) :=
  if has ps a && has ps b then
    if doFix then ⟨without ps rem, [⟨t, .both b, a⟩], []⟩ else ⟨ps, [], [⟨t, .both b, a⟩]⟩
  else ⟨ps, [], []⟩

/-- What the class checks at the end, given the properties of the parent (`none` without one) and the
types of the components: vevent.py:102-121, vtodo.py:273-299, available.py:63-79, vavailability.py:70-86,
vtimezone.py:90-105, valarm.py:489-501. -/
def checkKind (k : Kind) (t : List Char) (parent : Option (List CProp)) (subs : List (List Char))
    (doFix : Bool) (ps : List CProp) : Out (List CProp) :=
  match k with
  | .other => ⟨ps, [], []⟩
  | .event =>
    let r := checkBoth t doFix "DTEND".toList "DURATION".toList "DTEND".toList ps
    let start : List Problem :=
      match parent with
      | some pp =>
        if !has pp "METHOD".toList && !has ps "DTSTART".toList then [⟨t, .missing, "DTSTART".toList⟩]
        else []
      | none => []
    { r with unfixed := start ++ r.unfixed }
  | .todo =>
    let r := checkBoth t doFix "DUE".toList "DURATION".toList "DURATION".toList ps
    let start : List Problem :=
      if has r.val "DURATION".toList && !has r.val "DTSTART".toList then
        [⟨t, .needs "DURATION".toList, "DTSTART".toList⟩]
      else []
    { r with unfixed := r.unfixed ++ start }
  | .avail => checkBoth t doFix "DTEND".toList "DURATION".toList "DTEND".toList ps
  | .timezone =>
    if subs.any fun s => decide (s = "STANDARD".toList ∨ s = "DAYLIGHT".toList) then ⟨ps, [], []⟩
    else ⟨ps, [], [⟨t, .noComponent, []⟩]⟩
  | .alarm =>
    if (has ps "DURATION".toList ^^ has ps "REPEAT".toList) = true then
      ⟨ps, [], [⟨t, .together "REPEAT".toList, "DURATION".toList⟩]⟩
    else ⟨ps, [], []⟩

mutual
/-- `validate`, componentbase.py:199-231 with the classes' own; `none` is an exception. -/
def validate (v : Values) (doFix : Bool) (parent : Option (List CProp)) : VComp → Option (Out VComp)
  | .mk t k tb st us ps cs =>
    let u1 := check1 t tb.one ps
    let r2 := checkFixEmpty v t doFix tb.fixEmpty ps
    let u3 := check01 t tb.zeroOne r2.val
    let u4 := check1More t tb.oneMore r2.val
    match checkStatus v t doFix tb.statusFix r2.val with
    | none => none
    | some r5 =>
      let u6 := checkValues v t r5.val
      match validateAll v doFix r5.val cs with
      | none => none
      | some r7 =>
        let r8 := checkUntils t st doFix us
        let r9 := checkKind k t parent (r7.val.map VComp.type) doFix r5.val
        some ⟨.mk t k tb st r8.val r9.val r7.val, r2.fixed ++ r5.fixed ++ r7.fixed ++ r8.fixed ++ r9.fixed,
          u1 ++ r2.unfixed ++ u3 ++ u4 ++ r5.unfixed ++ u6 ++ r7.unfixed ++ r8.unfixed ++ r9.unfixed⟩

def validateAll (v : Values) (doFix : Bool) (parent : List CProp) : List VComp → Option (Out (List VComp))
  | [] => some ⟨[], [], []⟩
  | c :: cs =>
    match validate v doFix (some parent) c, validateAll v doFix parent cs with
    | some r, some rs => some ⟨r.val :: rs.val, r.fixed ++ rs.fixed, r.unfixed ++ rs.unfixed⟩
    | _, _ => none
end

/-- `ContainerBase.validate`, containerbase.py:64-76; `none` is also `ValidationError`. -/
def validateContainer (v : Values) (doFix doRaise : Bool) (c : VComp) : Option (Out VComp) :=
  match validate v doFix none c with
  | none => none
  | some r => if doRaise && !r.unfixed.isEmpty then none else some r

end Valid
end PyCal
