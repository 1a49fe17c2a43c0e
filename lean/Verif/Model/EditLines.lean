import Verif.Model.AttrRead
import Verif.Model.Editing
import Verif.Model.Rewrite

/-!
# Edits of an event or a to-do that was read, and what is written for them

A property is here, as in `Container`, its name and the line that is written for it; `Attributes` has the same edits with the values of the
properties.
-/

namespace PyCal
namespace EditLines
open EventRead PropText ValueType Rewrite

/-- The type of the value that `Property(name, value)` makes, icalendar/property.py:187-216, 326-331, property.py:597-618. -/
def madeType (e : Env) (n : String) : Value → VType
  | .text _ => (e.tables.defaultOf n).getD .unknown
  | .int _ => .integer
  | .date t => if t.dateOnly then .date else .dateTime
  | .dur _ => .duration
  | _ => .unknown

/-- The TZID parameter of a new property, icalendar/property.py:288-300; time zones that are offsets are not treated here. -/
def madeZone : Value → List Param
  | .date t =>
    match t.tzid with
    | some (.name z) => if t.isLocal && !t.dateOnly then [⟨"TZID".toList, [z.toList]⟩] else []
    | _ => []
  | _ => []

/-- `Property(name, value)` and the line that `generateValue` writes for it, property.py:337-363 before the folding. -/
def made (e : Env) (n : String) (v : Value) : Cont.CProp :=
  ⟨n.toList, generate ⟨none, n.toList, valueParam (writtenValue e.tables n (madeType e n v)) ++ madeZone v,
    valueText e (fun _ _ => []) (madeType e n v) none none v⟩⟩

/-- `removeProperties`, componentbase.py:183-185. -/
def remove (n : String) (ps : List Cont.CProp) : List Cont.CProp := ps.filter fun p => decide (p.key ≠ n.toList)

/-- `removeProperties` and `addProperty`. -/
def set (e : Env) (n : String) (v : Value) (ps : List Cont.CProp) : List Cont.CProp := remove n ps ++ [made e n v]

/-- `editProperty`, componentbase.py:651-658. -/
def edit (e : Env) (n : String) (v : Option (List Char)) (ps : List Cont.CProp) : List Cont.CProp :=
  match v with
  | some (c :: s) => set e n (.text (c :: s)) ps
  | _ => remove n ps

/-- The properties of a component after a call: `setUID` (component.py:90-127), `setSeq` (132-138), `editSummary` and `editDetails`
(componentrecur.py:490-501), `editStatus` (vevent.py:128-152, vtodo.py:302-329; without a value the line ends after the colon),
`editCompleted` (vtodo.py:331-342), `initDTSTAMP` and `updateLastModified` (component.py:149-159). -/
def call (e : Env) (env : DateTime.TzEnv) (k : Attr.Kind) (c : Attr.Comp) (ps : List Cont.CProp) : Attr.Call → List Cont.CProp
  | .setUID u => if u = [] then ps else set e "UID" (.text u) ps
  | .setSeq n => set e "SEQUENCE" (.int n) ps
  | .editSummary s => edit e "SUMMARY" s ps
  | .editDetails d l => edit e "LOCATION" l (edit e "DESCRIPTION" d ps)
  | .editStatus s =>
    match k with
    | .event =>
      if c.status = s then ps
      else if s = 2 then set e "STATUS" (.text "TENTATIVE".toList) ps
      else if s = 1 then set e "STATUS" (.text "CONFIRMED".toList) ps
      else if s = 3 then set e "STATUS" (.text "CANCELLED".toList) ps
      else remove "STATUS" ps
    | .todo =>
      if c.status = s then ps
      else
        let ps := remove "COMPLETED" (remove "STATUS" ps)
        if s = 3 then ps
        else if s = 1 then ps ++ [made e "STATUS" (.text "NEEDS-ACTION".toList)]
        else if s = 2 then ps ++ [made e "STATUS" (.text "IN-PROCESS".toList)]
        else if s = 4 then ps ++ [made e "STATUS" (.text "CANCELLED".toList)]
        else ps ++ [⟨"STATUS".toList, "STATUS:".toList⟩]
  | .editCompleted t =>
    match k with
    | .event => ps
    | .todo => set e "COMPLETED" (.date (PeriodObj.utcOf env t)) ps
  | .stamp t => set e "DTSTAMP" (.date t) ps
  | .modified t => set e "LAST-MODIFIED" (.date t) ps

/-- A history of calls; `c`: the component with the values of its properties. -/
def calls (e : Env) (env : DateTime.TzEnv) (k : Attr.Kind) (c : Attr.Comp) (ps : List Cont.CProp) : List Attr.Call → List Cont.CProp
  | [] => ps
  | x :: xs => calls e env k (c.call env k x).2 (call e env k c ps x) xs

/-- `Calendar.editDescription`, icalendar/calendar.py:118-128, on the lines of the calendar `c`. -/
def editDescription (e : Env) (c : Attr.Cal) (s : List Char) (ps : List Cont.CProp) : List Cont.CProp :=
  if c.description = s then ps else edit e "X-WR-CALDESC" (some s) ps

/-! ### Times -/

/-- The four `removeProperties`, componentrecur.py:543-546. -/
def bare (ps : List Cont.CProp) : List Cont.CProp := remove "DUE" (remove "DURATION" (remove "DTEND" (remove "DTSTART" ps)))

/-- `editTimingDue`, componentrecur.py:525-533. -/
def editTimingDue (e : Env) (due : DateTime) (ps : List Cont.CProp) : List Cont.CProp := bare ps ++ [made e "DUE" (.date due)]

/-- `editTimingStartEnd`, componentrecur.py:542-557. -/
def editTimingStartEnd (e : Env) (env : DateTime.TzEnv) (start stop : DateTime) (ps : List Cont.CProp) : List Cont.CProp :=
  let ps := bare ps ++ [made e "DTSTART" (.date start)]
  if !start.dateOnly || !stop.eq env (start.offsetDay 1) then ps ++ [made e "DTEND" (.date stop)] else ps

/-- `editTimingStartDuration`, componentrecur.py:567-580. -/
def editTimingStartDuration (e : Env) (start : DateTime) (d : Duration) (ps : List Cont.CProp) : List Cont.CProp :=
  let ps := bare ps ++ [made e "DTSTART" (.date start)]
  if !start.dateOnly || decide (d.weeks ≠ 0) || decide (d.days > 1) then ps ++ [made e "DURATION" (.dur d)] else ps

/-- The times that a component with these lines keeps: componentrecur.py:241-266, vtodo.py:224-240. -/
def timingIn (e : Env) (c : Cont.Component) : Option Timing :=
  (c.props.mapM fun p => readLine e p.text).map fun ps =>
    let t : Timing := { dtstart := loadDate ps "DTSTART", dtend := loadDate ps "DTEND", due := loadDate ps "DUE",
                        duration := loadDuration ps "DURATION" }
    if c.type = "VTODO".toList then t.finaliseToDo else t.finalise

end EditLines
end PyCal
