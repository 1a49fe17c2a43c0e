import Verif.Model.AlarmEdit
import Verif.Model.EditLines

/-!
# The edits of `AlarmEdit` on the lines of an alarm (icalendar/valarm.py)
-/

namespace PyCal
namespace EditLines
open EventRead PropText ValueType Rewrite

/-- The TRIGGER of `editTriggerBy`, valarm.py:559-568, and the line that is written for it. -/
def madeTrigger (e : Env) (d : Duration) (start : Bool) : Cont.CProp :=
  ⟨"TRIGGER".toList, generate ⟨none, "TRIGGER".toList, valueParam (writtenValue e.tables "TRIGGER" .duration) ++
    [⟨"RELATED".toList, [if start then "START".toList else "END".toList]⟩], d.generate⟩⟩

/-- `remove` of the classes of data, valarm.py:105-106, 149-150, 215-218, 280-281. -/
def removeData (d : Alm.Data) (ps : List Cont.CProp) : List Cont.CProp :=
  match d with
  | .audio _ => remove "X-MULBERRY-SPEAK-TEXT" ps
  | .display _ => remove "DESCRIPTION" ps
  | .email .. => remove "ATTENDEE" (remove "SUMMARY" (remove "DESCRIPTION" ps))
  | .uri _ => remove "URL" ps
  | .unknown | .none => ps

/-- `addProperty` of a `Property(name, text)`; a text that is `None` is not modelled: nothing is added. -/
def addText (e : Env) (n : String) (s : Option (List Char)) (ps : List Cont.CProp) : List Cont.CProp :=
  match s with
  | some s => ps ++ [made e n (.text s)]
  | none => ps

/-- `add` of the classes of data, valarm.py:98-103, 142-147, 201-213, 273-278. -/
def addData (e : Env) (d : Alm.Data) (ps : List Cont.CProp) : List Cont.CProp :=
  match d with
  | .audio s => addText e "X-MULBERRY-SPEAK-TEXT" s (removeData d ps)
  | .display s => addText e "DESCRIPTION" s (removeData d ps)
  | .email s t l => addText e "SUMMARY" t (addText e "DESCRIPTION" s (removeData d ps)) ++ (l.getD []).map fun a => made e "ATTENDEE" (.text a)
  | .uri s => addText e "URL" s (removeData d ps)
  | .unknown | .none => ps

/-- The calls, valarm.py:503-583; `v` is the alarm before. -/
def alarmCall (e : Env) (v : Alm.VAlarm) (ps : List Cont.CProp) : Alm.Call' → List Cont.CProp
  | .editStatus s => set e "X-MULBERRY-ALARM-STATUS" (.text (Alm.statusText s)) ps
  | .editAction a d => addData e d (removeData v.data (remove "ACTION" ps) ++ [made e "ACTION" (.text (Alm.actionText a))])
  | .editTriggerOn t => set e "TRIGGER" (.date t) ps
  | .editTriggerBy d start => remove "TRIGGER" ps ++ [madeTrigger e d start]
  | .editRepeats n d =>
    let ps := remove "DURATION" (remove "REPEAT" ps)
    if n > 0 then (ps ++ [made e "REPEAT" (.int n)]) ++ [made e "DURATION" (.dur d)] else ps

/-- A history of calls. -/
def alarmCalls (e : Env) (v : Alm.VAlarm) (ps : List Cont.CProp) : List Alm.Call' → List Cont.CProp
  | [] => ps
  | x :: xs => alarmCalls e (v.call x).2 (alarmCall e v ps x) xs

end EditLines
end PyCal
