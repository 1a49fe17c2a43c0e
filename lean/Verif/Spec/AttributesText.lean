import Verif.Spec.AlarmText

/-!
# What the lines of an event or a to-do say beside its times

RFC 5545 sections 3.8.1 (SUMMARY, STATUS, PRIORITY, PERCENT-COMPLETE), 3.8.2.1 (COMPLETED), 3.8.4.7 (UID), 3.8.7.4 (SEQUENCE).
-/

namespace Spec.AttributesText
open PyCal PropText EventText CalendarText AlarmText

/-- What is said of an event or a to-do. -/
structure Desc where
  uid : Option (List Char)
  sequence : Option Int
  summary : Option (List Char)
  status : Option (List Char)
  completed : Option DateTime
  priority : Option Int
  percent : Option Int

/-- The lines say this. -/
structure Describes (ls : List ContentLine) (d : Desc) : Prop where
  uid : HasLine ls "UID".toList TextLine d.uid
  sequence : HasLine ls "SEQUENCE".toList NumberLine d.sequence
  summary : HasLine ls "SUMMARY".toList TextLine d.summary
  status : HasLine ls "STATUS".toList TextLine d.status
  completed : HasLine ls "COMPLETED".toList DateLine d.completed
  priority : HasLine ls "PRIORITY".toList NumberLine d.priority
  percent : HasLine ls "PERCENT-COMPLETE".toList NumberLine d.percent

/-- The lines of a calendar give it this name and this description. -/
structure Names (ls : List ContentLine) (name description : Option (List Char)) : Prop where
  name : HasLine ls "X-WR-CALNAME".toList TextLine name
  description : HasLine ls "X-WR-CALDESC".toList TextLine description

end Spec.AttributesText
