import Verif.Model.DateTime
import Verif.Spec.Civil
import Verif.Spec.View
import Verif.Lemmas.Calendar
import Verif.Lemmas.DateTime
import Verif.Lemmas.Fuel
import Verif.Props.C01_C05_Arithmetic
import Verif.Props.C03_Offsets
import Verif.Props.C14_Duration
import Verif.Lemmas.Weekday
import Verif.Props.C06_C09_SetDay
import Verif.Props.C10_C13_Weeks
import Verif.Props.C11_Exact
import Verif.Props.C15_C16_DurationText
import Verif.Props.C20_C21_Escaping
import Verif.Props.C23_C24_Lists
import Verif.Props.C22_Folding
import Verif.Props.C25_C26_DateTimeText
import Verif.Props.C17_C18_Compare
import Verif.Props.C19_Caches
import Verif.Props.C27_Period
import Verif.Model.Recurrence
import Verif.Spec.Recurrence
import Verif.Lemmas.Recurrence
import Verif.Props.C28_Expansion
import Verif.Props.C29_C30_Cache
import Verif.Spec.RecurrenceSet
import Verif.Props.C31_C33_Parts
import Verif.Props.C32_WeekNo
import Verif.Props.C53_Candidates
import Verif.Props.C54_Complex
import Verif.Props.C54_Spans
import Verif.Props.C54_Exact
import Verif.Props.C30_C55_Complex
import Verif.Model.RecurrenceText
import Verif.Spec.RecurText
import Verif.Model.Timezone
import Verif.Props.C35_C36_Offset
import Verif.Props.C35_Zones
import Verif.Props.C35_Ends
import Verif.Props.C37_Convert
import Verif.Model.TimezoneDb
import Verif.Spec.Path
import Verif.Props.C38_Paths
import Verif.Props.C39_Database
import Verif.Props.C44_C45_RuleText
import Verif.Model.RecurrenceSet
import Verif.Props.C34_RecurrenceSet
import Verif.Props.C30_Sets
import Verif.Model.PropertyText
import Verif.Spec.Line
import Verif.Props.C46_Lines
import Verif.Model.Container
import Verif.Props.C42_Order
import Verif.Spec.Container
import Verif.Props.C40_Nesting
import Verif.Props.C41_Trees
import Verif.Model.Validate
import Verif.Props.C43_Validate
import Verif.Model.CalendarIndex
import Verif.Props.C47_Index
import Verif.Model.Event
import Verif.Props.C48_C49_Events
import Verif.Model.Alarm
import Verif.Props.C50_Alarm
import Verif.Model.ComponentEq
import Verif.Props.C61_Equality
import Verif.Model.Editing
import Verif.Props.C62_C63_Editing
import Verif.Model.ValueType
import Verif.Props.C64_C68_Values
import Verif.Model.ZonalRule
import Verif.Model.ZonalZone
import Verif.Spec.Zic
import Verif.Props.C69_C71_ZonalRules
import Verif.Props.C72_ZonalRecurrences
import Verif.Props.C56_Days
import Verif.Spec.ZoneClock
import Verif.Props.C73_ZoneLines
import Verif.Props.C74_Zones
import Verif.Props.C75_Until
import Verif.Model.TimezoneInclude
import Verif.Props.C76_C77_Include
import Verif.Model.Derive
import Verif.Props.C78_Derive
import Verif.Model.PeriodObject
import Verif.Props.C79_C80_PeriodObject
import Verif.Model.DateTimeProperty
import Verif.Props.C81_C82_DateTimeProperty
import Verif.Model.RecurrenceJSON
import Verif.Spec.RecurJSON
import Verif.Props.C83_RuleJSON
import Verif.Spec.Validity
import Verif.Props.C84_Validity
import Verif.Model.PropertyJSON
import Verif.Model.PropertyNew
import Verif.Spec.PropertyJSON
import Verif.Props.C85_PropertyJSON
import Verif.Model.ContainerJSON
import Verif.Spec.ContainerJSON
import Verif.Props.C86_TreeJSON
import Verif.Model.FreeBusy
import Verif.Spec.FreeBusy
import Verif.Props.C87_FreeBusy
import Verif.Model.ZonalVTimezone
import Verif.Props.C88_VTimezone
import Verif.Props.C88_Cases
import Verif.Model.XCal
import Verif.Spec.XCal
import Verif.Props.C89_XCal
import Verif.Props.C90_XTrees
import Verif.Model.OutputFilter
import Verif.Spec.OutputFilter
import Verif.Props.C91_OutputFilter
import Verif.Model.TextFile
import Verif.Props.C92_Files
import Verif.Model.Attributes
import Verif.Props.C93_C94_Attributes
import Verif.Model.ZonalFile
import Verif.Props.C95_ZoneLines
import Verif.Props.C96_ZoneFiles
import Verif.Props.C97_ZoneLinks
import Verif.Model.AlarmEdit
import Verif.Model.Cards
import Verif.Props.C98_AlarmEdit
import Verif.Props.C99_Cards
import Verif.Props.C100_AddComponents
import Verif.Props.C101_FreeBusyTiming
import Verif.Model.TimezoneText
import Verif.Model.Display
import Verif.Props.C102_Descriptor
import Verif.Props.C103_Display
import Verif.Model.SetCompare
import Verif.Model.Slave
import Verif.Props.C104_Master
import Verif.Props.C105_SetCompare
import Verif.Model.ZonalVerify
import Verif.Model.ValueCheck
import Verif.Props.C106_Verify
import Verif.Props.C106_ZoneData
import Verif.Props.C107_ValueCheck
import Verif.Props.C108_Validation
import Verif.Model.XmlText
import Verif.Props.C109_Indent
import Verif.Model.PropertyEq
import Verif.Props.C110_PropertyEq
import Verif.Model.CardWrite
import Verif.Props.C111_C112_CardWrite
import Verif.Props.C113_VCard2
import Verif.Model.CardValues
import Verif.Props.C115_C116_CardValues
import Verif.Model.PackedDate
import Verif.Props.C117_PackedDate
import Verif.Model.TimezoneObject
import Verif.Props.C118_DefaultZone
import Verif.Model.TimezoneRead
import Verif.Props.C119_TimezoneRead
import Verif.Props.C120_Transitions
import Verif.Model.PropertyTable
import Verif.Props.C121_PropertyTable
import Verif.Model.RemoveAll
import Verif.Props.C122_RemoveAll
import Verif.Model.RecurLoad
import Verif.Props.C123_RecurLoad
import Verif.Model.Numbers
import Verif.Props.C114_Numbers
import Verif.Model.ParserContext
import Verif.Model.RecurrenceEdit
import Verif.Props.C124_Strict
import Verif.Props.C16_Exact
import Verif.Props.C125_Validator
import Verif.Props.C126_Edit
import Verif.Model.Copy
import Verif.Props.C127_Copy
import Verif.Model.CalendarQuery
import Verif.Props.C128_Query
import Verif.Props.C129_NewProperty
import Verif.Spec.ValueTypes
import Verif.Props.C130_StandardTypes
import Verif.Spec.ContentLine
import Verif.Props.C131_ContentLine
import Verif.Model.EventRead
import Verif.Model.CalendarRead
import Verif.Spec.EventText
import Verif.Spec.EventDates
import Verif.Spec.Rfc5545
import Verif.Props.C132_EventText
import Verif.Props.C132_Rejects
import Verif.Props.C133_Rfc
import Verif.Props.C133_Count
import Verif.Props.C133_SetPos
import Verif.Props.C134_Dates
import Verif.Spec.Reading
import Verif.Props.C135_Reading
import Verif.Spec.ZonedDates
import Verif.Spec.CalendarText
import Verif.Lemmas.ExpandCongr
import Verif.Props.C136_Zoned
import Verif.Props.C137_Calendar
import Verif.Spec.ZoneText
import Verif.Model.ZoneLines
import Verif.Props.C138_ZoneText
import Verif.Model.ZoneData
import Verif.Props.C139_Instants
import Verif.Props.C140_Shown
import Verif.Spec.WrittenText
import Verif.Props.C141_WrittenText
import Verif.Model.ZonalText
import Verif.Props.C142_ZoneWritten
import Verif.Props.C102_Asked
import Verif.Model.ZoneDescriptor
import Verif.Spec.ZoneName
import Verif.Props.C143_ZoneNames
import Verif.Props.C137_Ranges
import Verif.Props.C96_Blanks
import Verif.Props.C85_Numbers
import Verif.Model.Rewrite
import Verif.Model.AlarmRead
import Verif.Model.FreeBusyRead
import Verif.Props.C144_Rewrite
import Verif.Spec.TypedLine
import Verif.Spec.AlarmText
import Verif.Spec.FreeBusyText
import Verif.Props.C144_Periods
import Verif.Props.C144_More
import Verif.Props.C144_Lines
import Verif.Props.C145_Version
import Verif.Props.C146_AlarmText
import Verif.Props.C147_FreeBusyText
import Verif.Props.C148_Same
import Verif.Props.C148_Alarms
import Verif.Props.C148_Zones
import Verif.Model.AttrRead
import Verif.Model.EditLines
import Verif.Model.AlarmLines
import Verif.Model.Merge
import Verif.Model.ChangeUID
import Verif.Spec.AttributesText
import Verif.Props.C149_AttributesText
import Verif.Props.C150_EditsWritten
import Verif.Props.C150_Description
import Verif.Props.C151_TimesWritten
import Verif.Props.C152_AlarmsWritten
import Verif.Props.C153_Merge
import Verif.Props.C154_ChangeUID
