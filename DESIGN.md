# Formal model of ccs-pycalendar: design

Everything here is about the Python 2 source in `/repo/src/pycalendar`, read as text.  Nothing in `/repo` is
executed, so nothing here has been compared with a running program.

## Layout

* `lean/Verif/Model/*.lean`: the model, function by function, each definition citing the file and lines it
  models and stating its simplifications.
* `lean/Verif/Spec/*.lean`: small independent specifications (civil calendar, RFC grammars, nesting, ...).
* `lean/Verif/Lemmas/*.lean`: helper lemmas.
* `lean/Verif/Props/*.lean`: the theorems of the properties `Cnn`, with a concrete case that meets the
  hypotheses beside each of them.
* `properties.jsonl`: the properties.  `MANIFEST.json`: property, status, theorem names.
* `AXIOMS.md`: the output of `#print axioms` for each theorem named in the manifest.
* `seeded/LOG.jsonl`: wrong programs tried against the theorems.

## How the code is modelled

* Python 2 `int` is `Int` (unbounded).  `/` and `%` of Python 2 by a positive divisor are floor division and
  its remainder; Lean's `Int` `/`, `%` agree for positive divisors.
* Python `str` is `List Char` where characters matter, and a list of bytes (`Nat`s) for folding.
* Exceptions are values (`Option`, `Except`, or a constructor); objects that are changed are records
  returned by functions.  A method that does not exist is an exception where it is called.
* A `while` loop that always ends is modelled by well-founded recursion with a proof.  One that need not
  end takes `fuel`, a number of iterations; `none` is "still running", and theorems hold for every `fuel`.
* The order in which a Python 2 `set` or `dict` is run through is unspecified: theorems hold for every order.
* Time zone data is an arbitrary function (`TzEnv`) in the modules about `DateTime`, `Period` and
  `Recurrence`; `Model/Timezone.lean` has the code that computes it from a VTIMEZONE.
* If the code violates a property, this is proved on a concrete witness or in general (`..._fails...`), and
  the part that holds is a theorem with suffix `_partial`, whose comment says what is missing.

## Trusted base

* Lean's kernel (4.33.0) and the axioms `propext`, `Classical.choice` and `Quot.sound`; no theorem depends
  on any other (see `AXIOMS.md`).  No `sorry`, no `native_decide`, no `bv_decide`.
* That the translation from Python to Lean is faithful.  It was made by hand; each definition cites its
  lines.
* That the statements of the theorems say what the English properties say.

## What is modelled

| Module | Code | Simplifications |
|---|---|---|
| `Calendar` | `utils.py`: leap years, days in months, days since 1970 | memo dictionaries are left out (they only store values of pure functions) |
| `Duration` | `duration.py`: values, comparison, text | the JSON form is in `PropertyJSON` |
| `DateTime` | `datetime.py`: fields, `normalise`, offsets, `+`, `-`, weekday, week, year day, month day, n-th weekday setters, `recur`, absolute time | the caches are in `DateTimeObject`; `recur` by freq, without the dead loop |
| `DateTimeObject` | the caches `mPosixTime`, `mTZOffset` and all public methods that change an object | a fixed zone environment during a history |
| `Compare` | `compareDateTime`, the comparison operators, `__hash__`; `Timezone.same` | |
| `DateTimeText` | `DateTime.parse`, `getText`, `getXMLText`; `UTCOffsetValue` | locale texts left out |
| `Period` | `period.py`: values, predicates, order | text forms left out; the lazily stored end is recomputed |
| `Escape` | `utils.py`: text and parameter escaping, text lists, nested lists | `StringIO` is the text written |
| `Folding` | `PropertyBase.generateValue` folding, `readFoldedLine` | bytes |
| `PropertyText` | `PropertyBase.parseText`, parameters, vCard groups, `strduptokenstr`, `generateValue` | the value is its text |
| `Recurrence` | `recurrence.py`: `expand` with its cache, `simpleExpand`, `complexExpand`, all `by...Expand`, `by...Limit`, `generate...Set` | loops take `fuel` |
| `RecurrenceText` | `Recurrence.parse`, `generate`, `equals`, `__hash__` | XML form left out |
| `RecurrenceJSON` | `Recurrence.parseJSON`, `writeJSON` | member values that are numbers, texts and lists of these |
| `RecurrenceSet` | `recurrenceset.py`: `expand`; `set_difference` | rules are distinct objects, the start is normal |
| `Timezone` | `vtimezone.py`, `vtimezoneelement.py`: offsets, elements, expansion, caches | |
| `TimezoneDb` | `timezonedb.py` | the file system is an argument; `posixpath` is that of Python 2.7 |
| `TimezoneInclude` | `Calendar.includeMissingTimezones`, `stripStandardTimezones`, `getTimezones` | of a component only the TZIDs in its values are kept; components two levels down and numeric TZIDs are left out |
| `Derive` | `Calendar.masterComponent`, `deriveComponent` | properties that have nothing to do with times are texts; the date-time object shared by DTSTART and RECURRENCE-ID is left out |
| `PeriodObject` | `Period` as an object: `parse`, `generate`, jCal form, `getEnd`, `getDuration`, `setUseDuration`, `duplicate`, `adjustToUTC` | the date-times are owned by the period; what an exception leaves behind is left out |
| `PropertyJSON` | `PropertyBase.parseJSON`, `generateValueJSON`, `Parameter.writeJSON` and the JSON of texts, integers, floating point numbers, coordinates, durations, UTC offsets, request statuses and rules | properties without a value; of GEO only arrays of numbers; date-times are in `DateTimeProperty` |
| `ContainerJSON` | `ComponentBase.parseJSON`, `writeJSON`, `ContainerBase.parseJSONData` | `json.loads` and `json.dumps`; which exception is raised; the JSON of a property is a parameter |
| `XCal` | `writeXML` of properties, parameters, values and components | the elements are a tree, `ElementTree` is left out; reading XML |
| `OutputFilter` | `outputfilter.py` and the functions that write through a filter | a property without its value is a parameter |
| `DateTimeProperty` | date-times and periods given to an iCalendar `Property`, its VALUE and TZID parameters, text and jCal values, `setValue`; jCal type names | numeric TZIDs; the line around the parameters and value is `PropertyText` |
| `Container` | `ContainerBase.parse`, `Calendar.parse` (that merging the time zones can raise), `ComponentBase` tables, `generate`, order of writing; the calendar's checks | lines are unfolded, a property is its name and text; `parseMultiple`, XML, JSON left out |
| `TextFile` | `getText` and the loop over `readFoldedLine`: characters, lines and bytes together | strings are UTF-8 |
| `Validate` | `validate` of all iCalendar components, with their tables | only what the checks look at is kept of a property |
| `CalendarIndex` | `Calendar.addComponent`, `removeComponent`, `changeUID` | objects are numbers; equality by content |
| `Event` | `ComponentRecur`: times, `expandPeriod`, `withinPeriod`; `ComponentExpanded`; `Calendar.getVEvents` | only the timing properties |
| `Alarm` | `VAlarm.alarmTriggered`, `getNextTrigger`, `initNextTrigger` | up to the calls that raise |
| `AlarmEdit` | `VAlarm`: `finalise`, the methods that edit, action data, `duplicate` | property names are an enumeration; values by class; the last trigger is in `Alarm` |
| `AlarmRead` | the properties of a VALARM from its lines, and the alarm that `finalise` makes of them | values that an alarm does not ask for are opaque |
| `ComponentEq` | `ComponentBase.__eq__`, `compareComponents`, `compareProperties`, `Property.__eq__`/`__hash__` | values are texts, rules or dates; a hash is identified with what is hashed |
| `Editing` | `ComponentRecur.finalise` (times), `editTiming...`, `editRecurrenceSet`, `excludeRecurrence`, `excludeFutureRecurrence` | the calls that always raise are taken as such; which objects are shared is left out |
| `AttrRead` | the properties of an event, a to-do or a calendar from its lines, and the attributes that `finalise` keeps of them | as for `EventRead` and `Attributes` |
| `EditLines` | the edits of `Attributes` and of the times in `Editing` on the lines of a component: the properties that are removed, and `Property(name, value)` with the line that is written for it | time zones that are offsets; a property without a value is its line |
| `AlarmLines` | the edits of `AlarmEdit` on the lines of an alarm, with RELATED and the data of the actions | data whose text is `None` |
| `Merge` | `addComponent` and `removeAllComponent` on the components of a calendar that was read | the index of `Calendar` (it is in `CalendarIndex`); whether `removeAllComponent` returns (it is in `RemoveAll`) |
| `ChangeUID` | `changeUID`, `setUID` and `getUID` on the lines of a calendar | the maps of `Calendar` (they are in `CalendarIndex`); the random UID that is made for an empty one |
| `Attributes` | UID, SEQUENCE, SUMMARY, STATUS, COMPLETED, PRIORITY, PERCENT-COMPLETE of events and to-dos, name and description of a calendar: `finalise` and the methods that edit them; `VToDo.getCompletionState` | property names are an enumeration; values by class |
| `FreeBusy` | `VFreeBusy.finalise` (times), `cacheBusyTime`, `expandPeriodComp`, `expandPeriodFB`, `duplicate`; `FreeBusy.__init__` | the sort is a stable sort by start; adding and removing FREEBUSY properties only changes the list of them |
| `FreeBusyEdit` | `VFreeBusy.finalise`, `fixStartEnd`, `editTiming`, `editTimingStartEnd`, `editTimingStartDuration`, `duplicate` | the first DTSTART, DTEND and DURATION; a method that does not exist is an exception |
| `FreeBusyRead` | a VFREEBUSY of a calendar that was read: `finalise` and `cacheBusyTime` on the properties of its lines | values that bear on no times are opaque |
| `TimezoneText` | `VTimezone.getTimezoneDescriptor`, `getUTCOffsetSortKey`, `sortByUTCOffsetComparator`, `Timezone.timeZoneDescriptor`, `DateTime.timeZoneDescriptor` | the time zones of the database as a function; the kept sort key is left out |
| `TimezoneRead` | `VTimezone.finalise`, `duplicate`, `VTimezoneElement.__init__`, `finalise`, `duplicate`, `loadValueRRULE`, `loadValueRDATE` | RDATEs of periods and properties that the offsets do not use are left out |
| `PropertyTable` | `addProperty`, `removeProperty`, `removeProperties`, `editProperty`, `loadPrivateValue`, `loadValueString`, `getProperties`, `hasProperty`, `countProperty`, `findFirstProperty`, `Property.setName` | `==` of properties and the text of a value are arbitrary; the order of the keys of the `dict` is not modelled |
| `RemoveAll` | `getComponents`, `countComponents`, `hasComponent`, `removeComponent`, `removeAllComponent`, also of a `Calendar` | `==` of components is arbitrary but for the type; in a calendar as in `CalendarIndex` |
| `RecurLoad` | `_resetRecurrenceSet`, `isRecurring`, `loadValueRRULE`, `loadValueRDATE`, `RecurrenceSet.expand` of what they load | values are a rule, a list of dates and periods, or another |
| `ParserContext` | `ParserContext` and `allRaise`, the readers with these settings, `validator.validate` | the settings are a record given to each reader; parsing and validation of a file are parameters of `validate` |
| `RecurrenceEdit` | the setters of a rule with `_setAndclearIfChanged` | a list that is `None` and an empty list are the same |
| `Copy` | `duplicate` of components, properties, parameters and values, with the identity of the objects | the attributes kept beside the properties are in other files; what a rule has cached is left out |
| `PropertyNew` | the constructors of both `Property` classes, `_init_attr_value_...`, the accessors `get...Value` | objects are numbers; the TZID parameter is in `DateTimeProperty` |
| `CalendarQuery` | `getVToDos`, `getVFreeBusyList`, `getVFreeBusyFB`, `getFreeBusy` of `Calendar`, `getStatusText` and `sort_for_display` of `VToDo` | lines behind one that always raises |
| `Display` | `locale.getDay`, `getMonth`; `DateTime.getLocaleDate`, `getTime`, `getLocaleDateTime`, `getMonthText` | the text of the time zone is an argument |
| `Slave` | `ComponentRecur.initFromMaster`, `setMaster`, `recurring`, `duplicate` of the link to the master | components are told apart by a number |
| `SetCompare` | `RecurrenceSet.duplicate`, `equals...`, `isSimpleUI`, `isAdvancedUI`, `getUIRecurrence`, `getUIDescription`; `Recurrence.duplicate`, `isSimpleRule`, `isAdvancedRule` | a method or attribute that does not exist is an exception |
| `ZonalVerify` | `tzverify.compareCalendars`, `expandTransitions`, `tzconvert.expandZone`, `secondsToTime` | the transitions of a zone are an argument; sets are run through in an arbitrary order; loading the data is left out |
| `ValueCheck` | `validation.PropertyValueChecks`, `ICALENDAR_VALUE_CHECKS`, the control characters of `validator.py` | a property is its name and the value it was read with |
| `XmlText` | `toString` of `xmlutils.py`: the layout of an element tree | `ElementTree.tostring` |
| `PropertyEq` | `__eq__` and `__hash__` of properties, parameters and values of all types | `nan`; a single value compared with a `MultiValue` |
| `CardWrite` | `generateValue`, `__init__`, `duplicate` of vCard's `Property`, `addDefaultProperties`, `duplicate` of `Card` | of new properties only those with no value or a text |
| `CardValues` | jCard reading and writing of `N`, `ADR`, `ORG`, `getFullName`, the setters and copies of names and addresses | JSON numbers, truth values and objects are one case |
| `Numbers` | text of INTEGER, FLOAT and GEO values with `float(text)` and `str(x)` of Python 2.7 | a float is a sign and a rational number with 53 binary digits, the exponent is not limited (no overflow, no subnormal numbers) |
| `PackedDate` | `packDate`, `unpackDate` and the like, `getMonthTable` up to the statement that raises | - |
| `TimezoneObject` | `Timezone` objects, the default time zone of `CalendarManager` | the data base is a function |
| `ValueType` | `PropertyBase.determineValueType`, `setupValueParameter`, `registerDefaultValue`, the tables of iCalendar and vCard; text, unknown, URI, multiple text and REQUEST-STATUS values | a DATE or DATE-TIME is one bit |
| `ZonalRule` | `zonal/rule.py`: lines, `datetimeForYear`, `getOffset`, `expand`, `getOnDayDetails`, the parts of the recurrence rule; `zonal/utils.py` | texts are split as in Python; exceptions are `none` |
| `ZonalZone` | `zonal/zone.py`: lines, offsets, `getUntilDate`, `ZoneRule.expand`, `Zone.expand` | caches of the rules are not passed between zone lines |
| `ZonalVTimezone` | `Zone.vtimezone`, `_compressRDateComponents`, `ZoneRule.vtimezone`, `Rule.vtimezone` | rules and lines are told apart by their fields; the properties of the VTIMEZONE itself are left out |
| `ZonalText` | the properties that `Zone.vtimezone`, `ZoneRule.vtimezone` and `Rule.vtimezone` add, and the texts of their lines | the components are in the order in which they are added, not sorted by `finalise` |
| `Cards` | `Card.parseMultipleTextData`, `validProperty`; `Calendar.parseComponent`; `TimezoneDatabase.cacheTimezone` after the path | lines and properties as in `Container` |
| `ZonalFile` | `zonal/tzconvert.py`: `parse`, `parseWindowsAliases`, `generateZoneinfoFiles`; `RuleSet.parse`, `generate` | a file is its text, the file system a dictionary from names to texts; directories, `filterzones`, downloads and XML left out |
| `Text` | the built-ins of Python 2 on texts that the code uses; `strtoul` | ASCII digits and letters |
| `EventRead` | `Property.parseText` with dates, rules, durations, texts, URIs, addresses, integers, UTC offsets and lists of them; what `finalise` of a component takes from them for its times | positions, request states, floats, booleans and times: whether the text is accepted is a parameter |
| `CalendarRead` | `Calendar.parseText` with the properties as in `EventRead`, `getVEvents` of what is read | whether `finalise` of components that are no `ComponentRecur` raises is a parameter; of the index by UID only what `getVEvents` uses |
| `ZoneLines` | VTIMEZONEs from their lines as in `EventRead` and `TimezoneRead`; `Calendar.getTimezone`, `getTimezoneOffsetSeconds` | periods in RDATEs |
| `ZoneDescriptor` | `Calendar.getTimezoneDescriptor` | nothing |
| `Rewrite` | `Property.generateValue`, `setupValueParameter` and the order of lines in `Component.generate` for properties that were read | how a position, a request state or a value of another open type is written is a parameter |
| `ZoneData` | the time zone database (`TimezoneDb`) together with the `VTimezone` objects in it and their caches: `mergeTimezone(s)`, `getTimezoneOffsetSeconds`, `Calendar.parseText` with the merging | a directory with files; what has been merged when merging raises |

Not modelled: of `vcard/*` the functions not named above, the
lines behind a call of a method that does not exist, the command line tools, and of `zonal/*` (the time zone compiler) the loading and printing in
`tzdump.py` and `tzverify.py`.


## Properties and theorems

### C01 Date arithmetic always yields a real calendar date-time (proved)

Whatever integer amount is added to any field of a DateTime (offsetYear/Month/Day/Hours/Minutes/Seconds, + Duration, - Duration), the operation terminates and the resulting fields are a real date and time: month 1..12, day between 1 and the length of that month in that year, hour 0..23, minute and second 0..59, and an all-zero time of day for a date-only value.

* `PyCal.DateTime.C01_arith_valid` (C01_C05_Arithmetic.lean): C01: whatever the fields (even nonsensical ones) and whatever the amount, the result is a real date and time of the same kind; date-only results have an all-zero time.

### C02 Normalising a valid date-time changes nothing (proved)

If the fields of a DateTime already form a real date and time then a zero offset (or adding a zero Duration) leaves every field unchanged; hence normalisation is idempotent.

* `PyCal.DateTime.C02_normalise_id` (C01_C05_Arithmetic.lean): C02: normalisation leaves a real date-time alone.
* `PyCal.DateTime.C02_normalise_idem` (C01_C05_Arithmetic.lean): C02: hence it is idempotent on all field values.
* `PyCal.DateTime.C02_zero_offsets` (C01_C05_Arithmetic.lean): C02: zero offsets of any unit change nothing.

### C03 Adding n seconds moves the clock by exactly n seconds (partial)

For a date-time whose offset from UTC is fixed (UTC or floating), adding a Duration of n seconds (n of either sign) yields a date-time whose absolute time is exactly n seconds later, and it is the only valid date-time with that property. In particular the day after 28/29 February and 31 December is the right one. offsetDay, offsetHours, offsetMinutes and offsetSeconds move the clock by as much; offsetMonth and offsetYear keep the time of day and count the day from the first of the month that many months or years away.

* `PyCal.DateTime.C03_add_forward` (C01_C05_Arithmetic.lean): C03: adding a duration of `n ≥ 0` seconds to any real date-time is `n` ticks of the civil clock, in all years.
* `PyCal.DateTime.C03_add_backward` (C01_C05_Arithmetic.lean): C03: adding a negative duration of `n` seconds gives the date-time from which `n` ticks lead back.
* `PyCal.DateTime.C03_add_days` (C01_C05_Arithmetic.lean): C03: for a date-only value, adding `n` whole days is `n` steps of the calendar.
* `PyCal.DateTime.C03_posix_unique` (C01_C05_Arithmetic.lean): C03 (uniqueness, all years): two real date-times of the same kind with the same absolute time are the same date-time.
* `PyCal.DateTime.C03_posix_partial` (C01_C05_Arithmetic.lean): C03 (partial): absolute time moves by exactly the duration, for times with a fixed UTC offset, provided the move does not cross a non-leap century year. The unrestricted statement is false, see `C03_posix_fails`.
* `PyCal.DateTime.C03_posix_window_partial` (C01_C05_Arithmetic.lean): C03 (partial): the same for the years 1901..2100, the range without skipped centuries. Missing: the other years, `C03_posix_fails`.
* `PyCal.DateTime.C03_posix_fails` (C01_C05_Arithmetic.lean): C03 fails in general: one second after 2100-12-31T23:59:59Z is 2101-01-01T00:00:00Z, but its absolute time is one day and one second later.
* `PyCal.C03_offset_month` (C03_Offsets.lean): C03: moving by `n` months (`n` of either sign) keeps the time of day and the kind of the value; its day is counted from the first of the month `n` months away, so that a 31st moved to a month of 30 days is the 1st of the one after.
* `PyCal.C03_offset_year` (C03_Offsets.lean): C03: moving by `n` years likewise: the day is counted from the first of the same month.
* `PyCal.C03_offset_day` (C03_Offsets.lean): C03: moving by `n` days, in either direction, is `n` steps of the calendar and keeps the time of day and the kind.
* `PyCal.C03_offset_time` (C03_Offsets.lean): C03: moving by hours, minutes or seconds, in either direction, is as many ticks of the clock.

### C04 Adding and subtracting the same duration cancel; difference inverts addition (partial)

(dt + d) - d is dt again, and (dt + d) - dt is a duration with the same number of seconds as d, for every date-time with fixed UTC offset; a floating operand of a difference is read in the zone of the other one.

* `PyCal.DateTime.C04_add_sub_cancel` (C01_C05_Arithmetic.lean): C04: `(t + d) - d = t` for every real date-time, in all years.
* `PyCal.DateTime.C04_sub_add_cancel` (C01_C05_Arithmetic.lean): C04: `(t - d) + d = t`.
* `PyCal.DateTime.C04_add_add` (C01_C05_Arithmetic.lean): C04: durations act additively: `(t + a) + b` is `t +` any duration with the summed total.
* `PyCal.DateTime.C04_diff_partial` (C01_C05_Arithmetic.lean): C04 (partial): `(t + d) - t` has the total of `d`, for UTC, floating and numeric-offset times, when no non-leap century year is crossed. The unrestricted claim is false (`C04_diff_fails`).
* `PyCal.DateTime.C04_floating_partial` (C01_C05_Arithmetic.lean): C04 (partial): a floating operand is read in the zone of the other one, so that the clock reading of `t + d`, taken as floating, minus `t` is `d`, and `t` minus it is `-d`. Missing: values between which the end of a skipped century year lies, `C04_diff_fails`, and dates, `C04_dateOnly_fails`.
* `PyCal.DateTime.C04_diff_fails` (C01_C05_Arithmetic.lean): C04 fails across 2100: adding one second and taking the difference gives a day more.
* `PyCal.DateTime.C04_dateOnly_fails` (C01_C05_Arithmetic.lean): The cancellation law needs a time of day: a date-only value loses sub-day amounts.
* `PyCal.DateTime.C04_dateOnly_days` (C01_C05_Arithmetic.lean): Whole days cancel for date-only values too.

### C05 The weekday of a date is the civil (Gregorian) weekday (partial)

getDayOfWeek agrees with the Gregorian calendar (weekday advances by one each civil day; 1 January 1970 was a Thursday).

* `PyCal.DateTime.C05_epoch` (C01_C05_Arithmetic.lean): C05: 1 January 1970 is a Thursday (Sunday = 0).
* `PyCal.DateTime.C05_weekday_next_partial` (C01_C05_Arithmetic.lean): C05 (partial): the weekday advances by one from a date to the next civil day, for every date except 31 December of a non-leap century year; the unrestricted claim is false, see `C05_fails`. Together with `C05_epoch` this determines the weekday for 1901..2100.
* `PyCal.DateTime.C05_weekday_window_partial` (C01_C05_Arithmetic.lean): C05 (partial): in the years 1901..2100 the weekday advances by one every civil day. Missing: the other years, `C05_fails`.
* `PyCal.DateTime.C05_fails` (C01_C05_Arithmetic.lean): C05 fails in general: Friday 31 December 2100 is followed by Sunday 1 January 2101.

### C06 Year-day get/set agree (proved)

setYearDay(n) for n in 1..length of year moves to the date whose getYearDay is n in the same year; setYearDay(-n) moves to the n-th day counted back from 31 December; setYearDay(getYearDay()) is the identity.

* `PyCal.DateTime.C06_setYearDay_pos` (C06_C09_SetDay.lean): C06: for every `n ≥ 1`, `setYearDay(n)` moves to the date `n - 1` days after 1 January of the year, keeping the time of day.
* `PyCal.DateTime.C06_setYearDay_neg` (C06_C09_SetDay.lean): C06: for every `n ≥ 1`, `setYearDay(-n)` moves to the date from which `n - 1` days lead to 31 December of the year.
* `PyCal.DateTime.C06_yearDay` (C06_C09_SetDay.lean): C06: the year-day number of a real date counts the days from 1 January.
* `PyCal.DateTime.C06_get_set` (C06_C09_SetDay.lean): C06: inside the year, set and get agree, the year and the time of day stay.
* `PyCal.DateTime.C06_set_get` (C06_C09_SetDay.lean): C06: setting the year day to the current one is the identity.

### C07 Day-of-month get/set agree for negative offsets (proved)

setMonthDay(n)/setMonthDay(-n) move to the n-th day from the start / end of the month when it exists, and isMonthDay(n) holds exactly for that date.

* `PyCal.DateTime.C07_setMonthDay_pos` (C06_C09_SetDay.lean): C07: `setMonthDay(n)` moves to the `n`-th day of the month when it exists.
* `PyCal.DateTime.C07_setMonthDay_neg` (C06_C09_SetDay.lean): C07: `setMonthDay(-n)` moves to the `n`-th day from the end of the month when it exists.
* `PyCal.DateTime.C07_isMonthDay` (C06_C09_SetDay.lean): C07: `isMonthDay(n)` is true exactly for the `n`-th day, `isMonthDay(-n)` exactly for the `n`-th day from the end, `isMonthDay(0)` never.

### C08 n-th weekday of the month (proved)

setDayOfWeekInMonth(n, wd) with n>0 (n<0) moves to the date of that month that falls on weekday wd and has exactly n-1 earlier (|n|-1 later) such dates in the month, whenever such a date exists; isDayOfWeekInMonth(n, wd) is true exactly for that date, and for n=0 exactly for dates on weekday wd.

* `PyCal.DateTime.C08_set_pos` (C06_C09_SetDay.lean): C08: if the month has a day `d` on weekday `wd` with exactly `n - 1` earlier ones, then `setDayOfWeekInMonth(n, wd)` moves there, changing nothing else.
* `PyCal.DateTime.C08_set_neg` (C06_C09_SetDay.lean): C08: the same counted from the end of the month.
* `PyCal.DateTime.C08_is` (C06_C09_SetDay.lean): C08: `isDayOfWeekInMonth(n, wd)` is true exactly for a date on weekday `wd` that is the `n`-th one of its month (from the end when negative; any when zero).

### C09 n-th weekday of the year (proved)

setDayOfWeekInYear(n, wd) moves to the n-th wd of the year, counted from 1 January (n>0) or from 31 December (n<0).

* `PyCal.DateTime.C09_set_pos` (C06_C09_SetDay.lean): C09: if the day with index `k` (0 = 1 January) falls on `wd` and exactly `n - 1` earlier days of the year do, `setDayOfWeekInYear(n, wd)` moves there, keeping the time of day.
* `PyCal.DateTime.C09_set_neg` (C06_C09_SetDay.lean): C09: the same counted back from 31 December.

### C10 getWeekNo is the ISO 8601 week number (partial)

getWeekNo returns k exactly when the Thursday of the Monday-based week containing the date is the k-th Thursday of its year.

* `PyCal.DateTime.C10_weekNo_partial` (C10_C13_Weeks.lean): C10: `getWeekNo()` is the ISO week number: the Thursday of the date's week is a Thursday, and it is the `k`-th Thursday of its own year where `k` is the returned number. The library's weekday arithmetic is only right away from non-leap century years (see C05); the two hypotheses exclude dates in such a year and in the year after it. Missing: those dates, `C10_fails`.
* `PyCal.DateTime.C10_weekNo_window_partial` (C10_C13_Weeks.lean): C10 (partial): in the years 1902..2099 the two hypotheses always hold. Missing: the other years, `C10_fails`.
* `PyCal.DateTime.C10_fails` (C10_C13_Weeks.lean): C10 fails in the far years: 31 December 2100 is a Friday in week 52; the Sunday two days later is in the same week, but `getWeekNo()` puts it into week 1.

### C11 setWeekNo reaches the requested week (partial)

After setWeekNo(n) (n a week number of the year) the date has the same weekday as before and getWeekNo() == n.

* `PyCal.DateTime.C11_setWeekNo_partial` (C10_C13_Weeks.lean): C11 (partial): for a date that is not a Sunday, in a year that does not start on a Sunday, `setWeekNo(n)` reaches ISO week `n` and keeps the weekday, for `n` up to 52, and for 53 if the year has 53 Thursdays. Years next to a non-leap century year are excluded (C05). For Sundays and for years starting on a Sunday the claim is false: `C11_fails_sunday`, `C11_fails_year_starting_sunday`.
* `PyCal.DateTime.C11_fails_sunday` (C10_C13_Weeks.lean): C11 fails on Sundays: from Sunday 15 November 2026, `setWeekNo(10)` lands in week 9.
* `PyCal.DateTime.C11_fails_year_starting_sunday` (C10_C13_Weeks.lean): C11 fails in years starting on a Sunday: from Wednesday 3 May 2023, `setWeekNo(10)` lands in week 11.
* `PyCal.DateTime.C11_exact_partial` (C11_Exact.lean): C11 (partial): what `setWeekNo(n)` does for every date that is not in week `n` already, `n` from 2 to 51: it keeps the weekday, and lands in week `n`, one week too late in a year that starts on a Sunday, one week too early from a Sunday (so that from a Sunday in a year that starts on one it is right). Years next to a non-leap century year are excluded (C05). Missing: the claim itself where a week is missed, `C11_fails_sunday` and `C11_fails_year_starting_sunday`.

### C12 First given weekday on or after a day of the month (proved)

setNextDayOfWeek(start, wd) moves to the first date on or after day `start` of the month that falls on wd.

* `PyCal.DateTime.C12_setNextDayOfWeek` (C06_C09_SetDay.lean): C12: `setNextDayOfWeek(start, wd)` moves to the first date on or after day `start` of the month that falls on `wd`: it is `k < 7` days after that day, the weekday is `wd`, and none of the days before is. `NoSkip` only matters when the result spills from December of a non-leap century year (1800, 1900, 2100, ...) into the next year.

### C13 Monthly stepping keeps the day of the month (partial)

Stepping a date by a MONTHLY interval lands on the nearest later month (in steps of the interval) that has the same day of month, keeping the day number.

* `PyCal.DateTime.C13_monthly_allow_invalid` (C10_C13_Weeks.lean): C13: in the mode used for rules with BYxxx parts (`allow_invalid`), stepping by `n` months advances the month count by exactly `n` and keeps day and time, for every date.
* `PyCal.DateTime.C13_monthly_partial` (C10_C13_Weeks.lean): C13 (partial): otherwise, if the target month has the day, stepping goes there and changes nothing else. The documented behaviour for the remaining case ("find the next month with the same day number") is not what the code does, see `C13_monthly_spill` and `C13_fails`.
* `PyCal.DateTime.C13_monthly_spill` (C10_C13_Weeks.lean): C13: what happens when the target month is too short: the surplus days spill into the month after it.
* `PyCal.DateTime.C13_fails` (C10_C13_Weeks.lean): C13 fails: one month after 31 January 2023 is 3 March 2023, not 31 March.
* `PyCal.DateTime.C13_monthly_28_partial` (C10_C13_Weeks.lean): C13 (partial): every day up to the 28th is kept, in every month. Missing: the days from the 29th on, `C13_fails`.
* `PyCal.DateTime.C13_daily_weekly` (C10_C13_Weeks.lean): C13, the other frequencies: DAILY and WEEKLY stepping by `n` days / weeks is `n` resp. `7n` steps of the calendar, keeping the time of day.
* `PyCal.DateTime.C13_clock` (C10_C13_Weeks.lean): C13, SECONDLY, MINUTELY and HOURLY: `n` steps are `n`, `60 n`, `3600 n` clock ticks.

### C14 Durations keep their total (proved)

Duration(n).getTotalSeconds() == n for every integer n; the constructor with weeks/days/hours/minutes/seconds totals them; durations compare by total.

* `PyCal.Duration.C14_total_ofSeconds` (C14_Duration.lean): C14: `Duration(n).getTotalSeconds() == n`.
* `PyCal.Duration.C14_total_ofAmounts` (C14_Duration.lean): C14: the keyword constructor totals its amounts.
* `PyCal.Duration.C14_ofSeconds_parts` (C14_Duration.lean): C14: the stored parts are in range (a whole number of weeks, or days with a time below 24 hours), and the direction flag is the sign.
* `PyCal.Duration.C14_compare` (C14_Duration.lean): C14: comparison is comparison of totals, so exactly one of `<`, `==`, `>` holds.
* `PyCal.Duration.C14_eq_iff` (C14_Duration.lean): C14: durations are equal exactly if they last equally long, however they are put.

### C15 Duration text round trip (proved)

Parsing the text generated for a duration gives a duration with the same total; the generated text conforms to the RFC 5545 grammar for dur-value.

* `PyCal.Duration.C15_parse_grammar` (C15_C16_DurationText.lean): C15: every text of the RFC 5545 duration grammar is accepted (in either parser mode) and gives the duration it denotes.
* `PyCal.Duration.C15_generate_grammar` (C15_C16_DurationText.lean): C15: the generated text of an unmixed duration conforms to the grammar and denotes the duration.
* `PyCal.Duration.C15_roundtrip` (C15_C16_DurationText.lean): C15: round trip of every unmixed duration, in either parser mode.
* `PyCal.Duration.C15_roundtrip_seconds` (C15_C16_DurationText.lean): C15: for durations made from a number of seconds the round trip restores the number.
* `PyCal.Duration.C15_roundtrip_parsed` (C15_C16_DurationText.lean): C15: whatever text was parsed, generating and parsing again gives an equal duration, and the generated text conforms to the grammar (even when the text parsed did not).
* `PyCal.Duration.C15_reused_fails` (C15_C16_DurationText.lean): C15 does not extend to durations mixing weeks with other parts, which arise when a text in weeks is parsed into an object already holding days: their text loses everything but the weeks.

### C16 Parsing a duration depends only on the text (partial)

The value of a Duration after parse(text) is determined by text, not by what the object held before.

* `PyCal.Duration.C16_fails` (C15_C16_DurationText.lean): C16 is false: parsing into an object that already holds a duration keeps the parts the text does not mention.
* `PyCal.Duration.C16_fresh_partial` (C15_C16_DurationText.lean): C16, part that holds: starting from objects that hold no amounts (fresh ones; the direction is irrelevant) the result is determined by the text. Missing: objects holding a nonzero duration.
* `PyCal.Duration.C16_accept_partial` (C15_C16_DurationText.lean): C16, part that holds for every prior state: whether the text is accepted, and the sign of the result, do not depend on the prior state. Missing: the amounts, `C16_fails`.
* `PyCal.Duration.C16_exact_partial` (C16_Exact.lean): C16 (partial): what parsing gives for every prior state. A text is refused whatever the object held, or it gives the direction and amounts for the units whose letter is in it, and the object keeps what it held of the other units. Needed: strict parsing, or a text without weeks (after a number of weeks anything is accepted, `C124_fails_duration`).

### C17 DateTime comparison is a total order (partial)

<, ==, > on date-times are mutually exclusive, antisymmetric and transitive.

* `PyCal.DateTime.C17_trichotomy` (C17_C18_Compare.lean): C17 (all values): exactly one of `a < b`, `a == b`, `a > b` is true.
* `PyCal.DateTime.C17_antisymm` (C17_C18_Compare.lean): C17 (all values): `<` and `>` mirror each other, `==` is symmetric and reflexive, `<=` and `>=` are "less or equal" and "greater or equal".
* `PyCal.DateTime.C17_dates_partial` (C17_C18_Compare.lean): C17 (partial): comparison is a transitive order on date-only values, and `a < b` means an earlier calendar date. Missing: date-only values together with others, `C17_fails_dates`.
* `PyCal.DateTime.C17_one_zone_partial` (C17_C18_Compare.lean): C17 (partial): comparison is a transitive order on the date-times that are floating or in one fixed zone, and it is the order of the clock readings. Missing: floating times together with several zones, `C17_fails_floating`.
* `PyCal.DateTime.C17_instants_partial` (C17_C18_Compare.lean): C17 (partial): comparison is a transitive order on instants in any mixture of zones, namely the order of their absolute times, if in each zone later clock times are later instants. Missing: times that the clock of the zone leaves out, `C17_fails_gap`, and mixtures with dates and floating times.
* `PyCal.DateTime.C17_fails_dates` (C17_C18_Compare.lean): C17 fails with date-only values in the mixture: 10:00 equals the date, the date equals 09:00, but 10:00 is after 09:00.
* `PyCal.DateTime.C17_fails_floating` (C17_C18_Compare.lean): C17 fails for floating times next to times in two zones: 12:00+01:00 equals floating 12:00, which equals 12:00Z, but 12:00+01:00 is before 12:00Z.
* `PyCal.DateTime.C17_fails_gap` (C17_C18_Compare.lean): C17 fails for instants when a clock time inside a spring-forward gap takes part: by the clock 01:30 is before 02:15, but 02:15 (-4h) = 06:15Z < 06:20Z < 06:30Z = 01:30 (-5h).

### C18 Equal date-times have equal hashes (partial)

a == b implies hash(a) == hash(b), so that sets and dicts of date-times work.

* `PyCal.DateTime.C18_hash_partial` (C17_C18_Compare.lean): C18 (partial): equal date-times have equal hashes if both are date-only in the same zone, or neither is date-only and they are in the same zone or both not floating. The environment must not look at an irrelevant field (`tzid` of a UTC time), which holds because `tzOffset` of a UTC time is `0`. The unrestricted statement is false: `C18_fails_dates`, `C18_fails_floating`.
* `PyCal.DateTime.C18_fails_dates` (C17_C18_Compare.lean): C18 fails: a date equals every time on that day but has another hash.
* `PyCal.DateTime.C18_fails_floating` (C17_C18_Compare.lean): C18 fails: a floating time equals the same clock time in every zone but has another hash.

### C19 The cached absolute time is never stale (partial)

After any sequence of operations on a DateTime (setters, offsets, parsing, timezone changes, queries), getPosixTime() returns the value computed from the current fields.

* `PyCal.Obj.C19_posix_partial` (C19_Caches.lean): C19 (partial): after any sequence of safe calls on a new date-time object, `getPosixTime()` and `timeZoneSecondsOffset()` return what the current fields say. Missing: the calls that are not safe, `C19_fails_offset_query`, `C19_fails_parse` and `C19_fails_century`.
* `PyCal.Obj.C19_queries_partial` (C19_Caches.lean): C19 (partial): queries have no influence — interspersing a sequence of calls with queries (which fill the caches) leads to the same fields as the sequence without them. Missing: the answers after calls that are not safe (as for `C19_posix_partial`).
* `PyCal.Obj.C19_fails_offset_query` (C19_Caches.lean): C19 fails: asking for the offset relative to UTC changes the absolute time.
* `PyCal.Obj.C19_fails_parse` (C19_Caches.lean): C19 fails: a `parse` of `20210101X` raises, leaves the new date in the fields and the old absolute time in the cache.
* `PyCal.Obj.C19_fails_century` (C19_Caches.lean): C19 fails: 2100-12-31T23:00:00-02:00 becomes 2101-01-01T01:00:00Z, whose absolute time the library computes one day later than the restored cached value.

### C20 TEXT value escaping is lossless and safe (proved)

Decoding the escaped form of any text yields that text, and the escaped form contains no raw CR, LF and no unescaped comma or semicolon; any text using only the escapes of the RFC decodes to what the RFC says.

* `PyCal.C20_decode_escape` (C20_C21_Escaping.lean): C20: decoding an escaped text gives the text back, whatever the parser is told to do with invalid escapes.
* `PyCal.C20_escaped` (C20_C21_Escaping.lean): C20: the escaped form has no raw line break, comma or semicolon, and every backslash starts an escape sequence.
* `PyCal.C20_no_linebreak` (C20_C21_Escaping.lean): C20: in particular there is no line break, which would end the content line.
* `PyCal.C20_decode_rfc` (C20_C21_Escaping.lean): C20: a text in which every backslash begins one of the escapes the RFCs define is decoded to what the RFCs say it means; in particular `\\N` is a line break.
* `PyCal.C20_escape_decode` (C20_C21_Escaping.lean): C20: every escaped text (of the strict grammar) is accepted by the decoder, and is the only escaped text with that meaning up to the choice of the letter case of `\n`: decoding is inverted by escaping.

### C21 Parameter value (RFC 6868) encoding is lossless (proved)

Decoding an encoded parameter value yields the original with line breaks normalised to LF; the encoded form contains no double quote and no line break.

* `PyCal.C21_decode_rfc` (C20_C21_Escaping.lean): C21: `decodeParameterValue` is the RFC 6868 decoding of every text, encoded or not.
* `PyCal.C21_roundtrip` (C20_C21_Escaping.lean): C21: decoding an encoded parameter value gives the original with line breaks as LF.
* `PyCal.C21_roundtrip_exact` (C20_C21_Escaping.lean): C21: a value without carriage returns is restored exactly.
* `PyCal.C21_encoded_safe` (C20_C21_Escaping.lean): C21: the encoded form has no double quote and no line break.

### C22 Line folding is lossless (proved)

Reading back a generated content line gives exactly the unfolded content line, and no output line exceeds 75 octets (excluding the line break); multi-octet UTF-8 characters are never split. In any text a line that starts with a space or a tab continues the one before it, whether lines end with CR LF or LF.

* `PyCal.C22_fold` (C22_Folding.lean): C22: folding terminates for every UTF-8 content line; unfolding the output as in RFC 5545 gives the content line; every output line is at most 75 octets (indeed 74); no character is split.
* `PyCal.C22_read_back` (C22_Folding.lean): C22: writing any sequence of properties and reading the text with `readFoldedLine` gives back exactly the sequence of content lines.
* `PyCal.C22_unfold` (C22_Folding.lean): C22: any text of lines that end with CR LF or with LF alone, in which a line that starts with a space or a tab continues the one before it, is read as the lines that are meant.
* `PyCal.C22_nontermination` (C22_Folding.lean): C22 needs UTF-8: on other bytes the fold loop may never end (here an "X:" followed by 100 continuation bytes).

### C23 vCard text lists survive a round trip (partial)

Parsing the text generated for a list of strings (ORG, CATEGORIES, NICKNAME) yields the list.

* `PyCal.C23_roundtrip_partial` (C23_C24_Lists.lean): C23, exact range of validity: the round trip restores a non-empty list exactly when no string but the last ends in a backslash. Missing for C23: lists where another string does.
* `PyCal.C23_fails` (C23_C24_Lists.lean): C23 is false.

### C24 vCard structured values (N, ADR) survive a round trip (partial)

Parsing the text generated for an N/ADR value of the proper number of components yields the same components; missing components are filled up with empty ones and surplus ones dropped, kept or rejected as the parser context says.

* `PyCal.C24_roundtrip_partial` (C23_C24_Lists.lean): C24 for values in which no string but the last ends in a backslash: a structured value with the proper number of components is restored. Missing for C24: values where another string ends in a backslash.
* `PyCal.C24_size_partial` (C23_C24_Lists.lean): C24: values with too few components are filled up with empty ones; of values with too many the first ones are kept, all are kept, or the value is rejected, as the parser is told. Missing: texts that end in a backslash, `C24_fails`.
* `PyCal.C24_exact_partial` (C23_C24_Lists.lean): C24, exact range of validity: a structured value is restored exactly if no string but the last ends in a backslash. Missing for C24: values where another string does.
* `PyCal.C24_fails` (C23_C24_Lists.lean): C24 is false: `N` with a last name ending in a backslash.

### C25 Date-time text round trip (partial)

Parsing the iCalendar or ISO text of a valid date-time in years 0..9999 gives back the same fields, date-only flag and UTC flag.

* `PyCal.DateTime.C25_text_partial` (C25_C26_DateTimeText.lean): C25 for date-times without a numeric UTC offset: parsing either text form restores all fields, the date-only flag and the UTC flag; only the timezone name, which is not part of the text, is gone. (`ext`: the ISO form `getXMLText`, which needs the `fullISO` parser; the iCalendar form can be read by both parsers.) Missing for C25: dates carrying the UTC flag, and numeric offsets (see `C25_offset` for those that do survive).
* `PyCal.DateTime.C25_offset` (C25_C26_DateTimeText.lean): C25 for numeric offsets of whole minutes below 100 hours, with the `fullISO` parser: everything is restored, the offset included.
* `PyCal.DateTime.C25_offset_ical_fails` (C25_C26_DateTimeText.lean): C25 is false for a numeric offset in iCalendar text: what is generated cannot be parsed.
* `PyCal.DateTime.C25_utc_date_fails` (C25_C26_DateTimeText.lean): C25 is false for a date with the UTC flag (a UTC date-time after `setDateOnly(True)`): the flag is lost.
* `PyCal.DateTime.C25_reuse_fails` (C25_C26_DateTimeText.lean): Parsing into an object that was used before keeps its UTC flag when the text has a numeric offset, so the result depends on more than the text.

### C26 UTC offset text round trip (partial)

Parsing the text generated for a UTC offset of less than 100 hours yields the same number of seconds.

* `PyCal.C26_roundtrip_partial` (C25_C26_DateTimeText.lean): C26 for iCalendar text (`fullISO = false`) and jCal/JSON text (`fullISO = true`, where both sides use the extended form): offsets of less than 100 hours are restored. Missing: vCard text, `C26_vcard_fails`, and longer offsets, which no standard has.
* `PyCal.C26_vcard_fails` (C25_C26_DateTimeText.lean): C26 is false for vCard text: a `TZ` property value is written in the basic form but its parser requires the extended form, so no value can be read back.

### C27 Period predicates partition time (partial)

For a period with start < end exactly one of isDateBeforePeriod, isDateWithinPeriod, isDateAfterPeriod holds for each instant; isPeriodOverlap is symmetric and true exactly when some instant is within both (for non-empty periods). The duration of a period, added to its start, gives its end.

* `PyCal.Period.C27_partition` (C27_Period.lean): C27: for a period whose start is before its end, each date-time of the same kind is exactly one of before, within and after the period.
* `PyCal.Period.C27_half_open` (C27_Period.lean): C27: the ends of the interval: the start is within, the end is after.
* `PyCal.Period.C27_overlap_symm` (C27_Period.lean): C27: overlap is symmetric (for all periods).
* `PyCal.Period.C27_overlap` (C27_Period.lean): C27: two non-empty periods overlap exactly when some date-time of their kind is within both.
* `PyCal.Period.C27_ends` (C27_Period.lean): C27: the ends are the ones given; a duration of `n` seconds ends `n` ticks of the clock after the start.
* `PyCal.Period.C27_duration_partial` (C27_Period.lean): C27 (partial): the duration of a period is the time from its start to its end: adding it to the start gives the end, which is of the same kind, and a period given by its duration has that one. Missing: values between which the end of a skipped century year lies, `C03_posix_fails`, dates, and time zones whose offset changes, `C27_fails_duration`.
* `PyCal.Period.C27_fails_duration` (C27_Period.lean): C27 fails: in a time zone whose offset grows by an hour at 02:00, a period from 01:00 to 04:00 is two hours long, and two hours after its start by the clock is 03:00.

### C28 Simple recurrence expansion is exact (partial)

Expanding a rule with only FREQ, INTERVAL, COUNT, UNTIL over a range yields exactly the dates start + k*interval (k = 0, 1, ...; months/years lacking the day are skipped) that lie in the range, are within UNTIL, and are among the first COUNT, in strictly increasing order and without repetition.

* `PyCal.Rule.C28_exact_partial` (C28_Expansion.lean): C28 (partial): the expansion over a range of a rule without BYxxx parts consists of exactly those repetitions of the start that exist, lie in the range, are not after UNTIL and are among the first COUNT existing ones; they come in strictly increasing order. Needed: everything is of one kind (`Sound`), in particular a date-only start is not repeated hourly, minutely or secondly; COUNT is at least 1; COUNT and UNTIL are not both given; the start is not after UNTIL. The claim fails without these, see `C28_fails_dates`, `C28_fails_until`; the expansion may also not end, see `C28_fails_endless`.
* `PyCal.Rule.C28_ends_partial` (C28_Expansion.lean): C28 (partial): under the same conditions the expansion ends, provided a start on 29 February is in a Gregorian leap year (see `C28_fails_endless`).
* `PyCal.Rule.C28_fails_until` (C28_Expansion.lean): C28 fails: a start after UNTIL is returned all the same.
* `PyCal.Rule.C28_fails_dates` (C28_Expansion.lean): C28 fails: a date-only start repeated hourly stays on its date, which is returned again and again.
* `PyCal.Rule.C28_fails_endless` (C28_Expansion.lean): C28 fails: a yearly repetition every 400 years of 29 February 1700 (a leap day under the Julian rule the library uses up to 1752) never finds another leap day and does not end.

### C29 COUNT and UNTIL bound every expansion (partial)

However the range is chosen, the instances returned by expanding a rule with COUNT=n number at most n, and none is after UNTIL.

* `PyCal.Rule.C29_count` (C29_C30_Cache.lean): C29, COUNT: however often and with whatever starts, ranges, offsets and instance limits a rule with `COUNT = n ≥ 1` has been expanded before, an expansion returns at most `n` dates.
* `PyCal.Rule.C29_count_by` (C29_C30_Cache.lean): C29, BYxxx parts: a rule with BYxxx parts and `COUNT = n` generates at most `n - 1` dates besides the start.
* `PyCal.Rule.C29_until_partial` (C29_C30_Cache.lean): C29 (partial), UNTIL: whatever queries with the bound `B` were made before, no date an expansion returns is after `B`. The bound is the UNTIL value itself, or for floating starts its clock time moved by the float offset. For rules without BYxxx parts the start must not be after the bound, otherwise it is returned all the same (`C28_fails_until`), and COUNT must not be given as well, for then UNTIL is ignored (`C29_fails_both`).
* `PyCal.Rule.C29_fails_both` (C29_C30_Cache.lean): C29 fails: a rule without BYxxx parts and with both COUNT and UNTIL (RFC 5545 and the parser forbid it, the setters do not) goes on after UNTIL.
* `PyCal.Rule.C29_fails_zero` (C29_C30_Cache.lean): C29 fails: COUNT=0 (set through `setCount`; the parser rejects it) still gives one date.

### C30 Recurrence query results do not depend on earlier queries (partial)

Expanding a rule over a range returns the same instances whatever expansions were made on the same rule object before (the cache is transparent).

* `PyCal.Rule.C30_simple_partial` (C29_C30_Cache.lean): C30 (partial), rules without BYxxx parts: whatever queries were made before on the rule object, for whatever starts and ranges, the answer (dates and `limited` flag) is the one a new object gives. Needed: the earlier queries and this one have starts of one kind and the same float offset, and none of them raised `TooManyInstancesError`. Without that the claim fails: `C30_fails_raise`, `C30_fails_offset`, `C30_fails_kind`.
* `PyCal.Rule.C30_fails_raise` (C29_C30_Cache.lean): C30 fails: a query that raises `TooManyInstancesError` leaves its unfinished list in the cache of an earlier, shorter query. Here ten days are asked for, then twenty with at most three instances, then ten again, and only four dates come back.
* `PyCal.Rule.C30_fails_max` (C29_C30_Cache.lean): C30 fails: an instance limit is not applied when the answer comes from the cache.
* `PyCal.Rule.C30_fails_offset` (C29_C30_Cache.lean): C30 fails: the float offset is not part of the cache key. An hourly rule with UNTIL one o'clock UTC and a floating start at midnight is asked first with offset 0, then with one hour: a new object returns three dates, the used one the two from before.
* `PyCal.Rule.C30_fails_kind` (C29_C30_Cache.lean): C30 fails: a date-only start compares equal to a time on that date, so the dates cached for one are returned for the other.
* `PyCal.Rule.C30_complex_partial` (C30_C55_Complex.lean): C30 (partial), rules with BYxxx parts: whatever queries were made before on the rule object, for whatever starts and ranges, the dates returned are those a new object returns. Needed: the conditions of `C54_exact_partial` for this query and the earlier ones, starts of one kind and the same float offset, and no `TooManyInstancesError` before. The `limited` flag, unlike that of rules without BYxxx parts, can depend on the earlier queries: `C30_fails_limited`.
* `PyCal.Rule.C30_fails_limited` (C30_C55_Complex.lean): C30 fails: "on the first of the month until 15 February" is asked until April and then until 10 February: the second answer is marked as complete, while a new object marks it as limited.
* `PyCal.RecurrenceSet.C30_set_partial` (C30_Sets.lean): C30 (partial), recurrence sets: whatever queries were made before on the set, for whatever starts and ranges, the dates returned are those that a set of new rules returns (C34 says which these are). Needed: the conditions of `C30_simple_partial` or `C30_complex_partial` for each rule in this query and the earlier ones, and no `TooManyInstancesError` (`C30_fails_raise`).

### C31 BYxxx limit parts are exact filters (partial)

A BYMONTH / BYMONTHDAY / BYDAY / BYYEARDAY / BYHOUR / BYMINUTE / BYSECOND part used as a limit keeps exactly the candidate dates that match one of its values, in the original order.

* `PyCal.Rule.C31_limits_partial` (C31_C33_Parts.lean): C31 (partial): used as limits, BYMONTH, BYMONTHDAY, BYDAY (numbers count within the month), BYHOUR, BYMINUTE and BYSECOND keep exactly the dates that match one of their values, in order. Missing: BYYEARDAY (`C31_fails_yearDay`) and negative BYWEEKNO values (`C31_fails_weekNo`).
* `PyCal.Rule.C31_weekNo_partial` (C31_C33_Parts.lean): C31 (partial), BYWEEKNO: dates are kept exactly if one of the positive values is the ISO week number, i.e. (C10) the Thursday of the week is the `n`-th Thursday of its own year. Missing: negative values, `C31_fails_weekNo`, and years outside 1902..2099 (C10).
* `PyCal.Rule.C31_fails_weekNo` (C31_C33_Parts.lean): C31 fails: BYWEEKNO=-1 is the last week of the year, but no date is kept.
* `PyCal.Rule.C31_fails_yearDay` (C31_C33_Parts.lean): C31 fails: BYYEARDAY is not used at all with a frequency below YEARLY. The candidates for "hourly, on day 1 of the year" on 2 January are those of "hourly".

### C32 BYxxx expand parts enumerate exactly the specified dates (partial)

A BYMONTH / BYMONTHDAY / BYDAY / BYHOUR / BYMINUTE / BYSECOND part used as an expansion produces, for every candidate, exactly the dates obtained by substituting each of its values; BYWEEKNO gives the date on the same weekday in each of the weeks.

* `PyCal.Rule.C32_substitute` (C31_C33_Parts.lean): C32: BYMONTH, BYHOUR, BYMINUTE and BYSECOND as expansions replace the month, hour, minute or second of every date by every value in turn, changing nothing else.
* `PyCal.Rule.C32_monthDay` (C31_C33_Parts.lean): C32, BYMONTHDAY: of the dates produced, exactly those that exist count, and these are exactly the dates in the month of one of the given ones, with its time of day, that match one of the values.
* `PyCal.Rule.C32_day_monthly` (C31_C33_Parts.lean): C32, BYDAY within months: the same for weekdays, with or without number.
* `PyCal.Rule.C32_day_yearly_partial` (C31_C33_Parts.lean): C32 (partial), BYDAY within years: exactly the dates of the year of one of the given dates, with its time of day, that match one of the values. Missing: the numbers 53 and -53, with which the result can lie in the next or previous year (`C32_fails_yearly`).
* `PyCal.Rule.C32_fails_yearly` (C31_C33_Parts.lean): C32 fails: 2026 has 52 Mondays, but BYDAY=53MO in that year gives the first one of 2027.
* `PyCal.Rule.C32_day_weekly_partial` (C31_C33_Parts.lean): C32 (partial), BYDAY within weeks: exactly the dates in the week (starting at WKST) of one of the given dates, with its time of day, on one of the listed weekdays. Values with a number are ignored (RFC 5545 forbids them here). Missing: years outside 1902..2099, where weekdays are wrong (C05).
* `PyCal.C32_weekNo_partial` (C32_WeekNo.lean): C32 (partial), BYWEEKNO: a YEARLY rule with BYWEEKNO alone gives one date for each week number listed, in that order, in that ISO week, on the weekday and at the time of the date it starts from. Weeks 1 to 52, a date that is not a Sunday, a year that does not start on a Sunday and is not near a non-leap century year. Missing: Sundays and years that start on a Sunday, which give other weeks, `C11_fails_sunday` and `C11_fails_year_starting_sunday`.

### C33 BYSETPOS picks the listed positions (partial)

BYSETPOS keeps, from the sorted candidate set of one interval, exactly the elements at the listed 1-based positions (negative: from the end), each once, in order.

* `PyCal.Rule.C33_setPos_partial` (C31_C33_Parts.lean): C33 (partial): BYSETPOS gives, for the candidates sorted by absolute time, one element for each listed position that exists (0 never does), in the order of the list. "Each once, in order" is missing: see `C33_once_partial`, `C33_fails`.
* `PyCal.Rule.C33_mem` (C31_C33_Parts.lean): C33: whatever positions are listed, only candidates are kept, and a date is kept exactly if it is at one of the positions of the sorted candidates.
* `PyCal.Rule.C33_once_partial` (C31_C33_Parts.lean): C33 (partial): if all listed positions are positive, distinct, and the candidates are distinct, no date is given twice. Missing: negative positions, `C33_fails`.
* `PyCal.Rule.C33_fails` (C31_C33_Parts.lean): C33 fails: with one candidate, BYSETPOS=1,-1 gives it twice, and the whole expansion of "every month, on the 17th, first and last" has every date after the first twice.

### C34 Recurrence set = inclusions minus exclusions (partial)

Expanding a recurrence set over a range yields every date of RRULEs and RDATEs in the range that is not excluded by an EXRULE or EXDATE, once each, and nothing else.

* `PyCal.RecurrenceSet.C34_exact_partial` (C34_RecurrenceSet.lean): C34 (partial): the result has exactly the instants that are included and not excluded, each of them once, and all its elements are included dates. The condition (`Uniform`): everything compares as an instant, and periods that overlap the range start in it. The iteration order of the sets (`o`) does not matter, nor does `maxInstances`, if nothing is raised. Missing: dates among date-times, `C34_fails_dates`, and periods that began before the range, `C34_fails_period`.
* `PyCal.RecurrenceSet.C34_limited_partial` (C34_RecurrenceSet.lean): C34, the returned flag: it tells if something was left out because of the range. Missing: as for `C34_exact_partial`.
* `PyCal.RecurrenceSet.C34_ascending_partial` (C34_RecurrenceSet.lean): C34, order: without exclusions the result is in ascending order. Missing: the order with exclusions, `C34_fails_order`.
* `PyCal.RecurrenceSet.C34_fails_order` (C34_RecurrenceSet.lean): C34 fails: with an exclusion the result has no order (any order in which Python may iterate over a set).
* `PyCal.RecurrenceSet.C34_fails_dates` (C34_RecurrenceSet.lean): C34 fails: an EXDATE that is a date equals the date-time of that day but does not exclude it, as its hash differs.
* `PyCal.RecurrenceSet.C34_fails_period` (C34_RecurrenceSet.lean): C34 fails: the start of an RDATE period that began before the range is returned although there is an EXDATE for it.

### C35 UTC offset lookup returns the last transition at or before the time (partial)

getTimezoneOffsetSeconds for a local (or UTC) time returns the offset of the latest transition whose time is at or before it, and the offset before the first transition if there is none.

* `PyCal.C35_offset_partial` (C35_C36_Offset.lean): C35: after any queries, the UTC offset given for a time is that after the last transition at or before it, and 0 before the first; for a search relative to UTC if the transitions up to then are in the same order in UTC and none of them moves over the turn of a year. Missing: times before the first transition, `C35_fails_before`, and the element in force, `C35_fails_element`.
* `PyCal.C35_ends_partial` (C35_Ends.lean): C35 (partial): in a time zone as parsed (see `C35_zone_partial`), in whatever state previous questions left it, every question about an offset is answered (the calculation ends), and allowing more iterations gives the same answer. Missing: rules that can run forever (`C28_fails_endless`).
* `PyCal.C35_zone_partial` (C35_Zones.lean): C35 (partial): in a time zone as parsed, with whatever RRULEs (with values in their ranges; with BYxxx parts not WEEKLY) and RDATEs its elements have, after any queries, the UTC offset given for a time is that after the last transition at or before it, and 0 before the first. Needed: transitions at whole minutes; relative to UTC, that transitions up to then are in the same order in UTC and none of them moves over the turn of a year. Missing: before the first transition (`C35_fails_before`), the element itself (`C35_fails_element`), date-only queries (`C36_fails_date`).
* `PyCal.C35_fails_before` (C35_Zones.lean): C35 fails: before the first transition the offset is 0, not the TZOFFSETFROM of the first.
* `PyCal.C35_fails_element` (C35_Zones.lean): C35 fails for the element (whose TZNAME is shown): for 1 July 2010 in Eastern Time the element found is STANDARD, as only transitions up to 1 January are looked at, though the offset is that of daylight saving time; after a query for the offset, which fills the cache, it is DAYLIGHT.

### C36 Timezone offset queries do not depend on earlier queries (partial)

The offset returned for a time does not depend on which other times were asked about before.

* `PyCal.C36_history_partial` (C35_C36_Offset.lean): C36: the answer does not depend on what was asked before, nor on the order in which sets are run through, if no two transitions at one time lead to different offsets. Missing: transitions not at whole minutes, `C36_fails_seconds`, dates, `C36_fails_date`, the turn of the year in UTC, `C36_fails_year`, and ties, `C36_fails_tie`.
* `PyCal.C36_zone_partial` (C35_Zones.lean): C36 (partial): in a time zone as parsed, the answer does not depend on what was asked before, nor on the order in which sets are run through. Needed: as for `C35_zone_partial`, and that no two transitions at one time lead to different offsets (`C36_fails_tie`).
* `PyCal.C36_fails_seconds` (C35_Zones.lean): C36 fails: with a transition at 02:00:30, the answer for 02:00:40 is wrong after a query for 02:00:00, as the seconds are not part of the key of the cache.
* `PyCal.C36_fails_date` (C35_Zones.lean): C36 fails: a query for a date changes the answer for midnight on that date.
* `PyCal.C36_fails_year` (C35_Zones.lean): C36 fails: relative to UTC, the answer for 23:45 on 31 December 2011 depends on an earlier query for 2010, after which the transitions of local year 2012 are missing.
* `PyCal.C36_fails_tie` (C35_Zones.lean): C36 fails: with two transitions at one time, which offset is taken depends on the order in which a set is run through.

### C37 Converting to UTC keeps the absolute time (partial)

adjustToUTC does not change getPosixTime; converting a UTC time to a zone and back returns the same UTC time.

* `PyCal.C37_posix_partial` (C37_Convert.lean): C37 (partial): after any sequence of safe calls on a date-time object (C19), `adjustToUTC` does not change what `getPosixTime` returns, and leaves a UTC time unless the object is date-only or floating. Missing: conversions over the end of a century year that is not a leap year (`C37_fails_century`).
* `PyCal.C37_moment_partial` (C37_Convert.lean): C37 (partial), from any zone to any zone: after any sequence of safe calls on a date-time object that is in UTC or in a zone, `adjustTimezone` does not change what `getPosixTime` returns, if the new zone gives the same offset for the UTC time and for the clock time shown (`C37_zone_partial` says when). Missing: the hour shown twice, and the years whose end the library counts wrongly (C03).
* `PyCal.C37_roundtrip` (C37_Convert.lean): C37: a UTC time converted to a zone and back is the same UTC time exactly when the zone gives the same offset for the clock time shown as for the UTC time.
* `PyCal.C37_zone_partial` (C37_Convert.lean): C37 (partial): in a time zone as parsed (see `C35_zone_partial`), a UTC time converted to the zone and back is the same UTC time, unless the clock time shown can also be read as another time. Missing: the hour shown twice at the end of daylight saving time (`C37_fails_ambiguous`).
* `PyCal.C37_fails_ambiguous` (C37_Convert.lean): C37 fails in the hour shown twice: 06:30 UTC on 7 November 2010 is 01:30 Eastern Time, which is converted to 05:30 UTC, as 01:30 is read as daylight saving time.
* `PyCal.C37_fails_century` (C37_Convert.lean): C37 fails at the end of 2100: `adjustToUTC` over the New Year changes the absolute time by a day.
* `PyCal.C37_fails_date` (C37_Convert.lean): C37 fails for dates: a date in UTC converted to a zone behind UTC becomes the day before, and the conversion back leaves it there.

### C38 Timezone file lookup stays inside the database directory (partial)

The path opened for a TZID is inside the configured database directory, whatever the TZID.

* `PyCal.C38_slash_partial` (C38_Paths.lean): C38 (partial): if the database path is absolute and ends with a slash, the file looked for is inside the database directory, whatever the TZID. Missing: paths without the slash (`C38_fails_sibling`) and relative paths (`C38_fails_relative`).
* `PyCal.C38_sibling_partial` (C38_Paths.lean): C38 (partial): if the database path is absolute, the file looked for is inside the database directory or inside a neighbour of that directory whose name begins with the same letters. Missing: the neighbours, `C38_fails_sibling`, and relative paths, `C38_fails_relative`.
* `PyCal.C38_plain_partial` (C38_Paths.lean): C38 (partial): for an absolute database path and a TZID that does not begin with a slash and has no component `..`, the file looked for is inside the database directory. Missing: other TZIDs, `C38_fails_sibling` and `C38_fails_dots`.
* `PyCal.C38_found` (C38_Paths.lean): The files of the database are found: for a normalised absolute database path (not the root) and a TZID made of ordinary names, the file is the one with that name in the database directory.
* `PyCal.C38_fails_sibling` (C38_Paths.lean): C38 fails for every normalised absolute database path other than the root: there is a TZID for which the file looked for is outside the database directory. (The TZID begins with a slash; one with `..` does as well, see `C38_fails_dots`.)
* `PyCal.C38_fails_dots` (C38_Paths.lean): The same with `..`.
* `PyCal.C38_fails_relative` (C38_Paths.lean): C38 fails for relative database paths: with `..`, the file looked for can be further up; with the empty path (the current directory) it can be anywhere.

### C39 Timezone database lookups are stable (proved)

Once a lookup of a TZID returned a timezone, every later lookup returns the same one until the database is cleared; a timezone merged from calendar data never replaces an existing one and is never reported as standard unless found in the database directory.

* `PyCal.TzDb.C39_stable` (C39_Database.lean): C39: once a lookup of a TZID returned a time zone, every later lookup of it returns the same object, after any sequence of lookups, merges and questions, and whatever the files contain then.
* `PyCal.TzDb.C39_merge` (C39_Database.lean): C39: a time zone merged from calendar data is used for its TZID only if a lookup at that moment finds none (neither before nor in the files); then it is used for that TZID alone. No other lookup changes.
* `PyCal.TzDb.C39_mergeAll` (C39_Database.lean): C39: merging all time zones of a calendar. If the file for a TZID has only time zones with that TZID, then a lookup afterwards finds, for each TZID: the time zone that a lookup before the merge finds, else the copy of the first of the calendar's time zones with that TZID, else what it finds without the merge. The database's own calendar is not merged.
* `PyCal.TzDb.C39_inCalendar` (C39_Database.lean): C39: after any calls, a lookup gives a time zone that has the TZID asked for, if it gives one; `getTimezoneInCalendar` gives a calendar with one time zone, with that TZID, exactly if a lookup finds one, and the database is as after the lookup.
* `PyCal.TzDb.C39_standard` (C39_Database.lean): C39: a TZID is reported as standard only if a time zone with that TZID was in a file read by one of the calls since the database was new (or cleared), the present one included.
* `PyCal.TzDb.C39_merged` (C39_Database.lean): C39: a time zone that was merged from calendar data (as the lookup found none) is not reported as standard after any further calls, even if a file for it exists then.
* `PyCal.TzDb.C39_clear` (C39_Database.lean): C39: after `clear` nothing of what was known is left: any history of calls before it makes no difference to the answers after it.
* `PyCal.TzDb.C39_fails_add` (C39_Database.lean): Calls outside the claim: `addTimezone` replaces a time zone in use, and `_addStandardTimezone` after a lookup in vain reports a TZID as standard that is not found.
* `PyCal.TzDb.C39_fails_addStandard` (C39_Database.lean): C39 fails: a time zone added as a standard one, after its TZID was looked up in vain, is said to be standard but is not found.

### C40 Only complete, properly nested calendar data is accepted (partial)

Text parsing succeeds only if every BEGIN has its matching END, properly nested, and the object is complete; otherwise InvalidData is raised.

* `PyCal.C40_complete` (C40_Nesting.lean): C40: complete, properly nested data is accepted, and gives exactly the properties and components that it says, if it has a VERSION.
* `PyCal.C40_delimited` (C40_Nesting.lean): C40: accepted data begins and ends with the container's own delimiters, only blank lines being outside them, and has a VERSION property. (Nothing is said of `END:` in between, `C40_sound_partial`.)
* `PyCal.C40_sound_partial` (C40_Nesting.lean): C40: accepted data is one complete, properly nested object if the result has as many components as there are lines `BEGIN:` and no property `END`. Missing: without these conditions it is false (`C40_fails_unclosed`, `C40_fails_mismatch`, `C40_fails_twice`, `C40_fails_unknown`).
* `PyCal.C40_calendar` (C40_Nesting.lean): C40, of `Calendar`: what `Calendar.parse` accepts is what `ContainerBase.parse` accepts without components whose type differs from VTIMEZONE in case (`C40_fails_zone`), and the result is the same.
* `PyCal.C40_calendar_partial` (C40_Nesting.lean): C40, of `Calendar`: accepted data is one complete, properly nested object if nothing that was begun is missing in the result and nothing in it is called `END`. Missing: data in which something is begun and not ended, or ended and not begun, `C40_fails_unclosed`, `C40_fails_mismatch`.
* `PyCal.C40_placed` (C40_Nesting.lean): C40: in an object that is accepted, every component at any depth is in one that may contain it.
* `PyCal.C40_fails_unclosed` (C40_Nesting.lean): C40 fails: an event that is begun and never ended is accepted, and is lost.
* `PyCal.C40_fails_mismatch` (C40_Nesting.lean): C40 fails: a delimiter that ends nothing is read as a property, and what it should have ended is lost.
* `PyCal.C40_fails_twice` (C40_Nesting.lean): C40 fails: two objects are accepted and become one; the second needs no VERSION.
* `PyCal.C40_fails_leftover` (C40_Nesting.lean): C40 fails: after an event that is not ended, what follows in a second object goes into the event and is lost with it.
* `PyCal.C40_fails_unknown` (C40_Nesting.lean): C40 fails: a component called `UNKNOWN` is ended by `END:` alone, and is otherwise lost.
* `PyCal.C40_fails_errors` (C40_Nesting.lean): C40 fails: data that is not accepted need not be rejected with `InvalidData`; a VTODO in a VEVENT is `ValueError`, and no data at all gives `None` without an exception.
* `PyCal.C40_fails_zone` (C40_Nesting.lean): C40 fails: a calendar with a time zone whose delimiters are in small letters, which the standard allows, is not accepted but raises `AttributeError`; other components in small letters are accepted.
* `PyCal.C40_fails_version` (C40_Nesting.lean): C40 fails: the version is only checked when its name is in capital letters.

### C41 Component trees survive generate/parse (partial)

Parsing the lines generated for a component tree yields the same tree up to the documented ordering of properties and components.

* `PyCal.C41_roundtrip_partial` (C41_Trees.lean): C41: what is written for a container is accepted, and is the same container but for the order in which properties and components are written. Missing: components that are not `Writable` (`C41_fails_container`, `C41_fails_end`, `C41_fails_unknown`); of properties, that the line is read back, which is C46; that the lines are folded and unfolded, which is C22.
* `PyCal.C41_calendar_partial` (C41_Trees.lean): C41 (partial), of `Calendar`: the same for `Calendar.parse`, if there is no component whose type differs from VTIMEZONE in case. Missing: as in `C41_roundtrip_partial`; such components (`C41_fails_zone`).
* `PyCal.C41_fails_container` (C41_Trees.lean): C41 fails: a component with the container's type in the container; it is lost when read, and its properties are not those of the container.
* `PyCal.C41_fails_end` (C41_Trees.lean): C41 fails: a property called `BEGIN` or `END`.
* `PyCal.C41_fails_unknown` (C41_Trees.lean): C41 fails: a component of the type `UNKNOWN`.
* `PyCal.C41_fails_zone` (C41_Trees.lean): C41 fails: a component whose type is VTIMEZONE in small letters is written, but `Calendar.parse` raises.

### C42 Serialisation order is a permutation (proved)

The properties and sub-components written out are exactly those of the component, each the same number of times.

* `PyCal.C42_properties` (C42_Order.lean): C42: the properties written are those of the component, each as often as it is there.
* `PyCal.C42_same_name` (C42_Order.lean): C42: properties with the same name are written in the order in which they were added.
* `PyCal.C42_components` (C42_Order.lean): C42: the components written are those of the component, each as often as it is there, whatever the keys are; that equal components have the same type is all that is needed of `__eq__`.
* `PyCal.C42_property_order` (C42_Order.lean): C42: the listed properties come first, in the order of the list, and then the others in alphabetical order.
* `PyCal.C42_component_order` (C42_Order.lean): C42: the components with the listed names come first, in the order of the list and with the same name by key; then the others, ordered by their type and then by key, or in the order in which they are in the component if the class does not ask for them to be sorted.

### C43 Validation: check mode is read-only, fix mode repairs (partial)

validate(doFix=False) does not modify the component; after validate(doFix=True) a second validate reports no problem that the first reported as fixed.

* `PyCal.C43_check` (C43_Validate.lean): C43: in check mode nothing is changed, nothing is reported as fixed and there is no exception.
* `PyCal.C43_fix_partial` (C43_Validate.lean): C43: after fix mode, a second `validate`, in either mode, changes and fixes nothing more, and all that it reports was reported as not fixed. Missing: tables that require the property that the class removes (`C43_fails_tables`), and fix mode ends with an exception for a STATUS without text (`C43_fails_exception`).
* `PyCal.C43_classes_partial` (C43_Validate.lean): C43, of the classes of the library: after fix mode, a second `validate`, in either mode, changes and fixes nothing more, and all that it reports was reported as not fixed. Missing: that fix mode does not end with an exception, which is false (`C43_fails_exception`).
* `PyCal.C43_no_exception` (C43_Validate.lean): C43: where no STATUS is without text, fix mode ends without an exception.
* `PyCal.C43_fails_tables` (C43_Validate.lean): C43 fails for a table that requires what the class removes: a class like `VEvent` that requires DTEND and adds an empty one. It is missing again after the fix, and a second fix reports it again.
* `PyCal.C43_fails_exception` (C43_Validate.lean): C43 fails: fix mode ends with an exception if a STATUS among several has no text value.
* `PyCal.C43_fails_text` (C43_Validate.lean): C43 fails as to the text of problems: it does not say in which of two components the problem is, and can be the same for one that was fixed and one that is reported again.

### C44 Recurrence rule text round trip (partial)

Parsing the text generated for a recurrence rule yields an equal rule.

* `PyCal.C44_roundtrip_partial` (C44_C45_RuleText.lean): C44 (partial): parsing the text generated for a rule gives the rule back, all fields. Needed (`Writable`): allowed values, and nothing set that is not in use. UNTIL must be a date, UTC or floating: a time zone, which RFC 5545 does not allow there, is lost. Missing: UNTIL in a time zone, `C44_fails_zone`, COUNT and UNTIL together, `C44_fails_both`, and a rule that is to use an UNTIL it does not have, `C44_fails_missing`.
* `PyCal.C44_fails_zone` (C44_C45_RuleText.lean): C44 fails: the time zone of UNTIL is lost, and with it its meaning.
* `PyCal.C44_fails_both` (C44_C45_RuleText.lean): C44 fails: of a rule with both COUNT and UNTIL (which the setters allow) only COUNT is written.
* `PyCal.C44_fails_missing` (C44_C45_RuleText.lean): C44 fails: `setUseUntil(True)` without `setUntil`: the error while writing is swallowed and all later parts are missing from the text, which cannot be parsed.
* `PyCal.C44_reparse_partial` (C44_C45_RuleText.lean): C44 (partial), from the text: what has been parsed is written and parsed again without a change, unless it has an odd UNTIL or BYSETPOS. Missing: those rules.

### C45 Rule equality ignores the order of BYxxx values (partial)

Two rules that differ only in the order of values within a BYxxx part compare equal, and equal rules have the same parts up to order.

* `PyCal.C45_equals` (C44_C45_RuleText.lean): C45: `==` says exactly that two rules say the same, whatever the order of the values. For rules without COUNT that hold no stale count (parsed ones do not).
* `PyCal.C45_fails_stale` (C44_C45_RuleText.lean): C45 fails without the condition: a rule that had a COUNT once differs from one that had not.
* `PyCal.C45_hash_partial` (C44_C45_RuleText.lean): C45, hash, the part that holds: without the lists, equal rules have equal hash keys if their UNTIL have (that is C18). Missing: the lists, whose order changes the hash, `C45_fails_hash`.
* `PyCal.C45_fails_hash` (C44_C45_RuleText.lean): C45 fails for the hash: equal rules, both parsed, with different hash keys.

### C46 Content line round trip (partial)

Parsing the unfolded text generated for a property (name, parameters, value) yields the same name, parameters and value text.

* `PyCal.C46_roundtrip_partial` (C46_Lines.lean): C46: the text generated for a property is read back as the same group, name, parameters and value text, if the names are tokens and each parameter value is `ValueOk`. Missing: values that are not (`C46_value_iff`), values of one parameter come back in ascending order, and carriage returns as line feeds.
* `PyCal.C46_value_iff` (C46_Lines.lean): C46: exactly which parameter values survive: those that are `ValueOk` and have no carriage return.
* `PyCal.C46_fails_space` (C46_Lines.lean): C46 fails: a value that begins with a space loses it.
* `PyCal.C46_fails_backslash` (C46_Lines.lean): C46 fails: a quoted value that ends in a backslash makes the line unreadable.
* `PyCal.C46_fails_swallow` (C46_Lines.lean): C46 fails: with a quote in the value text, part of the value becomes part of the parameter.
* `PyCal.C46_fails_order` (C46_Lines.lean): C46 fails: the values of a parameter come back in another order, so that `Parameter.__eq__`, which compares the lists, says they differ.
* `PyCal.C46_fails_novalues` (C46_Lines.lean): C46 fails: in iCalendar a parameter without values makes the line unreadable, or swallows part of the value.

### C47 Calendar UID index agrees with its components (partial)

After any sequence of addComponent, removeComponent and changeUID, the overridden instances recorded for a UID are exactly the contained components with that UID and a RECURRENCE-ID, and the operations never fail on contained components.

* `PyCal.C47_index_partial` (C47_Index.lean): C47: after any history of proper operations, none of which fails, the overridden instances recorded for a UID are exactly the contained components with that UID and a RECURRENCE-ID, in order. Missing: histories that are not proper; without each of the conditions it is false (`C47_fails_merge`, `C47_fails_same`, `C47_fails_empty`, `C47_fails_remove`).
* `PyCal.C47_fails_merge` (C47_Index.lean): C47 fails: changing a UID to one that already has overridden instances forgets those (they stay in the calendar, with that UID and a RECURRENCE-ID).
* `PyCal.C47_fails_same` (C47_Index.lean): C47 fails: changing a UID to itself forgets its overridden instances, and then one of them cannot be removed.
* `PyCal.C47_fails_empty` (C47_Index.lean): C47 fails: changing a UID to the empty one makes a new UID for the component, but records it as the empty one.
* `PyCal.C47_fails_remove` (C47_Index.lean): C47 fails: of two masters with the same type and UID, both contained, only one can be removed.

### C48 Expanded instances keep the event's length (partial)

Each instance produced by expanding a recurring event spans the same length of time as the event itself; there is one that starts at each date of the recurrence set.

* `PyCal.Event.C48_length_partial` (C48_C49_Events.lean): C48 (partial): every instance of an event in a period lasts as long, by the clock, as the event itself. For a recurring event this needs a DTEND of the same kind as DTSTART, at the same offset from UTC and with no non-leap century year between. Missing: recurring events with DURATION or without an end (`C48_fails_duration`, `C48_fails_allday`), and the elapsed time when the offset changes (`C48_fails_offset`).
* `PyCal.Event.C48_starts` (C48_C49_Events.lean): C48: an event with an RRULE, RDATE, EXRULE or EXDATE, given as a date or a period, has an instance that starts at each date of its recurrence set, called recurring; one with none of these has none but itself, which is not called recurring.
* `PyCal.Event.C48_end` (C48_C49_Events.lean): C48: how long an event itself lasts by the clock: to its DTEND, for its DURATION (of whole days if it is an all-day event), else a day if it is an all-day event and no time at all if it is not.
* `PyCal.Event.C48_fails_duration` (C48_C49_Events.lean): C48 fails: an event of one hour given by DURATION, every day, has instances of no length.
* `PyCal.Event.C48_fails_allday` (C48_C49_Events.lean): C48 fails: an all day event without an end lasts a day, but its recurrences have no length.
* `PyCal.Event.C48_fails_offset` (C48_C49_Events.lean): C48 fails: from 1:00 to 3:00 is two hours on the 1st, but an hour on the 2nd.

### C49 A non-recurring event is in a period exactly when it overlaps it (partial)

withinPeriod is true exactly when the event's half-open time span meets the half-open period.

* `PyCal.Event.C49_overlap_partial` (C48_C49_Events.lean): C49 (partial): an event that does not recur and ends after it starts is in a non-empty period exactly when some time of their kind is in both. Missing: events without any length (`C49_fails_empty`) and times of different kinds (`C49_allday_partial`, `C49_fails_allday`).
* `PyCal.Event.C49_ends_partial` (C48_C49_Events.lean): C49 (partial), without the condition on lengths: the answer is whether the event starts before the end of the period and ends after its start. Missing: what an event without length should give, `C49_fails_empty`, and all-day events, `C49_fails_allday`.
* `PyCal.Event.C49_allday_partial` (C48_C49_Events.lean): C49 (partial), all day events and any period: the answer depends on the dates of the ends of the period, as they are written, alone. Missing: the times of day (`C49_fails_allday`).
* `PyCal.Event.C49_fails_allday` (C48_C49_Events.lean): C49 fails: an all day event is in no period that ends on the day it starts on, whatever the time at which the period ends.
* `PyCal.Event.C49_fails_empty` (C48_C49_Events.lean): C49 fails: an event without length is in a period that begins before it but not in the one that begins with it.
* `PyCal.Event.C49_fix` (C48_C49_Events.lean): C49: `FixStartEnd` makes an event end after it starts.

### C50 Alarm repetition (partial)

An alarm with REPEAT=n triggers at most n+1 times, each repetition the interval after the previous one, and then becomes completed.

* `PyCal.Alarm.C50_fails_trigger` (C50_Alarm.lean): C50 fails: reporting that an alarm was triggered always raises, and what was saved about the last trigger and the status is lost.
* `PyCal.Alarm.C50_fails_next` (C50_Alarm.lean): C50 fails: the next trigger can never be asked for.
* `PyCal.Alarm.C50_fails_completed` (C50_Alarm.lean): C50 fails: whatever is called, however often, the alarm does not become completed.
* `PyCal.Alarm.C50_count_partial` (C50_Alarm.lean): C50 (partial): the repetitions counted never exceed REPEAT. Missing: everything else the claim says (`C50_fails_trigger`, `C50_fails_next`, `C50_fails_completed`).
* `PyCal.Alarm.C50_kept_partial` (C50_Alarm.lean): C50 (partial): the repetitions counted are not forgotten while the alarm is started and not changed, nor when it is completed. Missing: that the repetitions are made, `C50_fails_trigger`, `C50_fails_next` and `C50_fails_completed`.
* `PyCal.Alarm.C50_started` (C50_Alarm.lean): C50: an alarm that was not started is started when the next trigger is asked for, and counts from 0.

### C51 Period ordering (partial)

Periods are ordered by start and then end: <, == and > on periods are total, mutually exclusive and transitive.

* `PyCal.Period.C51_gt_fails` (C27_Period.lean): C51 fails: `>` on periods raises `AttributeError` for all arguments, although `<` is fine.
* `PyCal.Period.C51_order_partial` (C27_Period.lean): C51 (partial): on periods of one kind `<` is a strict order by start, then end, and `==` is "neither before the other"; missing is `>` (`C51_gt_fails`).

### C52 BYYEARDAY gives the day of the year (partial)

A YEARLY rule with BYYEARDAY=n yields the n-th day of the year, counted from its end if n is negative.

* `PyCal.Rule.C52_yearDay_partial` (C31_C33_Parts.lean): C52 (partial): BYYEARDAY in a yearly rule. For values within 31 days of either end of the year and ±366, of the dates produced exactly those that exist count, and these are the dates of the year of one of the given ones, with its time of day, that match one of the values. For all other values the claim is false: `C52_fails`.
* `PyCal.Rule.C52_fails` (C31_C33_Parts.lean): C52 fails for all other values, i.e. nearly always: nothing at all is produced, in any year.
* `PyCal.Rule.C52_fails_day100` (C31_C33_Parts.lean): "Every year on day 100": no candidate, although day 100 exists in every year.

### C53 The BYxxx parts select exactly the dates they describe (partial)

For each frequency the set of dates generated for one interval consists of exactly those dates of the interval that satisfy all the BYxxx parts, as RFC 5545 reads them (BYDAY with and without numbers, negative BYMONTHDAY, times of day).

* `PyCal.Rule.C53_daily` (C53_Candidates.lean): C53, DAILY: if the date of `t` passes BYMONTH, BYWEEKNO, BYMONTHDAY and BYDAY, all combinations of the given hours, minutes and seconds on that day; otherwise nothing.
* `PyCal.Rule.C53_hourly` (C53_Candidates.lean): C53, HOURLY: BYHOUR limits too, BYMINUTE and BYSECOND are combined.
* `PyCal.Rule.C53_minutely` (C53_Candidates.lean): C53, MINUTELY: BYHOUR and BYMINUTE limit, BYSECOND is combined.
* `PyCal.Rule.C53_secondly` (C53_Candidates.lean): C53, SECONDLY: every part limits.
* `PyCal.Rule.C53_weekly_partial` (C53_Candidates.lean): C53 (partial), WEEKLY: the weekdays of BYDAY in the week of `t` (or the weekday of `t`), at all combinations of the given hours, minutes and seconds, provided the date of `t` itself passes BYMONTH and BYWEEKNO. RFC 5545 applies BYMONTH to the dates produced instead: `C53_fails_weekly`. Years 1902..2099 (C05).
* `PyCal.Rule.C53_fails_weekly` (C53_Candidates.lean): C53 fails: "weekly, Mondays, in January only", reached on Sunday 2 February 2020 with weeks from Monday: Monday 27 January is in that week, but it is not produced; conversely reached on Sunday 31 January 2021 with weeks from Sunday, Monday 1 February is.
* `PyCal.Rule.C53_monthly` (C53_Candidates.lean): C53, MONTHLY: the days of the month of `t` that exist and pass BYMONTH, BYMONTHDAY and BYDAY (numbers count within the month), at all combinations of the given hours, minutes and seconds.
* `PyCal.Rule.C53_yearly_month` (C53_Candidates.lean): C53, YEARLY with BYMONTH, or without any of BYMONTHDAY, BYDAY: the days of the given months (or the month of `t`) that exist and pass BYMONTHDAY and BYDAY (numbers count within the month), at all combinations of the given hours, minutes and seconds.
* `PyCal.Rule.C53_yearly_day_partial` (C53_Candidates.lean): C53 (partial), YEARLY with BYDAY but no other date part: the days of the year of `t` on the given weekdays, numbers counting within the year. Missing: the numbers ±53 (`C32_fails_yearly`).
* `PyCal.Rule.C53_fails_yearly` (C53_Candidates.lean): C53 fails: "every year, on the 13th" is the 13th of every month (RFC 5545: BYMONTHDAY expands), but only the month of the start is used.

### C54 Expansion of rules with BYxxx parts is exact (partial)

The dates returned for a range are exactly the dates selected by the BYxxx parts in some interval that are not before DTSTART, within the range, not after UNTIL and among the first COUNT, in increasing order; the expansion ends.

* `PyCal.Rule.C54_list_partial` (C54_Exact.lean): C54 (partial), as a list: for all sufficiently large `N`, the expansion over a range is the concatenation of the sorted candidate sets of the first `N` repetitions of the start, without what is before the start, cut off after COUNT - 1 dates after the start if there is a COUNT, restricted to the range and to what is not past UNTIL. Missing: as for the theorem about the elements; `C54_fails_posix`, `C54_fails_duplicates`.
* `PyCal.Rule.C54_exact_partial` (C54_Exact.lean): C54 (partial): the expansion over a range of a rule with BYxxx parts consists of exactly those dates that the BYxxx parts give (C53) for some repetition of the start, that are in the range, not before the start and not after UNTIL; with COUNT, additionally, they are after the start and fewer than COUNT - 1 such dates come before (the start itself counts, but is left to the caller to add). They come in increasing order. Needed (`Good`): values in their ranges, none of the parts that do not work (C52, C53); everything of one kind; a MONTHLY or YEARLY start on a day up to the 28th if the range is given in another time zone (`C54_fails_posix`); WEEKLY up to 2099. Dates given twice by the parts also count twice for COUNT (`C54_fails_duplicates`).
* `PyCal.Rule.C54_ends_partial` (C54_Exact.lean): C54 (partial): the expansion of a rule with BYxxx parts ends, whatever the parts, if everything is of one kind and a start on 29 February is in a Gregorian leap year. Missing: mixtures of dates, floating times and times in zones, where comparison is no order (C17).
* `PyCal.Rule.C54_fails_posix` (C54_Exact.lean): C54 fails: "every month on the 1st and 31st" from 31 January, asked for a range that ends on 2 March in a zone one hour ahead. The 1 March (UTC) is in the range but not returned: the iteration reaches "31 February", which counts as 3 March in the comparison with the end of the range, and stops.
* `PyCal.Rule.C54_fails_duplicates` (C54_Exact.lean): C54 fails: "on the 31st and on the last day of the month, five times". In months with 31 days that is the same day, which is returned and counted twice.

### C55 maxInstances (proved)

A call of expand with maxInstances=m on a new rule raises TooManyInstancesError exactly when more than m dates would be found, and otherwise returns what it returns without the limit.

* `PyCal.Rule.C55_max` (C30_C55_Complex.lean): C55: on a new rule object, a call with `maxInstances = m > 0` raises exactly when the dates found up to the end of the range (`cacheItems`: also those before the range) are more than `m`; otherwise the answer is the one without `maxInstances`.

### C56 Recurrence rule text is read as RFC 5545 defines it (partial)

Every rule text made of parts allowed by RFC 5545, in any order, is accepted and gives exactly the rule those parts describe; every rule that parsing produces has COUNT and INTERVAL at least 1, not both COUNT and UNTIL, and BYxxx values only in the ranges RFC 5545 allows.

* `PyCal.C56_accepts` (C44_C45_RuleText.lean): C56: a text that consists of rule parts as RFC 5545 describes them, in any order, each at most once and not both COUNT and UNTIL, is accepted, and the rule has exactly what the parts say and the defaults for the parts that are missing.
* `PyCal.C56_values_partial` (C44_C45_RuleText.lean): C56 (partial): a rule that has been parsed has only allowed values: COUNT and INTERVAL at least 1, not both COUNT and UNTIL, all BYxxx values but those of BYSETPOS in their ranges. Missing: BYSETPOS (`C56_fails_setpos`) and UNTIL.
* `PyCal.C56_fails_setpos` (C44_C45_RuleText.lean): C56 fails: zero, which names no position, is accepted for BYSETPOS (and leaves the rule without any dates).
* `PyCal.C56_fails_repeated` (C44_C45_RuleText.lean): C56 fails: a part may be repeated, if it is FREQ, UNTIL, COUNT, INTERVAL or WKST; the last one counts. The required FREQ may be missing.
* `PyCal.C56_days` (C56_Days.lean): C56, for BYDAY: a rule that has been parsed from a text with a part `BYDAY=...` has the days that part says by the grammar: a list of weekdays, each with no number or one that is not zero.

### C57 maxInstances of a recurrence set (partial)

RecurrenceSet.expand with maxInstances=m raises TooManyInstancesError exactly when the set has more than m different dates in the range before exclusion, so never returns more than m dates.

* `PyCal.RecurrenceSet.C57_rdates_partial` (C34_RecurrenceSet.lean): C57 (partial): if an RDATE is in the range or a period overlaps it, at most `maxInstances` dates are returned. Missing: sets without such a date, `C57_fails_over` and `C57_fails_under`.
* `PyCal.RecurrenceSet.C57_fails_over` (C34_RecurrenceSet.lean): C57 fails: two rules of three dates each, `maxInstances=3`: the limit is applied to each rule, five different dates are returned.
* `PyCal.RecurrenceSet.C57_fails_under` (C34_RecurrenceSet.lean): C57 fails: the start is counted twice (once by the rule), so four dates are too many for `maxInstances=4`.

### C58 Reading a property line ends (partial)

Parsing the text of one property, in iCalendar or in vCard, ends with a result or an exception, whatever the text.

* `PyCal.C58_ends_partial` (C46_Lines.lean): C58: reading an iCalendar property line ends, whatever the line. Missing: vCard lines, `C58_fails_vcard`.
* `PyCal.C58_ends_vcard_partial` (C46_Lines.lean): C58: reading a vCard property line without double quotes ends. Missing: lines with double quotes, see `C58_fails_vcard`.
* `PyCal.C58_fails_vcard` (C46_Lines.lean): C58 fails: a vCard line with anything after a quoted parameter value is read forever.

### C59 Instances of a recurring event in a period (partial)

Expanding an event in a period yields exactly its recurrences that overlap the period, except those for which there is an overridden instance (which is expanded in its place); a RANGE=THISANDFUTURE instance stands for all later recurrences.

* `PyCal.Event.C59_instances_partial` (C48_C49_Events.lean): C59 (partial): in a calendar, a recurring event that is not itself an overridden instance gives one instance for each recurrence in the period that no overridden instance is for, and only those; an instance is a recurrence, flagged as such, and starts with it. Conditions: everything compares as an instant (`Uniform`, as in C34) and at most one overridden instance has each kind of RANGE. Missing: without a calendar there are no instances (`C59_fails_alone`), two RANGEs raise (`C59_fails_range`), one is ignored (`C59_fails_future`), and a recurrence that began before the period is left out although it lasts into it (`C59_fails_before`).
* `PyCal.Event.C59_single_partial` (C48_C49_Events.lean): C59 (partial): an overridden instance or an event that does not recur gives one instance, with its own start and end, if it is in the period, and none otherwise. Missing: recurring events, for which see the theorems below and `C59_fails_alone`, `C59_fails_range`, `C59_fails_future`, `C59_fails_before`.
* `PyCal.Event.C59_fails_alone` (C48_C49_Events.lean): C59 fails: a recurring event that is not in a calendar has no instances.
* `PyCal.Event.C59_fails_range` (C48_C49_Events.lean): C59 fails: with two overridden instances for "this and future" it raises.
* `PyCal.Event.C59_fails_future` (C48_C49_Events.lean): C59 fails: the overridden instance of the 2nd is for "this and future", but the recurrence of the 3rd stays as it was.
* `PyCal.Event.C59_fails_before` (C48_C49_Events.lean): C59 fails: the recurrence of the 1st lasts until 12:00, but is not in the period that begins at 11:00; an event with the same times that does not recur is.

### C60 getVEvents gives all instances in order of their start (partial)

Calendar.getVEvents returns the instances of all events in the period, each once, sorted by start (all day events first if asked for).

* `PyCal.Event.C60_instances_partial` (C48_C49_Events.lean): C60 (partial): `getVEvents` gives the instances of each event, one event after the other in the order of the calendar; none is lost or added by the sorting. Missing: that they are sorted (`C60_fails_order`).
* `PyCal.Event.C60_fails_order` (C48_C49_Events.lean): C60 fails: the event of the 5th comes before the one of the 2nd.

### C61 Equal components have the same content (partial)

ComponentBase.__eq__ holds exactly when both components have the same type, the same properties one for one, and sub-components that are equal one for one, in any order; it is an equivalence relation.

* `PyCal.CompEq.C61_equal_partial` (C61_Equality.lean): C61, full strength but for the kinds of values: components are `==` exactly when they have the same type, the same properties one for one, and the same sub-components one for one in any order. This is proved if no component has one property twice (`C61_fails_twice`), and for dates and date-times of a family on which `==` is transitive (`C61_fails_floating`, `C61_fails_transitive`); properties are the same if `set` takes them for the same (`C61_fails_rule`).
* `PyCal.CompEq.C61_sets_partial` (C61_Equality.lean): C61, without the condition on repeated properties: how often a property occurs does not count. Missing: that components which are `==` have each property equally often, `C61_fails_twice`.
* `PyCal.CompEq.C61_equivalence_partial` (C61_Equality.lean): C61: on such components `==` is reflexive, symmetric and transitive. Missing: components with floating times and times in zones, `C61_fails_transitive`.
* `PyCal.CompEq.C61_order` (C61_Equality.lean): C61: the order of the properties and of the sub-components does not matter (so neither does the order in which the sets are run through).
* `PyCal.CompEq.C61_fails_twice` (C61_Equality.lean): C61 fails: a component with one property twice is `==` to one with it once.
* `PyCal.CompEq.C61_fails_floating` (C61_Equality.lean): C61 fails: an event at 10:00 local time is `==` to one at 10:00 UTC.
* `PyCal.CompEq.C61_fails_transitive` (C61_Equality.lean): C61 fails: `==` is not transitive. 10:00 local time is `==` to 10:00 UTC, this to 11:00 an hour ahead of UTC (a time zone set on the value), but the first is not `==` to the last.
* `PyCal.CompEq.C61_fails_rule` (C61_Equality.lean): C61 fails: the rules of two events are `==`, but the events are not (the hash of a rule depends on the order of its values).

### C62 Editing the times of a component keeps the object and its text together (partial)

After editTiming, editTimingDue, editTimingStartEnd or editTimingStartDuration the component has the start and end asked for, and hasStart, getStart, hasEnd, getEnd and useDuration give what a new component with the same properties gives.

* `PyCal.Timing.C62_startEnd_partial` (C62_C63_Editing.lean): C62: a start and a later end are kept and written, whatever was there before. (Missing: an end that is not later, `C62_fails_order`; an all-day event of one day, `C62_oneDay_partial`; a to-do, `C62_fails_todo`.)
* `PyCal.Timing.C62_oneDay_partial` (C62_C63_Editing.lean): C62: an all-day event of one day has the same times when it is read again (but no end, `C62_fails_oneDay`).
* `PyCal.Timing.C62_startDuration_partial` (C62_C63_Editing.lean): C62: a start and a duration are kept and written. (Missing: all-day events of at most one day; a to-do.)
* `PyCal.Timing.C62_oneDayDuration_partial` (C62_C63_Editing.lean): C62: an all-day event with a duration of one day, however it is put (P1D, PT24H), has the same times when it is read again. Missing: an end one day later, `C62_fails_oneDay`, and durations that are no number of days, `C62_fails_duration`.
* `PyCal.Timing.C62_due_partial` (C62_C63_Editing.lean): C62: the due time of a to-do is kept and written. Missing: the end of a to-do, `C62_fails_todo`.
* `PyCal.Timing.C62_fails_none` (C62_C63_Editing.lean): C62 fails: `editTiming` always raises and changes no property; the component then says that it has no start although it has one.
* `PyCal.Timing.C62_fails_order` (C62_C63_Editing.lean): C62 fails: with an end before the start the component ends at the next midnight, but says in DTEND that it ends before it starts.
* `PyCal.Timing.C62_fails_oneDay` (C62_C63_Editing.lean): C62 fails: an all-day event of one day has an end, and does not when it is read again.
* `PyCal.Timing.C62_fails_duration` (C62_C63_Editing.lean): C62 fails: of an all-day event the duration `PT48H` is lost (it is no number of days); read again, the event is one day long.
* `PyCal.Timing.C62_fails_todo` (C62_C63_Editing.lean): C62 fails: the end of a to-do is written as DTEND, which a to-do does not have.

### C63 Editing the recurrences of a component (partial)

editRecurrenceSet gives the component the recurrence set and writes its rules, excluded rules, dates and excluded dates; excludeRecurrence removes one instance and excludeFutureRecurrence all from a time on.

* `PyCal.Recurring.C63_rules_partial` (C62_C63_Editing.lean): C63: `editRecurrenceSet` of a set of rules writes these, and they are what is read again (but it raises, `C63_fails_raises`).
* `PyCal.Recurring.C63_single` (C62_C63_Editing.lean): C63: a component without recurrence is left as it is by the two methods that exclude instances.
* `PyCal.Recurring.C63_fails_raises` (C62_C63_Editing.lean): C63 fails: `editRecurrenceSet` always raises, and by then the dates and the excluded dates and rules, old and new, are gone from the properties.
* `PyCal.Recurring.C63_fails_exclude` (C62_C63_Editing.lean): C63 fails: of a recurring component no instance can be excluded, and no future: the methods raise and change nothing.
* `PyCal.Recurring.C63_loaded` (C62_C63_Editing.lean): C63: a component read from text, or whose properties were changed, recurs if and only if it has one of the four properties, and then its set has the rules and dates of each property, no others, each in its own place.

### C64 The type of a value survives writing (partial)

A property read from text and written again is read back with the same value type: the VALUE parameter that is written, or its absence, names the type of the value.

* `PyCal.C64_reread_partial` (C64_C68_Values.lean): C64, where it holds: a property read from a text and written is read again with the same type of value, in iCalendar and in vCard and whatever default types a program registers, unless it has no default type and VALUE=TEXT, or the library has no class for the VALUE it has, or it is one of GEO, REQUEST-STATUS, ADR, N and ORG and has a VALUE other than the default. Missing: those properties.
* `PyCal.C64_settles` (C64_C68_Values.lean): C64: after being written and read once a property keeps the type of its value for good.
* `PyCal.C64_dates` (C64_C68_Values.lean): C64: of a property with dates or date-times, what is written says what the text is, whatever VALUE said of it when it was read: VALUE=DATE for a date, VALUE=DATE-TIME for another, and nothing if that is the default (unless the program asked for it always).
* `PyCal.C64_fails_text` (C64_C68_Values.lean): C64 is false: `X-FOO;VALUE=TEXT` is read again without a type.
* `PyCal.C64_fails_class` (C64_C68_Values.lean): C64 is false: `DTSTART;VALUE=TIME` is read again as a date and time, `ATTACH;VALUE=BOOLEAN` as a URI.
* `PyCal.C64_fails_special` (C64_C68_Values.lean): C64 is false: `GEO;VALUE=TEXT` is read again as a pair of numbers, `ADR;VALUE=URI` as an address.

### C65 A string given to a property is the string read back (partial)

A string given to a property by the constructor or setValue is the string that is read from the text written for it, and is written without line breaks.

* `PyCal.C65_text_partial` (C64_C68_Values.lean): C65, where it holds: a string given to a property that has no other type is the string read from what is written, if the property has a default type that says so: TEXT. Missing: other properties, `C65_fails` and `C65_fails_break`.
* `PyCal.C65_other_partial` (C64_C68_Values.lean): C65, for a property that the tables do not have: a string given to the constructor of an iCalendar property is restored (it is written as it stands); a string given to the constructor of a vCard property or to `setValue` comes back in its escaped form, so that it is restored exactly if it has no comma, semicolon, backslash or line break. Missing: strings with one of these, `C65_fails`, and line breaks in the first case, `C65_fails_break`.
* `PyCal.C65_asked_partial` (C64_C68_Values.lean): C65, for a property with a VALUE parameter that names TEXT: a string given to `setValue` is the string read from what is written, if the property has a default type, whichever that is; otherwise no VALUE is written and the string comes back in its escaped form. A VALUE that names no type leaves the type as it is without. Missing: properties without a default type, `C65_fails`.
* `PyCal.C65_fails` (C64_C68_Values.lean): C65 is false: `setValue("a,b")` on a new `X-FOO` property is read again as `a\,b`; in vCard so is a string given to the constructor.
* `PyCal.C65_fails_break` (C64_C68_Values.lean): C65 is false in another way: a line break in a string given to a new `X-FOO` property of iCalendar is written as it stands.

### C66 Lists of texts are restored (partial)

A multi-valued text property (CATEGORIES, RESOURCES, NICKNAME, ...) written and read again has the same list of texts.

* `PyCal.C66_split_partial` (C64_C68_Values.lean): C66, exactly: of a list of texts that is written and read again each text is split at its commas. Missing for C66: texts with commas, and the empty list.
* `PyCal.C66_restored_partial` (C64_C68_Values.lean): C66, where it holds: a list of texts is restored exactly if no text has a comma. Missing: texts with a comma, `C66_fails`.
* `PyCal.C66_fails` (C64_C68_Values.lean): C66 is false: the category `A, B` is read again as two; no categories are read again as one that is empty; and a value that is parsed twice holds both lists.

### C67 URI values are restored (partial)

A URI value written and read again is the same, and what is written has no line break.

* `PyCal.C67_fix_partial` (C64_C68_Values.lean): C67, exactly, for the default setting: a URI is restored exactly if it has no backslash. Missing: URIs with one.
* `PyCal.C67_allow_partial` (C64_C68_Values.lean): C67, for the other setting, in which nothing is decoded: a URI is restored exactly if it has no line feed. Missing: URIs with a line feed, which is written as a backslash and a letter.
* `PyCal.C67_no_linefeed` (C64_C68_Values.lean): C67: what is written for a URI has no line feed.
* `PyCal.C67_fails` (C64_C68_Values.lean): C67 is false: `file:\\host\dir` loses its backslashes; a carriage return is written as it stands.

### C68 Request statuses are restored (partial)

A REQUEST-STATUS value written and read again has the same code, description and data, whatever the setting for invalid values.

* `PyCal.C68_fails_raise` (C64_C68_Values.lean): C68 is false: with the setting RAISE no request status whatever can be read.
* `PyCal.C68_fix_partial` (C64_C68_Values.lean): C68, exactly, for the default setting FIX and for IGNORE: a request status is restored exactly if its code has no backslash and, if there is a third element, the description does not end in one (and the third element is not the empty string). Missing: the others.
* `PyCal.C68_one_text_partial` (C64_C68_Values.lean): C68: what is read of a request status that was written as one text, with the first semicolon escaped as well, or without one: the code is what is before the semicolon. (Settings other than RAISE.) Missing: the setting RAISE, `C68_fails_raise`.
* `PyCal.C68_many_partial` (C64_C68_Values.lean): C68: of more than three elements only the first three are read. Missing: descriptions that end in a backslash, `C68_fails`, and the setting RAISE, `C68_fails_raise`.
* `PyCal.C68_fails` (C64_C68_Values.lean): C68 is false for the default setting too.

### C69 A rule of the time zone data gives the day it names (partial)

For every rule line and every year, the date-time computed for that year is the day the line names (lastSun: the last Sunday of the month; Sun>=8: the first Sunday on or after the 8th; Sun<=25: the last Sunday on or before the 25th; a number: that day), at the time of day written, read as wall clock, standard or universal time as its letter says.

* `PyCal.Zonal.C69_date_partial` (C69_C71_ZonalRules.lean): C69 (partial): for a rule with a day written as the last weekday of the month, as the first such weekday on or after a day, or as a day, and a time of hours and minutes before midnight, `datetimeForYear` gives the day that the rule means, that time, and the letters after the time. Missing: days of the form `Sun<=25` (`C69_fails_atMost`), the time 24:00 (`C69_fails_midnight`), times without minutes but with a letter (`C69_fails_hours`) or with seconds (`C69_fails_seconds`), and a day of the next year in the years 1800, 1900, 2100, ...
* `PyCal.Zonal.C69_fails_atMost` (C69_C71_ZonalRules.lean): C69 fails: a rule with a day of the form `Sun<=25` is not read.
* `PyCal.Zonal.C69_fails_midnight` (C69_C71_ZonalRules.lean): C69 fails: the time 24:00 becomes one second before midnight.
* `PyCal.Zonal.C69_fails_hours` (C69_C71_ZonalRules.lean): C69 fails: a time of whole hours with a letter is not read.
* `PyCal.Zonal.C69_fails_seconds` (C69_C71_ZonalRules.lean): C69 fails: a time with seconds is not read.
* `PyCal.Zonal.C69_instant_partial` (C73_ZoneLines.lean): C69 (partial), the instant: a time with the letter `u`, `s`, `w` or none is converted to UTC as that letter says, with the offsets given; to a real time. Missing: the letters `g` and `z` (`C69_fails_letter`).
* `PyCal.Zonal.C69_fails_letter` (C73_ZoneLines.lean): C69 fails for the letters `g` and `z`, unless the offset is zero.

### C70 Amounts of time in the time zone data are read exactly (partial)

The offset of a zone line, the saving of a rule and the saving written in a zone line are the number of seconds written as [-]h[:mm[:ss]]; a zone line that names a rule set is not taken for an amount.

* `PyCal.Zonal.C70_utcOffset` (C69_C71_ZonalRules.lean): C70: the standard offset of a zone line is read right, with its sign, minutes and seconds.
* `PyCal.Zonal.C70_save_partial` (C69_C71_ZonalRules.lean): C70 (partial): the saving of a rule is read right if it has no seconds and is not between minus one hour and zero. Missing: `C70_fails_save`, `C70_fails_save_seconds`.
* `PyCal.Zonal.C70_fails_save` (C69_C71_ZonalRules.lean): C70 fails: a saving of less than an hour with a minus sign is read without the sign.
* `PyCal.Zonal.C70_fails_save_seconds` (C69_C71_ZonalRules.lean): C70 fails: the minutes of a saving with seconds are lost.
* `PyCal.Zonal.C70_numeric_partial` (C69_C71_ZonalRules.lean): C70 (partial): a saving written in place of the name of a rule is recognised, and read right if it has no seconds and no minutes with a minus sign. Missing: `C70_fails_numeric`.
* `PyCal.Zonal.C70_fails_numeric` (C69_C71_ZonalRules.lean): C70 fails: with a minus sign the minutes are added.
* `PyCal.Zonal.C70_name` (C69_C71_ZonalRules.lean): A name, which does not begin with a digit or a sign, is not taken for an amount.

### C71 A rule is expanded to each of its years (partial)

Expanding a rule up to a year gives one transition in every year from its first to its last, before that year, at the date-time computed for it and with the standard offset plus the saving; expanding it again gives the same.

* `PyCal.Zonal.C71_expand_partial` (C69_C71_ZonalRules.lean): C71 (partial): a rule that has not been expanded before is expanded to one transition, as `datetimeForYear` gives it, for each of its years, in order; up to the last year for a rule that ends by then (`maxYear`), and to the year before that for one that goes on. The offset is the saving added to the standard offset. Missing: a rule that goes on should have its transition in the last year just as one that ends with it (`C71_fails_last`); the year 9999 stands for no end; a second expansion ignores the last year asked for (`C71_fails_again`).
* `PyCal.Zonal.C71_fails_last` (C69_C71_ZonalRules.lean): C71 fails: a rule without end has no transition in the last year, one that ends with that year has.
* `PyCal.Zonal.C71_cache` (C69_C71_ZonalRules.lean): C71: a rule that has been expanded gives the same again for another zone with the same last year, as it would without the earlier expansion.
* `PyCal.Zonal.C71_fails_again` (C69_C71_ZonalRules.lean): C71 fails: after an expansion, a later last year gives no more transitions.

### C72 The recurrence rule written for a rule of the time zone data has the same days (partial)

The yearly recurrence rule written for a rule line, starting at its first transition in local time, matches exactly the local dates of the transitions of the rule in every year, also when local time makes them fall on the day before or after the one named.

* `PyCal.Zonal.C72_next_partial` (C72_ZonalRecurrences.lean): C72 (partial): for a rule of the form `Sun>=n` whose first transition `start` is, in local time, on the day before the one meant, on that day, or on the day after (`s`), the recurrence rule matches exactly the local dates of the transitions in every year: if the seven days possible lie in the month in every year (and the days of the rule in the year), and, for February of a leap year, if the first of them is not the 9th or 16th. Missing: otherwise see `C72_fails_first`, `C72_fails_spill`, `C72_fails_leap`.
* `PyCal.Zonal.C72_last` (C72_ZonalRecurrences.lean): C72: for a rule of the form `lastSun` with the transitions on the day meant, the recurrence rule matches exactly the dates of the transitions, in every month and year.
* `PyCal.Zonal.C72_last_before_partial` (C72_ZonalRecurrences.lean): C72 (partial): for a rule of the form `lastSun` whose transitions are, in local time, on the day before, the recurrence rule is exact for every month but February (`C72_fails_february`).
* `PyCal.Zonal.C72_last_after_partial` (C72_ZonalRecurrences.lean): C72 (partial): for a rule of the form `lastSun` whose transitions are, in local time, on the day after, the recurrence rule is exact for the months from February to November and the weekdays other than Saturday (`C72_fails_saturday`, `C72_fails_january`, `C72_fails_december`).
* `PyCal.Zonal.C72_day_partial` (C72_ZonalRecurrences.lean): C72 (partial): for a rule with a day of the month, the recurrence rule is exact if the day meant and the local one exist in that month of every year. Missing: `C72_fails_day`.
* `PyCal.Zonal.C72_fails_first` (C72_ZonalRecurrences.lean): C72 fails: a rule of the form `Sun>=1` whose transitions are on the day before in local time is not written at all.
* `PyCal.Zonal.C72_fails_spill` (C72_ZonalRecurrences.lean): C72 fails: the seven days of `Sun>=26` in October end in November, which is not matched (2015).
* `PyCal.Zonal.C72_fails_leap` (C72_ZonalRecurrences.lean): C72 fails: in February of a leap year `Sun>=9` is written as the last but two Sunday, which is another one in 2009.
* `PyCal.Zonal.C72_fails_february` (C72_ZonalRecurrences.lean): C72 fails: the day before the last Sunday in February is not matched in 2032.
* `PyCal.Zonal.C72_fails_saturday` (C72_ZonalRecurrences.lean): C72 fails: the day after the last Saturday in March is not matched in 2029.
* `PyCal.Zonal.C72_fails_january` (C72_ZonalRecurrences.lean): C72 fails: the day after the last Sunday in January is not matched in 2032, a leap year.
* `PyCal.Zonal.C72_fails_december` (C72_ZonalRecurrences.lean): C72 fails: the day after the last Sunday in December is not matched when it is New Year's Day.
* `PyCal.Zonal.C72_fails_day` (C72_ZonalRecurrences.lean): C72 fails: a transition meant for 31 October but on 1 November in local time is put in October.

### C73 A line of a zone puts in force the offset its rules say (partial)

Expanding a zone line from the end of the line before gives transitions that, at every instant from there to the end of the line, show the offset that its rule set (or the saving it writes) puts in force: that of the latest transition of the rules, each read with the offset before it, or the standard offset before the first.

* `PyCal.Zonal.C73_rules_partial` (C73_ZoneLines.lean): C73 (partial): a line of a zone with a named rule set, in force from `lastUntil` (the end of the line before, where the offset was `lastOffset` and the standard offset `lastStd`), gives transitions that at every instant from there to its end show the offset that its rules put in force: that of the latest transition of the rules, each read with the offset before it, or the standard offset before the first. The end is read with the offset that the line is left with. For this the rules must have a transition before the last year (`C73_fails_none`), their transitions must be in the order of time when so read, not two at the same time; the first of them must be on the same side of the start of the line with the offset of the line before as with that of this line (`C73_fails_first`); times must not have the letters `g` or `z` (`C73_fails_letter`).
* `PyCal.Zonal.C73_kind` (C73_ZoneLines.lean): C73: a line is without rules exactly if its rule is a dash, or begins with a digit or with a dash and a digit.
* `PyCal.Zonal.C73_numeric` (C73_ZoneLines.lean): C73 for a line without rules: from its start it shows its standard offset with the saving written (`C70`).
* `PyCal.Zonal.C73_fails_none` (C73_ZoneLines.lean): C73 fails for a line whose rules have no transition before the last year: it is left with the offset of the line before.
* `PyCal.Zonal.C73_fails_first` (C73_ZoneLines.lean): C73 fails if the first transition of the rules is before the start of the line, but not when it is read with the offset of the line before: here the saving begins half an hour before the line does, yet the line shows standard time.
* `PyCal.Zonal.C73_fails_letter` (C73_ZoneLines.lean): C73 (and C69) fails for times with the letter `g`: they are read as those of the clock on the wall.

### C74 The expansion of a zone shows the offsets of its lines (partial)

The transitions given by expanding a zone from a year on show, at every instant from the first of them on, the offset that the transitions of its lines show, and each carries the offset in force just before it.

* `PyCal.Zonal.C74_offsets_partial` (C74_Zones.lean): C74 (partial): the result of expanding a zone from a year on shows at every instant, from the first transition in that year on, the offset that the transitions of its lines (`C73_rules_partial`, `C73_numeric`) show; and gives with each transition the offset in force just before it. (`ess` are the transitions of the lines, each expanded from the end of the one before; `start` is the offset of the first line.) For this the transitions must be in the order of time, and local time must go forward from each to the next (`C74_fails_close`), and from 1 January 1800 to the first (`C74_fails_start`).
* `PyCal.Zonal.C74_follow` (C74_Zones.lean): C74: the transitions in `C74_offsets_partial` are those of lines that follow each other.
* `PyCal.Zonal.C74_fails_close` (C74_Zones.lean): C74 fails for a change of the clock back followed by another before local time has caught up: the first is replaced by the second.
* `PyCal.Zonal.C74_fails_start` (C74_Zones.lean): C74 fails for a zone of one line west of Greenwich with a saving: if the year 1800 is included, the saving is left out.

### C75 The end of a zone line is read as written (partial)

The end of a zone line is the beginning of the year, or of the month, or of the day it names (a number, or a weekday as in lastSun and Sun>=8), or the time of that day, with the letter that says which clock it is read on; a comment is ignored, and a line without an end never ends.

* `PyCal.Zonal.C75_until_partial` (C75_Until.lean): C75 (partial): the end of a zone line is the year, or the beginning of the month of the year, or the day named, at midnight or at the time written, with its letter; a comment after it is ignored. Missing: the only days with a weekday that are known are lastSun, lastSat, Sun>=1 and Sun>=8 (`C75_fails_day`); times of hours only (`C75_fails_hours`), and with seconds and a letter (`C75_fails_seconds`) are not read.
* `PyCal.Zonal.C75_open` (C75_Until.lean): C75: a line without an end, or with a comment in its place, goes on to the year 9999.
* `PyCal.Zonal.C75_fails_day` (C75_Until.lean): C75 fails for every other day with a weekday (`Fri>=1`, `lastFri`, `Sun<=25`): the line is not read.
* `PyCal.Zonal.C75_fails_hours` (C75_Until.lean): C75 fails for a time of whole hours: the line is not read.
* `PyCal.Zonal.C75_fails_seconds` (C75_Until.lean): C75 fails for a time with seconds and a letter: the line is not read.

### C76 A calendar gets the time zones it uses (partial)

Before a calendar is written, each TZID that a date or date-time in it uses has its VTIMEZONE in the calendar, unless the database has none (or calls it standard, when only the non-standard ones are asked for). The components that were there stay as they are; each VTIMEZONE added is a copy of the one in the database for a TZID that is used and was missing, and there are no two for a TZID. Doing it again adds nothing.

* `PyCal.TzComp.C76_added` (C76_C77_Include.lean): C76: the components stay as they are; VTIMEZONE components are added at the end. Each is a copy of the one which the database has for its TZID, which is used by a date-time in the calendar and had no VTIMEZONE there; no two have the same TZID; and unless all are asked for, none is one that the database calls standard.
* `PyCal.TzComp.C76_present_partial` (C76_C77_Include.lean): C76: afterwards a TZID used by a date-time has its VTIMEZONE in the calendar, unless the database has none for it, or it calls it standard and not all were asked for. What is missing for the full claim: TZIDs in lists of date-times, in periods and in inner components are not looked for.
* `PyCal.TzComp.C76_again` (C76_C77_Include.lean): C76: a second call adds nothing, whatever the files contain by then.
* `PyCal.TzComp.C76_fails_rdate` (C76_C77_Include.lean): C76, the full claim, fails for TZIDs in a list of date-times: an RDATE with a TZID.
* `PyCal.TzComp.C76_fails_nested` (C76_C77_Include.lean): C76, the full claim, fails for components in components: a VEVENT in a VPOLL.
* `PyCal.TzComp.C76_fails_default` (C76_C77_Include.lean): What the docstring says of a call without argument ("the default is `NO_TIMEZONES`") is not so: a time zone is added.

### C77 Standard time zones are stripped and nothing else (proved)

stripStandardTimezones removes exactly the VTIMEZONE components whose TZID the database has and calls standard, keeps all others in their order, and returns whether it removed any. Writing the calendar with the default setting does not bring them back; including all time zones brings back every one that is used; stripping again removes nothing.

* `PyCal.TzComp.C77_left` (C76_C77_Include.lean): C77: what is left are all components but the VTIMEZONEs whose TZID the database has and calls standard, in their order. The database may be in any state.
* `PyCal.TzComp.C77_changed` (C76_C77_Include.lean): C77: the result says whether anything was removed.
* `PyCal.TzComp.C77_restored` (C76_C77_Include.lean): C77: when all are included again, every VTIMEZONE that was used by a date-time and removed is replaced by the one of the database.
* `PyCal.TzComp.C77_stays` (C76_C77_Include.lean): C77: writing the calendar afterwards (which includes the time zones that are not standard) does not bring a removed VTIMEZONE back, and removing again removes nothing.

### C78 An instance derived from a master is that instance (partial)

deriveComponent gives no component exactly when the calendar has no master. Otherwise it gives a copy of the first master without recurrence properties, whose DTSTART and RECURRENCE-ID are the recurrence asked for: the same moment in the zone of the master's DTSTART, or its date if that is a date. It is as long as the master, and covers the time that the instance covered in the expansion of the master; properties that have nothing to do with recurrence or the end stay as they are.

* `PyCal.DComp.C78_master` (C78_Derive.lean): C78: there is no result exactly when no component that can recur is without RECURRENCE-ID; otherwise it is made from the first such.
* `PyCal.DComp.C78_start` (C78_Derive.lean): C78: the new component begins at the given recurrence, which is also its RECURRENCE-ID; it has no recurrence of its own; all other properties, DUE and DURATION are those of the master.
* `PyCal.DComp.C78_same_zone` (C78_Derive.lean): C78: the start is the given date-time itself, if the master's DTSTART is not in a named zone or the date-time is in its zone already; its date, if the master's DTSTART is a date.
* `PyCal.DComp.C78_instant_partial` (C78_Derive.lean): C78 (partial): a date-time in UTC or in a zone is put into the zone of the master's DTSTART; it is the same moment if that zone gives the same offset for the UTC time and for the clock time shown (C37 says when). Missing: the hour shown twice (`C37_fails_ambiguous`), and the years whose end the library counts wrongly (C03).
* `PyCal.DComp.C78_period` (C78_Derive.lean): C78: the end lies as far after the start as the library counts it in the master. So for a master with a DTEND the new component covers the time that its recurrence covered in the expansion of the master.
* `PyCal.DComp.C78_length_partial` (C78_Derive.lean): C78 (partial): in UTC, at a fixed offset and in floating time the new component is as long as the master. Missing: named zones, where the length is added to the clock time (`C78_fails_length`).
* `PyCal.DComp.C78_duration` (C78_Derive.lean): C78: with a DURATION the end is that duration after the start.
* `PyCal.DComp.C78_fails_todo` (C78_Derive.lean): C78 fails for to-dos: the DUE of the master stays, so the to-do of a later day is due before it begins; and a DTEND is added, which a to-do does not have.
* `PyCal.DComp.C78_fails_dtend` (C78_Derive.lean): C78 fails for events without DTEND and DURATION: a DTEND is added that is the DTSTART, while DTEND must be later.
* `PyCal.DComp.C78_fails_length` (C78_Derive.lean): C78 fails in a zone when the clocks change between the start and the end of the recurrence: a master of six hours has an instance of five.

### C79 Period texts mean what they say (partial)

The texts read as a period are exactly a date-time, a slash and either a date-time or a duration; the period then has that start and that end or duration. The text of a period, and its jCal form, is read as the same period.

* `PyCal.PeriodObj.C79_accepts` (C79_C80_PeriodObject.lean): C79: the texts read as a period are exactly a date-time, a slash and a date-time, or a date-time, a slash and a duration that starts with `P`; the period holds what these two texts are read as.
* `PyCal.PeriodObj.C79_end` (C79_C80_PeriodObject.lean): C79: the text of a period with an end is read as the period of what the texts of its start and end are read as; with either parser.
* `PyCal.PeriodObj.C79_duration_partial` (C79_C80_PeriodObject.lean): C79 (partial): the text of a period with a duration that is not negative is read as a period with that duration. Missing: negative durations (`C79_fails_negative`).
* `PyCal.PeriodObj.C79_json_end` (C79_C80_PeriodObject.lean): C79: the same for the jCal form, which is a pair of texts in the ISO form.
* `PyCal.PeriodObj.C79_json_duration_partial` (C79_C80_PeriodObject.lean): C79 (partial): and for the jCal form of a period with a duration. Missing: negative durations.
* `PyCal.PeriodObj.C79_fails_plus` (C79_C80_PeriodObject.lean): C79 fails for a duration with the optional plus sign, which the grammar allows (RFC 5545 3.3.6): the text of a date-time is expected.
* `PyCal.PeriodObj.C79_fails_negative` (C79_C80_PeriodObject.lean): C79 fails for a negative duration: its text is written but not read.
* `PyCal.PeriodObj.C79_fails_reuse` (C79_C80_PeriodObject.lean): C79 fails for an object that was read before: after a text with a duration it cannot be given a text with an end.

### C80 Looking at a period does not change it (partial)

Asking a period for its end or duration, and choosing whether its end or its duration is written, changes neither its start nor its end nor its duration; its copy and the period read from its text have the same start and end whichever is written; and converting it to UTC gives the same end whether or not the end had been asked for.

* `PyCal.PeriodObj.C80_look` (C79_C80_PeriodObject.lean): C80: looking at a period, and choosing how it is to be written, never changes its start, its end or its duration; and it can always be written.
* `PyCal.PeriodObj.C80_values` (C79_C80_PeriodObject.lean): C80: there is always an end and a duration.
* `PyCal.PeriodObj.C80_written_partial` (C79_C80_PeriodObject.lean): C80 (partial): for a period in UTC or floating time that does not end before it starts, however it was made, whatever was asked of it before and whichever way of writing is chosen, its copy and what its text is read as have the same start and end. Missing: periods in a timezone (`C80_fails_zone`), dates, and spans over the end of a non-leap century year, where the difference of two date-times is off by a day (C03).
* `PyCal.PeriodObj.C80_adjust_partial` (C79_C80_PeriodObject.lean): C80 (partial): where the offset from UTC does not depend on the date, it makes no difference to the period in UTC whether the end had been asked for before. Missing: timezones (`C80_fails_adjust`).
* `PyCal.PeriodObj.C80_fails_zone` (C79_C80_PeriodObject.lean): C80 fails in a timezone: the duration of the period is the time that passes, but the end is found by adding it to the clock, so a copy made after choosing to write the duration ends an hour later.
* `PyCal.PeriodObj.C80_fails_adjust` (C79_C80_PeriodObject.lean): C80 fails for `adjustToUTC` in a timezone: the end it leaves depends on whether the end had been asked for before.

### C81 Properties keep the time zones of their date-times (partial)

The date-times and periods given to a property are those read from what it is written as, in text or jCal, each with its time zone; setting the value of a property sets that value.

* `PyCal.C81_single` (C81_C82_DateTimeProperty.lean): C81: a date-time given to a property is read from the text of the property, with its timezone, whatever the name of the property (except GEO and REQUEST-STATUS, whose values have another form).
* `PyCal.C81_list_partial` (C81_C82_DateTimeProperty.lean): C81 (partial): the same for a list of date-times of one kind in a property that can have several values (RDATE, EXDATE). Missing: other lists (`C81_fails_mixed`, `C81_fails_list`).
* `PyCal.C81_json_partial` (C81_C82_DateTimeProperty.lean): C81 (partial): the same from jCal. Missing: as for the text.
* `PyCal.C81_periods_partial` (C81_C82_DateTimeProperty.lean): C81 (partial): periods in UTC, floating or with dates are read from the text. Missing: periods in a timezone, which is not written (`C81_fails_period`).
* `PyCal.C81_fails_mixed` (C81_C82_DateTimeProperty.lean): C81 fails for a list of different kinds: a date-time in UTC after one in a timezone is read in that timezone; one in a timezone after one in UTC becomes floating.
* `PyCal.C81_fails_list` (C81_C82_DateTimeProperty.lean): C81 fails for a list in a property with a single value: the text is written but not read, and from jCal only the first value is read.
* `PyCal.C81_fails_period` (C81_C82_DateTimeProperty.lean): C81 fails for periods: the timezone is not written, and where another program has written it, it is not read.
* `PyCal.C81_fails_setValue` (C81_C82_DateTimeProperty.lean): C81 fails for `setValue` on a property that already has a TZID parameter: the value that is set gets that timezone, so that a date-time in UTC no longer is.
* `PyCal.C81_setValue` (C81_C82_DateTimeProperty.lean): C81: without a TZID parameter `setValue` keeps the values, if the type of the property, by its VALUE parameter or without one by its name, is DATE or DATE-TIME; if it is another one, no date-times can be set.

### C82 jCal keeps the type of a value (partial)

A property read from text, written as jCal and read again has a value of the same type.

* `PyCal.C82_ical_partial` (C81_C82_DateTimeProperty.lean): C82, where it holds in iCalendar: the type of the value of a property is the same after writing and reading jCal, exactly if the library has a class for the type that the property asks for. Missing: the types BOOLEAN and TIME.
* `PyCal.C82_vcard_partial` (C81_C82_DateTimeProperty.lean): C82, where it holds in vCards: the type is the same after writing and reading jCal, exactly if the library has a class for it, it is not a structured one, and it is not an offset from UTC that only the VALUE parameter tells. Missing: those.
* `PyCal.C82_fails_class` (C81_C82_DateTimeProperty.lean): C82 is false: `DTSTART;VALUE=TIME` comes back as a date and time.
* `PyCal.C82_fails_vcard` (C81_C82_DateTimeProperty.lean): C82 is false in vCards: names, addresses and organizations are written with null for a type, which is not read; `X-FOO;VALUE=UTCOFFSET` comes back without a type.

### C83 Recurrence rules in jCal (partial)

Every object that RFC 7265 allows for a rule, and no other, is accepted, with the meaning that its members have; the object written for a rule is such an object, and reading it, with its members in any order, gives the same rule.

* `PyCal.C83_accepts` (C83_RuleJSON.lean): C83: every object that RFC 7265 allows for a rule is accepted, and the rule is what its members say.
* `PyCal.C83_written` (C83_RuleJSON.lean): C83: what is written for a rule is an object that RFC 7265 allows, and it says what the rule is.
* `PyCal.C83_roundtrip_partial` (C83_RuleJSON.lean): C83: a rule that is written in jCal and read again is the same rule, in whatever order the members come. Missing: rules that are not `Writable`, of which those with an UNTIL in a time zone can occur (`C83_fails_zone`).
* `PyCal.C83_fails_zone` (C83_RuleJSON.lean): C83 fails: a zone of UNTIL, which a rule made in a program may have, is lost.
* `PyCal.C83_fails_lenient` (C83_RuleJSON.lean): C83 fails: objects are accepted that are not rules: the name or the value of a member may itself hold members, the signs of a date may be anywhere, and no FREQ is needed.

### C84 Validation reports exactly what is wrong (partial)

Validation reports no problem for a component exactly if the properties of the component and of all components in it occur as often as their classes require, have valid values and meet the extra rules (an end or a duration but not both, a start where one is needed, and so on); a component without problems has its properties as often as RFC 5545 says; validation with an exception raises exactly if there is a problem.

* `PyCal.C84_reports` (C84_Validity.lean): C84: `validate` reports no problem exactly for the components that meet the requirements of their class, at any depth.
* `PyCal.C84_raises` (C84_Validity.lean): C84: with `doRaise`, a container is rejected exactly if it does not meet them.
* `PyCal.C84_rfc_partial` (C84_Validity.lean): C84: in a component without problems the properties occur as often as RFC 5545 says. Missing: the DTSTART of an event, which may occur several times (`C84_fails_dtstart`).
* `PyCal.C84_fixed` (C84_Validity.lean): C84: after fix mode, the properties of which problems are reported are the only ones that occur in wrong numbers: a component of which nothing is left unfixed meets the requirements.
* `PyCal.C84_fails_dtstart` (C84_Validity.lean): C84 fails: an event with two DTSTART is reported to be valid.

### C85 Properties in jCal (partial)

The array that is written for a property has the form of RFC 7265, and reading it, with the members of objects in any order, gives a property with the same name, parameters, type and values.

* `PyCal.C85_wholeNumber` (C85_Numbers.lean): C85, numbers without a fraction: where a FLOAT with the value `n` is read, the whole number `n` is read as the same.
* `PyCal.C85_wholeGeo` (C85_Numbers.lean): C85, coordinates without a fraction: likewise.
* `PyCal.C85_floatText` (C85_Numbers.lean): C85, numbers as texts: where a FLOAT is read, a FLOAT of RFC 5545 as a text is read as the double next to the number it says.
* `PyCal.C85_params_iff` (C85_PropertyJSON.lean): C85, parameters, exactly: however the members of the object are ordered, they are read and give the same parameters (VALUE aside), if and only if each parameter stands alone and has one value.
* `PyCal.C85_ical_partial` (C85_PropertyJSON.lean): C85, where it holds in iCalendar: a property whose parameters each stand alone with one value, and whose values are texts, numbers, coordinates, durations, offsets, request statuses or rules, comes back the same: name (but for case), parameters, type and values. Missing: parameters with several values, and a type asked for with VALUE that the library has no class for; date-times are in C81.
* `PyCal.C85_vcard_partial` (C85_PropertyJSON.lean): C85, where it holds in vCards. Missing: parameters with several values, groups, and types that only the VALUE parameter tells and that jCal does not keep (C82).
* `PyCal.C85_written` (C85_PropertyJSON.lean): C85: what is written has the form of RFC 7265.
* `PyCal.C85_fails_values` (C85_PropertyJSON.lean): C85 fails: a parameter with two values is written as an array, which is not read.
* `PyCal.C85_fails_repeated` (C85_PropertyJSON.lean): C85 fails: of two parameters of the same name the first is lost, and so is the group.
* `PyCal.C85_fails_status` (C85_PropertyJSON.lean): C85 fails: a request status that is a text (as for the other properties of type text) is taken apart into its characters.
* `PyCal.C85_integerText` (C85_PropertyJSON.lean): C85: an integer that is given as a text is read as that integer.
* `PyCal.C85_fails_geo` (C85_PropertyJSON.lean): C85 fails: any number of numbers is accepted as coordinates, and written so.
* `PyCal.C85_fails_fraction` (C85_PropertyJSON.lean): C85 fails: a number with a fraction is accepted where an integer should be, and the fraction is lost.
* `PyCal.C85_fails_parts` (C85_PropertyJSON.lean): C85 fails: of a request status with more than three parts only the code and the description are written.

### C86 Component trees in jCal (partial)

The array that is written for a component has the form of RFC 7265 with every property and component in it; reading the array of a container gives the same container, and only containers in which components are where they may be are read.

* `PyCal.C86_written` (C86_TreeJSON.lean): C86: what is written for a component has the form of RFC 7265, and every property and component is in it once.
* `PyCal.C86_roundtrip_partial` (C86_TreeJSON.lean): C86, where it holds: the jCal form of a container is read as the same container, if each property is read from what is written for it (C81, C83, C85). Missing: components whose type has small letters or is `UNKNOWN`, or that the component around does not take.
* `PyCal.C86_cards_partial` (C86_TreeJSON.lean): C86, several cards: the array of what is written for cards is read as the same cards in the same order. Missing: as for one container.
* `PyCal.C86_cards_all` (C86_TreeJSON.lean): C86, several cards: one that is not read makes the whole array refused, and otherwise there is a card for each.
* `PyCal.C86_placed` (C86_TreeJSON.lean): C86: in every container that is read, the components are where they may be.
* `PyCal.C86_fails_container` (C86_TreeJSON.lean): C86 fails: anything is taken for the container, which need not have a VERSION, nor the version 2.0; as text none of these is accepted.
* `PyCal.C86_fails_case` (C86_TreeJSON.lean): C86 fails: the type of an unknown component loses its small letters.

### C87 The busy time of a free-busy component (partial)

The busy time of a VFREEBUSY is exactly the periods of its FREEBUSY properties that are not free, each with the type that FBTYPE says, earliest first; the span is from its start (or the first busy period) to its end (or the end of the last); a range that overlaps a busy period finds the component and its busy periods, whatever was asked or changed before.

* `PyCal.FB87.C87_busy_partial` (C87_FreeBusy.lean): C87: what `cacheBusyTime` finds, for FBTYPE values of the standard: nothing if the component lists no busy period; otherwise exactly the busy periods the component lists, each with its type, the earliest first (those that start together in the order of the component); and a span from DTSTART, or else the first start, to DTEND, or else the last end. (Missing: other FBTYPE values, `C87_fails_type`; DURATION, `C87_fails_duration`.)
* `PyCal.FB87.C87_found_partial` (C87_FreeBusy.lean): C87: a component is found for a range that overlaps one of its busy periods, provided DTSTART and DTEND, where given, do not cut the busy period. Missing: DTSTART with DURATION, `C87_fails_duration`, and types of busy time outside the standard, `C87_fails_type`.
* `PyCal.FB87.C87_queries` (C87_FreeBusy.lean): C87: a query does not change what a later query gives.
* `PyCal.FB87.C87_fails_type` (C87_FreeBusy.lean): C87 fails for FBTYPE values the standard does not define: they mean BUSY, but the periods are left out.
* `PyCal.FB87.C87_fails_expand` (C87_FreeBusy.lean): C87 fails for `expandPeriodFB`: whatever it gives has no period, and its type is not one of the four types.
* `PyCal.FB87.C87_fails_duration` (C87_FreeBusy.lean): C87 fails for DTSTART with DURATION: the span ends with the last busy period and not after the duration, so the component is not found for a range within it; with the DTEND that says the same it is.
* `PyCal.FB87.C87_fails_stale` (C87_FreeBusy.lean): C87 fails after a change: a query remembers the busy time, and FREEBUSY properties added or removed later are not seen, although a copy of the component sees them.
* `PyCal.FB87.C87_fails_stale_always` (C87_FreeBusy.lean): C87 fails after a change, always: after a query, whatever FREEBUSY property is added, or if all are removed, every later query gives what it gave before.
* `PyCal.FB87.C87_added_partial` (C87_FreeBusy.lean): C87, a property added before the first query or before a copy: the component is found for a range that overlaps a busy period it listed before, and for one that overlaps a busy period of the new property. Needed: as for `C87_found_partial`. Missing: properties added after a query, `C87_fails_stale_always`.

### C88 The VTIMEZONE written for a zone takes effect exactly at the zone's transitions (partial)

For every zone of the time zone data, the STANDARD and DAYLIGHT components of the VTIMEZONE that Zone.vtimezone writes (DTSTART, RDATE, RRULE with UNTIL) take effect, with their TZOFFSETFROM and TZOFFSETTO, at exactly the transitions that Zone.expand gives for the years asked for, and after them only as the rules without an end go on; a component is DAYLIGHT exactly if time is saved, and its TZNAME is the abbreviation that the format of the line gives.

* `PyCal.Zonal.C88_fails_start` (C88_Cases.lean): C88 fails where a line begins with the change that a rule makes later in the year: it is taken for the first change by that rule, and as 1 January 1990 is a Monday, winter time is written to begin on Mondays.
* `PyCal.Zonal.C88_fails_none` (C88_Cases.lean): C88 fails where a line has two transitions without a rule, the second one a change of the clock back that is followed by another before local time has caught up: the second is not written.
* `PyCal.Zonal.C88_fails_until` (C88_Cases.lean): C88 fails where a rule that goes on for ever first follows one offset and then another: the first component is written without an end.
* `PyCal.Zonal.C88_fails_name` (C88_Cases.lean): C88 fails for the name where a line begins without a rule: `%s` is then an S, also for standard time that is not daylight saving (`CET` should be the name).
* `PyCal.Zonal.C88_exact_partial` (C88_VTimezone.lean): C88 (partial): the components of the VTIMEZONE that is written for a zone take effect exactly at the transitions of the zone, with their offsets, as DAYLIGHT if the rule (or line) saves time and STANDARD if not; where nothing ends a rule they go on after its last transition as the rule does. Here the lines with `LMT`, which are left out, come first, and the other lines have the transitions that `LineOk` describes. Missing: `C88_fails_start`, `C88_fails_none`, `C88_fails_until`, and the rules for which C72 fails.
* `PyCal.Zonal.C88_name` (C88_VTimezone.lean): C88: a component written for a rule has the abbreviation that the format of the line gives.
* `PyCal.Zonal.C88_fails_format` (C88_VTimezone.lean): C88: a format with a second `%s`, for which there is no second text, makes the writing of a rule raise.

### C89 Properties in xCal (partial)

The element that writeXML gives for a property has the form of RFC 6321: its name in small letters, every parameter other than VALUE with the type and text of each value, and for every value the element of its type; the elements of a recurrence rule mean the same rule.

* `PyCal.C89_written_partial` (C89_XCal.lean): C89 (partial): a property is written as RFC 6321 says, if its values are texts, numbers, dates, rules or offsets in whole minutes and its parameters are among those whose values are texts. Missing: durations, periods and request statuses (`C89_fails_raises`), GEO (`C89_fails_geo`), offsets with seconds (`C89_fails_offset`) and the other parameters (`C89_fails_parameter`).
* `PyCal.C89_fails_raises` (C89_XCal.lean): C89 fails: a property with a duration, a period or a request status is not written at all, whatever else it has.
* `PyCal.C89_fails_geo` (C89_XCal.lean): C89 fails: GEO is written with an element `geo` inside that of the property, and the texts are numbers, not strings.
* `PyCal.C89_fails_offset` (C89_XCal.lean): C89 fails: an offset with seconds is written as "+0123:45".
* `PyCal.C89_fails_parameter` (C89_XCal.lean): C89 fails: the values of a parameter are always written as texts, also addresses, for example.

### C90 Component trees in xCal (partial)

The XML that is written for a calendar has the form of RFC 6321 with every property and component in it exactly once, and it is written for every calendar.

* `PyCal.C90_written_partial` (C90_XTrees.lean): C90 (partial): what is written for a component has the form of RFC 6321, and every property and component is in it once. Missing: that it is written (`C90_all`, `C90_fails_raises`).
* `PyCal.C90_all` (C90_XTrees.lean): C90: a component is written if and only if all properties in it and in its components are.
* `PyCal.C90_root` (C90_XTrees.lean): C90: the calendar is inside the element `icalendar`.
* `PyCal.C90_fails_raises` (C90_XTrees.lean): C90 fails: if anywhere in a calendar there is a property with a duration, a period or a request status, the calendar is not written. `value`: what a property has.

### C91 Writing through an output filter (partial)

What is written through an output filter is what is written for the component that has only the properties (with or without their values) and components that the calls on the filter ask for, whatever the order of the calls, in text, jCal and xCal.

* `PyCal.C91_text_partial` (C91_OutputFilter.lean): C91 (partial): what is written through a filter is what is written for the component that has only the properties and components the calls ask for. Missing: filters for components (`C91_fails_subs`) and names of properties that are not in capital letters (`C91_fails_case`). `bare`: a property without its value.
* `PyCal.C91_everything` (C91_OutputFilter.lean): C91: a filter for everything leaves nothing out.
* `PyCal.C91_json_partial` (C91_OutputFilter.lean): C91 (partial): the same in jCal, if there are no components or none are asked for. Missing: filters for components, all components (`C91_fails_nested`), and names not in capital letters.
* `PyCal.C91_xml_partial` (C91_OutputFilter.lean): C91 (partial): the same in xCal; if the component has components but none are asked for, the element for them is there but empty. What is missing is as in jCal.
* `PyCal.C91_fails_subs` (C91_OutputFilter.lean): C91 fails: if a filter for some components is added (and not all are asked for), writing raises, whatever the component; in jCal and xCal if it has components.
* `PyCal.C91_fails_nested` (C91_OutputFilter.lean): C91 fails: if all components are asked for, what is written for a component that has some, in jCal and xCal, has in their place the component itself.
* `PyCal.C91_fails_case` (C91_OutputFilter.lean): C91 fails: a property asked for by a name that is not in capital letters is not written.
* `PyCal.C91_subFilter` (C91_OutputFilter.lean): C91: the filter for a kind of component is the one last given for it, unless all components were asked for since.
* `PyCal.C91_testSub` (C91_OutputFilter.lean): C91: a kind of component passes the test of a filter if and only if all components were asked for, or this kind.

### C92 Calendar data that is written is read as the same calendar (partial)

The bytes that getText gives for a calendar, folded lines and non-ASCII text included, are read by parse as the same calendar: the same components in components, and in each the same properties with the same name, parameters and value.

* `PyCal.C92_roundtrip_partial` (C92_Files.lean): C92 (partial): the bytes written for a calendar are read as the same calendar, with the same group, name, parameters and value in every property. `PlainLine` says what a property must be like; components must not have the type of the calendar or `UNKNOWN` and must be where they may be. Missing: what is missing in C41 and C46; the values are in the theorems about each type.
* `PyCal.C92_calendar_partial` (C92_Files.lean): C92 (partial), of `Calendar`: the same for `Calendar.parse`, if there is no component whose type differs from VTIMEZONE in case (`C41_fails_zone`). Missing: as in `C92_roundtrip_partial`.
* `PyCal.C92_text` (C92_Files.lean): C92: a text given to a property is, after all this, the text read, whatever it is.
* `PyCal.C92_utf8` (C92_Files.lean): C92: the bytes that stand for a text are its UTF-8 encoding (the one of Lean's strings).

### C93 Attributes of components and their properties stay together (partial)

After loading and any sequence of setUID, setSeq, editSummary, editDetails, editStatus, editCompleted, initDTSTAMP and updateLastModified, what an event or to-do reports (UID, sequence, key, summary, status, completion, priority, percentage) is what a new component with the same properties reports; each call sets what it names and leaves the properties of all other names alone. The same for the name and description of a calendar.

* `PyCal.Attr.C93_edits_partial` (C93_C94_Attributes.lean): C93 (partial): after any edits of an event or a to-do that has been loaded, its attributes are those of a new component with the same properties. Missing: an empty summary (`C93_fails_summary`), the status "completed" of a to-do (`C93_fails_complete`).
* `PyCal.Attr.C93_loaded` (C93_C94_Attributes.lean): C93: what a component that has been loaded says is what its properties say: UID, SEQUENCE and SUMMARY, and of a to-do PRIORITY, PERCENT-COMPLETE and COMPLETED.
* `PyCal.Attr.C93_status_partial` (C93_C94_Attributes.lean): C93 (partial): the status of a component that has been loaded is the one named by its STATUS, in upper case (`C93_fails_case`), and none if it has no STATUS or one not in the table.
* `PyCal.Attr.C93_set` (C93_C94_Attributes.lean): C93: a call sets the attribute it names, in the properties too. (For a component whose attributes agree with its properties, as after `C93_edits_partial`; what else it writes: `C93_others`.)
* `PyCal.Attr.C93_others` (C93_C94_Attributes.lean): C93: an edit leaves the properties of all other names alone, and their order.
* `PyCal.Attr.C93_fails_uid` (C93_C94_Attributes.lean): C93 fails: a component cannot be given a new UID of its own.
* `PyCal.Attr.C93_fails_summary` (C93_C94_Attributes.lean): C93 fails: with an empty summary the component says that it has one, and does not when it is read again.
* `PyCal.Attr.C93_fails_complete` (C93_C94_Attributes.lean): C93 fails: to complete a to-do raises, and its STATUS and COMPLETED are gone.
* `PyCal.Attr.C93_fails_none` (C93_C94_Attributes.lean): C93 fails: a to-do that loses its status gets a STATUS property without a value.
* `PyCal.Attr.C93_fails_case` (C93_C94_Attributes.lean): C93 fails: a status in lower case is not understood.
* `PyCal.Attr.C93_fails_floating` (C93_C94_Attributes.lean): C93 fails: a floating time of completion is not made UTC.
* `PyCal.Attr.C93_fails_again` (C93_C94_Attributes.lean): C93 fails: loading again after a property has been removed keeps what it said.
* `PyCal.Attr.C93_fails_key` (C93_C94_Attributes.lean): C93 fails: a recurring component and an instance of another can have the same key.
* `PyCal.Attr.C93_description_partial` (C93_C94_Attributes.lean): C93 (partial): the description of a calendar and the property agree after an edit, and the name is left alone. Missing: the name (`C93_fails_name`).
* `PyCal.Attr.C93_fails_name` (C93_C94_Attributes.lean): C93 fails: a new name for a calendar raises, and the old one is gone from its properties.

### C94 The completion state of a to-do (partial)

getCompletionState of a to-do that is not completed or cancelled tells whether it is overdue, due now (today, or without a due time) or due later; one that is completed is done, one that is cancelled is cancelled.

* `PyCal.Attr.C94_state_partial` (C93_C94_Attributes.lean): C94 (partial): a to-do that is completed is done, one that is cancelled is cancelled, and one that is to be done or in process and has no due time is due now. Missing: those with a due time (`C94_fails_due`) or without a status (`C94_fails_status`).
* `PyCal.Attr.C94_fails_due` (C93_C94_Attributes.lean): C94 fails: for a to-do with a due time that is not completed or cancelled it raises.
* `PyCal.Attr.C94_fails_status` (C93_C94_Attributes.lean): C94 fails: a to-do without a status has no state.

### C95 Lines of time zone data are read and written exactly (proved)

A rule line is read exactly if it has ten words or more, and its words are then the fields of the rule, whatever blanks and tabs are between them and whatever follows; a rule, a set of rules of one name and a zone whose fields are words are read back from what generate writes; what Zone.parse and Rule.parse return is always written in a form that is read back as the same. RuleSet.parse reads only lines with single blanks before the name.

* `PyCal.Zonal.C95_fields` (C95_ZoneLines.lean): The fields of a line are its words.
* `PyCal.Zonal.C95_rule_read` (C95_ZoneLines.lean): A line is read as a rule exactly if it has at least ten words; the second to tenth are the fields of the rule, and what follows is ignored.
* `PyCal.Zonal.C95_rule_write` (C95_ZoneLines.lean): What is written for a rule is read as the same rule, if and only if no field is empty or has blanks.
* `PyCal.Zonal.C95_rule_again` (C95_ZoneLines.lean): A rule that was read is written so that it is read as the same rule.
* `PyCal.Zonal.C95_ruleset_write` (C95_ZoneLines.lean): What is written for the rules of one name is read as the same rules.
* `PyCal.Zonal.C95_fails_ruleset` (C95_ZoneLines.lean): But a rule set cannot be read from a line that is a rule, if two blanks follow its first word.
* `PyCal.Zonal.C95_zone_write` (C95_ZoneLines.lean): What is written for a zone is read as the same zone.
* `PyCal.Zonal.C95_zone_again` (C95_ZoneLines.lean): A zone that was read is written so that it is read as the same zone.

### C96 A file of time zone data is read into what it says (partial)

After tzconvert.parse of a file that consists of remarks, empty lines, rule lines, zones with their lines and remarks, and links, the rules of each name are those had before followed by those of the file in order, each zone and each link is that which the file says last, and everything else is as before; parse raises for no such file; it raises for every file with a line that is none of these.

* `PyCal.Zonal.C96_links` (C96_Blanks.lean): C96, links: whatever white space of zic(8) is between the words, a link gives its last word as another name for the middle one.
* `PyCal.Zonal.C96_fails_blank` (C96_Blanks.lean): C96 fails for other lines: a form feed between the words of a rule is taken for a part of a word.
* `PyCal.Zonal.C96_read_partial` (C96_ZoneFiles.lean): C96 (partial): a file of time zone data is read as what it says: the rules of each name in the order of the file, behind those of earlier files, the last zone of each name, and the last link for each name. Missing: files without an end of line at the end, `C96_fails_last`, and some lines that begin with blanks, `C96_fails_short`, `C96_fails_note`.
* `PyCal.Zonal.C96_strange` (C96_ZoneFiles.lean): A file with a line that is none of these, wherever it is and whatever the others are, is not read: an exception is raised.
* `PyCal.Zonal.C96_fails_last` (C96_ZoneFiles.lean): But the last character of a file is dropped, even if it is not the end of a line.
* `PyCal.Zonal.C96_fails_short` (C96_ZoneFiles.lean): A line in a zone that begins with blanks and has fewer than three words, or none, is an exception: a line of blanks only, or a remark of one word.
* `PyCal.Zonal.C96_fails_note` (C96_ZoneFiles.lean): And a remark in a zone that begins with blanks is taken for a line of the zone if no blank follows the `#`: the zone gets a line whose offset is that word.

### C97 Each zone and each link gets its file of calendar data (partial)

generateZoneinfoFiles writes a file for each zone and for each link, directly or through other links, to a zone, and no others; the file of a link is that of the name it is a link to with its own name in place of that, and nothing else changed; links of the time zone data go before Windows aliases, of which those for the territory 001 are used; links.txt lists in order the links that have been written.

* `PyCal.Zonal.C97_good` (C97_ZoneLinks.lean): What `parse` has read from any files has each key once.
* `PyCal.Zonal.C97_files` (C97_ZoneLinks.lean): The files. A name that is no link has the file of its zone. A link to a name before it has the file of that name, with the names exchanged; another link has that of the zone it is a link to. If there is no such file, there is no file for a link, unless it is the name of a zone too.
* `PyCal.Zonal.C97_reach` (C97_ZoneLinks.lean): There is a file for exactly the names that can be reached.
* `PyCal.Zonal.C97_list` (C97_ZoneLinks.lean): The file `links.txt` has, in alphabetical order, the links for which there is a file to be copied.
* `PyCal.Zonal.C97_text_partial` (C97_ZoneLinks.lean): C97 (partial): if the name occurs once in the text, it is exchanged and nothing else is. Missing: names that occur more often, `C97_fails_text`.
* `PyCal.Zonal.C97_fails_text` (C97_ZoneLinks.lean): But a name that occurs elsewhere in the text is exchanged there too: the abbreviation of a zone that is called like it changes.
* `PyCal.Zonal.C97_fails_chain` (C97_ZoneLinks.lean): And a link to a link that comes later in alphabetical order gets no file.

### C98 An alarm and its properties stay together (partial)

After loading and any sequence of editStatus, editAction, editTriggerOn, editTriggerBy and editRepeats, what an alarm reports (action and its data, trigger, repetitions, status, key) is what a new alarm with the same properties reports; each call sets what it names, leaves the properties of all other names alone and does not raise; a duplicate reports the same; an alarm that is loaded again takes a trigger without RELATED from the start.

* `PyCal.Alm.C98_edits_partial` (C98_AlarmEdit.lean): C98 (partial): after loading and any sequence of edits, an alarm tells what a new alarm with the same properties would tell, if the data of each new action is of its class and the action has a name. Missing: actions without a name, `C98_fails_unknown`.
* `PyCal.Alm.C98_set` (C98_AlarmEdit.lean): What each call sets; it leaves alone what it does not name.
* `PyCal.Alm.C98_others` (C98_AlarmEdit.lean): The properties of all other names are left as they are.
* `PyCal.Alm.C98_loaded` (C98_AlarmEdit.lean): What a new alarm tells: the action of the first ACTION and its data, the trigger of the first TRIGGER, from the start if not said otherwise, the repetitions of REPEAT and DURATION.
* `PyCal.Alm.C98_data` (C98_AlarmEdit.lean): What a new alarm tells of the text of its action, which may be an address as well: of AUDIO the first SPEAK, of DISPLAY the first DESCRIPTION, of URI the first URL, of EMAIL the first DESCRIPTION and the first SUMMARY. Words are spoken just if there are any.
* `PyCal.Alm.C98_trigger` (C98_AlarmEdit.lean): Loading again after the properties changed: a trigger that does not say where it counts from counts from the start, and one that says neither START nor END counts from where the last one did.
* `PyCal.Alm.C98_email` (C98_AlarmEdit.lean): The data of an email alarm: the texts, and all attendees in order.
* `PyCal.Alm.C98_duplicate_partial` (C98_AlarmEdit.lean): C98 (partial): a duplicate, if there is one, tells the same and has the same properties. Missing: alarms that cannot be duplicated, `C98_fails_duplicate`.
* `PyCal.Alm.C98_fails_unknown` (C98_AlarmEdit.lean): An action without a name is written as another one.
* `PyCal.Alm.C98_fails_case` (C98_AlarmEdit.lean): The names of actions are taken as they are, so that `display` is none.
* `PyCal.Alm.C98_fails_related` (C98_AlarmEdit.lean): So is RELATED: `end` is the start.
* `PyCal.Alm.C98_fails_attendees` (C98_AlarmEdit.lean): The data of an email alarm made without attendees raises, after the alarm has lost its old action.
* `PyCal.Alm.C98_fails_interval` (C98_AlarmEdit.lean): The interval of an alarm that does not repeat is not kept.
* `PyCal.Alm.C98_fails_speak` (C98_AlarmEdit.lean): An audio alarm without a text to be spoken cannot say so.
* `PyCal.Alm.C98_fails_key` (C98_AlarmEdit.lean): The key of an alarm, by which alarms are sorted when they are written, is not changed by edits.
* `PyCal.Alm.C98_fails_duplicate` (C98_AlarmEdit.lean): A display alarm edited without a description cannot be duplicated.

### C99 Several cards in one text are read as those cards (partial)

Card.parseMultipleData of a text returns the cards of the text, one for each BEGIN:VCARD/END:VCARD, in order, each with exactly the properties between the two lines; a text in which a card is not complete or has no supported VERSION raises; cards written one after another are read as the same cards; reading always ends.

* `PyCal.C99_exact` (C99_Cards.lean): C99: exactly the texts of complete cards one after another are accepted, and the cards are those in the text, in order, each with exactly its own properties.
* `PyCal.C99_append` (C99_Cards.lean): C99: if a text of cards is followed by another text, its cards come first, and all else, also an exception, is as if the other had been read alone.
* `PyCal.C99_blank` (C99_Cards.lean): C99: blank lines, anywhere in the text, make no difference.
* `PyCal.C99_version` (C99_Cards.lean): C99: every card read has a VERSION and no components, and a property called `VERSION` says 3.0.
* `PyCal.C99_roundtrip_partial` (C99_Cards.lean): C99 (partial): the texts written for cards, one after another, are read as the same cards in the same order, with the same group, name, parameters and value in every property. Missing: what is missing in C46; binary photos, which are folded by a loop of their own; the values are in the theorems about each type.
* `PyCal.C99_fails_truncated` (C99_Cards.lean): C99 fails: if the end of a card is missing, the card after it is taken for a part of it, whatever the two are; there is no exception and one card with the properties of both, and a property called `BEGIN`.
* `PyCal.C99_fails_version` (C99_Cards.lean): C99 fails: a version that is not supported is accepted if its name is not in capitals.
* `PyCal.C99_fails_hang` (C99_Cards.lean): C99 fails: there are texts on which the reading does not end.

### C100 Reading components into a calendar adds exactly these (partial)

Calendar.parseComponent adds to a calendar the components of the data read, the same as parse finds in them, after those that it has, and changes nothing else; it returns the first of them; data that are not complete raise, and after an exception the calendar is as it was; a file of the time zone database that cannot be read makes the time zone unknown.

* `PyCal.C100_complete` (C100_AddComponents.lean): C100: of complete data the components, and nothing else, are added to the calendar after those that it has; the result is the first of them; what comes after the data is not read.
* `PyCal.C100_keeps` (C100_AddComponents.lean): C100: whatever the data are, also if there is an exception, the calendar keeps its properties and the components that it had, in their order; components are only added after them.
* `PyCal.C100_result` (C100_AddComponents.lean): C100: if components were added, the result is the first of them.
* `PyCal.C100_fails_truncated` (C100_AddComponents.lean): C100 fails: if the data end within a component, there is no exception; the result is the component as far as it was read, and it is not in the calendar.
* `PyCal.C100_fails_unclosed` (C100_AddComponents.lean): C100 fails: the same with the end of a component missing before the end of the calendar.
* `PyCal.C100_fails_exception` (C100_AddComponents.lean): C100 fails: after an exception the calendar has the components that came before the error; and an error in a property is not one of those that `cacheTimezone` turns into `NoTimezoneInDatabase`.
* `PyCal.C100_file` (C100_AddComponents.lean): What `cacheTimezone` makes of a file: it returns just if the text is read, and raises `NoTimezoneInDatabase` just if there is no file or its text is not that of a calendar; the calendar of the database is then as the reader left it.
* `PyCal.C100_noCalendar` (C100_AddComponents.lean): In particular a file that does not begin with the beginning of a calendar, and leaves the calendar as it was.
* `PyCal.C100_agrees` (C100_AddComponents.lean): C100: data that `parse` reads as a calendar are read without an exception, and the components added are those of that calendar, from the first on; all of them if the end of a calendar is in the data only once.

### C101 The times of a free-busy component and its properties stay together (partial)

A VFREEBUSY that is read has the start and the end that its DTSTART and DTEND (or DURATION) say; after editTimingStartEnd or editTimingStartDuration it tells the times that were given, and a component read from its properties tells the same; after editTiming it has no times and no such properties; queries after an edit use the new times; a copy tells the same times.

* `PyCal.BusyTiming.C101_read` (C101_FreeBusyTiming.lean): C101: a component read with a start and an end, or with a start and a duration, tells these times.
* `PyCal.BusyTiming.C101_view` (C101_FreeBusyTiming.lean): C101: what is read is what the queries of C87 start from.
* `PyCal.BusyTiming.C101_startEnd_iff` (C101_FreeBusyTiming.lean): C101: after a start and an end were set, the component tells what is read from its properties if and only if the end is later than the start and it is not the next day of an all-day start; then both are the times that were set.
* `PyCal.BusyTiming.C101_startEnd` (C101_FreeBusyTiming.lean): C101: when a start and an end that is later are set, the component tells them.
* `PyCal.BusyTiming.C101_startDuration_iff` (C101_FreeBusyTiming.lean): C101: after a start and a duration were set, the component tells these times; it tells what is read from its properties if and only if the start has a time or the duration has weeks or more than one day.
* `PyCal.BusyTiming.C101_duplicate` (C101_FreeBusyTiming.lean): C101: a copy tells the same times and has the same properties.
* `PyCal.BusyTiming.C101_fails_none` (C101_FreeBusyTiming.lean): C101 fails: `editTiming` raises and leaves the properties, but the component then says that it has neither a start nor an end.
* `PyCal.BusyTiming.C101_fails_oneDay` (C101_FreeBusyTiming.lean): C101 fails: an all-day component of one day has no end when it is read again; its end is then its start.
* `PyCal.BusyTiming.C101_fails_stale` (C101_FreeBusyTiming.lean): C101 fails: once a query was made, its answers do not depend on the times that are set after it.

### C102 The text that describes a time zone at a time is that of the element in force (partial)

VTimezone.getTimezoneDescriptor gives, for every time and after any queries, the TZNAME in parentheses of the element with the last transition at or before the time, or without a name the UTC offset of that element as +HHMM or -HHMM; a date-time in UTC or with a numeric time zone is described by "(UTC)" or its offset; time zones can be sorted by their UTC offsets.

* `PyCal.C102_asked_partial` (C102_Asked.lean): C102 (partial), after the offset was asked for: if at some time before the offset was asked for, for a time in the same year or a later one, then the text for a time describes the element with the last transition at or before it, and is empty if there is none. Missing: if the offset was not asked for (`C102_fails_thisYear`), dates.
* `PyCal.C102_ends_partial` (C102_Asked.lean): C102 (partial), every question is answered: in a time zone as parsed, after any queries, there is a text for every time, and allowing more iterations gives the same. Missing: rules that can run forever (`C28_fails_endless`).
* `PyCal.C102_same` (C102_Descriptor.lean): The text of a numeric time zone and that of an element are made alike.
* `PyCal.C102_text` (C102_Descriptor.lean): C102: a name is shown in parentheses; without one the text is the offset as written in a TZOFFSETTO property, if it is in whole minutes, and says it if it is less than 100 hours.
* `PyCal.C102_fixed` (C102_Descriptor.lean): C102: a date-time with a numeric time zone shows its offset, one in UTC shows "(UTC)".
* `PyCal.C102_element_partial` (C102_Descriptor.lean): C102 (partial): in a time zone as parsed, after any queries, the text for a time describes the element with the last transition at or before it (the first such element in the order of the time zone), and is empty if there is none. Needed: no element has a transition, other than its first, from 1 January of the year of the time up to the time. Missing: such times (`C102_fails_thisYear`), dates.
* `PyCal.C102_history_partial` (C102_Descriptor.lean): C102 (partial): under the same conditions the text does not depend on what was asked before, nor on the order in which sets are run through. Missing: the other times, `C102_fails_thisYear`.
* `PyCal.C102_date_partial` (C102_Descriptor.lean): C102 (partial): under the same conditions, the text of a date-time describes the element in force in the time zone that its TZID names, or in the default time zone if it has none; there is no text if the database does not have that time zone. Missing: the other times, `C102_fails_thisYear`.
* `PyCal.C102_agrees_partial` (C102_Descriptor.lean): C102 (partial): under the same conditions, in a time zone without names and with offsets in whole minutes, the text says the offset that `getTimezoneOffsetSeconds` gives, from the first transition on. Missing: offsets with seconds, `C102_fails_seconds`.
* `PyCal.C102_order` (C102_Descriptor.lean): C102: `sortByUTCOffsetComparator` gives -1 or 1, puts the time zone first that has the smaller sum of the offsets of its first two elements, if these are even numbers of seconds, and is antisymmetric and transitive where it gives an answer.
* `PyCal.C102_fails_order` (C102_Descriptor.lean): C102 fails for the order: two time zones with the same offsets in their first two elements cannot be compared, an exception is raised.
* `PyCal.C102_meets` (C102_Descriptor.lean): The conditions of `C102_element_partial`, `C102_history_partial` and `C102_agrees_partial` are met by Eastern Time in February.
* `PyCal.C102_fails_thisYear` (C102_Descriptor.lean): C102 fails in the part of the year after a transition: on 1 July 2010 Eastern Time shows "(EST)", as only transitions up to 1 January are looked at; after a query for the offset, which fills the cache, it shows "(EDT)".
* `PyCal.C102_fails_seconds` (C102_Descriptor.lean): C102 fails for offsets with seconds: they are left out, so that two offsets look the same.

### C103 Dates and times that differ are shown differently (partial)

getLocaleDate shows the day of the week, the month by name or number, the day and the year of a date; getTime shows the time with 24 hours or with AM and PM; for every two dates the texts with the year differ if the dates differ, for every two times the texts differ if what is asked for (seconds or not) differs, texts with 24 hours sort as the times do, and so for getLocaleDateTime.

* `PyCal.DateTime.C103_date` (C103_Display.lean): C103: the date is shown with the names of its day and month, or with their first three letters, or in numbers. The day of the week is that of `getDayOfWeek`.
* `PyCal.DateTime.C103_weekday_partial` (C103_Display.lean): C103 (partial): in the years 1901 to 2100 the day shown is the day of the week of the date. Missing: other years (`C103_fails_weekday`).
* `PyCal.DateTime.C103_year` (C103_Display.lean): C103: with the year, dates that differ are shown differently, in each format.
* `PyCal.DateTime.C103_noYear` (C103_Display.lean): C103: without the year, dates are shown alike if they have the same month and day (and, when it is shown, the same day of the week).
* `PyCal.DateTime.C103_clock` (C103_Display.lean): The hour shown on a clock with twelve hours, and if it is after noon.
* `PyCal.DateTime.C103_time` (C103_Display.lean): C103: times that differ are shown differently, with 24 hours and with AM and PM; seconds count if they are shown.
* `PyCal.DateTime.C103_order` (C103_Display.lean): C103: texts with 24 hours and seconds are in the order of the times.
* `PyCal.DateTime.C103_whole` (C103_Display.lean): C103: with the year, date-times that differ in what is shown are shown differently.
* `PyCal.DateTime.C103_zone` (C103_Display.lean): C103: the text of a time zone is put behind a blank, and nothing is put behind the time without one.
* `PyCal.DateTime.C103_fails_weekday` (C103_Display.lean): C103 fails outside of 1901 to 2100: Saturday 1 January 2101 is shown as a Sunday.
* `PyCal.DateTime.C103_fails_date` (C103_Display.lean): C103 fails: a date is shown with the time 00:00, as midnight on that date is.

### C104 The times of a changed instance (partial)

After ComponentRecur.setMaster the start of a changed instance is its own DTSTART or else its RECURRENCE-ID; its end is its own DTEND (DUE for a to-do), or its start and DURATION, or else it lasts as long as its master; it says that it has a start and an end; only the last master that was set counts; a component that is its own master keeps its times and is not an instance of anything; a copy has the same times and is an instance just if the original is.

* `PyCal.C104_start` (C104_Master.lean): The start of a changed instance is its own DTSTART, or else its RECURRENCE-ID; there is a start just if it has one of these.
* `PyCal.C104_end_partial` (C104_Master.lean): C104 (partial): the end of a changed instance with a DTEND is that. Missing: to-dos with DUE, `C104_fails_due`, and what it says about having an end, `C104_fails_has`.
* `PyCal.C104_duration_partial` (C104_Master.lean): C104 (partial): a changed instance with a DURATION lasts as long as that says. Missing: what it says about having an end, `C104_fails_has`.
* `PyCal.C104_length_partial` (C104_Master.lean): C104 (partial): a changed instance that says nothing of its end lasts as long as its master. Missing: to-dos with DUE, `C104_fails_due`.
* `PyCal.C104_last` (C104_Master.lean): Only the last master counts, and the same master twice changes nothing.
* `PyCal.C104_self` (C104_Master.lean): A component that is made its own master, or is given none, keeps its times.
* `PyCal.C104_set` (C104_Master.lean): If another component is made the master, the times are those of above for this component and that master, and it is an instance of that master.
* `PyCal.C104_copy` (C104_Master.lean): A copy has the same times.
* `PyCal.C104_copy_master` (C104_Master.lean): A copy of a changed instance has the same master.
* `PyCal.C104_fails_due` (C104_Master.lean): C104 fails for to-dos: the DUE of a changed instance is of no account; without DTEND and DURATION (a to-do has no DTEND) it is as long as its master.
* `PyCal.C104_fails_has` (C104_Master.lean): C104 fails: a changed instance that takes its start from RECURRENCE-ID says that it has no start, and one that takes its length from the master that it has no end, even if the master has one.
* `PyCal.C104_fails_copy` (C104_Master.lean): C104 fails: a copy of a component that is its own master takes the original for its master, and says that it is an instance of something that recurs.

### C105 Recurrence sets are compared by what they say (partial)

RecurrenceSet.equals says whether two sets have the same rules, exclusion rules, dates and periods, in any order; a copy of a set or of a rule equals the original; isSimpleRule and isAdvancedRule say whether a rule has no BY part, or only those that a dialog can show; isSimpleUI, isAdvancedUI, getUIRecurrence and getUIDescription answer for every set.

* `PyCal.C105_rules_partial` (C105_SetCompare.lean): C105 (partial): two lists of rules are equal just if the rules of one say the same as those of the other, in any order. For rules whose UNTIL are of one kind (C17) and that hold no stale count (C45). Missing: UNTIL of several kinds, `C105_fails_order`; lists of dates and periods, `C105_fails_dates`.
* `PyCal.C105_copy_partial` (C105_SetCompare.lean): C105 (partial): a copy of a rule equals it and has the same cache, if it has an UNTIL just when it uses it (as after parsing). Missing: the other rules, `C105_fails_copy`.
* `PyCal.C105_copySet_partial` (C105_SetCompare.lean): C105 (partial): the same for a set. Missing: the other rules, `C105_fails_copy`.
* `PyCal.C105_fails_copy` (C105_SetCompare.lean): C105 fails: a rule that has an UNTIL and does not use it is not equal to its copy; and a rule that is to use an UNTIL and has none cannot be copied.
* `PyCal.C105_fails_order` (C105_SetCompare.lean): C105 fails: whether lists of rules are equal depends on their order if UNTIL is a date in one and times in others.
* `PyCal.C105_fails_dates` (C105_SetCompare.lean): C105 fails: lists of dates, or of periods, can be compared just if one of them is empty or they have different lengths.
* `PyCal.C105_fails_equals` (C105_SetCompare.lean): C105 fails: recurrence sets cannot be compared at all, not even a set with itself or two empty ones.
* `PyCal.C105_simple` (C105_SetCompare.lean): A rule is simple just if it has no BY part.
* `PyCal.C105_advanced` (C105_SetCompare.lean): A rule is for the dialog just if besides BYMONTH it has only days of the month from 1 to 31 or -7 to -1, days of the week that have all the same number from -2 to 4 (0: none), and the position 1 or -1.
* `PyCal.C105_fails_dialog` (C105_SetCompare.lean): C105 fails: a dialog cannot ask a set with just one rule, whatever the rule is, whether it is for the dialog, and of one with one rule and nothing else there is no description. All others are told from the numbers of their parts.
* `PyCal.C105_shown` (C105_SetCompare.lean): The rule shown is the only one.

### C106 Two sets of time zone data are compared by their transitions (partial)

tzverify's compareCalendars reports for every zone that both sets have just the transitions that change the offset and that one set has and the other has not: each such transition (time and offsets) that is only in the second set as missing in the first and the other way round, and nothing for sets with the same transitions; the report does not depend on the order in which sets are run through; zones that are in only one of the sets are mentioned; the texts of two offsets differ if the offsets do.

* `PyCal.C106_second_partial` (C106_Verify.lean): C106 (partial): all that is reported of two calendars' transitions of one time zone. Of the second calendar: exactly the transitions that the first does not have and at which the offset changes. Missing: transitions of time zone data, `C106_fails_data`.
* `PyCal.C106_first_partial` (C106_Verify.lean): C106 (partial): of the first calendar, if none of the differences is at the start: exactly the transitions that the second does not have and at which the offset changes. Missing: those at the start, `C106_fails_start`.
* `PyCal.C106_start_partial` (C106_Verify.lean): C106 (partial): in general, all that is reported of the first calendar is not in the second, and everything that is not in the second and changes the offset is reported, but for one transition at the start. Missing: that one, `C106_fails_start`.
* `PyCal.C106_matched_partial` (C106_Verify.lean): C106 (partial): "Matched" is said just if the two have the same transitions that change the offset, if none of the first's is at the start. Missing: those, `C106_fails_start`.
* `PyCal.C106_refl` (C106_Verify.lean): Calendars that have the same transitions of a time zone match.
* `PyCal.C106_zones` (C106_Verify.lean): Which time zones are compared: exactly those of both calendars that are asked for (all, if none are), each once and in order, if no comparison raises.
* `PyCal.C106_text_partial` (C106_Verify.lean): C106 (partial): different offsets of less than sixty hours are shown as different texts. Missing: longer offsets, `C106_fails_text`.
* `PyCal.C106_fails_text` (C106_Verify.lean): C106 fails: offsets sixty hours apart are shown as one.
* `PyCal.C106_fails_start` (C106_Verify.lean): C106 fails: a transition on the day of the start (the commands give a date) is not reported, and the calendars are said to match, if the first calendar has it and the second not; the other way round it is reported.
* `PyCal.C106_fails_order` (C106_Verify.lean): C106 fails: what is reported depends on the order in which a set is run through.
* `PyCal.C106_fails_data` (C106_Verify.lean): C106 fails: transitions in a calendar cannot be compared with the transitions of time zone data, if there are any.
* `PyCal.C106_fails_missing` (C106_Verify.lean): C106 fails: time zones that only the second calendar has are not mentioned.
* `PyCal.C106_data_partial` (C106_ZoneData.lean): C106 (partial), time zone data: what `tzconvert.expandZone` gives for a zone, to be compared, shows at every instant, from the first transition in the first year on, the offset that the lines of the zone show, and with each transition the offset in force just before it. Needed: as in `C74_offsets_partial`. Missing: the same.
* `PyCal.C106_fails_zones` (C106_ZoneData.lean): C106 fails: the transitions of two zones of time zone data are said to match, if they are the same; if the second has one that the first does not have, `IndexError` is raised.

### C107 A value that is not allowed is reported, and no other (partial)

With validation on, a value passes the check for its property just if RFC 5545 allows it: COMPLETED, CREATED, DTSTAMP, LAST-MODIFIED and ACKNOWLEDGED are date-times in UTC, PERCENT-COMPLETE is from 0 to 100, PRIORITY from 0 to 9, REPEAT and SEQUENCE are not negative, VERSION is 2.0 and CALSCALE is GREGORIAN; the command line validator tells of exactly the control characters in the data, other than tabs and line ends, with their positions in order.

* `PyCal.C107_utc` (C107_ValueCheck.lean): A time that must be in UTC passes just if its text ends with Z.
* `PyCal.C107_utc_tzid` (C107_ValueCheck.lean): A time with a TZID does not pass, nor a value that is no time.
* `PyCal.C107_number` (C107_ValueCheck.lean): A number passes just if it is in the range of the property; every number that is written can be read.
* `PyCal.C107_text` (C107_ValueCheck.lean): VERSION passes just if its text is 2.0, CALSCALE just if its text is GREGORIAN in whatever case.
* `PyCal.C107_others` (C107_ValueCheck.lean): All other properties pass.
* `PyCal.C107_kind` (C107_ValueCheck.lean): A value whose VALUE parameter says that it is of another kind than the check is for does not pass: for a time neither a date nor a time, for a number no number, for the two texts a number, a time or another value without a plain text.
* `PyCal.C107_fails_type` (C107_ValueCheck.lean): C107 fails: a property with a VALUE that it must not have may pass: a DTSTAMP that is said to be a DATE, a VERSION that is said to be a URI; and one with a value that it must not have passes if there is no check for it: an ACTION that is a number.
* `PyCal.C107_control` (C107_ValueCheck.lean): The control character check finds exactly the control characters other than tabs and line ends, with their positions.
* `PyCal.C107_control_order` (C107_ValueCheck.lean): The positions are told in order, each once.

### C108 Each problem that validation reports is one, and each is reported (proved)

validate without fixing does not change a component and reports, problem by problem, just what is wrong with it and with all components in it: each property that must occur exactly once, at most once or at least once and does not, each value that is not allowed, each UNTIL of another kind than the start, and each rule between properties of the class that is broken, with the component and the property; a report that a property of a component of RFC 5545 is missing or occurs too often is right by that RFC.

* `PyCal.C108_exact` (C108_Validation.lean): Checking tells exactly what is wrong with a component and those in it.
* `PyCal.C108_rfc` (C108_Validation.lean): What is reported of the numbers of properties in a component of RFC 5545, other than of those in it, is against RFC 5545.

### C109 The XML text of a calendar says what the calendar says (partial)

The elements from which the XML text of a calendar is made are those of the calendar, with every text unchanged and each element on a line of its own, and there is an XML text for every calendar that has an XML tree.

* `PyCal.C109_same` (C109_Indent.lean): Indenting keeps what a tree says: all elements, and all texts but for the blanks between elements.
* `PyCal.C109_layout` (C109_Indent.lean): What is indented is laid out, each element on a line of its own.
* `PyCal.C109_calendar_partial` (C109_Indent.lean): C109 (partial): the XML text of a calendar is made from exactly the elements of the calendar, with its texts unchanged, unless there is a floating point number among the texts. Missing: calendars with one, `C109_fails_geo`.
* `PyCal.C109_fails_geo` (C109_Indent.lean): C109 fails: a calendar with a GEO property anywhere has no XML text.

### C110 Equal properties have equal hashes (partial)

Two properties are == exactly if they have the same group, name, parameters and value; == is an equivalence relation, != is its opposite, and properties that are == have the same hash.

* `PyCal.C110_exact` (C110_PropertyEq.lean): C110, which properties are `==`: exactly those with the same name, the same value and the same parameters.
* `PyCal.C110_vcard_partial` (C110_PropertyEq.lean): C110 (partial), vCard: the same, without the group (`C110_fails_group`).
* `PyCal.C110_symmetric` (C110_PropertyEq.lean): C110: `==` is reflexive and symmetric, whatever the values.
* `PyCal.C110_transitive_partial` (C110_PropertyEq.lean): C110 (partial): `==` is transitive, if the dates and date-times in the values are of a family on which `==` is. Missing: the others, as for components (`C61_fails_floating`).
* `PyCal.C110_hash_partial` (C110_PropertyEq.lean): C110 (partial): properties that are `==` have one hash, if the dates and date-times in the values are of a family on which that is so (C18), and the lists of recurrence rules are in ascending order. Missing: other dates (`C18_fails_dates`, `C18_fails_floating`), other rules (`C45_fails_hash`, `C110_fails_rule`).
* `PyCal.C110_fails_group` (C110_PropertyEq.lean): C110 fails: two properties of a vCard that differ in nothing but the group are `==`, and have different hashes.
* `PyCal.C110_fails_case` (C110_PropertyEq.lean): C110 fails: the names of properties are not case sensitive, but properties with names that differ in case are not `==`.
* `PyCal.C110_fails_text` (C110_PropertyEq.lean): C110 fails: two properties with one and the same text are not `==`.
* `PyCal.C110_fails_rule` (C110_PropertyEq.lean): C110 fails: recurrence rules with one list in two orders.
* `PyCal.C110_fails_ne` (C110_PropertyEq.lean): C110 fails: any duration and a copy of it are `==` and `!=` at once, and so are any period and a copy of it.

### C111 The photo of a card is restored (partial)

What is written for a binary photo is read as the same property, whatever follows it; no line of it is longer than 75 octets, and its value is left out if that is asked for.

* `PyCal.C111_unfold` (C111_C112_CardWrite.lean): C111: unfolded as in RFC 6350, the text of a photo is the line with name, parameters and value; after the first line no line is longer than 75 octets.
* `PyCal.C111_read` (C111_C112_CardWrite.lean): C111: the text of a photo, with any properties after it, is read as the line of the photo and the lines of the others.
* `PyCal.C111_roundtrip_partial` (C111_C112_CardWrite.lean): C111 (partial): the text of a photo is read as a property with the same group, name, parameters and value, with any properties after it. Missing: what is missing in C46 (parameter values that cannot be read back).
* `PyCal.C111_fails_long` (C111_C112_CardWrite.lean): C111 fails: name and parameters of a photo are one line, however long they are.
* `PyCal.C111_fails_novalue` (C111_C112_CardWrite.lean): C111 fails: the value of a photo is written also when it is to be left out (by an output filter).

### C112 A new card is a card (partial)

A card that is made with default properties has a VERSION and a PRODID, its text is read as that card, and it can be copied.

* `PyCal.C112_fails_new` (C111_C112_CardWrite.lean): C112 fails: a new card has no VERSION and no PRODID, unless its product identifier is one of these words.
* `PyCal.C112_fails_text` (C111_C112_CardWrite.lean): C112 fails: the text of a new card cannot be read.
* `PyCal.C112_fails_duplicate` (C111_C112_CardWrite.lean): C112 fails: a card made with default properties cannot be copied, whatever is added to it.
* `PyCal.C112_empty_partial` (C111_C112_CardWrite.lean): C112 (partial): a card made without default properties has none; its text is the two lines of an empty card, and it can be copied. Missing: cards made with default properties, `C112_fails_new`, `C112_fails_text`.
* `PyCal.C112_duplicate_partial` (C111_C112_CardWrite.lean): C112 (partial): a card is copied exactly if every property has a value, and the copy has the same properties. Missing: cards made with default properties.

### C113 Parameters of vCard 2 are understood (partial)

A line with parameters without values, such as TEL;HOME;VOICE:1, is read as a property with these parameters; BASE64 among them is read as ENCODING=b; what is then written is read as the same property; and a caller can have such lines refused, ignored or put right instead.

* `PyCal.C113_read` (C113_VCard2.lean): As the library is set up, a line with parameters without values is read: each is a parameter without values, in the same order, but for BASE64, which is read as `ENCODING=b` and takes the spaces out of the value.
* `PyCal.C113_written` (C113_VCard2.lean): What is then written has the parameters without values again and `ENCODING=b`, and is read in the same way, spaces or not.
* `PyCal.C113_raise` (C113_VCard2.lean): If parameters without values shall raise, such a line does.
* `PyCal.C113_fails_ignore` (C113_VCard2.lean): C113 fails: if they shall be ignored or put right instead, such a line raises as well.

### C114 Numbers and coordinates are restored (partial)

An INTEGER, FLOAT or GEO text of RFC 5545 is read as the number it stands for, and what is then written is such a text and stands for the same number; other texts raise InvalidData.

* `PyCal.C114_float_partial` (C114_Numbers.lean): C114 (partial): a text is written for what was read from the text of a number, and stands for that number, with the same sign, just if the number has at most twelve significant digits and is 0 or from 0.0001 to less than 100000000000. Missing: the other numbers, `C114_fails_digits` and `C114_fails_exponent`.
* `PyCal.C114_again` (C114_Numbers.lean): If the number is such a one, what is written is read as the same float.
* `PyCal.C114_text` (C114_Numbers.lean): And if the text has a point and no needless digits or sign, it is written letter by letter.
* `PyCal.C114_fails_digits` (C114_Numbers.lean): C114 fails: a number with more than twelve significant digits is not restored.
* `PyCal.C114_fails_exponent` (C114_Numbers.lean): C114 fails: what is written for a number below 0.0001 or from 100000000000 on is no FLOAT of RFC 5545 at all: it has an exponent.
* `PyCal.C114_fails_nan` (C114_Numbers.lean): C114 fails: texts that are no FLOAT of RFC 5545 are read.
* `PyCal.C114_integer` (C114_Numbers.lean): An INTEGER is restored: what is read is the number that the text stands for, and what is written for a number is a text that stands for it.
* `PyCal.C114_geo_partial` (C114_Numbers.lean): C114 (partial): coordinates: the two numbers are read, and what is written for numbers as above has texts of these numbers and is read as the same floats. Missing: the other numbers, `C114_fails_digits`, and texts without the first number, `C114_fails_index`.
* `PyCal.C114_geo_backslash` (C114_Numbers.lean): Coordinates with a backslash before the semicolon are read as those without.
* `PyCal.C114_fails_index` (C114_Numbers.lean): C114 fails: a text of coordinates without the first number does not raise `InvalidData` but `IndexError`.

### C115 Names, addresses and organisations survive jCard (partial)

The jCard data written for a name, address or organisation is what RFC 7095 has for it, and is read as the same value; data that RFC 7095 allows is read.

* `PyCal.C115_written_partial` (C115_C116_CardValues.lean): C115 (partial): the value that is written for a name or an address is the array that RFC 7095 has, and the name is in small letters. Missing: the type, `C115_fails_type`.
* `PyCal.C115_fails_type` (C115_C116_CardValues.lean): C115 fails: no name, address or organisation that is written is read again: instead of the type `null` is written.
* `PyCal.C115_read_partial` (C115_C116_CardValues.lean): C115 (partial): jCard data with texts as components is read as these components, whatever the case of the type. Missing: components with several values, `C115_fails_several`.
* `PyCal.C115_fails_several` (C115_C116_CardValues.lean): C115 fails: a component with several values, which is an array in the array, is not read.
* `PyCal.C115_fails_org` (C115_C116_CardValues.lean): C115 fails: an organisation without units is written letter by letter, and the text that RFC 7095 has for it is taken apart when it is read.
* `PyCal.C115_org_partial` (C115_C116_CardValues.lean): C115 (partial): an organisation with units is written as the array of RFC 7095. Missing: organisations without units, `C115_fails_org`.

### C116 The full name has all parts of the name (partial)

The full name of a name consists of its prefixes, first names, middle names, last names and suffixes in this order with one space between any two that are not empty; each part of a name or address can be set without changing the others, and a copy is equal to the original.

* `PyCal.C116_words` (C115_C116_CardValues.lean): The words of the full name are the words of the prefixes, first, middle and last names and suffixes, in this order.
* `PyCal.C116_name_partial` (C115_C116_CardValues.lean): C116 (partial): if no component has several texts of which one is empty, the full name has the texts that are not empty, with one space between them. Missing: other names, `C116_fails_empty`.
* `PyCal.C116_fails_empty` (C115_C116_CardValues.lean): C116 fails: an empty text among several leaves a second space.
* `PyCal.C116_fails_set` (C115_C116_CardValues.lean): C116 fails: no part of a name or address can be set: it raises and nothing is changed.
* `PyCal.C116_duplicate_partial` (C115_C116_CardValues.lean): C116 (partial): the copy of a name or address that was read (too many components being cut off or refused) is the same. Missing: names with too many components, `C116_fails_many`, or too few from jCard, `C116_fails_short`.
* `PyCal.C116_fails_many` (C115_C116_CardValues.lean): C116 fails: if too many components are allowed, a name or address that has them cannot be copied.
* `PyCal.C116_fails_short` (C115_C116_CardValues.lean): C116 fails: a name or address read from jCard with fewer components gets more of them when it is copied, so that the copy is not equal to it; and it has no full name.

### C117 A packed date is the date (partial)

Unpacking a packed date gives its year, month and day (and minus the day, if that was packed); of two dates the earlier one is the smaller integer; and the table of a month has each day of the month, packed, in the column of its day of the week.

* `PyCal.C117_unpack` (C117_PackedDate.lean): What is unpacked is what was packed, the year modulo 65536: for days in the month and, as in the table of a month, minus such days.
* `PyCal.C117_restored_partial` (C117_PackedDate.lean): C117 (partial): a date in the years before 65536 is restored. Missing: other years, `C117_fails_year` and `C117_fails_negative`.
* `PyCal.C117_order` (C117_PackedDate.lean): Of two dates the earlier one is the smaller integer.
* `PyCal.C117_injective` (C117_PackedDate.lean): Different dates are different integers.
* `PyCal.C117_fails_year` (C117_PackedDate.lean): C117 fails: a year from 65536 on is another year when it is unpacked.
* `PyCal.C117_fails_negative` (C117_PackedDate.lean): C117 fails: no year before 0 is restored, as the unpacked one is not negative.
* `PyCal.C117_fails_table` (C117_PackedDate.lean): C117 fails: there is no table of any month of any year, whatever the first day of the week.

### C118 The default time zone is the one that was set (partial)

The identifier of the default time zone is the one that was last set; a time zone made without arguments, and a floating time, is in the default time zone; a time zone can be made from a name or an offset; time zone objects match if they mean the same time zone, which is an equivalence relation and agrees with the comparison of the time zones of date-times.

* `PyCal.C118_kinds` (C118_DefaultZone.lean): C118: a time zone is either UTC, or floating, or has an identifier.
* `PyCal.C118_id` (C118_DefaultZone.lean): The identifier of the default time zone is the one that was set, whatever it is.
* `PyCal.C118_new` (C118_DefaultZone.lean): A time zone made without arguments is the default one, and a new manager does not change that.
* `PyCal.C118_first` (C118_DefaultZone.lean): Before any is set it is UTC.
* `PyCal.C118_name_partial` (C118_DefaultZone.lean): C118 (partial): with the default time zone set by a name, a time zone made without arguments is the one made with that name, just if the name is not another spelling of UTC. Missing: other spellings, `C118_fails_utc`.
* `PyCal.C118_fails_utc` (C118_DefaultZone.lean): C118 fails: `utc` as the name of the default time zone is not UTC, although it is as the name of a new one.
* `PyCal.C118_floating_partial` (C118_DefaultZone.lean): C118 (partial): a floating time has the offset of the default time zone, if that was set by a name, or by a text for UTC; for no time zone, as which UTC is looked up, the data must have 0. Missing: a default time zone given by a number, `C118_fails_number`.
* `PyCal.C118_fails_number` (C118_DefaultZone.lean): C118 fails: if the default time zone has an offset as a number, a floating time does not have that offset but what the data has for the number, which without data for it is 0.
* `PyCal.C118_fails_new` (C118_DefaultZone.lean): C118 fails: there is no time zone made from an offset alone.
* `PyCal.C118_duplicate` (C118_DefaultZone.lean): A copy is the same.
* `PyCal.C118_match` (C118_DefaultZone.lean): A time zone matches itself and matching is symmetric.
* `PyCal.C118_match_iff` (C118_DefaultZone.lean): Time zones that are not floating match just if both are UTC or neither is and they have the same identifier.
* `PyCal.C118_fails_match` (C118_DefaultZone.lean): C118 fails: matching is not transitive, as a floating time zone matches each.
* `PyCal.C118_same_partial` (C118_DefaultZone.lean): C118 (partial): the comparison of time zone objects agrees with that of the time zones of date-times, unless an identifier is empty or an offset of 0. Missing: those, `C118_fails_zero`.
* `PyCal.C118_fails_zero` (C118_DefaultZone.lean): C118 fails: the offset 0 matches UTC, or an offset of an hour, for date-times and not for time zone objects.

### C119 What is read of a VTIMEZONE does not depend on the order of its observances; a copy gives the same offsets (partial)

After parsing, the STANDARD and DAYLIGHT components of a VTIMEZONE have their DTSTART, TZOFFSETFROM, TZOFFSETTO, TZNAME, RRULEs and RDATEs and are in the order of their DTSTART. Two VTIMEZONEs that differ in the order of these components give the same offsets and the same names at all times. A copy made with duplicate() at any time gives the same offsets as the original.

* `PyCal.C119_element` (C119_TimezoneRead.lean): C119: a STANDARD or DAYLIGHT component as parsed has its DTSTART, offsets and name, the rules of its RRULEs and the dates of its RDATEs; nothing is cached yet.
* `PyCal.C119_sorted` (C119_TimezoneRead.lean): C119: a VTIMEZONE as parsed has its TZID; its observances are sorted by DTSTART, and those with one DTSTART are in the order of the text.
* `PyCal.C119_order` (C119_TimezoneRead.lean): C119: the order of the observances in the text does not matter, if no two of them have one DTSTART: what is read is the same, and with it everything asked of it.
* `PyCal.C119_offsets_partial` (C119_TimezoneRead.lean): C119 (partial): also if several observances have one DTSTART, the offsets do not depend on the order of the observances in the text, nor on what was asked before. Needed: what `C36_zone_partial` needs. Missing: the name that is shown, `C119_fails_name`.
* `PyCal.C119_copy_partial` (C119_TimezoneRead.lean): C119 (partial): a copy, made at any time, gives the offsets that the original gives, whatever was asked of the original before or is asked of either afterwards. Needed: what `C36_zone_partial` needs. Missing: as for `C119_offsets_partial`.
* `PyCal.C119_fails_name` (C119_TimezoneRead.lean): C119 fails for the name that is shown: with two observances that start at one time, it is that of the first in the text.

### C120 expandAll lists exactly the transitions of a time zone in a period (partial)

VTimezone.expandAll(start, end) gives the transitions of the time zone whose local time is from start up to but not including end: all of them, each once, in the order of their local times, each with its UTC time and the offsets before and after. It ends, and what was asked of the time zone before does not matter.

* `PyCal.C120_range_partial` (C120_Transitions.lean): C120 (partial): in a time zone as parsed (see `C35_zone_partial`), in whatever state previous calls left it, `expandAll(start, end)` gives a list of transitions of the time zone, each once and in the order of their local times, with their UTC times, all from `start` to `end`; and it has all from `start` to before 1 January of the year of `end`. Missing: those in the year of `end` (see `C120_exact_partial`); date-only arguments.
* `PyCal.C120_exact_partial` (C120_Transitions.lean): C120 (partial): the first call of `expandAll(start, end)` on a time zone as parsed gives exactly the transitions from `start` to before `end`. Needed: elements with recurrences start in a year before that of `end` (`C120_fails_year`), those without do not start at `end` (`C120_fails_end`). Missing: later calls with an `end` in the same year (`C120_fails_history`).
* `PyCal.C120_ends_partial` (C120_Transitions.lean): C120: the call ends, in whatever state previous calls left the time zone, and more iterations than needed give the same list. Missing: which transitions are listed, `C120_fails_year`, `C120_fails_history` and `C120_fails_end`.
* `PyCal.C120_fails_year` (C120_Transitions.lean): C120 fails: up to the end of 2007, the year of its first transitions, Eastern Time has none.
* `PyCal.C120_fails_history` (C120_Transitions.lean): C120 fails: after a call up to February 2009, one up to December 2009 lists no transition in 2009.
* `PyCal.C120_fails_end` (C120_Transitions.lean): C120 fails: a transition of an element without recurrences is listed though it is at the end.

### C121 Properties of a component after any history of calls (proved)

After any sequence of addProperty, removeProperty, removeProperties, editProperty, loadPrivateValue and setName calls, getProperties(name), hasProperty, countProperty and findFirstProperty report, for every (non-empty) name in whatever case, exactly the properties added under that name and not removed since, in the order of adding; getProperties() lists exactly the names that have a property; removeProperty takes away the first equal property, and raises only if there are properties of that name but none is equal; no other call raises.

* `PyCal.C121_found` (C121_PropertyTable.lean): C121: after any history of calls (those that raise being caught), with whatever the properties have for values at each of them, the four questions for a name give the properties added under that name, in whatever case, and not removed since, in the order of adding; `getProperties` is asked for a name that is not empty.
* `PyCal.C121_all` (C121_PropertyTable.lean): C121: what `getProperties()` lists has each name once, exactly those that properties are under, with the properties.
* `PyCal.C121_raises` (C121_PropertyTable.lean): C121: only `removeProperty` raises, and just when the component has properties under the name of the property but none of them is it or equal to it.
* `PyCal.C121_named` (C121_PropertyTable.lean): C121: as long as no property that is in the component is given another name, each property is under its own name.
* `PyCal.C121_private` (C121_PropertyTable.lean): What `loadPrivateValue` returns: the text of the first property under the name, if it has one.

### C122 removeAllComponent forgets the components it removes (partial)

removeAllComponent(name) leaves exactly the components of other types, in order, without raising; removeAllComponent() leaves none; and in a calendar what is recorded for each UID is afterwards exactly what the calendar still contains.

* `PyCal.C122_ask` (C122_RemoveAll.lean): C122: `getComponents` gives the components of the name, in their order (the case of letters does not matter), or all if the name is empty; `countComponents` is how many there are, and `hasComponent` whether there is one.
* `PyCal.C122_component_partial` (C122_RemoveAll.lean): C122, of a component other than a calendar: `removeAllComponent` never raises, whatever else `==` says, and leaves none of the name and all others, in order; without a name (or with an empty one) nothing is left. Missing: calendars, which record components by UID, `C122_fails_unnamed`, `C122_fails_stale`, `C122_fails_raises`.
* `PyCal.C122_calendar_partial` (C122_RemoveAll.lean): C122, of a calendar after any history of proper operations (`C47_index_partial`): with a name `removeAllComponent` does not raise, leaves the components of other names in order, and what is recorded for each UID is again exactly what is contained. Missing: histories that are not proper, and no name; then it is false (`C122_fails_unnamed`, `C122_fails_raises`).
* `PyCal.C122_fails_unnamed` (C122_RemoveAll.lean): C122 fails: without a name the components are gone, but all that was recorded for each UID stays, whatever was in the calendar.
* `PyCal.C122_fails_stale` (C122_RemoveAll.lean): C122 fails: so after `removeAllComponent()` an overridden instance that is not contained is recorded, and asking to remove all of a name again does not forget it.
* `PyCal.C122_fails_raises` (C122_RemoveAll.lean): C122 fails: with two masters of one type and UID `removeAllComponent` raises `KeyError`, and the second is left.

### C123 A component recurs as its RRULE, RDATE, EXRULE and EXDATE properties say (partial)

Expanding a component over a range gives exactly the instants that are its DTSTART, dates of the rules in its RRULE properties, or dates or starts of periods in its RDATE properties, in the range, and that are not barred by the rules of its EXRULE or the dates of its EXDATE properties, each once; and a component is recurring if and only if one of these properties has a rule, a date or a period.

* `PyCal.C123_exact_partial` (C123_RecurLoad.lean): C123 (partial): what the expansion of a component gives are exactly the instants that its DTSTART, its RRULE and its RDATE properties say in the range and its EXRULE and EXDATE properties do not bar, each once. Missing: RDATE or EXDATE with periods (`C123_fails_period`), and, as in C34, dates and times that do not compare as instants and rules that have been expanded before.
* `PyCal.C123_recurring` (C123_RecurLoad.lean): C123: which properties make a component recurring: those with a rule, a date or a period.
* `PyCal.C123_fails_period` (C123_RecurLoad.lean): C123 fails: if an RDATE or EXDATE property has a period, no expansion of the component, over whatever range, gives any dates; it is always an exception (or does not end).
* `PyCal.C123_fails_attribute` (C123_RecurLoad.lean): C123 fails: without rules the exception is `AttributeError`, whatever the range.

### C124 After allRaise only what the standards allow is read (partial)

After ParserContext.allRaise(), whatever the settings were before, a text, a duration, a date, a URI, a request status, an N or ADR value or a line of a card is accepted by the parser exactly if it is written as the standards say, and it is then read as the same value as without allRaise.

* `PyCal.C124_text_partial` (C124_Strict.lean): C124 for texts, exactly: after `allRaise` a text is read exactly if each backslash begins an escape that is known or is the last character, and then as what the escapes say. Missing: the standards know neither `\r` nor a backslash at the end (`C124_fails_text`).
* `PyCal.C124_duration_partial` (C124_Strict.lean): C124 for durations, exactly: after `allRaise` a duration is read exactly if RFC 5545 allows it or it has seconds right after the hours, and then as the time it says. Missing: `C124_fails_duration`.
* `PyCal.C124_nested` (C124_Strict.lean): C124 for names and addresses, exactly: after `allRaise` the value is read exactly if it has no more than the `n` components it may have and is read without that setting, and then as the same.
* `PyCal.C124_same` (C124_Strict.lean): C124: what is still read after `allRaise` was read before, whatever the settings, and as the same value: texts, durations, names and addresses, lines of cards up to their value.
* `PyCal.C124_fails_text` (C124_Strict.lean): C124 fails: a backslash at the end of a text is left out instead of refused, and `\r` is read.
* `PyCal.C124_fails_duration` (C124_Strict.lean): C124 fails: seconds may follow the hours, which RFC 5545 does not allow.
* `PyCal.C124_space` (C124_Strict.lean): C124 for dates: with the setting that refuses spaces in the place of digits, no text with a space in its first eight characters is read as a date or date-time; that setting, and no other, matters.
* `PyCal.C124_fails_geo` (C124_Strict.lean): C124 fails: a backslash before the semicolon of a GEO is left out, whatever the setting for it, which nothing reads.
* `PyCal.C124_fails_date` (C124_Strict.lean): C124 fails: `allRaise` changes nothing for dates, so that a space for a digit is still read by default.
* `PyCal.C124_fails_uri` (C124_Strict.lean): C124 fails: after `allRaise` a URI with a backslash is neither refused nor read as before: it keeps the backslash.
* `PyCal.C124_fails_status` (C124_Strict.lean): C124 fails: after `allRaise` no request status whatever is read.

### C125 The program that checks a file says when there is nothing wrong and names each control character (proved)

validator.py takes a file for a calendar if BEGIN:VCALENDAR is anywhere in it and else for a card if BEGIN:VCARD is. It prints only that there are no problems exactly if the file is read so with the strict settings, its validation finds nothing and it has no control character (below 0x20, other than HTAB, CR and LF). For a file that is read each control character is printed with its code and position, in order, and no other character.

* `PyCal.C125_control` (C125_Validator.lean): C125: whenever the file is read, each control character is named with its code and position, in order, and no other line about characters is printed; the rest is one line, whether there are problems.
* `PyCal.C125_clean` (C125_Validator.lean): C125, exactly: only `No problems` is printed exactly if the file has `BEGIN:VCALENDAR` somewhere and is read as a calendar, or else has `BEGIN:VCARD` and is read as a card, both with the settings of `allRaise` whatever they were before, and neither a problem nor a control character is in it.
* `PyCal.C125_card` (C125_Validator.lean): C125: a card is taken for a calendar if one of its texts has `BEGIN:VCALENDAR`: how it would be read as a card does not matter.

### C126 Changing a rule takes effect (partial)

Setting a part of a recurrence rule (frequency, interval, COUNT, UNTIL, BYMONTH, ...) is seen by the getter of that part, leaves the other parts alone, and every later expansion gives the dates a new rule with the same parts gives, whatever was set and expanded before.

* `PyCal.Rule.C126_set_partial` (C126_Edit.lean): C126 (partial): a setter assigns the part it is for, leaves the other parts as they are, and clears the cache if anything changed. Needed: the UNTIL given does not merely equal the old one (`C126_fails_until`).
* `PyCal.Rule.C126_simple_partial` (C126_Edit.lean): C126 (partial), rules without BYxxx parts: whatever was set and expanded before, with whatever parts the rule had at the time, the answer (dates and `limited` flag) is the one a new object with the parts the rule has now gives. Needed: the earlier queries and this one are as in `C30_simple_partial` and `C30_complex_partial`. Missing: an UNTIL equal to the old one, `C126_fails_until`, and a start that is itself changed, `C126_fails_start`.
* `PyCal.Rule.C126_complex_partial` (C126_Edit.lean): C126 (partial), rules with BYxxx parts: whatever was set and expanded before, the dates are those a new object with the parts the rule has now gives. Needed: as for `C126_simple_partial`; the `limited` flag can depend on earlier queries (`C30_fails_limited`).
* `PyCal.Rule.C126_fails_until` (C126_Edit.lean): C126 fails: an UNTIL that compares as equal to the old one is not stored.
* `PyCal.Rule.C126_fails_until_date` (C126_Edit.lean): C126 fails: a meeting every eight hours until noon is extended to the whole day: nothing changes, while a new rule gives one more date.
* `PyCal.Rule.C126_fails_start` (C126_Edit.lean): C126 fails (and so does C30): if the date-time that was passed as the start is itself changed, here to one year later, the next expansion from it still gives the dates from the old start.

### C127 A copy says the same and is independent of the original (partial)

For every component, calendar, card, property or value, duplicate() gives an object that says the same at all depths (same names, parameters, values and sub-components in the same order, each sub-component with the copy around it as its parent), that is written as the same text, and that shares no mutable object with the original: no later change of the original changes the copy and no later change of the copy changes the original.

* `PyCal.Copy.C127_content` (C127_Copy.lean): C127, what the copy says: whenever `duplicate` gives a copy, the copy has the class, the name and the data of the original and in the same slots copies of what the original holds, at all depths, and each component in the copy has the component around it, not one of the original's, as its parent. (For the text written see `C127_fails_text`, for `mMaster` C104.)
* `PyCal.Copy.C127_independent_partial` (C127_Copy.lean): C127 (partial), independence: let the objects made so far be those below `n`. If no organisation, name or address holds a list, then after any changes of objects other than those the copy is made of (old ones, and ones made later) the copy is what it was, and after any changes of objects that the copy is made of or that were made later the original is what it was. Needed: no such lists; see `C127_fails_shared`.
* `PyCal.Copy.C127_fails_shared` (C127_Copy.lean): C127 fails for organisations (ORG) and for names and addresses one of whose parts is a list: each list that the original holds in such a value is held by the copy too, so there is a change of the copy's list that changes the original, and one that changes the copy.
* `PyCal.Copy.C127_raises_exact` (C127_Copy.lean): C127, when there is a copy: `duplicate` raises if and only if a property in it has no value (such as the VERSION of a new card, C112).
* `PyCal.Copy.C127_key_partial` (C127_Copy.lean): C127 (partial), the order in the text: a component that has a UID or is of unknown type (or is part of a time zone) is put where its original is put: the copy has its key. Missing: other components, such as alarms, `C127_fails_text`.
* `PyCal.Copy.C127_fails_text` (C127_Copy.lean): C127 fails for the text: the alarms of an event have no UID, their keys are random and the copies get other keys, so the copy may be written with its alarms in the other order.

### C128 A calendar can be asked for its free-busy time and its to-dos (partial)

For every calendar and period, getFreeBusy and getVFreeBusyFB add the busy and tentative times of the events and of the VFREEBUSY components in the period, getVFreeBusyList adds the VFREEBUSY components in the period, getVToDos adds the to-dos that are due, getStatusText gives a text for the status of every to-do, and sort_for_display puts any two to-dos in order.

* `PyCal.Query.C128_fails_freebusy` (C128_Query.lean): C128 fails: `getFreeBusy` of any calendar and period, once it ends, ends with an exception and has added nothing to the list, whether or not there are events.
* `PyCal.Query.C128_fails_fb` (C128_Query.lean): C128 fails: `getVFreeBusyFB` of any calendar, once it ends, ends with an exception and has added nothing.
* `PyCal.Query.C128_fails_list` (C128_Query.lean): C128 fails: `getVFreeBusyList` gives the list as it was, and raises exactly if there is a VFREEBUSY.
* `PyCal.Query.C128_fails_todos` (C128_Query.lean): C128 fails: `getVToDos` never ends without an exception and never adds anything; the text for the status of a to-do and the comparison of two to-dos for display always raise.

### C129 A property made from a value has that value (partial)

Make a property with a name and a Python value: a string, a number, a date-time, a duration, a rule, a period, a UTC offset, a list of date-times or periods, in a vCard an address, a name or the parts of an organisation. The property then has the value given: the accessor of its type (getTextValue, getDateTimeValue, getMultiValue, ...) returns it, the other accessors return None, it can be copied, and the VALUE parameter it gets lets the same type be found when the written property is read. False: with a string for a name whose default type is not one of strings (DTSTART, GEO, PRIORITY, TRIGGER) the string is dropped and a default value taken; a vCard property made with a unicode string has no value and cannot be copied; a vCard property other than ORG made with a list raises AttributeError because the methods called do not exist; a number given to GEO is written without its type.

* `PyCal.C129_ical_partial` (C129_NewProperty.lean): C129 (partial), iCalendar: of a property that is made, the value is the one that was given exactly if that is a number, a date-time, duration, rule or period, a list, a UTC offset, or a string and the type asked for (or the default one of the name) is one of strings. Needed: the others, which C129 is false for. Missing: `C129_fails_string`, `C129_fails_none`.
* `PyCal.C129_vcard_partial` (C129_NewProperty.lean): C129 (partial), vCard: of a property that is made, the value is the one that was given exactly if that is a number, a date-time, a UTC offset, an address, a name, the list of an ORG, or a byte string where the type is one of strings. Needed: the others, which C129 is false for. Missing: `C129_fails_string`, `C129_fails_list`, `C129_fails_none`.
* `PyCal.C129_raises` (C129_NewProperty.lean): C129, exceptions: an iCalendar property is made of everything but a list that does not begin with a date-time or a period (and then the property is not a REQUEST-STATUS); a vCard property of everything but the lists and tuples of other properties than ORG.
* `PyCal.C129_accessors` (C129_NewProperty.lean): C129, accessors: if the value of the property is the one that was given, it is what the accessors of its type give (for a list of date-times or periods the accessor of lists; for a URI, an address and binary data that of texts too), and the other accessors give `None`.
* `PyCal.C129_type` (C129_NewProperty.lean): C129, type: the VALUE parameter that an iCalendar property gets with its value lets the type be found again when the property is read, whatever the name, unless the name is GEO or REQUEST-STATUS, or it has no default type and the value is a text (asked for as such), or the value has no known type and the name has.
* `PyCal.C129_kinds` (C129_NewProperty.lean): C129, type, for values that are not strings: read again, the property has the type of what it was made with.
* `PyCal.C129_fails_string` (C129_NewProperty.lean): C129 fails: a property whose name has a default type that is not one of strings, made with a string, has a value that does not depend on the string; so with a DTSTART, a GEO, a PRIORITY or a TRIGGER.
* `PyCal.C129_fails_list` (C129_NewProperty.lean): C129 fails: no vCard property can be made with a list of texts, though CATEGORIES and NICKNAME are lists of texts: `AttributeError`.
* `PyCal.C129_fails_none` (C129_NewProperty.lean): C129 fails: a vCard property made with a unicode string has no value; an iCalendar one made with a tuple, a `long` or a `float` neither. It is written without a value and cannot be copied.
* `PyCal.C129_copies` (C129_NewProperty.lean): C129, copies: what can be copied is what has a value, and that is every property made with a value that is kept.
* `PyCal.C129_fails_special` (C129_NewProperty.lean): C129 fails: a number given to GEO or REQUEST-STATUS is written without VALUE, so that it is read as something else.

### C130 Properties are read as the types that the standards give them (partial)

A property of RFC 5545 or RFC 2426 that is read without a VALUE parameter, or with a VALUE that the standard allows for it (in any letter case), gets a value of the type that the standard gives it, and a list of values exactly if the standard allows a list, whatever default types a program registers. A property that no standard names has a text, or a value of the type that the program registered first. False: VALUE is compared with regard to case, so TRIGGER;VALUE=date-time is read as a duration and PHOTO;VALUE=uri as a binary value that loses its VALUE parameter when written; a property without a registered type has a value of unknown type in which nothing is decoded; the value of AGENT is not read as a card.

* `PyCal.C130_ical_partial` (C130_StandardTypes.lean): C130 (partial), iCalendar: a property of RFC 5545 that is read without VALUE, or with a VALUE that the RFC allows it, gets a value of the type that the RFC gives, and a list of values exactly if the RFC allows one, whatever a program registers. Missing: VALUE parameters not in capitals, `C130_fails_case`, and the properties that the RFC does not name, whose values are texts, `C130_fails_other`.
* `PyCal.C130_vcard_partial` (C130_StandardTypes.lean): C130 (partial), vCard: the same for the properties of RFC 2426 other than AGENT. Missing: as before, and the card in an AGENT property, `C130_fails_agent`.
* `PyCal.C130_ical_written` (C130_StandardTypes.lean): C130, what is written of iCalendar: a property of RFC 5545 with a value of the type that the RFC gives is written without VALUE, and with the VALUE that the RFC names for a value of another type that it allows; always with VALUE if a program has asked for it.
* `PyCal.C130_vcard_written_partial` (C130_StandardTypes.lean): C130 (partial), what is written of vCard: the same for the properties of RFC 2426 other than AGENT. Missing: AGENT, and the offset in TZ if a program has asked for VALUE, `C130_fails_offset`.
* `PyCal.C130_fails_offset` (C130_StandardTypes.lean): C130 fails: in cards the type of offsets has a name that the RFC does not know, and the name in the RFC is not known.
* `PyCal.C130_registered` (C130_StandardTypes.lean): C130: a program that registers a type for a property that has none gets values of that type when there is no VALUE; if it registers several, the first counts.
* `PyCal.C130_fails_case` (C130_StandardTypes.lean): C130 fails: a VALUE that is not exactly one of the names in the table, such as one in small letters, is as if it were not there. So an alarm at a time, `TRIGGER;VALUE=date-time`, is read as one after a time, and the address of a picture, `PHOTO;VALUE=uri` (as the examples in RFC 2426 have it), as the picture, which is then written without VALUE.
* `PyCal.C130_fails_other` (C130_StandardTypes.lean): C130 fails: a property that is in no table, as BUSYTYPE of the availability components, and for which no program has registered a type, has no text but a value of unknown type, in which nothing is decoded.
* `PyCal.C130_fails_agent` (C130_StandardTypes.lean): C130 fails: no card is made of the value of AGENT.

### C131 A content line of the standards is read as what it says (partial)

A line written by the grammar of RFC 5545 or RFC 2425 ([group "."] name, parameters with one or more values, plain or in quotes, ":" and a value) is read by Property.parseText as that group, name, parameters with all their values in order (decoded by RFC 6868) and value. Exactly then: no plain value begins with a space and no quoted value ends in an odd number of backslashes. False otherwise: the spaces are dropped, and a backslash before the closing quote is taken to escape it although neither standard has such an escape.

* `PyCal.C131_exact` (C131_ContentLine.lean): C131, exactly: a line that the standards allow, of a calendar or of a card, is read as what it says (group, name, parameters with all their values in order, value) just if each value of a parameter is `Readable`: without quotes it does not begin with a space, in quotes it does not end in an odd number of backslashes.
* `PyCal.C131_read_partial` (C131_ContentLine.lean): C131 (partial): a line that the standards allow is read as what it says. Needed: no value of a parameter without quotes begins with a space, `C131_fails_space`, none in quotes ends in an odd number of backslashes, `C131_fails_backslash`.
* `PyCal.C131_fails_space` (C131_ContentLine.lean): C131 fails: a value without quotes that begins with a space, which the standards allow, never keeps the space.
* `PyCal.C131_fails_backslash` (C131_ContentLine.lean): C131 fails: a backslash at the end of a quoted value, where it stands for itself, never leaves the line as it is; here the line cannot be read, or the value has parts of what follows.

### C132 The lines of a component give its start and recurrence set (partial)

A component whose lines are written as RFC 5545 says has, once read and finalised, the start of its DTSTART line (date, local, UTC, or in the zone of the TZID parameter) and the recurrence set of its RRULE, EXRULE, RDATE and EXDATE lines, each rule with the parts that its text gives and each list with its dates in order, whatever other readable lines stand between them and whatever the case of names; without such lines it has no recurrence set.

* `PyCal.C132_read_partial` (C132_EventText.lean): C132 (partial), the start and the recurrence set: a component written as the standards say has the start of its DTSTART line and the recurrence set of its RRULE, EXRULE, RDATE and EXDATE lines, in their order, whatever other lines there are between them, whatever the case of names, and in the time zone of the TZID parameter; without such lines it has none. Missing: RDATE with periods (`C123_fails_period`); parameter values that are not `Readable` (`C131_fails_space`, `C131_fails_backslash`).
* `PyCal.C132_fails_utc` (C132_Rejects.lean): C132 fails: a DTSTART with TZID and a time in UTC, which the standard forbids (3.2.19), is read as a local time in the zone.
* `PyCal.C132_lists` (C132_Rejects.lean): C132, lists: a line with a property of several values is read just if all its values, between commas, are; and a component with a line that cannot be read is not read.

### C133 A rule expands to what RFC 5545 says (partial)

Recurrence.expand(start, range, items) gives, for a rule in the parts the code handles, exactly the date-times that RFC 5545 section 3.3.10 describes: those in one of the intervals counted from the start by FREQ and INTERVAL, that match every BYxxx part, agree with the start in each field of which no part says anything, are not before the start, are in the range, and are not past UNTIL or COUNT. The description used is written from the text of the standard and does not mention the code's order of expansion.

* `PyCal.Rule.C133_count_partial` (C133_Count.lean): C133 (partial), rules with COUNT: of the date-times after the start, the expansion over a range has exactly those that RFC 5545 describes and that have fewer than COUNT - 1 others between the start and themselves; the start is the first. Missing: as for `C133_rule_partial`; parts of which two values can give the same date, as the code then counts it twice (`C54_fails_duplicates`).
* `PyCal.Rule.C133_rule_partial` (C133_Rfc.lean): C133 (partial), rules without COUNT: the expansion over a range consists of exactly the date-times that RFC 5545 describes: they are in one of the intervals, match all BYxxx parts, agree with the start where no part says anything, and are in the range, not before the start and not after UNTIL. Missing: `Standard`, that is BYYEARDAY (`C52_fails`), BYWEEKNO (`C31_fails_weekNo`), BYMONTH in WEEKLY rules (`C53_fails_weekly`), BYMONTHDAY without BYMONTH in YEARLY rules (`C53_fails_yearly`); BYSETPOS, for which see `C133_setpos_partial`; years to 2098 (`C05_fails`); `Good` as for C54.
* `PyCal.Rule.C133_setpos_partial` (C133_SetPos.lean): C133 (partial), rules with BYSETPOS and without COUNT: the expansion over a range consists of exactly the date-times that RFC 5545 describes: of the dates of one interval that match the other parts, those at one of the positions, from the start or the end of the interval. Needed: two values of a part give different dates (`Distinct`), as a date would otherwise have two positions; dates of one interval have the same order by clock as by instant (`Steady`). Missing: as for `C133_rule_partial`; a date can be in the list twice (`C33_fails`).
* `PyCal.Rule.C133_setpos_count_partial` (C133_SetPos.lean): C133 (partial), rules with BYSETPOS and COUNT: of the date-times after the start, the expansion over a range has exactly those that RFC 5545 describes and that have fewer than COUNT - 1 others between the start and themselves; the start is the first. Missing: as for `C133_setpos_partial`; positions of which two can be of the same date, which then counts twice (`C33_fails`).

### C134 From the lines of an event to its dates (partial)

A component written as RFC 5545 says, with a DTSTART and RRULE, EXRULE, RDATE or EXDATE lines, expanded over a range, has each of these dates exactly once and no others: the start, the RDATEs and the instances of the RRULEs, without the EXDATEs and the instances of the EXRULEs, from the start of the range on and before its end; and the expansion ends. The instances are those that section 3.3.10 describes. This holds if all date-times are of one kind with a fixed offset (UTC, floating or dates) and the rules are in the parts that the code handles (C133).

* `PyCal.C134_dates_partial` (C134_Dates.lean): C134 (partial), from the lines of an event to its dates: an event written as the standards say, with a start and lines for recurrence, is read; its expansion over a range ends, and then has, each of them once, exactly the dates that RFC 5545 gives: the start, the RDATEs and the instances of the RRULEs, without the EXDATEs and the instances of the EXRULEs, from the start of the range on and before its end. Missing: `OneKind`, that is what the standards allow beyond one kind of date-times with a fixed offset, and beyond rules that are `Handled` (see `C133_rule_partial`, `C133_setpos_partial`); COUNT in EXRULEs; RDATE with periods (`C123_fails_period`).
* `PyCal.C134_limit_partial` (C134_Dates.lean): C134 (partial), with a limit on the number of instances: if the expansion does not raise, it has the same dates. Missing: as for `C134_dates_partial`.

### C135 Exactly these texts are read as numbers, date-times and UTC offsets (proved)

int() of a field accepts exactly a number (digits, perhaps with a sign) with blanks around it. DateTime.parse accepts exactly: four characters for the year and two each for month and day that int() accepts, none negative, without spaces if INVALID_DATETIME_LEADINGSPACE is raise; then nothing, or 'T', hours, minutes and seconds of two characters each, and nothing or 'Z'; in the longer format also '-' and ':' between the fields, a comma with digits after the seconds, and '+' or '-' with hours and minutes; and the last field may be shorter. UTCOffsetValue.parse accepts exactly a sign and two or three fields of two characters, in the vCard format with any one character between them. All other texts raise ValueError. The values read are those of the fields. So texts that no standard allows are read: month 13, a date that lost its last character, signs and blanks for digits.

* `PyCal.C135_number` (C135_Reading.lean): C135, numbers: the texts read as an integer (`int` of Python 2) are exactly the numbers of RFC 5545 with blanks around them.
* `PyCal.C135_dateTime` (C135_Reading.lean): C135, date-times: the texts that are read as a date or date-time, and what they are read as, are exactly those of the grammar `Reads`; all others raise `ValueError`.
* `PyCal.C135_utcOffset` (C135_Reading.lean): C135, UTC offsets: the texts that are read as a UTC offset are exactly those of the grammar `UtcOffset`.
* `PyCal.C135_bounds` (C135_Reading.lean): C135, what is read: the fields of a date-time that was read are in these bounds, whatever the text. They need not be in the bounds of a calendar (`C135_fails_range`).
* `PyCal.C135_fails_range` (C135_Reading.lean): C135 fails: texts that no standard allows are read without complaint: a month 13 with a day 99.
* `PyCal.C135_fails_short` (C135_Reading.lean): C135 fails: the last field may be cut short, so that the text of a date that lost its last character is read as another date.
* `PyCal.C135_fails_sign` (C135_Reading.lean): C135 fails: a sign or a blank is read in the place of a digit, and hours may be negative.
* `PyCal.C135_fails_separator` (C135_Reading.lean): C135 fails: in the longer format of a UTC offset any character separates the hours from the minutes, also a digit.

### C136 From the lines of an event in a time zone to its dates (partial)

Reading an event from lines written as RFC 5545 says (a DTSTART with TZID, RRULE, RDATE, EXDATE, EXRULE lines) and expanding its recurrence set over a range ends and gives, each of them once, exactly the dates RFC 5545 gives in the range. The event may be in a time zone with changing offsets; UNTIL, EXDATE and the ends of the range may be on another clock (UTC, dates, another zone), and are compared by date if one side is a date, by the clock if it is the same one, else by the instant.

* `PyCal.C136_dates_partial` (C136_Zoned.lean): C136 (partial), from the lines of an event in a time zone to its dates: an event written as the standards say, with a start and lines for recurrence, is read; its expansion over a range ends, and then has, each of them once, exactly the dates that RFC 5545 gives in the range: the start, the RDATEs and the instances of the RRULEs, without the EXDATEs and the instances of the EXRULEs. The event may be in a time zone, and UNTILs, EXDATEs and the range on another clock, such as UTC. Missing: `Zoned`, that is RDATEs of another kind than the start (`C34_fails_dates`), EXDATEs of both kinds, clocks that show the same time twice around an end of the range or an UNTIL, rules that give several times of one day around a change of the offset (`Rule.Steady`), and rules that are not `Handled` (see `C133_rule_partial`, `C133_setpos_partial`); COUNT in EXRULEs; RDATE with periods (`C123_fails_period`).
* `PyCal.C136_limit_partial` (C136_Zoned.lean): C136 (partial), with a limit on the number of instances: if the expansion does not raise, it has the same dates. Missing: as for `C136_dates_partial`.

### C137 From the text of a calendar to the instances of its events (partial)

Calendar.parseText of a well-formed VCALENDAR with any number of events (in one or several time zones, with alarms, other components and other properties) succeeds, and getVEvents(period) then ends and has, for each VEVENT, exactly the instances that the lines say by RFC 5545, each once, with start and end: a recurring event has one for each of its dates in the period other than those named by the RECURRENCE-ID of another VEVENT with the same UID, each as long by the clock as the event from DTSTART to DTEND; any other VEVENT has one with its own times (the end from DTEND, or DURATION, or a day for a date, or none) if it overlaps the period.

* `PyCal.C137_instances_partial` (C137_Calendar.lean): C137 (partial), from the text of a calendar to its instances: `getVEvents` of a calendar whose text is well-formed has for each event the instances that its lines and those of the other events with its UID describe, each with its start and its end, and no others: for a recurring event its dates in the period, other than those for which there is another event, each as long as the event itself, and for other events their own times, if they are in the period; events and their instances may be in different time zones. Missing: `EventFits`, that is: recurring events without DTEND (`C48_fails_duration`, `C48_fails_allday`) or at another offset at the end (`C48_fails_offset`), DURATION of a part of a day for dates, instances given by events that recur themselves, RECURRENCE-IDs of both kinds, `Zoned` (see `C136_dates_partial`); RANGE in RECURRENCE-ID (`C59_fails_range`, `C59_fails_future`); RECURRENCE-ID in other components (`C137_fails_todo`); `BEGIN:vevent` (`C137_fails_case`); `BEGIN:vtimezone` (`C40_fails_zone`); RDATE with periods (`C137_fails_period`).
* `PyCal.C137_fails_case` (C137_Calendar.lean): C137 fails: a calendar with an event whose delimiters are in small letters, as the standard allows, is accepted, but `getVEvents` raises.
* `PyCal.C137_fails_todo` (C137_Calendar.lean): C137 fails: a task with the UID of an event (though they should differ) and a RECURRENCE-ID takes the place of an instance of the event, and so that is not there.
* `PyCal.C137_fails_period` (C137_Calendar.lean): C137 fails: an RDATE with a period makes `getVEvents` raise, for all the events of the calendar.
* `PyCal.C137_fails_range` (C137_Ranges.lean): C137 fails: an event for an instance and all later ones (RANGE=THISANDFUTURE) stands for that instance only.
* `PyCal.C137_fails_ranges` (C137_Ranges.lean): C137 fails: with two such events, or two with RANGE=THISANDPRIOR, `getVEvents` raises; with one of each it does not.
* `PyCal.C137_fails_types` (C137_Ranges.lean): C137 fails: a task, a journal entry or an AVAILABLE with the UID of an event and a RECURRENCE-ID takes the place of an instance of the event; other components do not.
* `PyCal.C137_fails_length` (C137_Ranges.lean): C137 fails: a DURATION with VALUE=TEXT is accepted, and the event is as long as if there were no DURATION.

### C138 From the text of a calendar to the offsets of its time zones (partial)

After Calendar.parseText has read a calendar with VTIMEZONE components, getTimezoneOffsetSeconds(tzid, dt) gives for a local time the TZOFFSETTO of the observance whose onset (DTSTART, RDATEs and RRULEs of the STANDARD and DAYLIGHT components as their lines say by RFC 5545) is the last one not after dt, whatever was asked before.

* `PyCal.C138_offset_partial` (C138_ZoneText.lean): C138 (partial), from the text of a calendar to the offsets of its time zones: `getTimezoneOffsetSeconds` of a calendar whose text is well-formed gives, for a local time and the name of one of its time zones, after whatever questions, the TZOFFSETTO of the observance with the last onset that is not after that time, as the lines of the time zone describe them, and 0 before the first onset; for other names it gives 0. Needed: `ZoneFits`, that is: onsets at whole minutes and not before DTSTART, from 1902 on, by YEARLY rules as in `C133_rule_partial`, or by RDATEs that are no periods. Missing: before the first onset (`C35_fails_before`), years to 2098 (`C05_fails`), dates (`C36_fails_date`), `BEGIN:vtimezone` (`C40_fails_zone`).
* `PyCal.C138_utc_partial` (C138_ZoneText.lean): C138 (partial), times in UTC: `getTimezoneOffsetSeconds` with `relative_to_utc` gives, for a time in UTC and the name of one of the time zones, the TZOFFSETTO of the observance with the last onset that, in UTC, is not after that time, and 0 before the first. Needed: as in `C138_offset_partial`; and `InOrder`: changes that are in the same order in UTC as on the clock, and not in a later year on the clock (`C36_fails_year`). Missing: years from 2098 on.

### C139 From the text of a calendar to the instants of its events (partial)

After Calendar.parseText has read a calendar with its VTIMEZONEs (TZIDs not known before), TimezoneDatabase gives for local times in its zones the offsets that the lines of the VTIMEZONEs describe, whatever is asked and whatever other calendars are read before or afterwards; getVEvents(period) gives for each VEVENT the instances its lines describe, and getPosixTime of their starts and ends in UTC or in one of the zones is the clock time less the offset of the observance in force by the lines of the zone.

* `PyCal.C139_objects` (C139_Instants.lean): C139, the database has its time zones: in every state that can be reached from a new database, a time zone that is found for a TZID is among the objects.
* `PyCal.C139_unknown` (C139_Instants.lean): C139, no offset without a time zone: as long as no time zone of that name comes from a calendar (whatever else is asked and read), the offset for a TZID is zero at all times, and for no TZID it is always.
* `PyCal.C139_offset_partial` (C139_Instants.lean): C139 (partial), the offsets after a calendar is read: when a calendar whose text is well-formed is read, and its TZIDs were not known before, then for a local time and the name of one of its time zones the database gives the TZOFFSETTO of the observance with the last onset that is not after that time, as the lines of the time zone describe them, and 0 before the first onset; whatever is asked and whatever other calendars are read before and after. Needed: as in `C138_offset_partial`. Missing: TZIDs that were known before (`C139_fails_known`), a directory with files.
* `PyCal.C139_utc_partial` (C139_Instants.lean): C139 (partial), offsets for times in UTC: likewise, for a time in UTC, with `relative_to_utc`, the TZOFFSETTO of the observance with the last onset that in UTC is not after that time, and 0 before the first. Needed: as in `C138_utc_partial`. Missing: as for `C139_offset_partial`.
* `PyCal.C139_instants_partial` (C139_Instants.lean): C139 (partial), from the text of a calendar to the instants of its events: when a calendar whose text is well-formed is read, and its TZIDs were not known before, then, with the offsets that the lines of its time zones describe: the database gives these offsets, whatever is asked and whatever other calendars are read before and after; `getVEvents` has for each event the instances that the lines describe, as in C137; and `getPosixTime` of their starts and ends in UTC or in one of the time zones of the calendar is the instant that the lines of the time zone describe. Needed: the events as in `C137_instances_partial`, the time zones as in `C138_offset_partial`; starts and ends that are date-times. Missing: TZIDs that were known before (`C139_fails_known`), date-times with values from before (`C139_fails_cached`), a directory with files, floating times, which have no instant, times before the first onset (`C35_fails_before`).
* `PyCal.C139_fails_known` (C139_Instants.lean): C139 fails: two calendars with the same TZID; the offset is that of the one that is read first, also for the date-times of the other one, which itself gives another offset.
* `PyCal.C139_fails_cached` (C139_Instants.lean): C139 fails: a date-time in a time zone that is asked for its instant before the calendar with the time zone is read (when the offsets are `env`, 0 for a TZID that is not known) gives this instant also afterwards (when they are `env'`), until it is changed: right only if the offset is the same.

### C140 Showing an instant in a time zone of a calendar (partial)

After a calendar text is read, converting a UTC date-time to one of the calendar's time zones with adjustTimezone gives the clock reading that the lines of the VTIMEZONE describe: ahead of UTC by the TZOFFSETTO of the last onset that, in UTC, is not after it. Unless the clock reading is one that is shown twice, it is the same instant, getPosixTime gives this instant, and adjustToUTC gives the original date-time back.

* `PyCal.C140_shown_partial` (C140_Shown.lean): C140 (partial), from the text of a calendar to the local times of instants: when a calendar whose text is well-formed is read, and its TZIDs were not known before, then, with the offsets that the lines of its time zones describe: the database gives these offsets, whatever is asked and whatever other calendars are read before and after; `adjustTimezone` of a time in UTC to one of the time zones gives the clock that is ahead by the offset of the last onset that, in UTC, is not after it; and if one can tell from the clock which changes have been, the local time is the same instant as the lines describe it, `getPosixTime` gives this instant, and converted back to UTC it is the same time. Needed: the time zones as in `C138_utc_partial`. Missing: the hour shown twice (`C140_fails_twice`), times before the first onset (`C35_fails_before`), TZIDs that were known before (`C139_fails_known`), years from 2098 on.
* `PyCal.C140_fails_twice` (C140_Shown.lean): C140 fails in the hour that is shown twice: half past six in UTC on 7 November 2010 is shown as half past one, and that, converted back, is half past five.

### C141 What is written follows the grammar of RFC 5545 (partial)

TextValue.generate, DateTime.getText, UTCOffsetValue.generate and Recurrence.generate write a text, date or date-time, utc-offset or recur of the RFC 5545 grammar that says the value written, and a property is written as a content line of the grammar with its name, group, value and, for each name, parameters that by RFC 6868 say its values.

* `PyCal.C141_text` (C141_WrittenText.lean): C141, texts: what `TextValue.generate` writes is a `text` that says the value, exactly if the value has no control characters but line feeds and tabs.
* `PyCal.C141_time` (C141_WrittenText.lean): C141, dates and times: what `DateTime.getText` writes for a valid value says that value (but for its time zone, which is a parameter), exactly if the year is one of 0 to 9999 and the value is neither a date with the UTC flag nor a time with a numeric offset.
* `PyCal.C141_fails_offset` (C141_WrittenText.lean): C141 fails: the text of a time with a numeric offset says no date-time at all.
* `PyCal.C141_offset` (C141_WrittenText.lean): C141, offsets: what `UTCOffsetValue.generate` writes is a `utc-offset` that says the value, exactly if it is less than a day.
* `PyCal.C141_rule_partial` (C141_WrittenText.lean): C141 (partial), rules: what `Recurrence.generate` writes is a `recur` that says the rule. Needed: at most one of COUNT and UNTIL, UNTIL in UTC, floating or a date, of the years 0 to 9999, and values that the parts may have. Missing: UNTIL in a time zone, COUNT with UNTIL (`C44_fails_zone`, `C44_fails_both`), a rule that is to use an UNTIL it does not have (`C141_fails_missing`), and lists that the setters let be empty or with values out of range.
* `PyCal.C141_fails_missing` (C141_WrittenText.lean): C141 fails: a rule that is to use an UNTIL that it does not have is written as no rule.
* `PyCal.C141_line_partial` (C141_WrittenText.lean): C141 (partial), lines: what is written for a property is a content line of the standard with its name, its group, its value and, for each name, parameters with its values. Needed: names of letters, digits and hyphens, parameters with values, values of parameters without control characters but line breaks and tabs. Missing: parameters without values, `C141_fails_no_value`, and control characters, `C141_fails_control`. (That the value is of the grammar of its type is for the theorems above.)
* `PyCal.C141_fails_control` (C141_WrittenText.lean): C141 fails: no line of the standard says a control character in a value of a parameter, and it is written as it is.
* `PyCal.C141_fails_no_value` (C141_WrittenText.lean): C141 fails: a parameter without a value, as it may be read from a card, is written as such.

### C142 From time zone data to the offsets given by what is written (partial)

The VTIMEZONEs that the time zone compiler makes of zones, written as a calendar, give a text that can be read; then getTimezoneOffsetSeconds gives, for a local time (or, with relative_to_utc, a time in UTC) and the name of a zone, the offset after the last transition of the zone data that is not after it, and 0 before the first.

* `PyCal.C142_offset_partial` (C142_ZoneWritten.lean): C142 (partial), local times: the components that the time zone compiler makes of zones are written as a calendar, which can be read; then `getTimezoneOffsetSeconds` gives, for a local time and the name of one of the zones, the offset after the last change of its components that is not after that time, and 0 before the first. Needed: `Fits`, different names, and that the lines of the calendar itself and X-LIC-LOCATION can be read. Missing: rules with BYYEARDAY, seconds, years from 2099 on.
* `PyCal.C142_utc_partial` (C142_ZoneWritten.lean): C142 (partial), times in UTC: with `relative_to_utc`, the offset after the last change that, in UTC, is not after the time. Needed: as in `C142_offset_partial`, and that the changes are in order (`C138_utc_partial`). Missing: years from 2098 on.
* `PyCal.C142_zone_partial` (C142_ZoneWritten.lean): C142 (partial), zones: the same for a zone of the time zone data, with the transitions of the zone, and those with which its rules go on where nothing ends them (`C88_exact_partial`), in place of the components. Needed: as in `C142_offset_partial` and in `C88_exact_partial`. Missing: the same.

### C143 From the text of a calendar to the names of its time zones (partial)

For a calendar that was parsed from a well-formed text with time zones, getTimezoneDescriptor for a local time and the name of one of these time zones gives, in parentheses, the TZNAME of the observance whose last onset is not after that time, as the lines of the text describe the observances, or the TZOFFSETTO of that observance if it has no TZNAME; it gives an empty text before the first onset and for names of no time zone of the calendar. This holds after whatever questions were asked before.

* `PyCal.C143_shown_partial` (C143_ZoneNames.lean): C143 (partial), from the text of a calendar to the names of its time zones: `getTimezoneDescriptor` of a calendar whose text is well-formed gives, for a local time and the name of one of its time zones, after whatever questions, the TZNAME in parentheses of the observance with the last onset that is not after that time, or without TZNAME its TZOFFSETTO, as the lines describe them, and nothing before the first onset; for other names it gives nothing. Needed: as in `C138_offset_partial`; no onset, but the first of an observance, from 1 January up to the time, or `C143_asked_partial`. Missing: such onsets (`C102_fails_thisYear`), several TZNAMEs, seconds of offsets (`C102_fails_seconds`), years to 2098 (`C05_fails`), dates.
* `PyCal.C143_asked_partial` (C143_ZoneNames.lean): C143 (partial), after the offset was asked for: `getTimezoneDescriptor` is right for every time, if before it the offset of the time zone was asked for, for a time in the same year or a later one. Needed: as in `C138_offset_partial`. Missing: several TZNAMEs, seconds of offsets (`C102_fails_seconds`), years to 2098 (`C05_fails`), dates.
* `PyCal.C143_fails_thisYear` (C143_ZoneNames.lean): C143 fails in the part of the year after a transition: in July 2010 Eastern Time is shown as "(EST)".

### C144 A calendar that is written and read again has the same instances (partial)

When a calendar that was parsed from a well-formed text is written with getText and the result is parsed again, getVEvents of the second calendar gives, for each period, the same instances as of the first: those that the lines of the first text describe.

* `PyCal.C144_lines_partial` (C144_Lines.lean): C144 (partial), all lines: as in `C144_instances_partial`, with what has to be said of the other lines put in terms of the text: their values are of the types that RFC 5545 gives to the properties. Needed: components that compare equal have the same type (see C41); positions (GEO) and request states that are written can be read (see C68, C92). Missing: as in `C144_instances_partial`; commas in lists of texts (`C66_fails`); properties that RFC 5545 does not name, with a VALUE (`C148_fails_extra`).
* `PyCal.C144_instances_partial` (C144_Rewrite.lean): C144 (partial), written and read again: a calendar with events as in C137 is written as a text that can be read, and the calendar that is read from it has the same instances, in the same number, each with the same start and the same end, for every period (and every order in which components and properties are written). Needed: components that compare equal have the same type (see C41); the other properties and components are each read from what is written for them, which is left open here (`Kept`; see `C144_lines_partial`). Missing: what is missing in C137; several TZIDs in a line (`C144_fails_zones`); values of parameters that begin with a space (`C144_fails_space`); times that are said to be dates (`C144_fails_date`). (The folding of lines is in C22.)
* `PyCal.C144_fails_zones` (C144_Rewrite.lean): C144 fails: of several TZIDs in a line (which the standard does not allow) the first counts, and they are sorted when they are written: the event is in another time zone afterwards.
* `PyCal.C144_fails_space` (C144_Rewrite.lean): C144 fails: a TZID that begins with a space is written without quotes, and read without the space: the event is in another time zone afterwards.
* `PyCal.C144_fails_date` (C144_Rewrite.lean): C144 fails: a time that is said to be a date (which the standard does not allow) is read without its time zone, and written without saying so: the event has the time zone afterwards.

### C145 A calendar that is read is of version 2.0 and Gregorian (partial)

If parsing a text gives a calendar, the calendar has a VERSION property, every VERSION property of the calendar says 2.0, and every CALSCALE property says GREGORIAN, wherever in the text the line is.

* `PyCal.C145_valid_partial` (C145_Version.lean): C145 (partial): a calendar that was parsed has a VERSION, and what its VERSION and its CALSCALE say is `2.0` and `GREGORIAN`: other texts are rejected, wherever in the calendar the line is. Missing: names that are not in capital letters, which the standard allows (`C145_fails_case`).
* `PyCal.C145_fails_case` (C145_Version.lean): C145 fails: with names that are not in capital letters another scale and another version are accepted.

### C146 From the lines of an alarm to what it says (partial)

An alarm that is read from lines that follow RFC 5545 has the action of its ACTION line, goes off when its TRIGGER line says (at a time, or so long from the start or the end), repeats as REPEAT and DURATION say, and has the DESCRIPTION, SUMMARY and ATTENDEEs of its lines with escapes undone.

* `PyCal.C146_alarm_partial` (C146_AlarmText.lean): C146 (partial), from the lines of an alarm to what it says: the action; when it goes off, at a time or so long from the start or the end; how often again and after which time; what is shown, or sent and to whom. Missing: names of actions and values of RELATED that are not in capital letters (`C98_fails_case`, `C98_fails_related`); ATTACH, of which nothing is kept (`C146_fails_attach`).
* `PyCal.C146_fails_attach` (C146_AlarmText.lean): C146 fails: of an alarm with a sound nothing of the sound is kept.

### C147 From the text of a calendar to its busy time (partial)

A VFREEBUSY component of a calendar that is parsed from a well-formed text has as busy time the periods that its FREEBUSY lines list, with their types, the earliest first; those that start together are in the order of the lines. The component is found for a period exactly if the period overlaps the time from DTSTART, or else the first start, to DTEND, or else the last end.

* `PyCal.C147_busy_partial` (C147_FreeBusyText.lean): C147 (partial), from the text of a calendar to its busy time: a VFREEBUSY of a calendar whose text is well-formed has the busy periods that its FREEBUSY lines list, each with its type and the earliest first; those that start together are in the order of the lines. It is found for a period exactly if that overlaps the time from DTSTART, or else the first start, to DTEND, or else the last end. Missing: types that the standard does not define (`C87_fails_type`), durations with a plus sign (`C79_fails_plus`).

### C148 A calendar that is written and read again has the same properties (partial)

When a calendar that was parsed from a well-formed text is written with getText and the result is parsed again, the second calendar has the same components as the first, up to their order, at every depth; each has the same properties of each name in the same order, with the same values (a duration may be put in other units) and the same parameters; each VFREEBUSY has the same busy time and is found for the same periods; and each VALARM has the same action with the same data, goes off at the same time or so long from the start or the end, as often again, and has the same status; and the calendar gives the same offsets for its time zones, whatever is asked of it, one after the other.

* `PyCal.C148_alarms_partial` (C148_Alarms.lean): C148 (partial), the alarms: as in `C148_same_partial`, and the alarms of the components that are read again tell the same as before. Missing: as in `C148_same_partial`; several values for RELATED (`C148_fails_related`).
* `PyCal.C148_fails_related` (C148_Alarms.lean): C148 fails: of several values for RELATED (which the standard does not allow) the first counts, and they are sorted when they are written: an alarm at the start is at the end afterwards.
* `PyCal.C148_same_partial` (C148_Same.lean): C148 (partial), written and read again: a calendar whose lines have values of the types that RFC 5545 gives to the properties is written as a text that can be read, and the calendar that is read from it has the same components, up to their order, and in them the same properties with the same values of the same types (durations may be put differently) and the same parameters (for every order in which components and properties are written). Needed: components that compare equal have the same type (see C41); positions (GEO) and request states that are written can be read (see C68, C92), and of their values nothing is said here. Missing: as in `C144_lines_partial` (`C148_fails_extra`); parameters with several values (`C148_fails_types`).
* `PyCal.C148_busy_partial` (C148_Same.lean): C148 (partial), the busy time: as in `C148_same_partial`, and the free-busy components that are read again have the same busy time, and are found for the same periods. Missing: as in `C148_same_partial`; several values for FBTYPE (`C148_fails_types`).
* `PyCal.C148_fails_types` (C148_Same.lean): C148 fails: of several values for FBTYPE (which the standard does not allow) the first counts, and they are sorted when they are written: what was free is busy afterwards.
* `PyCal.C148_fails_extra` (C148_Same.lean): C148 fails: that the value of a property that RFC 5545 does not name is a text is not written, and what is read again is not the text.
* `PyCal.C148_zones_partial` (C148_Zones.lean): C148 (partial), the time zones: as in `C148_same_partial`, and the time zones of the calendar that is read again are those of the calendar before; questions for offsets, one after the other, have the same answers. Needed: no two time zones of one name, and no two observances in a time zone with one DTSTART, which is a local time (in whatever order they are written). Missing: as in `C148_same_partial`.

### C149 From the text of a calendar to the attributes of its events and to-dos, and back (partial)

An event or a to-do that is parsed from a well-formed text has the UID, SEQUENCE, SUMMARY and STATUS of its lines, and a to-do also the PRIORITY, PERCENT-COMPLETE and COMPLETED, with escapes undone and whatever the case of the names; the calendar has the name and description of its X-WR-CALNAME and X-WR-CALDESC lines. When the calendar is written and read again, all of these are the same.

* `PyCal.C149_attributes_partial` (C149_AttributesText.lean): C149 (partial), from the text of a calendar to the attributes of its events and to-dos: UID, SEQUENCE, SUMMARY and STATUS, and of a to-do PRIORITY, PERCENT-COMPLETE and COMPLETED, are those of the lines, with escapes undone; and so are the name and the description of the calendar. Missing: names of states that are not in capital letters (`C149_fails_case`).
* `PyCal.C149_again_partial` (C149_AttributesText.lean): C149 (partial), the attributes of a calendar that is written and read again: as in `C148_same_partial`, and the events and to-dos have the same attributes (also the keys under which they are kept), and the calendar has the same name and description. Missing: as in `C148_same_partial`.
* `PyCal.C149_fails_case` (C149_AttributesText.lean): C149 fails: the name of a state in small letters, which is the same by the standard, is not known.

### C150 What is edited is written (partial)

A calendar is read, an event or a to-do in it is edited through setUID, setSeq, editSummary, editDetails, editStatus, editCompleted, initDTSTAMP and updateLastModified, and the calendar is written and read again. Then the component has the UID, SEQUENCE, SUMMARY, DESCRIPTION, LOCATION, STATUS, COMPLETED, DTSTAMP and LAST-MODIFIED, and the PRIORITY and PERCENT-COMPLETE, that it had after the edits, and the other components are as they were. The same holds for the description of the calendar and editDescription.

* `PyCal.C150_description_partial` (C150_Description.lean): C150 (partial), the description of a calendar: after `editDescription` the calendar that is written and read again has this description, the name that it had, and its other properties and its components. Missing: as in `C148_same_partial`; the name of a calendar cannot be edited (`C93_fails_name`).
* `PyCal.C150_edits_partial` (C150_EditsWritten.lean): C150 (partial), what is edited is written: a calendar is read, an event or a to-do in it is edited (its UID, SEQUENCE, SUMMARY, DESCRIPTION, LOCATION and STATUS, the time when a to-do was completed, DTSTAMP and LAST-MODIFIED, in any order and as often as one likes), and the calendar is written and read again. Then the component that was edited has the attributes that it had after the edits, and the other components are as they were (`SameComp`, C148). Missing: as in `C148_same_partial`; edits of an event or a to-do with a RECURRENCE-ID; an empty summary (`C93_fails_summary`), the status "completed" of a to-do (`C93_fails_complete`), and its status 0, which makes a property without a value; times that are dates only.

### C151 Times that are edited are written (partial)

A calendar is read, the times of an event or a to-do in it are edited through editTimingStartEnd, editTimingStartDuration or editTimingDue, and the calendar is written and read again. Then the component has the start, end or due time that was given, in the same time zone; no DTSTART, DTEND, DURATION or DUE from before is left; and all else is as it was.

* `PyCal.C151_startEnd_partial` (C151_TimesWritten.lean): C151 (partial), a start and an end: after `editTimingStartEnd` the event that is written and read again has this start and this end, no duration or due time from before, and its other properties; with `C62_startEnd_partial` these are the times that it had. Missing: as in `C150_edits_partial`; an all-day event of one day, `C151_oneDay_partial`.
* `PyCal.C151_startDuration_partial` (C151_TimesWritten.lean): C151 (partial), a start and a duration: after `editTimingStartDuration` the event that is written and read again has this start, and ends when the duration is over; with `C62_startDuration_partial` these are the times that it had. Missing: as in `C150_edits_partial`; all-day events of one day (`C151_oneDay_partial`) or less; durations with weeks and days (`Duration.Unmixed`).
* `PyCal.C151_oneDay_partial` (C151_TimesWritten.lean): C151 (partial), all-day events of one day: these are written without an end or a duration, and have their day when they are read again; with `C62_oneDay_partial` it is the day that they had. Missing: as in `C150_edits_partial`; durations of a part of a day.
* `PyCal.C151_due_partial` (C151_TimesWritten.lean): C151 (partial), the time when a to-do is due: after `editTimingDue` the to-do that is written and read again is due then and has no start; with `C62_due_partial` it is what it was. Missing: as in `C150_edits_partial`.

### C152 Alarms that are edited are written (partial)

A calendar is read, an alarm of an event or a to-do in it is edited through any sequence of editStatus, editAction, editTriggerOn, editTriggerBy and editRepeats, and the calendar is written and read again. Then the alarm that is read has the action with its data, the status, the time or the distance from the start or the end, the number of repeats and the interval that the edited alarm had, and the properties that no edit was about are as they were. A new alarm that is edited so and added to an event or a to-do is there when the calendar is read again, beside the components that were there before.

* `PyCal.C152_alarms_partial` (C152_AlarmsWritten.lean): C152 (partial): an alarm of an event or a to-do of a calendar that is read is edited, and the calendar is written and read again. Then the alarm tells what the alarm that was edited tells, and its other properties are as they were. Missing: actions without a text or a URI with a backslash; times of alarms in zones; as in `C150_edits_partial`.
* `PyCal.C152_new_partial` (C152_AlarmsWritten.lean): C152 (partial), new alarms: an alarm without properties is edited and added to an event or a to-do of a calendar that was read, which is written and read again. Then there is one more alarm in the component, which tells what the new one tells. Missing: as in `C152_alarms_partial`.

### C153 Components that are added or removed are written so (partial)

Two calendars are read and every component of the one is added to the other with addComponent: when that calendar is written and read again it has the components of both, each as often as before, with the same properties, and its own properties are as they were. After removeAllComponent of a type, in letters of any case, the calendar that is written and read again has no component of the type and all the others; without a type it has no components.

* `PyCal.C153_added_partial` (C153_Merge.lean): C153 (partial), two calendars in one: two calendars are read, and the components of the one are added to the other, which is written and read again. It then has the components of both, each as often as before, and the properties that it had. Missing: as in `C148_same_partial`.
* `PyCal.C153_removed_partial` (C153_Merge.lean): C153 (partial), components that are removed: after `removeAllComponent` the calendar that is written and read again has none of the components of this type, and all others. Missing: as in `C148_same_partial`; that `removeAllComponent` returns is C122.

### C154 A UID that is changed is written (partial)

A calendar is read, changeUID(old, new) is called with a UID that is not empty, and the calendar is written and read again. Then it has as many components as before; those whose UID was old have the UID new, and the others have the UID that they had; all other properties of the components, the components in them, and the properties of the calendar are as they were.

* `PyCal.C154_changed_partial` (C154_ChangeUID.lean): C154 (partial): a calendar is read, the UID of its components is changed with `changeUID`, and it is written and read again. Then the components with the old UID have the new one, the others the UID that they had, and all else is as it was; the components are as many as before. Missing: as in `C148_same_partial`; components with the old UID and a RECURRENCE-ID; a new UID that is empty.
