{"id": "C01", "title": "Date arithmetic always yields a real calendar date-time", "statement": "Whatever integer amount is added to any field of a DateTime (offsetYear/Month/Day/Hours/Minutes/Seconds, + Duration, - Duration), the operation terminates and the resulting fields are a real date and time: month 1..12, day between 1 and the length of that month in that year, hour 0..23, minute and second 0..59, and an all-zero time of day for a date-only value.", "quantifier": "all DateTime field values (any integers) and all integer offsets / durations", "why_tests_cant": "the day loop runs an unbounded number of iterations in either direction; only finitely many offsets can be tried", "anchors": ["src/pycalendar/datetime.py: DateTime.normalise, offsetYear, offsetMonth, offsetDay, offsetHours, offsetMinutes, offsetSeconds, __add__, __sub__", "src/pycalendar/utils.py: daysInMonth, isLeapYear"]}
{"id": "C02", "title": "Normalising a valid date-time changes nothing", "statement": "If the fields of a DateTime already form a real date and time then a zero offset (or adding a zero Duration) leaves every field unchanged; hence normalisation is idempotent.", "quantifier": "all valid DateTime values; all DateTime values for idempotence", "why_tests_cant": "must hold for every one of infinitely many dates", "anchors": ["src/pycalendar/datetime.py: DateTime.normalise"]}
{"id": "C03", "title": "Adding n seconds moves the clock by exactly n seconds", "statement": "For a date-time whose offset from UTC is fixed (UTC or floating), adding a Duration of n seconds (n of either sign) yields a date-time whose absolute time is exactly n seconds later, and it is the only valid date-time with that property. In particular the day after 28/29 February and 31 December is the right one. offsetDay, offsetHours, offsetMinutes and offsetSeconds move the clock by as much; offsetMonth and offsetYear keep the time of day and count the day from the first of the month that many months or years away.", "quantifier": "all date-times and all integer durations", "why_tests_cant": "a wrong leap rule shows only on particular years; a finite set of dates cannot cover all of them", "anchors": ["src/pycalendar/datetime.py: DateTime.__add__, normalise, getPosixTime, daysSince1970, offsetYear, offsetMonth, offsetDay, offsetHours, offsetMinutes, offsetSeconds", "src/pycalendar/utils.py: leapDaysSince1970, isLeapYear, daysUptoMonth"]}
{"id": "C04", "title": "Adding and subtracting the same duration cancel; difference inverts addition", "statement": "(dt + d) - d is dt again, and (dt + d) - dt is a duration with the same number of seconds as d, for every date-time with fixed UTC offset; a floating operand of a difference is read in the zone of the other one.", "quantifier": "all valid date-times and all durations", "why_tests_cant": "algebraic law over two unbounded integers", "anchors": ["src/pycalendar/datetime.py: DateTime.__add__, DateTime.__sub__", "src/pycalendar/duration.py: Duration.setDuration, getTotalSeconds"]}
{"id": "C05", "title": "The weekday of a date is the civil (Gregorian) weekday", "statement": "getDayOfWeek agrees with the Gregorian calendar (weekday advances by one each civil day; 1 January 1970 was a Thursday).", "quantifier": "all valid dates in the years the library is used for", "why_tests_cant": "has to hold for each date of a two-century range, and the failure outside that range is easy to miss by sampling", "anchors": ["src/pycalendar/datetime.py: DateTime.getDayOfWeek, daysSince1970", "src/pycalendar/utils.py: leapDaysSince1970"]}
{"id": "C06", "title": "Year-day get/set agree", "statement": "setYearDay(n) for n in 1..length of year moves to the date whose getYearDay is n in the same year; setYearDay(-n) moves to the n-th day counted back from 31 December; setYearDay(getYearDay()) is the identity.", "quantifier": "all years, all valid year-day numbers of either sign", "why_tests_cant": "every year and each of its days in both directions, including the leap-year special cases", "anchors": ["src/pycalendar/datetime.py: DateTime.setYearDay, getYearDay, normalise"]}
{"id": "C07", "title": "Day-of-month get/set agree for negative offsets", "statement": "setMonthDay(n)/setMonthDay(-n) move to the n-th day from the start / end of the month when it exists, and isMonthDay(n) holds exactly for that date.", "quantifier": "all valid dates and all offsets", "why_tests_cant": "quantified over all months and years", "anchors": ["src/pycalendar/datetime.py: DateTime.setMonthDay, isMonthDay"]}
{"id": "C08", "title": "n-th weekday of the month", "statement": "setDayOfWeekInMonth(n, wd) with n>0 (n<0) moves to the date of that month that falls on weekday wd and has exactly n-1 earlier (|n|-1 later) such dates in the month, whenever such a date exists; isDayOfWeekInMonth(n, wd) is true exactly for that date, and for n=0 exactly for dates on weekday wd.", "quantifier": "all dates, all weekdays, all offsets", "why_tests_cant": "all months of all years times all offsets", "anchors": ["src/pycalendar/datetime.py: DateTime.setDayOfWeekInMonth, isDayOfWeekInMonth"]}
{"id": "C09", "title": "n-th weekday of the year", "statement": "setDayOfWeekInYear(n, wd) moves to the n-th wd of the year, counted from 1 January (n>0) or from 31 December (n<0).", "quantifier": "all years, weekdays and offsets with such a day", "why_tests_cant": "all years times all offsets", "anchors": ["src/pycalendar/datetime.py: DateTime.setDayOfWeekInYear"]}
{"id": "C10", "title": "getWeekNo is the ISO 8601 week number", "statement": "getWeekNo returns k exactly when the Thursday of the Monday-based week containing the date is the k-th Thursday of its year.", "quantifier": "all valid dates", "why_tests_cant": "year-boundary behaviour depends on the weekday of 1 January and leapness in combination", "anchors": ["src/pycalendar/datetime.py: DateTime.getWeekNo, isWeekNo"]}
{"id": "C11", "title": "setWeekNo reaches the requested week", "statement": "After setWeekNo(n) (n a week number of the year) the date has the same weekday as before and getWeekNo() == n.", "quantifier": "all valid dates, all week numbers", "why_tests_cant": "depends on the weekday of the date and of 1 January jointly", "anchors": ["src/pycalendar/datetime.py: DateTime.setWeekNo, getWeekNo"]}
{"id": "C12", "title": "First given weekday on or after a day of the month", "statement": "setNextDayOfWeek(start, wd) moves to the first date on or after day `start` of the month that falls on wd.", "quantifier": "all months and years, all start days, all weekdays", "why_tests_cant": "quantified over all dates", "anchors": ["src/pycalendar/datetime.py: DateTime.setNextDayOfWeek", "src/zonal/rule.py: Rule.datetimeForYear"]}
{"id": "C13", "title": "Monthly stepping keeps the day of the month", "statement": "Stepping a date by a MONTHLY interval lands on the nearest later month (in steps of the interval) that has the same day of month, keeping the day number.", "quantifier": "all valid dates and positive intervals", "why_tests_cant": "only days 29..31 meeting particular month lengths show a difference", "anchors": ["src/pycalendar/datetime.py: DateTime.recur"]}
{"id": "C14", "title": "Durations keep their total", "statement": "Duration(n).getTotalSeconds() == n for every integer n; the constructor with weeks/days/hours/minutes/seconds totals them; durations compare by total.", "quantifier": "all integers", "why_tests_cant": "unbounded integer domain of both signs", "anchors": ["src/pycalendar/duration.py: Duration.__init__, setDuration, getTotalSeconds, __eq__, __lt__, __gt__"]}
{"id": "C15", "title": "Duration text round trip", "statement": "Parsing the text generated for a duration gives a duration with the same total; the generated text conforms to the RFC 5545 grammar for dur-value.", "quantifier": "all durations obtainable from a number of seconds, and all durations obtained by parsing", "why_tests_cant": "unbounded set of values with several optional parts", "anchors": ["src/pycalendar/duration.py: Duration.generate, Duration.parse", "src/pycalendar/stringutils.py: strtoul"]}
{"id": "C16", "title": "Parsing a duration depends only on the text", "statement": "The value of a Duration after parse(text) is determined by text, not by what the object held before.", "quantifier": "all texts and all prior object states", "why_tests_cant": "needs all object histories", "anchors": ["src/pycalendar/duration.py: Duration.parse"]}
{"id": "C17", "title": "DateTime comparison is a total order", "statement": "<, ==, > on date-times are mutually exclusive, antisymmetric and transitive.", "quantifier": "all triples of date-times (date-only, floating, UTC and zoned mixed)", "why_tests_cant": "triples of values of different kinds; sorting relies on transitivity for every triple", "anchors": ["src/pycalendar/datetime.py: DateTime.compareDateTime, __eq__, __lt__, __gt__, __le__, __ge__"]}
{"id": "C18", "title": "Equal date-times have equal hashes", "statement": "a == b implies hash(a) == hash(b), so that sets and dicts of date-times work.", "quantifier": "all pairs of date-times", "why_tests_cant": "all pairs of values of all kinds", "anchors": ["src/pycalendar/datetime.py: DateTime.__hash__, __eq__, getPosixTime", "src/pycalendar/utils.py: set_difference"]}
{"id": "C19", "title": "The cached absolute time is never stale", "statement": "After any sequence of operations on a DateTime (setters, offsets, parsing, timezone changes, queries), getPosixTime() returns the value computed from the current fields.", "quantifier": "all finite sequences of operations on a DateTime", "why_tests_cant": "quantified over all histories", "anchors": ["src/pycalendar/datetime.py: DateTime.getPosixTime, changed, setters, adjustToUTC, adjustTimezone"]}
{"id": "C20", "title": "TEXT value escaping is lossless and safe", "statement": "Decoding the escaped form of any text yields that text, and the escaped form contains no raw CR, LF and no unescaped comma or semicolon; any text using only the escapes of the RFC decodes to what the RFC says.", "quantifier": "all strings", "why_tests_cant": "all strings, in particular all placements of backslashes", "anchors": ["src/pycalendar/utils.py: writeTextValue, escapeTextValue, decodeTextValue, find_first_of"]}
{"id": "C21", "title": "Parameter value (RFC 6868) encoding is lossless", "statement": "Decoding an encoded parameter value yields the original with line breaks normalised to LF; the encoded form contains no double quote and no line break.", "quantifier": "all strings", "why_tests_cant": "all strings, in particular runs of '^'", "anchors": ["src/pycalendar/utils.py: encodeParameterValue, decodeParameterValue"]}
{"id": "C22", "title": "Line folding is lossless", "statement": "Reading back a generated content line gives exactly the unfolded content line, and no output line exceeds 75 octets (excluding the line break); multi-octet UTF-8 characters are never split. In any text a line that starts with a space or a tab continues the one before it, whether lines end with CR LF or LF.", "quantifier": "all UTF-8 property texts without line feeds", "why_tests_cant": "all lengths and all placements of multi-octet characters", "anchors": ["src/pycalendar/property.py: PropertyBase.generateValue", "src/pycalendar/utils.py: readFoldedLine"]}
{"id": "C23", "title": "vCard text lists survive a round trip", "statement": "Parsing the text generated for a list of strings (ORG, CATEGORIES, NICKNAME) yields the list.", "quantifier": "all non-empty lists of strings", "why_tests_cant": "all strings, in particular ones ending in a backslash", "anchors": ["src/pycalendar/utils.py: parseTextList, generateTextList"]}
{"id": "C24", "title": "vCard structured values (N, ADR) survive a round trip", "statement": "Parsing the text generated for an N/ADR value of the proper number of components yields the same components; missing components are filled up with empty ones and surplus ones dropped, kept or rejected as the parser context says.", "quantifier": "all tuples of strings or non-trivial string tuples", "why_tests_cant": "all strings, in particular ones ending in a backslash", "anchors": ["src/pycalendar/utils.py: parseDoubleNestedList, generateDoubleNestedList", "src/pycalendar/vcard/n.py: N", "src/pycalendar/vcard/adr.py: Adr"]}
{"id": "C25", "title": "Date-time text round trip", "statement": "Parsing the iCalendar or ISO text of a valid date-time in years 0..9999 gives back the same fields, date-only flag and UTC flag.", "quantifier": "all valid date-times with year 0..9999", "why_tests_cant": "about 3*10^11 values", "anchors": ["src/pycalendar/datetime.py: DateTime.getText, getXMLText, parse, parseDate, parseTime, parseFractionalAndUTCOffset"]}
{"id": "C26", "title": "UTC offset text round trip", "statement": "Parsing the text generated for a UTC offset of less than 100 hours yields the same number of seconds.", "quantifier": "all offsets with |seconds| < 360000, all text variants", "why_tests_cant": "every value; sign and seconds part interplay", "anchors": ["src/pycalendar/utcoffsetvalue.py: UTCOffsetValue.parse, generate"]}
{"id": "C27", "title": "Period predicates partition time", "statement": "For a period with start < end exactly one of isDateBeforePeriod, isDateWithinPeriod, isDateAfterPeriod holds for each instant; isPeriodOverlap is symmetric and true exactly when some instant is within both (for non-empty periods). The duration of a period, added to its start, gives its end.", "quantifier": "all periods and all instants of the same kind (all UTC, all floating or all in one zone)", "why_tests_cant": "boundary conditions of half-open intervals for every pair", "anchors": ["src/pycalendar/period.py: isDateWithinPeriod, isDateBeforePeriod, isDateAfterPeriod, isPeriodOverlap, getEnd, getDuration"]}
{"id": "C28", "title": "Simple recurrence expansion is exact", "statement": "Expanding a rule with only FREQ, INTERVAL, COUNT, UNTIL over a range yields exactly the dates start + k*interval (k = 0, 1, ...; months/years lacking the day are skipped) that lie in the range, are within UNTIL, and are among the first COUNT, in strictly increasing order and without repetition.", "quantifier": "all rules without BYxxx parts, all starts and all ranges", "why_tests_cant": "unbounded expansion loops; all starts and intervals", "anchors": ["src/pycalendar/icalendar/recurrence.py: Recurrence.simpleExpand, expand", "src/pycalendar/datetime.py: DateTime.recur"]}
{"id": "C29", "title": "COUNT and UNTIL bound every expansion", "statement": "However the range is chosen, the instances returned by expanding a rule with COUNT=n number at most n, and none is after UNTIL.", "quantifier": "all rules, starts and ranges", "why_tests_cant": "all histories of queries and all rules", "anchors": ["src/pycalendar/icalendar/recurrence.py: Recurrence.simpleExpand, complexExpand, expand"]}
{"id": "C30", "title": "Recurrence query results do not depend on earlier queries", "statement": "Expanding a rule over a range returns the same instances whatever expansions were made on the same rule object before (the cache is transparent).", "quantifier": "all rules, all sequences of earlier queries, including ones that raised TooManyInstances", "why_tests_cant": "quantified over all query histories", "anchors": ["src/pycalendar/icalendar/recurrence.py: Recurrence.expand, clear"]}
{"id": "C31", "title": "BYxxx limit parts are exact filters", "statement": "A BYMONTH / BYMONTHDAY / BYDAY / BYYEARDAY / BYHOUR / BYMINUTE / BYSECOND part used as a limit keeps exactly the candidate dates that match one of its values, in the original order.", "quantifier": "all candidate lists and all part values", "why_tests_cant": "all lists and values, of either sign", "anchors": ["src/pycalendar/icalendar/recurrence.py: byMonthLimit, byMonthDayLimit, byDayLimit, byHourLimit, byMinuteLimit, bySecondLimit, byYearDayLimit, byWeekNoLimit"]}
{"id": "C32", "title": "BYxxx expand parts enumerate exactly the specified dates", "statement": "A BYMONTH / BYMONTHDAY / BYDAY / BYHOUR / BYMINUTE / BYSECOND part used as an expansion produces, for every candidate, exactly the dates obtained by substituting each of its values; BYWEEKNO gives the date on the same weekday in each of the weeks.", "quantifier": "all candidate lists and values", "why_tests_cant": "all lists and values", "anchors": ["src/pycalendar/icalendar/recurrence.py: byMonthExpand, byMonthDayExpand, byHourExpand, byMinuteExpand, bySecondExpand, byDayExpandMonthly, byDayExpandYearly, byDayExpandWeekly, byWeekNoExpand"]}
{"id": "C33", "title": "BYSETPOS picks the listed positions", "statement": "BYSETPOS keeps, from the sorted candidate set of one interval, exactly the elements at the listed 1-based positions (negative: from the end), each once, in order.", "quantifier": "all candidate sets and position lists", "why_tests_cant": "all lists and positions", "anchors": ["src/pycalendar/icalendar/recurrence.py: bySetPosLimit"]}
{"id": "C34", "title": "Recurrence set = inclusions minus exclusions", "statement": "Expanding a recurrence set over a range yields every date of RRULEs and RDATEs in the range that is not excluded by an EXRULE or EXDATE, once each, and nothing else.", "quantifier": "all recurrence sets, starts and ranges", "why_tests_cant": "arbitrary overlap between rules", "anchors": ["src/pycalendar/icalendar/recurrenceset.py: RecurrenceSet.expand", "src/pycalendar/utils.py: set_difference"]}
{"id": "C35", "title": "UTC offset lookup returns the last transition at or before the time", "statement": "getTimezoneOffsetSeconds for a local (or UTC) time returns the offset of the latest transition whose time is at or before it, and the offset before the first transition if there is none.", "quantifier": "all sorted transition lists and all times", "why_tests_cant": "binary search over unbounded lists", "anchors": ["src/pycalendar/icalendar/vtimezone.py: VTimezone.getTimezoneOffsetSeconds, findTimezoneElement, tuple_bisect_right"]}
{"id": "C36", "title": "Timezone offset queries do not depend on earlier queries", "statement": "The offset returned for a time does not depend on which other times were asked about before.", "quantifier": "all sequences of queries", "why_tests_cant": "quantified over all query histories", "anchors": ["src/pycalendar/icalendar/vtimezone.py: VTimezone.getTimezoneOffsetSeconds"]}
{"id": "C37", "title": "Converting to UTC keeps the absolute time", "statement": "adjustToUTC does not change getPosixTime; converting a UTC time to a zone and back returns the same UTC time.", "quantifier": "all date-times and all zones (offset functions)", "why_tests_cant": "transition-hour cases of every zone", "anchors": ["src/pycalendar/datetime.py: DateTime.adjustToUTC, adjustTimezone, timeZoneSecondsOffset"]}
{"id": "C38", "title": "Timezone file lookup stays inside the database directory", "statement": "The path opened for a TZID is inside the configured database directory, whatever the TZID.", "quantifier": "all TZID strings and database paths", "why_tests_cant": "all strings", "anchors": ["src/pycalendar/timezonedb.py: TimezoneDatabase.cacheTimezone"]}
{"id": "C39", "title": "Timezone database lookups are stable", "statement": "Once a lookup of a TZID returned a timezone, every later lookup returns the same one until the database is cleared; a timezone merged from calendar data never replaces an existing one and is never reported as standard unless found in the database directory.", "quantifier": "all sequences of lookups, merges and standard-timezone queries", "why_tests_cant": "quantified over all histories", "anchors": ["src/pycalendar/timezonedb.py: TimezoneDatabase._getTimezone, mergeTimezone, addTimezone, _isStandardTimezone"]}
{"id": "C40", "title": "Only complete, properly nested calendar data is accepted", "statement": "Text parsing succeeds only if every BEGIN has its matching END, properly nested, and the object is complete; otherwise InvalidData is raised.", "quantifier": "all line sequences", "why_tests_cant": "all inputs, of any nesting depth", "anchors": ["src/pycalendar/containerbase.py: ContainerBase.parse"]}
{"id": "C41", "title": "Component trees survive generate/parse", "statement": "Parsing the lines generated for a component tree yields the same tree up to the documented ordering of properties and components.", "quantifier": "all finite component trees", "why_tests_cant": "unbounded depth and width", "anchors": ["src/pycalendar/componentbase.py: ComponentBase.generate, generateProperties, sortedPropertyKeys, sortedComponents", "src/pycalendar/containerbase.py: ContainerBase.parse"]}
{"id": "C42", "title": "Serialisation order is a permutation", "statement": "The properties and sub-components written out are exactly those of the component, each the same number of times.", "quantifier": "all components", "why_tests_cant": "all property multimaps and all preferred-key lists", "anchors": ["src/pycalendar/componentbase.py: sortedPropertyKeys, sortedComponents, generateProperties"]}
{"id": "C43", "title": "Validation: check mode is read-only, fix mode repairs", "statement": "validate(doFix=False) does not modify the component; after validate(doFix=True) a second validate reports no problem that the first reported as fixed.", "quantifier": "all components and all cardinality tables", "why_tests_cant": "all property multimaps", "anchors": ["src/pycalendar/componentbase.py: ComponentBase.validate, check_cardinality_1, check_cardinality_1_Fix_Empty, check_cardinality_0_1, check_cardinality_1_More"]}
{"id": "C44", "title": "Recurrence rule text round trip", "statement": "Parsing the text generated for a recurrence rule yields an equal rule.", "quantifier": "all rules with valid part values", "why_tests_cant": "all combinations of optional parts and list lengths", "anchors": ["src/pycalendar/icalendar/recurrence.py: Recurrence.generate, Recurrence.parse, equals"]}
{"id": "C45", "title": "Rule equality ignores the order of BYxxx values", "statement": "Two rules that differ only in the order of values within a BYxxx part compare equal, and equal rules have the same parts up to order.", "quantifier": "all pairs of rules", "why_tests_cant": "all permutations", "anchors": ["src/pycalendar/icalendar/recurrence.py: Recurrence.equals"]}
{"id": "C46", "title": "Content line round trip", "statement": "Parsing the unfolded text generated for a property (name, parameters, value) yields the same name, parameters and value text.", "quantifier": "all properties with token names and arbitrary parameter values", "why_tests_cant": "all strings in parameter values", "anchors": ["src/pycalendar/property.py: PropertyBase.parseText, parseTextParameters, generateValue", "src/pycalendar/parameter.py: Parameter.generate, generateValue", "src/pycalendar/stringutils.py: strduptokenstr"]}
{"id": "C47", "title": "Calendar UID index agrees with its components", "statement": "After any sequence of addComponent, removeComponent and changeUID, the overridden instances recorded for a UID are exactly the contained components with that UID and a RECURRENCE-ID, and the operations never fail on contained components.", "quantifier": "all sequences of operations", "why_tests_cant": "quantified over all histories", "anchors": ["src/pycalendar/icalendar/calendar.py: Calendar.addComponent, removeComponent, changeUID, getRecurrenceInstancesIds"]}
{"id": "C48", "title": "Expanded instances keep the event's length", "statement": "Each instance produced by expanding a recurring event spans the same length of time as the event itself; there is one that starts at each date of the recurrence set.", "quantifier": "all events (with DTEND, with DURATION, or with neither) and all instances", "why_tests_cant": "all events and instances", "anchors": ["src/pycalendar/icalendar/componentexpanded.py: ComponentExpanded.initFromOwner", "src/pycalendar/icalendar/componentrecur.py: finalise"]}
{"id": "C49", "title": "A non-recurring event is in a period exactly when it overlaps it", "statement": "withinPeriod is true exactly when the event's half-open time span meets the half-open period.", "quantifier": "all events and periods", "why_tests_cant": "boundary cases of every pair", "anchors": ["src/pycalendar/icalendar/componentrecur.py: ComponentRecur.withinPeriod, FixStartEnd"]}
{"id": "C50", "title": "Alarm repetition", "statement": "An alarm with REPEAT=n triggers at most n+1 times, each repetition the interval after the previous one, and then becomes completed.", "quantifier": "all repeat counts, intervals and trigger sequences", "why_tests_cant": "all histories", "anchors": ["src/pycalendar/icalendar/valarm.py: VAlarm.alarmTriggered, initNextTrigger"]}
{"id": "C51", "title": "Period ordering", "statement": "Periods are ordered by start and then end: <, == and > on periods are total, mutually exclusive and transitive.", "quantifier": "all triples of periods of one kind", "why_tests_cant": "all triples; sorting relies on transitivity", "anchors": ["src/pycalendar/period.py: Period.__eq__, __lt__, __gt__"]}
{"id": "C52", "title": "BYYEARDAY gives the day of the year", "statement": "A YEARLY rule with BYYEARDAY=n yields the n-th day of the year, counted from its end if n is negative.", "quantifier": "all years and all n from -366 to 366 except 0", "why_tests_cant": "all years and values", "anchors": ["src/pycalendar/icalendar/recurrence.py: Recurrence.byYearDayExpand", "src/pycalendar/datetime.py: DateTime.setYearDay"]}
{"id": "C53", "title": "The BYxxx parts select exactly the dates they describe", "statement": "For each frequency the set of dates generated for one interval consists of exactly those dates of the interval that satisfy all the BYxxx parts, as RFC 5545 reads them (BYDAY with and without numbers, negative BYMONTHDAY, times of day).", "quantifier": "all rules, all iterated dates", "why_tests_cant": "all combinations of parts, over all dates", "anchors": ["src/pycalendar/icalendar/recurrence.py: generateYearlySet, generateMonthlySet, generateWeeklySet, generateDailySet, generateHourlySet, generateMinutelySet, generateSecondlySet"]}
{"id": "C54", "title": "Expansion of rules with BYxxx parts is exact", "statement": "The dates returned for a range are exactly the dates selected by the BYxxx parts in some interval that are not before DTSTART, within the range, not after UNTIL and among the first COUNT, in increasing order; the expansion ends.", "quantifier": "all rules, starts and ranges", "why_tests_cant": "unbounded iteration; all combinations of parts", "anchors": ["src/pycalendar/icalendar/recurrence.py: Recurrence.expand, complexExpand"]}
{"id": "C55", "title": "maxInstances", "statement": "A call of expand with maxInstances=m on a new rule raises TooManyInstancesError exactly when more than m dates would be found, and otherwise returns what it returns without the limit.", "quantifier": "all rules, starts, ranges and limits", "why_tests_cant": "all expansions, of any length", "anchors": ["src/pycalendar/icalendar/recurrence.py: Recurrence.expand, simpleExpand, complexExpand"]}
{"id": "C56", "title": "Recurrence rule text is read as RFC 5545 defines it", "statement": "Every rule text made of parts allowed by RFC 5545, in any order, is accepted and gives exactly the rule those parts describe; every rule that parsing produces has COUNT and INTERVAL at least 1, not both COUNT and UNTIL, and BYxxx values only in the ranges RFC 5545 allows.", "quantifier": "all texts", "why_tests_cant": "infinitely many texts: all orders of parts, list lengths and numbers", "anchors": ["src/pycalendar/icalendar/recurrence.py: Recurrence.parse, parseList, parseListDW"]}
{"id": "C57", "title": "maxInstances of a recurrence set", "statement": "RecurrenceSet.expand with maxInstances=m raises TooManyInstancesError exactly when the set has more than m different dates in the range before exclusion, so never returns more than m dates.", "quantifier": "all recurrence sets, starts, ranges and limits", "why_tests_cant": "arbitrarily many rules and dates", "anchors": ["src/pycalendar/icalendar/recurrenceset.py: RecurrenceSet.expand"]}
{"id": "C58", "title": "Reading a property line ends", "statement": "Parsing the text of one property, in iCalendar or in vCard, ends with a result or an exception, whatever the text.", "quantifier": "all texts of a line, both variants, all parser settings", "why_tests_cant": "a test cannot distinguish a long run from an endless one, and there are infinitely many lines", "anchors": ["src/pycalendar/property.py: PropertyBase.parseText, parseTextParameters", "src/pycalendar/vcard/property.py: Property.parseTextParameters", "src/pycalendar/stringutils.py: strduptokenstr"]}
{"id": "C59", "title": "Instances of a recurring event in a period", "statement": "Expanding an event in a period yields exactly its recurrences that overlap the period, except those for which there is an overridden instance (which is expanded in its place); a RANGE=THISANDFUTURE instance stands for all later recurrences.", "quantifier": "all events, overridden instances and periods", "why_tests_cant": "all combinations of rules, dates, overrides and periods", "anchors": ["src/pycalendar/icalendar/componentrecur.py: ComponentRecur.expandPeriod, withinPeriod", "src/pycalendar/icalendar/componentexpanded.py: ComponentExpanded.initFromOwner"]}
{"id": "C60", "title": "getVEvents gives all instances in order of their start", "statement": "Calendar.getVEvents returns the instances of all events in the period, each once, sorted by start (all day events first if asked for).", "quantifier": "all calendars and periods", "why_tests_cant": "all lists of events and all orders", "anchors": ["src/pycalendar/icalendar/calendar.py: Calendar.getVEvents", "src/pycalendar/icalendar/componentexpanded.py: sort_by_dtstart_allday, sort_by_dtstart"]}
{"id": "C61", "title": "Equal components have the same content", "statement": "ComponentBase.__eq__ holds exactly when both components have the same type, the same properties one for one, and sub-components that are equal one for one, in any order; it is an equivalence relation.", "quantifier": "all pairs (and triples) of components with any nesting of sub-components", "why_tests_cant": "pairings of sub-components and multisets of properties are unbounded, and the failing cases need two values that compare equal but hash differently, or the reverse", "anchors": ["src/pycalendar/componentbase.py: ComponentBase.__eq__, compareComponents, compareProperties", "src/pycalendar/icalendar/property.py: Property.__hash__, Property.__eq__", "src/pycalendar/value.py: Value.__hash__, Value.__eq__", "src/pycalendar/parameter.py: Parameter.__eq__"]}
{"id": "C62", "title": "Editing the times of a component keeps the object and its text together", "statement": "After editTiming, editTimingDue, editTimingStartEnd or editTimingStartDuration the component has the start and end asked for, and hasStart, getStart, hasEnd, getEnd and useDuration give what a new component with the same properties gives.", "quantifier": "all prior states of the component, all starts, ends and durations", "why_tests_cant": "the cached values and the properties are written separately; that they agree for all values and prior states is not visible from single edits", "anchors": ["src/pycalendar/icalendar/componentrecur.py: ComponentRecur.editTiming, editTimingDue, editTimingStartEnd, editTimingStartDuration, FixStartEnd, finalise", "src/pycalendar/icalendar/vtodo.py: VToDo.finalise"]}
{"id": "C63", "title": "Editing the recurrences of a component", "statement": "editRecurrenceSet gives the component the recurrence set and writes its rules, excluded rules, dates and excluded dates; excludeRecurrence removes one instance and excludeFutureRecurrence all from a time on.", "quantifier": "all components and recurrence sets", "why_tests_cant": "every call on a recurring component must be covered", "anchors": ["src/pycalendar/icalendar/componentrecur.py: ComponentRecur.editRecurrenceSet, excludeRecurrence, excludeFutureRecurrence, _resetRecurrenceSet", "src/pycalendar/icalendar/recurrenceset.py: RecurrenceSet.excludeFutureRecurrence", "src/pycalendar/icalendar/recurrence.py: Recurrence.excludeFutureRecurrence"]}
{"id": "C64", "title": "The type of a value survives writing", "statement": "A property read from text and written again is read back with the same value type: the VALUE parameter that is written, or its absence, names the type of the value.", "quantifier": "all property names, all VALUE parameters, iCalendar and vCard, all default types a program registers", "why_tests_cant": "names, VALUE parameters and registered types are unbounded; the failing combinations are rare ones", "anchors": ["src/pycalendar/property.py: PropertyBase.determineValueType, setupValueParameter, parseText, registerDefaultValue", "src/pycalendar/value.py: Value.createFromType", "src/pycalendar/icalendar/property.py: tables", "src/pycalendar/vcard/property.py: tables"]}
{"id": "C65", "title": "A string given to a property is the string read back", "statement": "A string given to a property by the constructor or setValue is the string that is read from the text written for it, and is written without line breaks.", "quantifier": "all strings, all property names", "why_tests_cant": "strings are unbounded, and properties are of a known or an unknown name", "anchors": ["src/pycalendar/property.py: PropertyBase.setValue, _init_attr_value_text", "src/pycalendar/textvalue.py", "src/pycalendar/unknownvalue.py", "src/pycalendar/plaintextvalue.py"]}
{"id": "C66", "title": "Lists of texts are restored", "statement": "A multi-valued text property (CATEGORIES, RESOURCES, NICKNAME, ...) written and read again has the same list of texts.", "quantifier": "all lists of texts", "why_tests_cant": "lists and texts are unbounded; escaped commas are separators to a naive reader", "anchors": ["src/pycalendar/multivalue.py: MultiValue.parse, generate", "src/pycalendar/utils.py: writeTextValue, decodeTextValue"]}
{"id": "C67", "title": "URI values are restored", "statement": "A URI value written and read again is the same, and what is written has no line break.", "quantifier": "all strings, both settings of BACKSLASH_IN_URI_VALUE", "why_tests_cant": "strings are unbounded; reading decodes backslashes that writing does not produce", "anchors": ["src/pycalendar/urivalue.py: URIValue.parse, generate"]}
{"id": "C68", "title": "Request statuses are restored", "statement": "A REQUEST-STATUS value written and read again has the same code, description and data, whatever the setting for invalid values.", "quantifier": "all codes, descriptions and data; all settings", "why_tests_cant": "strings are unbounded; settings other than the default are seldom used", "anchors": ["src/pycalendar/icalendar/requeststatusvalue.py: RequestStatusValue.parse, generate", "src/pycalendar/utils.py: parseTextList, generateTextList"]}
{"id": "C69", "title": "A rule of the time zone data gives the day it names", "statement": "For every rule line and every year, the date-time computed for that year is the day the line names (lastSun: the last Sunday of the month; Sun>=8: the first Sunday on or after the 8th; Sun<=25: the last Sunday on or before the 25th; a number: that day), at the time of day written, read as wall clock, standard or universal time as its letter says.", "quantifier": "all rule lines, all years", "why_tests_cant": "the weekday that a month begins or ends with depends on the year; every combination of month, weekday, day and year occurs", "anchors": ["src/zonal/rule.py: Rule.datetimeForYear", "src/pycalendar/datetime.py: setDayOfWeekInMonth, setNextDayOfWeek", "src/zonal/utils.py: DateTime.getUTC"]}
{"id": "C70", "title": "Amounts of time in the time zone data are read exactly", "statement": "The offset of a zone line, the saving of a rule and the saving written in a zone line are the number of seconds written as [-]h[:mm[:ss]]; a zone line that names a rule set is not taken for an amount.", "quantifier": "all amounts", "why_tests_cant": "amounts are unbounded; negative amounts smaller than an hour are rare", "anchors": ["src/zonal/zone.py: ZoneRule.getUTCOffset, isNumericOffset, getNumericOffset", "src/zonal/rule.py: Rule.getOffset"]}
{"id": "C71", "title": "A rule is expanded to each of its years", "statement": "Expanding a rule up to a year gives one transition in every year from its first to its last, before that year, at the date-time computed for it and with the standard offset plus the saving; expanding it again gives the same.", "quantifier": "all rules, all last years", "why_tests_cant": "years are unbounded; the result depends on what was asked before", "anchors": ["src/zonal/rule.py: Rule.fullExpand, expand, startYear, endYear"]}
{"id": "C72", "title": "The recurrence rule written for a rule of the time zone data has the same days", "statement": "The yearly recurrence rule written for a rule line, starting at its first transition in local time, matches exactly the local dates of the transitions of the rule in every year, also when local time makes them fall on the day before or after the one named.", "quantifier": "all rule lines, all first transitions, all years", "why_tests_cant": "the rule recurs for ever, and whether it is right depends on the lengths of months in leap years and on the weekday each month begins with", "anchors": ["src/zonal/rule.py: Rule.getOnDayDetails, vtimezone"]}
{"id": "C73", "title": "A line of a zone puts in force the offset its rules say", "statement": "Expanding a zone line from the end of the line before gives transitions that, at every instant from there to the end of the line, show the offset that its rule set (or the saving it writes) puts in force: that of the latest transition of the rules, each read with the offset before it, or the standard offset before the first.", "quantifier": "all zone lines, rule sets, starts and offsets of the line before, all instants", "why_tests_cant": "rule sets and instants are unbounded; the offset each time is read with depends on the transitions before it", "anchors": ["src/zonal/zone.py: ZoneRule.expand", "src/zonal/utils.py: DateTime.getUTC"]}
{"id": "C74", "title": "The expansion of a zone shows the offsets of its lines", "statement": "The transitions given by expanding a zone from a year on show, at every instant from the first of them on, the offset that the transitions of its lines show, and each carries the offset in force just before it.", "quantifier": "all zones, all years, all instants", "why_tests_cant": "zones have any number of lines and transitions; some are dropped as repetitions, which must not change the clock", "anchors": ["src/zonal/zone.py: Zone.expand"]}
{"id": "C75", "title": "The end of a zone line is read as written", "statement": "The end of a zone line is the beginning of the year, or of the month, or of the day it names (a number, or a weekday as in lastSun and Sun>=8), or the time of that day, with the letter that says which clock it is read on; a comment is ignored, and a line without an end never ends.", "quantifier": "all years, months, days, times and comments", "why_tests_cant": "the day depends on the weekday the month begins with, in every year; the forms combine freely", "anchors": ["src/zonal/zone.py: ZoneRule.getUntilDate"]}
{"id": "C76", "title": "A calendar gets the time zones it uses", "statement": "Before a calendar is written, each TZID that a date or date-time in it uses has its VTIMEZONE in the calendar, unless the database has none (or calls it standard, when only the non-standard ones are asked for). The components that were there stay as they are; each VTIMEZONE added is a copy of the one in the database for a TZID that is used and was missing, and there are no two for a TZID. Doing it again adds nothing.", "quantifier": "all calendars, all histories of the database and contents of its files, all orders in which Python goes through a set", "why_tests_cant": "the set of TZIDs has no fixed order; lookups change the database; files change between calls", "anchors": ["src/pycalendar/icalendar/calendar.py: Calendar.includeMissingTimezones", "src/pycalendar/icalendar/component.py: Component.getTimezones", "src/pycalendar/icalendar/vavailability.py: VAvailability.getTimezones"]}
{"id": "C77", "title": "Standard time zones are stripped and nothing else", "statement": "stripStandardTimezones removes exactly the VTIMEZONE components whose TZID the database has and calls standard, keeps all others in their order, and returns whether it removed any. Writing the calendar with the default setting does not bring them back; including all time zones brings back every one that is used; stripping again removes nothing.", "quantifier": "all calendars (also with several equal VTIMEZONE components), all histories of the database", "why_tests_cant": "removal is by equality while a list is gone through; the answers of the database change with lookups", "anchors": ["src/pycalendar/icalendar/calendar.py: Calendar.stripStandardTimezones", "src/pycalendar/timezonedb.py: TimezoneDatabase._isStandardTimezone"]}
{"id": "C78", "title": "An instance derived from a master is that instance", "statement": "deriveComponent gives no component exactly when the calendar has no master. Otherwise it gives a copy of the first master without recurrence properties, whose DTSTART and RECURRENCE-ID are the recurrence asked for: the same moment in the zone of the master's DTSTART, or its date if that is a date. It is as long as the master, and covers the time that the instance covered in the expansion of the master; properties that have nothing to do with recurrence or the end stay as they are.", "quantifier": "all calendars, masters, zones and recurrences", "why_tests_cant": "the start may be given in any zone; the end is computed, and depends on the clock changes in between", "anchors": ["src/pycalendar/icalendar/calendar.py: Calendar.deriveComponent", "src/pycalendar/icalendar/calendar.py: Calendar.masterComponent"]}
{"id": "C79", "title": "Period texts mean what they say", "statement": "The texts read as a period are exactly a date-time, a slash and either a date-time or a duration; the period then has that start and that end or duration. The text of a period, and its jCal form, is read as the same period.", "quantifier": "all texts and all periods, both parsers, all parser settings", "why_tests_cant": "dates, durations and their texts are unbounded", "anchors": ["src/pycalendar/period.py: Period.parse", "src/pycalendar/period.py: Period.generate", "src/pycalendar/period.py: Period.writeJSON"]}
{"id": "C80", "title": "Looking at a period does not change it", "statement": "Asking a period for its end or duration, and choosing whether its end or its duration is written, changes neither its start nor its end nor its duration; its copy and the period read from its text have the same start and end whichever is written; and converting it to UTC gives the same end whether or not the end had been asked for.", "quantifier": "all periods and all sequences of calls", "why_tests_cant": "the end and the duration are computed and stored on demand, so that the result can depend on the order of calls", "anchors": ["src/pycalendar/period.py: Period.getEnd", "src/pycalendar/period.py: Period.getDuration", "src/pycalendar/period.py: Period.setUseDuration", "src/pycalendar/period.py: Period.adjustToUTC"]}
{"id": "C81", "title": "Properties keep the time zones of their date-times", "statement": "The date-times and periods given to a property are those read from what it is written as, in text or jCal, each with its time zone; setting the value of a property sets that value.", "quantifier": "all property names, also with registered default types, all date-times, all lists of them", "why_tests_cant": "the time zone of all values is one parameter of the property; lists can be of any length and mixture", "anchors": ["src/pycalendar/icalendar/property.py: Property._postCreateValue", "src/pycalendar/icalendar/property.py: Property._init_attr_value_datetime", "src/pycalendar/icalendar/property.py: Property._init_attr_value_datetimelist", "src/pycalendar/icalendar/property.py: Property._init_attr_value_periodlist"]}
{"id": "C82", "title": "jCal keeps the type of a value", "statement": "A property read from text, written as jCal and read again has a value of the same type.", "quantifier": "all property names and VALUE parameters, iCalendar and vCard, also with registered default types", "why_tests_cant": "the type depends on the name, the VALUE parameter, the registered defaults and the type name written", "anchors": ["src/pycalendar/property.py: PropertyBase.parseJSON", "src/pycalendar/property.py: PropertyBase.generateValueJSON", "src/pycalendar/value.py: Value.writeJSON"]}
{"id": "C83", "title": "Recurrence rules in jCal", "statement": "Every object that RFC 7265 allows for a rule, and no other, is accepted, with the meaning that its members have; the object written for a rule is such an object, and reading it, with its members in any order, gives the same rule.", "quantifier": "all rules and all objects", "why_tests_cant": "the members and their values can be combined without bound and dictionaries have no order", "anchors": ["src/pycalendar/icalendar/recurrence.py: Recurrence.parseJSON", "src/pycalendar/icalendar/recurrence.py: Recurrence.writeJSON"]}
{"id": "C84", "title": "Validation reports exactly what is wrong", "statement": "Validation reports no problem for a component exactly if the properties of the component and of all components in it occur as often as their classes require, have valid values and meet the extra rules (an end or a duration but not both, a start where one is needed, and so on); a component without problems has its properties as often as RFC 5545 says; validation with an exception raises exactly if there is a problem.", "quantifier": "all component trees", "why_tests_cant": "all numbers and combinations of properties at all depths", "anchors": ["src/pycalendar/componentbase.py: ComponentBase.validate", "src/pycalendar/containerbase.py: ContainerBase.validate", "src/pycalendar/icalendar/vevent.py: VEvent.validate", "src/pycalendar/icalendar/vtodo.py: VToDo.validate", "src/pycalendar/icalendar/valarm.py: VAlarm.validate"]}
{"id": "C85", "title": "Properties in jCal", "statement": "The array that is written for a property has the form of RFC 7265, and reading it, with the members of objects in any order, gives a property with the same name, parameters, type and values.", "quantifier": "all properties with texts, numbers, coordinates, durations, UTC offsets, request statuses and recurrence rules for values", "why_tests_cant": "names, parameters and values can be combined without bound and dictionaries have no order", "anchors": ["src/pycalendar/property.py: PropertyBase.parseJSON", "src/pycalendar/property.py: PropertyBase.generateValueJSON", "src/pycalendar/parameter.py: Parameter.writeJSON", "src/pycalendar/plaintextvalue.py: PlainTextValue", "src/pycalendar/utcoffsetvalue.py: UTCOffsetValue", "src/pycalendar/icalendar/requeststatusvalue.py: RequestStatusValue"]}
{"id": "C86", "title": "Component trees in jCal", "statement": "The array that is written for a component has the form of RFC 7265 with every property and component in it; reading the array of a container gives the same container, and only containers in which components are where they may be are read.", "quantifier": "all component trees", "why_tests_cant": "trees have any depth and number of components", "anchors": ["src/pycalendar/componentbase.py: ComponentBase.parseJSON", "src/pycalendar/componentbase.py: ComponentBase.writeJSON", "src/pycalendar/containerbase.py: ContainerBase.parseJSONData"]}
{"id": "C87", "title": "The busy time of a free-busy component", "statement": "The busy time of a VFREEBUSY is exactly the periods of its FREEBUSY properties that are not free, each with the type that FBTYPE says, earliest first; the span is from its start (or the first busy period) to its end (or the end of the last); a range that overlaps a busy period finds the component and its busy periods, whatever was asked or changed before.", "quantifier": "all components, properties, periods and ranges of one kind of times", "why_tests_cant": "properties and periods come in any number and order", "anchors": ["src/pycalendar/icalendar/vfreebusy.py: VFreeBusy.cacheBusyTime", "src/pycalendar/icalendar/vfreebusy.py: VFreeBusy.expandPeriodComp", "src/pycalendar/icalendar/vfreebusy.py: VFreeBusy.expandPeriodFB", "src/pycalendar/icalendar/vfreebusy.py: VFreeBusy.finalise", "src/pycalendar/icalendar/freebusy.py: FreeBusy"]}
{"id": "C88", "title": "The VTIMEZONE written for a zone takes effect exactly at the zone's transitions", "statement": "For every zone of the time zone data, the STANDARD and DAYLIGHT components of the VTIMEZONE that Zone.vtimezone writes (DTSTART, RDATE, RRULE with UNTIL) take effect, with their TZOFFSETFROM and TZOFFSETTO, at exactly the transitions that Zone.expand gives for the years asked for, and after them only as the rules without an end go on; a component is DAYLIGHT exactly if time is saved, and its TZNAME is the abbreviation that the format of the line gives.", "quantifier": "for every zone, rule set and range of years (where the rules are of the forms listed), and for every instant", "why_tests_cant": "The grouping into components depends on the order of the transitions, the offsets before and after each, and the day each one falls on in local time; the tests compare a few zones, and an RRULE stands for infinitely many dates.", "anchors": ["src/zonal/zone.py:172-289", "src/zonal/zone.py:492-521", "src/zonal/rule.py:430-562"]}
{"id": "C89", "title": "Properties in xCal", "statement": "The element that writeXML gives for a property has the form of RFC 6321: its name in small letters, every parameter other than VALUE with the type and text of each value, and for every value the element of its type; the elements of a recurrence rule mean the same rule.", "quantifier": "all properties, parameters and values", "why_tests_cant": "parameters and values can be combined without bound, and each type of value has its own writer", "anchors": ["src/pycalendar/property.py: PropertyBase.writeXML", "src/pycalendar/parameter.py: Parameter.writeXML", "src/pycalendar/valueutils.py: WrapperValue", "src/pycalendar/plaintextvalue.py: PlainTextValue.writeXML", "src/pycalendar/icalendar/recurrence.py: Recurrence.writeXML", "src/pycalendar/utcoffsetvalue.py: UTCOffsetValue.writeXML"]}
{"id": "C90", "title": "Component trees in xCal", "statement": "The XML that is written for a calendar has the form of RFC 6321 with every property and component in it exactly once, and it is written for every calendar.", "quantifier": "all component trees", "why_tests_cant": "trees have any depth and number of components, and a single value anywhere can stop the writer", "anchors": ["src/pycalendar/componentbase.py: ComponentBase.writeXML", "src/pycalendar/componentbase.py: ComponentBase.writePropertiesXML", "src/pycalendar/componentbase.py: ComponentBase.writeComponentsXML", "src/pycalendar/icalendar/calendar.py: Calendar.writeXML"]}
{"id": "C91", "title": "Writing through an output filter", "statement": "What is written through an output filter is what is written for the component that has only the properties (with or without their values) and components that the calls on the filter ask for, whatever the order of the calls, in text, jCal and xCal.", "quantifier": "all sequences of calls on a filter, all component trees", "why_tests_cant": "calls and properties can be combined without bound and the last call for a name counts", "anchors": ["src/pycalendar/outputfilter.py: OutputFilter", "src/pycalendar/componentbase.py: ComponentBase.generateFiltered", "src/pycalendar/componentbase.py: ComponentBase.writeXMLFiltered", "src/pycalendar/componentbase.py: ComponentBase.writeJSONFiltered", "src/pycalendar/property.py: PropertyBase.generateFiltered"]}
{"id": "C92", "title": "Calendar data that is written is read as the same calendar", "statement": "The bytes that getText gives for a calendar, folded lines and non-ASCII text included, are read by parse as the same calendar: the same components in components, and in each the same properties with the same name, parameters and value.", "quantifier": "all calendars: any number and depth of components, any properties, parameters and texts", "why_tests_cant": "it takes folding, line reading, nesting, parameters and escaping together, and each has its own delimiters", "anchors": ["src/pycalendar/componentbase.py: ComponentBase.getText", "src/pycalendar/componentbase.py: ComponentBase.generate", "src/pycalendar/containerbase.py: ContainerBase.parse", "src/pycalendar/utils.py: readFoldedLine", "src/pycalendar/property.py: PropertyBase.generateValue", "src/pycalendar/property.py: PropertyBase.parseText"]}
{"id": "C93", "title": "Attributes of components and their properties stay together", "statement": "After loading and any sequence of setUID, setSeq, editSummary, editDetails, editStatus, editCompleted, initDTSTAMP and updateLastModified, what an event or to-do reports (UID, sequence, key, summary, status, completion, priority, percentage) is what a new component with the same properties reports; each call sets what it names and leaves the properties of all other names alone. The same for the name and description of a calendar.", "quantifier": "all components, all sequences of edits", "why_tests_cant": "the values are kept twice, in the object and in its properties; that they agree after every sequence of edits is not visible from single edits", "anchors": ["src/pycalendar/icalendar/component.py: Component.setUID, setSeq, finalise", "src/pycalendar/icalendar/componentrecur.py: ComponentRecur.editSummary, editDetails, setUID, mapKey, finalise", "src/pycalendar/icalendar/vevent.py: VEvent.finalise, editStatus", "src/pycalendar/icalendar/vtodo.py: VToDo.finalise, editStatus, editCompleted", "src/pycalendar/icalendar/calendar.py: Calendar.editName, editDescription, finalise"]}
{"id": "C94", "title": "The completion state of a to-do", "statement": "getCompletionState of a to-do that is not completed or cancelled tells whether it is overdue, due now (today, or without a due time) or due later; one that is completed is done, one that is cancelled is cancelled.", "quantifier": "all to-dos and days", "why_tests_cant": "all combinations of status, due time and today", "anchors": ["src/pycalendar/icalendar/vtodo.py: VToDo.getCompletionState", "src/pycalendar/datetime.py: DateTime.setToday"]}
{"id": "C95", "title": "Lines of time zone data are read and written exactly", "statement": "A rule line is read exactly if it has ten words or more, and its words are then the fields of the rule, whatever blanks and tabs are between them and whatever follows; a rule, a set of rules of one name and a zone whose fields are words are read back from what generate writes; what Zone.parse and Rule.parse return is always written in a form that is read back as the same. RuleSet.parse reads only lines with single blanks before the name.", "quantifier": "all lines of characters, all rules and zones", "why_tests_cant": "the lines of the time zone data have arbitrary blanks, remarks and optional fields; a wrong split shifts every field after it", "anchors": ["src/zonal/rule.py: Rule.parse, Rule.generate, RuleSet.parse, RuleSet.generate", "src/zonal/zone.py: Zone.parse, Zone.generate, ZoneRule.parse, ZoneRule.generate"]}
{"id": "C96", "title": "A file of time zone data is read into what it says", "statement": "After tzconvert.parse of a file that consists of remarks, empty lines, rule lines, zones with their lines and remarks, and links, the rules of each name are those had before followed by those of the file in order, each zone and each link is that which the file says last, and everything else is as before; parse raises for no such file; it raises for every file with a line that is none of these.", "quantifier": "all files of these lines, all data read before", "why_tests_cant": "the zone loop takes lines from the file that the outer loop is reading and hands one back; whether a line is lost or read twice depends on how zones, remarks and other lines follow each other", "anchors": ["src/zonal/tzconvert.py: tzconvert.parse, parseRule, parseZone, parseLink"]}
{"id": "C97", "title": "Each zone and each link gets its file of calendar data", "statement": "generateZoneinfoFiles writes a file for each zone and for each link, directly or through other links, to a zone, and no others; the file of a link is that of the name it is a link to with its own name in place of that, and nothing else changed; links of the time zone data go before Windows aliases, of which those for the territory 001 are used; links.txt lists in order the links that have been written.", "quantifier": "all time zone data that parse can have read, all lists of aliases, all zones", "why_tests_cant": "which links get a file depends on the alphabetical order of all names in a chain of links", "anchors": ["src/zonal/tzconvert.py: tzconvert.generateZoneinfoFiles, parseWindowsAliases"]}
{"id": "C98", "title": "An alarm and its properties stay together", "statement": "After loading and any sequence of editStatus, editAction, editTriggerOn, editTriggerBy and editRepeats, what an alarm reports (action and its data, trigger, repetitions, status, key) is what a new alarm with the same properties reports; each call sets what it names, leaves the properties of all other names alone and does not raise; a duplicate reports the same; an alarm that is loaded again takes a trigger without RELATED from the start.", "quantifier": "all alarms with all properties, all sequences of edits", "why_tests_cant": "the values are kept twice, and the action keeps some of them a third time in its own object; that they agree after every sequence of edits is not visible from single edits", "anchors": ["src/pycalendar/icalendar/valarm.py: VAlarm.finalise, editStatus, editAction, editTriggerOn, editTriggerBy, editRepeats, loadAction, duplicate; VAlarmAudio, VAlarmDisplay, VAlarmEmail, VAlarmURI: load, add, remove"]}
{"id": "C99", "title": "Several cards in one text are read as those cards", "statement": "Card.parseMultipleData of a text returns the cards of the text, one for each BEGIN:VCARD/END:VCARD, in order, each with exactly the properties between the two lines; a text in which a card is not complete or has no supported VERSION raises; cards written one after another are read as the same cards; reading always ends.", "quantifier": "all texts, all lists of cards", "why_tests_cant": "the state that is carried from one card to the next (the card being filled, the results) can only be checked for finitely many texts", "anchors": ["src/pycalendar/vcard/card.py: Card.parseMultipleTextData, validProperty"]}
{"id": "C100", "title": "Reading components into a calendar adds exactly these", "statement": "Calendar.parseComponent adds to a calendar the components of the data read, the same as parse finds in them, after those that it has, and changes nothing else; it returns the first of them; data that are not complete raise, and after an exception the calendar is as it was; a file of the time zone database that cannot be read makes the time zone unknown.", "quantifier": "all calendars, all data", "why_tests_cant": "quantified over all data, complete or not, and all states of the calendar before", "anchors": ["src/pycalendar/icalendar/calendar.py: Calendar.parseComponent", "src/pycalendar/timezonedb.py: TimezoneDatabase.cacheTimezone"]}
{"id": "C101", "title": "The times of a free-busy component and its properties stay together", "statement": "A VFREEBUSY that is read has the start and the end that its DTSTART and DTEND (or DURATION) say; after editTimingStartEnd or editTimingStartDuration it tells the times that were given, and a component read from its properties tells the same; after editTiming it has no times and no such properties; queries after an edit use the new times; a copy tells the same times.", "quantifier": "all components, all starts, ends and durations, all time zones, all queries before and after", "why_tests_cant": "the times are kept twice and the busy time a third time; which pairs of times make the copies differ is only visible over all pairs", "anchors": ["src/pycalendar/icalendar/vfreebusy.py: VFreeBusy.finalise, fixStartEnd, editTiming, editTimingStartEnd, editTimingStartDuration, duplicate, expandPeriodComp"]}
{"id": "C102", "title": "The text that describes a time zone at a time is that of the element in force", "statement": "VTimezone.getTimezoneDescriptor gives, for every time and after any queries, the TZNAME in parentheses of the element with the last transition at or before the time, or without a name the UTC offset of that element as +HHMM or -HHMM; a date-time in UTC or with a numeric time zone is described by \"(UTC)\" or its offset; time zones can be sorted by their UTC offsets.", "quantifier": "all time zones with elements with RRULEs and RDATEs, all sequences of queries before, all times, all orders in which sets are run through", "why_tests_cant": "which transitions are in the cache depends on all earlier queries, and tests ask about few times in one order", "anchors": ["src/pycalendar/icalendar/vtimezone.py: VTimezone.getTimezoneDescriptor, findTimezoneElement, getUTCOffsetSortKey, sortByUTCOffsetComparator", "src/pycalendar/icalendar/vtimezoneelement.py: VTimezoneElement.expandBelow", "src/pycalendar/timezone.py: Timezone.timeZoneDescriptor", "src/pycalendar/datetime.py: DateTime.timeZoneDescriptor"]}
{"id": "C103", "title": "Dates and times that differ are shown differently", "statement": "getLocaleDate shows the day of the week, the month by name or number, the day and the year of a date; getTime shows the time with 24 hours or with AM and PM; for every two dates the texts with the year differ if the dates differ, for every two times the texts differ if what is asked for (seconds or not) differs, texts with 24 hours sort as the times do, and so for getLocaleDateTime.", "quantifier": "all dates, all times of day, all formats", "why_tests_cant": "tests show a few dates; that no two texts coincide is a claim about all pairs", "anchors": ["src/pycalendar/datetime.py: DateTime.getLocaleDate, getTime, getLocaleDateTime, getMonthText", "src/pycalendar/locale.py: getDay, getMonth"]}
{"id": "C104", "title": "The times of a changed instance", "statement": "After ComponentRecur.setMaster the start of a changed instance is its own DTSTART or else its RECURRENCE-ID; its end is its own DTEND (DUE for a to-do), or its start and DURATION, or else it lasts as long as its master; it says that it has a start and an end; only the last master that was set counts; a component that is its own master keeps its times and is not an instance of anything; a copy has the same times and is an instance just if the original is.", "quantifier": "all components, masters, recurrence ids and sequences of masters", "why_tests_cant": "which of the four sources of the end is used depends on every combination of properties present, in the instance and in the master", "anchors": ["src/pycalendar/icalendar/componentrecur.py: ComponentRecur.setMaster, initFromMaster, recurring, duplicate"]}
{"id": "C105", "title": "Recurrence sets are compared by what they say", "statement": "RecurrenceSet.equals says whether two sets have the same rules, exclusion rules, dates and periods, in any order; a copy of a set or of a rule equals the original; isSimpleRule and isAdvancedRule say whether a rule has no BY part, or only those that a dialog can show; isSimpleUI, isAdvancedUI, getUIRecurrence and getUIDescription answer for every set.", "quantifier": "all recurrence sets, all lists of rules in any order", "why_tests_cant": "that a greedy comparison of lists finds a match whenever there is one is a claim about all orders", "anchors": ["src/pycalendar/icalendar/recurrenceset.py: RecurrenceSet.duplicate, equals, equalsRules, equalsDates, equalsPeriods, isSimpleUI, isAdvancedUI, getUIRecurrence, getUIDescription", "src/pycalendar/icalendar/recurrence.py: Recurrence.duplicate, isSimpleRule, isAdvancedRule"]}
{"id": "C106", "title": "Two sets of time zone data are compared by their transitions", "statement": "tzverify's compareCalendars reports for every zone that both sets have just the transitions that change the offset and that one set has and the other has not: each such transition (time and offsets) that is only in the second set as missing in the first and the other way round, and nothing for sets with the same transitions; the report does not depend on the order in which sets are run through; zones that are in only one of the sets are mentioned; the texts of two offsets differ if the offsets do.", "quantifier": "all pairs of lists of transitions, all orders in which sets are run through, all sets of zones, all offsets", "why_tests_cant": "which transitions are dropped depends on the order of a hash set, and tests run one order", "anchors": ["src/zonal/tzverify.py: compareCalendars, secondsToTime, CalendarZonesWrapper.expandTransitions", "src/zonal/tzdump.py: secondsToTime", "src/zonal/tzconvert.py: tzconvert.expandZone"]}
{"id": "C107", "title": "A value that is not allowed is reported, and no other", "statement": "With validation on, a value passes the check for its property just if RFC 5545 allows it: COMPLETED, CREATED, DTSTAMP, LAST-MODIFIED and ACKNOWLEDGED are date-times in UTC, PERCENT-COMPLETE is from 0 to 100, PRIORITY from 0 to 9, REPEAT and SEQUENCE are not negative, VERSION is 2.0 and CALSCALE is GREGORIAN; the command line validator tells of exactly the control characters in the data, other than tabs and line ends, with their positions in order.", "quantifier": "all properties, all texts of values, all parameters, all lines", "why_tests_cant": "tests try a few values; that no other text passes is a claim about all texts", "anchors": ["src/pycalendar/validation.py: PropertyValueChecks.stringValue, alwaysUTC, numericRange, positiveIntegerOrZero", "src/pycalendar/icalendar/validation.py: ICALENDAR_VALUE_CHECKS", "src/pycalendar/validator.py: validate"]}
{"id": "C108", "title": "Each problem that validation reports is one, and each is reported", "statement": "validate without fixing does not change a component and reports, problem by problem, just what is wrong with it and with all components in it: each property that must occur exactly once, at most once or at least once and does not, each value that is not allowed, each UNTIL of another kind than the start, and each rule between properties of the class that is broken, with the component and the property; a report that a property of a component of RFC 5545 is missing or occurs too often is right by that RFC.", "quantifier": "all components of all classes, with any properties and components in them, nested to any depth", "why_tests_cant": "that nothing else is reported, and nothing overlooked, is a claim about all components", "anchors": ["src/pycalendar/componentbase.py: ComponentBase.validate, check_cardinality_1, check_cardinality_1_Fix_Empty, check_cardinality_0_1, check_cardinality_1_more, check_cardinality_STATUS_Fix", "src/pycalendar/icalendar/componentrecur.py: ComponentRecur.validate", "src/pycalendar/icalendar/vevent.py: VEvent.validate", "src/pycalendar/icalendar/vtodo.py: VToDo.validate", "src/pycalendar/icalendar/available.py: Available.validate", "src/pycalendar/icalendar/vavailability.py: VAvailability.validate", "src/pycalendar/icalendar/vtimezone.py: VTimezone.validate", "src/pycalendar/icalendar/valarm.py: VAlarm.validate"]}
{"id": "C109", "title": "The XML text of a calendar says what the calendar says", "statement": "The elements from which the XML text of a calendar is made are those of the calendar, with every text unchanged and each element on a line of its own, and there is an XML text for every calendar that has an XML tree.", "quantifier": "all element trees and all calendars", "why_tests_cant": "the blanks for the layout are put into the same fields of the tree as the texts of values, at any depth", "anchors": ["src/pycalendar/xmlutils.py: toString", "src/pycalendar/icalendar/calendar.py: Calendar.getTextXML", "src/pycalendar/geovalue.py: GeoValue.writeXML"]}
{"id": "C110", "title": "Equal properties have equal hashes", "statement": "Two properties are == exactly if they have the same group, name, parameters and value; == is an equivalence relation, != is its opposite, and properties that are == have the same hash.", "quantifier": "all properties of iCalendar and vCard, with values of all types", "why_tests_cant": "the comparison of values has a definition of its own for each type, and objects in a set or dictionary are found by their hash", "anchors": ["src/pycalendar/icalendar/property.py: Property.__eq__", "src/pycalendar/icalendar/property.py: Property.__hash__", "src/pycalendar/vcard/property.py: Property.__eq__", "src/pycalendar/vcard/property.py: Property.__hash__", "src/pycalendar/value.py: Value.__eq__", "src/pycalendar/multivalue.py: MultiValue.__hash__", "src/pycalendar/parameter.py: Parameter.__hash__", "src/pycalendar/duration.py: Duration.__eq__", "src/pycalendar/period.py: Period.__eq__"]}
{"id": "C111", "title": "The photo of a card is restored", "statement": "What is written for a binary photo is read as the same property, whatever follows it; no line of it is longer than 75 octets, and its value is left out if that is asked for.", "quantifier": "all names, parameters and values of any length", "why_tests_cant": "the writer has a loop of its own for photos, and the lengths of values and heads are unbounded", "anchors": ["src/pycalendar/vcard/property.py: Property.generateValue", "src/pycalendar/utils.py: readFoldedLine"]}
{"id": "C112", "title": "A new card is a card", "statement": "A card that is made with default properties has a VERSION and a PRODID, its text is read as that card, and it can be copied.", "quantifier": "all product identifiers and all properties added to a card", "why_tests_cant": "the constructor and the copy are in different classes and are used with any properties", "anchors": ["src/pycalendar/vcard/card.py: Card.addDefaultProperties", "src/pycalendar/vcard/property.py: Property.__init__", "src/pycalendar/vcard/property.py: Property.duplicate", "src/pycalendar/componentbase.py: ComponentBase.duplicate"]}
{"id": "C113", "title": "Parameters of vCard 2 are understood", "statement": "A line with parameters without values, such as TEL;HOME;VOICE:1, is read as a property with these parameters; BASE64 among them is read as ENCODING=b; what is then written is read as the same property; and a caller can have such lines refused, ignored or put right instead.", "quantifier": "all names, all lists of such parameters and all values", "why_tests_cant": "the parameters are read by a loop that depends on a switch for all of the program, and can have any number", "anchors": ["src/pycalendar/property.py: PropertyBase.parseText", "src/pycalendar/vcard/property.py: Property.parseTextParameters", "src/pycalendar/parser.py: ParserContext", "src/pycalendar/parameter.py: Parameter.generate"]}
{"id": "C114", "title": "Numbers and coordinates are restored", "statement": "An INTEGER, FLOAT or GEO text of RFC 5545 is read as the number it stands for, and what is then written is such a text and stands for the same number; other texts raise InvalidData.", "quantifier": "all texts of such numbers, of any length", "why_tests_cant": "numbers go through binary floating point and a decimal format that changes its form with the size of the number", "anchors": ["src/pycalendar/integervalue.py: IntegerValue.parse", "src/pycalendar/floatvalue.py: FloatValue.parse", "src/pycalendar/floatvalue.py: FloatValue.generate", "src/pycalendar/geovalue.py: GeoValue.parse", "src/pycalendar/geovalue.py: GeoValue.generate"]}
{"id": "C115", "title": "Names, addresses and organisations survive jCard", "statement": "The jCard data written for a name, address or organisation is what RFC 7095 has for it, and is read as the same value; data that RFC 7095 allows is read.", "quantifier": "all components, each a text or several texts", "why_tests_cant": "writer and reader are in different classes, and components may be texts or lists of any length", "anchors": ["src/pycalendar/vcard/n.py: N.writeJSON", "src/pycalendar/vcard/adr.py: Adr.writeJSON", "src/pycalendar/vcard/orgvalue.py: OrgValue.writeJSONValue", "src/pycalendar/valueutils.py: WrapperValue.writeJSONValue", "src/pycalendar/property.py: PropertyBase.generateValueJSON"]}
{"id": "C116", "title": "The full name has all parts of the name", "statement": "The full name of a name consists of its prefixes, first names, middle names, last names and suffixes in this order with one space between any two that are not empty; each part of a name or address can be set without changing the others, and a copy is equal to the original.", "quantifier": "all names and addresses, with any number of texts in each part", "why_tests_cant": "parts may be texts, lists or empty in all combinations", "anchors": ["src/pycalendar/vcard/n.py: N.getFullName", "src/pycalendar/vcard/n.py: N.duplicate", "src/pycalendar/vcard/n.py: N.setFirst", "src/pycalendar/vcard/adr.py: Adr.duplicate", "src/pycalendar/vcard/adr.py: Adr.setPobox"]}
{"id": "C117", "title": "A packed date is the date", "statement": "Unpacking a packed date gives its year, month and day (and minus the day, if that was packed); of two dates the earlier one is the smaller integer; and the table of a month has each day of the month, packed, in the column of its day of the week.", "quantifier": "all dates of all years, and all months and first days of the week", "why_tests_cant": "bits of the parts may overlap for large or negative parts, which a few dates do not show", "anchors": ["src/pycalendar/utils.py: packDate", "src/pycalendar/utils.py: unpackDate", "src/pycalendar/utils.py: unpackDateYear", "src/pycalendar/utils.py: unpackDateMonth", "src/pycalendar/utils.py: unpackDateDay", "src/pycalendar/utils.py: getMonthTable"]}
{"id": "C118", "title": "The default time zone is the one that was set", "statement": "The identifier of the default time zone is the one that was last set; a time zone made without arguments, and a floating time, is in the default time zone; a time zone can be made from a name or an offset; time zone objects match if they mean the same time zone, which is an equivalence relation and agrees with the comparison of the time zones of date-times.", "quantifier": "all names, offsets and time zone objects", "why_tests_cant": "the default is a variable of the class that several functions read, and time zones are given in three ways", "anchors": ["src/pycalendar/timezone.py: Timezone.__init__", "src/pycalendar/timezone.py: Timezone.equals", "src/pycalendar/timezone.py: Timezone.same", "src/pycalendar/timezone.py: Timezone.timeZoneSecondsOffset", "src/pycalendar/manager.py: CalendarManager.setDefaultTimezoneID", "src/pycalendar/manager.py: CalendarManager.getDefaultTimezoneID"]}
{"id": "C119", "title": "What is read of a VTIMEZONE does not depend on the order of its observances; a copy gives the same offsets", "statement": "After parsing, the STANDARD and DAYLIGHT components of a VTIMEZONE have their DTSTART, TZOFFSETFROM, TZOFFSETTO, TZNAME, RRULEs and RDATEs and are in the order of their DTSTART. Two VTIMEZONEs that differ in the order of these components give the same offsets and the same names at all times. A copy made with duplicate() at any time gives the same offsets as the original.", "quantifier": "all VTIMEZONEs, all orders of their components, all sequences of queries before and after copying, all times", "why_tests_cant": "quantified over all permutations and all query histories", "anchors": ["src/pycalendar/icalendar/vtimezone.py: VTimezone.finalise, VTimezone.duplicate", "src/pycalendar/icalendar/vtimezoneelement.py: VTimezoneElement.finalise, VTimezoneElement.duplicate"]}
{"id": "C120", "title": "expandAll lists exactly the transitions of a time zone in a period", "statement": "VTimezone.expandAll(start, end) gives the transitions of the time zone whose local time is from start up to but not including end: all of them, each once, in the order of their local times, each with its UTC time and the offsets before and after. It ends, and what was asked of the time zone before does not matter.", "quantifier": "all VTIMEZONEs with any number of observances, rules and dates, all periods, all sequences of earlier calls", "why_tests_cant": "quantified over all time zones, periods and call histories; the caches depend on the history", "anchors": ["src/pycalendar/icalendar/vtimezone.py: VTimezone.expandAll", "src/pycalendar/icalendar/vtimezoneelement.py: VTimezoneElement.expandAll"]}
{"id": "C121", "title": "Properties of a component after any history of calls", "statement": "After any sequence of addProperty, removeProperty, removeProperties, editProperty, loadPrivateValue and setName calls, getProperties(name), hasProperty, countProperty and findFirstProperty report, for every (non-empty) name in whatever case, exactly the properties added under that name and not removed since, in the order of adding; getProperties() lists exactly the names that have a property; removeProperty takes away the first equal property, and raises only if there are properties of that name but none is equal; no other call raises.", "quantifier": "all sequences of calls, all property values and names", "why_tests_cant": "quantified over all histories of calls, with an arbitrary equality of property values", "anchors": ["src/pycalendar/componentbase.py: addProperty, removeProperty, removeProperties, editProperty, loadPrivateValue, getProperties, hasProperty, countProperty, findFirstProperty", "src/pycalendar/property.py: setName"]}
{"id": "C122", "title": "removeAllComponent forgets the components it removes", "statement": "removeAllComponent(name) leaves exactly the components of other types, in order, without raising; removeAllComponent() leaves none; and in a calendar what is recorded for each UID is afterwards exactly what the calendar still contains.", "quantifier": "all components, all calendars after any history of operations, all names", "why_tests_cant": "quantified over all histories of the calendar and all notions of equality", "anchors": ["src/pycalendar/componentbase.py: removeAllComponent, removeComponent, getComponents, countComponents, hasComponent", "src/pycalendar/icalendar/calendar.py: Calendar.removeComponent"]}
{"id": "C123", "title": "A component recurs as its RRULE, RDATE, EXRULE and EXDATE properties say", "statement": "Expanding a component over a range gives exactly the instants that are its DTSTART, dates of the rules in its RRULE properties, or dates or starts of periods in its RDATE properties, in the range, and that are not barred by the rules of its EXRULE or the dates of its EXDATE properties, each once; and a component is recurring if and only if one of these properties has a rule, a date or a period.", "quantifier": "all components, all ranges, all time zones", "why_tests_cant": "quantified over all combinations of properties, rules and ranges", "anchors": ["src/pycalendar/icalendar/componentrecur.py: ComponentRecur._resetRecurrenceSet, isRecurring", "src/pycalendar/componentbase.py: loadValueRRULE, loadValueRDATE", "src/pycalendar/icalendar/recurrenceset.py: RecurrenceSet.expand"]}
{"id": "C124", "title": "After allRaise only what the standards allow is read", "statement": "After ParserContext.allRaise(), whatever the settings were before, a text, a duration, a date, a URI, a request status, an N or ADR value or a line of a card is accepted by the parser exactly if it is written as the standards say, and it is then read as the same value as without allRaise.", "quantifier": "all settings before, all texts", "why_tests_cant": "a test tries a few malformed values; that nothing else slips through and nothing well-formed is refused or changed is about all texts and settings", "anchors": ["src/pycalendar/parser.py: ParserContext.allRaise", "src/pycalendar/utils.py: decodeTextValue", "src/pycalendar/utils.py: parseDoubleNestedList", "src/pycalendar/duration.py: Duration.parse", "src/pycalendar/datetime.py: DateTime.parseDate", "src/pycalendar/urivalue.py: URIValue.parse", "src/pycalendar/icalendar/requeststatusvalue.py: RequestStatusValue.parse"]}
{"id": "C125", "title": "The program that checks a file says when there is nothing wrong and names each control character", "statement": "validator.py takes a file for a calendar if BEGIN:VCALENDAR is anywhere in it and else for a card if BEGIN:VCARD is. It prints only that there are no problems exactly if the file is read so with the strict settings, its validation finds nothing and it has no control character (below 0x20, other than HTAB, CR and LF). For a file that is read each control character is printed with its code and position, in order, and no other character.", "quantifier": "all files, all settings before, all outcomes of reading and validating", "why_tests_cant": "a test has a few files; a control character may be anywhere", "anchors": ["src/pycalendar/validator.py: validate", "src/pycalendar/parser.py: ParserContext.allRaise"]}
{"id": "C126", "title": "Changing a rule takes effect", "statement": "Setting a part of a recurrence rule (frequency, interval, COUNT, UNTIL, BYMONTH, ...) is seen by the getter of that part, leaves the other parts alone, and every later expansion gives the dates a new rule with the same parts gives, whatever was set and expanded before.", "quantifier": "all rules, all sequences of setter calls and expansions", "why_tests_cant": "sequences of calls on one object, of any length", "anchors": ["src/pycalendar/icalendar/recurrence.py: Recurrence._setAndclearIfChanged, Recurrence.setUntil, Recurrence.expand, Recurrence.clear"]}
{"id": "C127", "title": "A copy says the same and is independent of the original", "statement": "For every component, calendar, card, property or value, duplicate() gives an object that says the same at all depths (same names, parameters, values and sub-components in the same order, each sub-component with the copy around it as its parent), that is written as the same text, and that shares no mutable object with the original: no later change of the original changes the copy and no later change of the copy changes the original.", "quantifier": "for all trees of components, properties, parameters and values, and all sequences of later changes to any objects", "why_tests_cant": "Sharing is only visible if both objects are kept and one of the objects they share is changed in place later, and the order in which alarms of a copy are written depends on random keys; a test that compares a copy with its original right after copying sees neither.", "anchors": ["src/pycalendar/componentbase.py:55-64", "src/pycalendar/icalendar/component.py:55-82", "src/pycalendar/icalendar/property.py:233-239", "src/pycalendar/vcard/property.py:180-186", "src/pycalendar/parameter.py:39-42", "src/pycalendar/multivalue.py:30-33", "src/pycalendar/valueutils.py:71-72", "src/pycalendar/vcard/orgvalue.py:31-32", "src/pycalendar/vcard/n.py:40-41", "src/pycalendar/vcard/adr.py:42-43"]}
{"id": "C128", "title": "A calendar can be asked for its free-busy time and its to-dos", "statement": "For every calendar and period, getFreeBusy and getVFreeBusyFB add the busy and tentative times of the events and of the VFREEBUSY components in the period, getVFreeBusyList adds the VFREEBUSY components in the period, getVToDos adds the to-dos that are due, getStatusText gives a text for the status of every to-do, and sort_for_display puts any two to-dos in order.", "quantifier": "for all calendars, periods and lists to add to", "why_tests_cant": "The methods are only reached through a calendar program that is not part of the repository; no test calls them, and a test would show the exception for one calendar only, while the claim is that no calendar and no period lets the call return.", "anchors": ["src/pycalendar/icalendar/calendar.py:458-617", "src/pycalendar/icalendar/vtodo.py:36-86", "src/pycalendar/icalendar/vtodo.py:153-191", "src/pycalendar/datetime.py:685-686", "src/pycalendar/componentbase.py:193-194"]}
{"id": "C129", "title": "A property made from a value has that value", "statement": "Make a property with a name and a Python value: a string, a number, a date-time, a duration, a rule, a period, a UTC offset, a list of date-times or periods, in a vCard an address, a name or the parts of an organisation. The property then has the value given: the accessor of its type (getTextValue, getDateTimeValue, getMultiValue, ...) returns it, the other accessors return None, it can be copied, and the VALUE parameter it gets lets the same type be found when the written property is read. False: with a string for a name whose default type is not one of strings (DTSTART, GEO, PRIORITY, TRIGGER) the string is dropped and a default value taken; a vCard property made with a unicode string has no value and cannot be copied; a vCard property other than ORG made with a list raises AttributeError because the methods called do not exist; a number given to GEO is written without its type.", "quantifier": "all names, all registered default types, all values and all requested value types", "why_tests_cant": "The constructors choose among a dozen cases by the class of the value, the name and the requested type; the combinations in which the value is silently dropped are not those that tests use.", "anchors": ["src/pycalendar/icalendar/property.py:187-231", "src/pycalendar/vcard/property.py:143-178", "src/pycalendar/property.py:150-218", "src/pycalendar/property.py:575-626"]}
{"id": "C130", "title": "Properties are read as the types that the standards give them", "statement": "A property of RFC 5545 or RFC 2426 that is read without a VALUE parameter, or with a VALUE that the standard allows for it (in any letter case), gets a value of the type that the standard gives it, and a list of values exactly if the standard allows a list, whatever default types a program registers. A property that no standard names has a text, or a value of the type that the program registered first. False: VALUE is compared with regard to case, so TRIGGER;VALUE=date-time is read as a duration and PHOTO;VALUE=uri as a binary value that loses its VALUE parameter when written; a property without a registered type has a value of unknown type in which nothing is decoded; the value of AGENT is not read as a card.", "quantifier": "all properties of the two standards, all VALUE parameters they may have, all histories of registrations by a program, all names outside the standards", "why_tests_cant": "Tests read a few properties with the usual types; that a table of sixty entries, a list of multi-valued names and the names of types agree with the standard for every property, and stay so whatever is registered, is not seen from samples.", "anchors": ["src/pycalendar/icalendar/property.py:36-180", "src/pycalendar/vcard/property.py:40-134", "src/pycalendar/property.py:68-83", "src/pycalendar/property.py:504-519"]}
{"id": "C131", "title": "A content line of the standards is read as what it says", "statement": "A line written by the grammar of RFC 5545 or RFC 2425 ([group \".\"] name, parameters with one or more values, plain or in quotes, \":\" and a value) is read by Property.parseText as that group, name, parameters with all their values in order (decoded by RFC 6868) and value. Exactly then: no plain value begins with a space and no quoted value ends in an odd number of backslashes. False otherwise: the spaces are dropped, and a backslash before the closing quote is taken to escape it although neither standard has such an escape.", "quantifier": "all names, groups, parameters, values and parser settings", "why_tests_cant": "The two cases in which a line of the standard is misread depend on one character at the edge of a value; a test has a few lines, the claim is that for all others nothing goes wrong.", "anchors": ["src/pycalendar/property.py:221-317", "src/pycalendar/vcard/property.py:206-265", "src/pycalendar/stringutils.py:20-46"]}
{"id": "C132", "title": "The lines of a component give its start and recurrence set", "statement": "A component whose lines are written as RFC 5545 says has, once read and finalised, the start of its DTSTART line (date, local, UTC, or in the zone of the TZID parameter) and the recurrence set of its RRULE, EXRULE, RDATE and EXDATE lines, each rule with the parts that its text gives and each list with its dates in order, whatever other readable lines stand between them and whatever the case of names; without such lines it has no recurrence set.", "quantifier": "all lists of content lines, parser settings and value-type tables as the program sets them up", "why_tests_cant": "The claim joins the line reader, parameters, value types, date, list and rule parsers and the loading of the set; a test fixes one calendar, the claim holds for any mixture of lines and parameters.", "anchors": ["src/pycalendar/icalendar/componentrecur.py:231-245", "src/pycalendar/icalendar/componentrecur.py:350-372", "src/pycalendar/property.py:221-317", "src/pycalendar/icalendar/property.py:259-278", "src/pycalendar/icalendar/recurrence.py:333-500", "src/pycalendar/datetime.py:873-1020"]}
{"id": "C133", "title": "A rule expands to what RFC 5545 says", "statement": "Recurrence.expand(start, range, items) gives, for a rule in the parts the code handles, exactly the date-times that RFC 5545 section 3.3.10 describes: those in one of the intervals counted from the start by FREQ and INTERVAL, that match every BYxxx part, agree with the start in each field of which no part says anything, are not before the start, are in the range, and are not past UNTIL or COUNT. The description used is written from the text of the standard and does not mention the code's order of expansion.", "quantifier": "All rules (any FREQ, INTERVAL, WKST, BYMONTH, BYMONTHDAY, BYDAY, BYHOUR, BYMINUTE, BYSECOND, UNTIL or COUNT), start date-times, ranges and candidate date-times.", "why_tests_cant": "The set of pairs of rule and start is unbounded, and the standard's description and the code's method of expansion differ in form, so that samples can only compare single expansions.", "anchors": ["src/pycalendar/icalendar/recurrence.py:860-1040", "src/pycalendar/icalendar/recurrence.py:1048-1330", "src/pycalendar/icalendar/recurrence.py:1372-1649"]}
{"id": "C134", "title": "From the lines of an event to its dates", "statement": "A component written as RFC 5545 says, with a DTSTART and RRULE, EXRULE, RDATE or EXDATE lines, expanded over a range, has each of these dates exactly once and no others: the start, the RDATEs and the instances of the RRULEs, without the EXDATEs and the instances of the EXRULEs, from the start of the range on and before its end; and the expansion ends. The instances are those that section 3.3.10 describes. This holds if all date-times are of one kind with a fixed offset (UTC, floating or dates) and the rules are in the parts that the code handles (C133).", "quantifier": "All lists of content lines, parser settings, value-type tables as the program sets them up, ranges, and iteration orders of Python sets.", "why_tests_cant": "The claim goes from characters to dates through line, parameter, value, date and rule parsing, loading, rule expansion and set difference; a test fixes one text and one range, and compares with dates worked out by hand.", "anchors": ["src/pycalendar/icalendar/componentrecur.py:231-245", "src/pycalendar/icalendar/componentrecur.py:350-372", "src/pycalendar/icalendar/recurrenceset.py:168-228", "src/pycalendar/icalendar/recurrence.py:860-1040", "src/pycalendar/icalendar/recurrence.py:1048-1330", "src/pycalendar/property.py:221-317"]}
{"id": "C135", "title": "Exactly these texts are read as numbers, date-times and UTC offsets", "statement": "int() of a field accepts exactly a number (digits, perhaps with a sign) with blanks around it. DateTime.parse accepts exactly: four characters for the year and two each for month and day that int() accepts, none negative, without spaces if INVALID_DATETIME_LEADINGSPACE is raise; then nothing, or 'T', hours, minutes and seconds of two characters each, and nothing or 'Z'; in the longer format also '-' and ':' between the fields, a comma with digits after the seconds, and '+' or '-' with hours and minutes; and the last field may be shorter. UTCOffsetValue.parse accepts exactly a sign and two or three fields of two characters, in the vCard format with any one character between them. All other texts raise ValueError. The values read are those of the fields. So texts that no standard allows are read: month 13, a date that lost its last character, signs and blanks for digits.", "quantifier": "all texts, both formats, both parser settings, all states of the object read into", "why_tests_cant": "A test tries some malformed texts; which texts are accepted of all those of a given length is not found that way, as each field has its own irregularities.", "anchors": ["src/pycalendar/datetime.py:873-1004", "src/pycalendar/utcoffsetvalue.py:35-63", "src/pycalendar/integervalue.py: IntegerValue.parse"]}
{"id": "C136", "title": "From the lines of an event in a time zone to its dates", "statement": "Reading an event from lines written as RFC 5545 says (a DTSTART with TZID, RRULE, RDATE, EXDATE, EXRULE lines) and expanding its recurrence set over a range ends and gives, each of them once, exactly the dates RFC 5545 gives in the range. The event may be in a time zone with changing offsets; UNTIL, EXDATE and the ends of the range may be on another clock (UTC, dates, another zone), and are compared by date if one side is a date, by the clock if it is the same one, else by the instant.", "quantifier": "all lines, all events with one kind of date-times apart from UNTIL and EXDATE, all ranges, all zone offsets for which the clock of the event passes the ends of the range and UNTIL once, all orders of sets, with or without a limit on instances", "why_tests_cant": "A test takes one zone and a few dates; comparison across clocks goes wrong only near changes of the offset, at the ends of the range, or for special combinations of kinds.", "anchors": ["src/pycalendar/icalendar/recurrenceset.py:168-228", "src/pycalendar/icalendar/recurrence.py:842-1046", "src/pycalendar/datetime.py:118-300", "src/pycalendar/utils.py:513-520"]}
{"id": "C137", "title": "From the text of a calendar to the instances of its events", "statement": "Calendar.parseText of a well-formed VCALENDAR with any number of events (in one or several time zones, with alarms, other components and other properties) succeeds, and getVEvents(period) then ends and has, for each VEVENT, exactly the instances that the lines say by RFC 5545, each once, with start and end: a recurring event has one for each of its dates in the period other than those named by the RECURRENCE-ID of another VEVENT with the same UID, each as long by the clock as the event from DTSTART to DTEND; any other VEVENT has one with its own times (the end from DTEND, or DURATION, or a day for a date, or none) if it overlaps the period.", "quantifier": "all texts of calendars whose events fit (recurring ones have a DTEND at the same offset, their rules are handled, RECURRENCE-IDs for one event are all on its clock or all on another one, no RANGE), all periods, zone offsets, orders of sets, parser settings and value-type tables as the program sets them up", "why_tests_cant": "The claim joins line, parameter, value and component parsing with finalise, the index of overridden instances, rule expansion and the expansion of events; a test fixes one calendar and one period.", "anchors": ["src/pycalendar/icalendar/calendar.py:300-330", "src/pycalendar/icalendar/calendar.py:447-456", "src/pycalendar/containerbase.py:110-212", "src/pycalendar/icalendar/componentrecur.py:230-297", "src/pycalendar/icalendar/componentrecur.py:392-482", "src/pycalendar/icalendar/componentexpanded.py:92-148"]}
{"id": "C138", "title": "From the text of a calendar to the offsets of its time zones", "statement": "After Calendar.parseText has read a calendar with VTIMEZONE components, getTimezoneOffsetSeconds(tzid, dt) gives for a local time the TZOFFSETTO of the observance whose onset (DTSTART, RDATEs and RRULEs of the STANDARD and DAYLIGHT components as their lines say by RFC 5545) is the last one not after dt, whatever was asked before.", "quantifier": "All texts of calendars, all time zones in them described by content lines, all local times and all sequences of earlier questions", "why_tests_cant": "Tests take the definitions of a few zones and some dates; the claim ranges over every wording of the lines, every combination of rules and dates, every local time and every state of the caches.", "anchors": ["src/pycalendar/icalendar/calendar.py:601-617", "src/pycalendar/icalendar/vtimezone.py:66-250", "src/pycalendar/icalendar/vtimezoneelement.py:47-170", "src/pycalendar/utcoffsetvalue.py:40-75"]}
{"id": "C139", "title": "From the text of a calendar to the instants of its events", "statement": "After Calendar.parseText has read a calendar with its VTIMEZONEs (TZIDs not known before), TimezoneDatabase gives for local times in its zones the offsets that the lines of the VTIMEZONEs describe, whatever is asked and whatever other calendars are read before or afterwards; getVEvents(period) gives for each VEVENT the instances its lines describe, and getPosixTime of their starts and ends in UTC or in one of the zones is the clock time less the offset of the observance in force by the lines of the zone.", "quantifier": "All texts of calendars, all histories of the time zone database before and after (queries and merges in any order), all periods, all local times up to 2098", "why_tests_cant": "Tests use a few zones and a fresh database; the claim ranges over every wording of zones and events together, every instant and every sequence of other calendars and queries sharing the database.", "anchors": ["src/pycalendar/icalendar/calendar.py:193-201", "src/pycalendar/timezonedb.py:83-90", "src/pycalendar/timezonedb.py:128-218", "src/pycalendar/datetime.py:225-244", "src/pycalendar/icalendar/calendar.py:447-456"]}
{"id": "C140", "title": "Showing an instant in a time zone of a calendar", "statement": "After a calendar text is read, converting a UTC date-time to one of the calendar's time zones with adjustTimezone gives the clock reading that the lines of the VTIMEZONE describe: ahead of UTC by the TZOFFSETTO of the last onset that, in UTC, is not after it. Unless the clock reading is one that is shown twice, it is the same instant, getPosixTime gives this instant, and adjustToUTC gives the original date-time back.", "quantifier": "all calendar texts that are well-formed, with any time zones whose lines fit the stated conditions; all UTC date-times up to 2097; all histories of the time zone database before and after", "why_tests_cant": "Tests convert a few fixed times in one or two zones; the claim is about every zone text, every instant and every state of the caches in between.", "anchors": ["src/pycalendar/datetime.py:625-654", "src/pycalendar/timezonedb.py:128-218", "src/pycalendar/icalendar/vtimezone.py:129-176", "src/pycalendar/icalendar/calendar.py:193-201"]}
{"id": "C141", "title": "What is written follows the grammar of RFC 5545", "statement": "TextValue.generate, DateTime.getText, UTCOffsetValue.generate and Recurrence.generate write a text, date or date-time, utc-offset or recur of the RFC 5545 grammar that says the value written, and a property is written as a content line of the grammar with its name, group, value and, for each name, parameters that by RFC 6868 say its values.", "quantifier": "all texts, date-times, offsets and rules, all properties with any parameters", "why_tests_cant": "Tests compare a few written values with expected strings; that every value is written in the form the standard defines is a claim about all of them.", "anchors": ["src/pycalendar/utils.py:91-131", "src/pycalendar/datetime.py:840-853", "src/pycalendar/utcoffsetvalue.py:66-87", "src/pycalendar/icalendar/recurrence.py:508-640", "src/pycalendar/property.py:337-363", "src/pycalendar/parameter.py:77-109", "src/pycalendar/utils.py:195-226"]}
{"id": "C142", "title": "From time zone data to the offsets given by what is written", "statement": "The VTIMEZONEs that the time zone compiler makes of zones, written as a calendar, give a text that can be read; then getTimezoneOffsetSeconds gives, for a local time (or, with relative_to_utc, a time in UTC) and the name of a zone, the offset after the last transition of the zone data that is not after it, and 0 before the first.", "quantifier": "all zones whose components are at whole minutes from 1902 on and whose rules are by month, weekday and day of the month; all orders of writing; all times up to 2098 (2097 in UTC); all histories of earlier questions", "why_tests_cant": "Tests compile a few zones and compare the text with an expected text; that the written text means the transitions of the data for every zone and time needs a proof.", "anchors": ["src/zonal/zone.py:172-290", "src/zonal/zone.py:492-521", "src/zonal/rule.py:428-562", "src/pycalendar/icalendar/vtimezone.py:77-176", "src/pycalendar/timezonedb.py:128-218"]}
{"id": "C143", "title": "From the text of a calendar to the names of its time zones", "statement": "For a calendar that was parsed from a well-formed text with time zones, getTimezoneDescriptor for a local time and the name of one of these time zones gives, in parentheses, the TZNAME of the observance whose last onset is not after that time, as the lines of the text describe the observances, or the TZOFFSETTO of that observance if it has no TZNAME; it gives an empty text before the first onset and for names of no time zone of the calendar. This holds after whatever questions were asked before.", "quantifier": "all texts of calendars with time zones whose observances have DTSTART, TZOFFSETFROM and TZOFFSETTO, RDATEs and RRULEs of the kinds that RFC 5545 uses there; all valid local times up to 2098; all sequences of earlier questions about offsets and names", "why_tests_cant": "The answer depends on caches that earlier questions have filled: in the part of the year after a transition the name is that of the observance before the transition, unless the offset was asked for before. Tests ask one question of a new calendar, for a few time zones.", "anchors": ["src/pycalendar/icalendar/calendar.py:606-617", "src/pycalendar/icalendar/vtimezone.py:178-256", "src/pycalendar/icalendar/vtimezoneelement.py:110-150"]}
{"id": "C144", "title": "A calendar that is written and read again has the same instances", "statement": "When a calendar that was parsed from a well-formed text is written with getText and the result is parsed again, getVEvents of the second calendar gives, for each period, the same instances as of the first: those that the lines of the first text describe.", "quantifier": "all texts of calendars with events whose lines follow RFC 5545, in any order and with any other properties for which reading what was written gives a property; all periods", "why_tests_cant": "Tests compare the text of a few calendars with the expected text, not the instances before and after. A parameter or value that is written in another way, or lines that are written in another order, matters only for the instances of the events that have it.", "anchors": ["src/pycalendar/property.py:336-363", "src/pycalendar/property.py:575-594", "src/pycalendar/icalendar/calendar.py:408-456", "src/pycalendar/componentbase.py:264-282", "src/pycalendar/multivalue.py:70-80"]}
{"id": "C145", "title": "A calendar that is read is of version 2.0 and Gregorian", "statement": "If parsing a text gives a calendar, the calendar has a VERSION property, every VERSION property of the calendar says 2.0, and every CALSCALE property says GREGORIAN, wherever in the text the line is.", "quantifier": "all texts for which parsing gives a calendar; VERSION and CALSCALE as lines that RFC 5545 allows, with any parameters", "why_tests_cant": "Tests read calendars with VERSION:2.0 in the second line. Whether another version is accepted depends on the place of the line, on its parameters and on the case of its name.", "anchors": ["src/pycalendar/icalendar/calendar.py:624-637", "src/pycalendar/containerbase.py:189-212"]}
{"id": "C146", "title": "From the lines of an alarm to what it says", "statement": "An alarm that is read from lines that follow RFC 5545 has the action of its ACTION line, goes off when its TRIGGER line says (at a time, or so long from the start or the end), repeats as REPEAT and DURATION say, and has the DESCRIPTION, SUMMARY and ATTENDEEs of its lines with escapes undone.", "quantifier": "all lists of lines of an alarm, in any order and with any other lines, for which finalise gives an alarm; names of actions and values of RELATED in capital letters", "why_tests_cant": "Tests read a few alarms with each line once in one order. Which line is used, and how its value is read, depends on names in any case, on parameters and on escapes.", "anchors": ["src/pycalendar/icalendar/valarm.py:413-474", "src/pycalendar/icalendar/valarm.py:186-199", "src/pycalendar/icalendar/valarm.py:623-627", "src/pycalendar/containerbase.py:155-212", "src/pycalendar/property.py:220-276"]}
{"id": "C147", "title": "From the text of a calendar to its busy time", "statement": "A VFREEBUSY component of a calendar that is parsed from a well-formed text has as busy time the periods that its FREEBUSY lines list, with their types, the earliest first; those that start together are in the order of the lines. The component is found for a period exactly if the period overlaps the time from DTSTART, or else the first start, to DTEND, or else the last end.", "quantifier": "all texts of calendars that follow RFC 5545, all VFREEBUSY components with lines in any order and any other lines; FBTYPE of the standard, durations without a plus sign; all periods in UTC", "why_tests_cant": "Tests ask a few components with one line each. The result depends on which periods are given by an end or by a duration, on their order, and on the case of FBTYPE.", "anchors": ["src/pycalendar/icalendar/vfreebusy.py:76-100", "src/pycalendar/icalendar/vfreebusy.py:202-318", "src/pycalendar/period.py:69-97", "src/pycalendar/multivalue.py:60-80"]}
{"id": "C148", "title": "A calendar that is written and read again has the same properties", "statement": "When a calendar that was parsed from a well-formed text is written with getText and the result is parsed again, the second calendar has the same components as the first, up to their order, at every depth; each has the same properties of each name in the same order, with the same values (a duration may be put in other units) and the same parameters; each VFREEBUSY has the same busy time and is found for the same periods; and each VALARM has the same action with the same data, goes off at the same time or so long from the start or the end, as often again, and has the same status; and the calendar gives the same offsets for its time zones, whatever is asked of it, one after the other.", "quantifier": "all texts of calendars whose lines have values of the types that RFC 5545 gives to the properties (texts, dates, times, durations, rules, integers, UTC offsets, lists of dates, of periods and of texts, addresses, URIs, and texts without a type; of positions and request states only that they can be read again); parameters with one value each; time zones with different names, whose observances have different starts; every order in which components and properties are written", "why_tests_cant": "Tests compare the text of a few calendars with an expected text. Whether a value survives depends on its type, which depends on the VALUE parameter, on defaults and on the name, and on how each part of it is written.", "anchors": ["src/pycalendar/property.py:336-363", "src/pycalendar/property.py:575-594", "src/pycalendar/icalendar/calendar.py:408-420", "src/pycalendar/componentbase.py:264-282", "src/pycalendar/multivalue.py:70-80", "src/pycalendar/period.py:69-105", "src/pycalendar/icalendar/valarm.py:413-474", "src/pycalendar/icalendar/calendar.py:601-617", "src/pycalendar/icalendar/vtimezone.py:71-81"]}
{"id": "C149", "title": "From the text of a calendar to the attributes of its events and to-dos, and back", "statement": "An event or a to-do that is parsed from a well-formed text has the UID, SEQUENCE, SUMMARY and STATUS of its lines, and a to-do also the PRIORITY, PERCENT-COMPLETE and COMPLETED, with escapes undone and whatever the case of the names; the calendar has the name and description of its X-WR-CALNAME and X-WR-CALDESC lines. When the calendar is written and read again, all of these are the same.", "quantifier": "all calendars with lines that follow RFC 5545, in any order and with any other lines; for writing and reading again, lines with values of the types that RFC 5545 gives to the properties, and every order in which components and properties are written; names of states in capital letters", "why_tests_cant": "Tests load a few components and look at one or two attributes. That no line, parameter or escape anywhere makes an attribute differ, and that nothing is lost when the calendar is written, is about all texts.", "anchors": ["src/pycalendar/icalendar/component.py:161-175", "src/pycalendar/icalendar/componentrecur.py:268-291", "src/pycalendar/icalendar/vevent.py:82-93", "src/pycalendar/icalendar/vtodo.py:242-264", "src/pycalendar/icalendar/calendar.py:162-173", "src/pycalendar/containerbase.py:150-205", "src/pycalendar/componentbase.py:463-493"]}
{"id": "C150", "title": "What is edited is written", "statement": "A calendar is read, an event or a to-do in it is edited through setUID, setSeq, editSummary, editDetails, editStatus, editCompleted, initDTSTAMP and updateLastModified, and the calendar is written and read again. Then the component has the UID, SEQUENCE, SUMMARY, DESCRIPTION, LOCATION, STATUS, COMPLETED, DTSTAMP and LAST-MODIFIED, and the PRIORITY and PERCENT-COMPLETE, that it had after the edits, and the other components are as they were. The same holds for the description of the calendar and editDescription.", "quantifier": "all calendars with lines of the types that RFC 5545 gives to the properties, all histories of edits with any texts, numbers and times, every order in which components and properties are written", "why_tests_cant": "Tests edit one property and compare one text. That the value of every edit comes back whatever characters are in it, after any edits before it, and that no edit touches what is beside it, is about all values and histories.", "anchors": ["src/pycalendar/icalendar/component.py:90-159", "src/pycalendar/icalendar/calendar.py:118-128", "src/pycalendar/icalendar/componentrecur.py:490-501", "src/pycalendar/icalendar/vevent.py:128-152", "src/pycalendar/icalendar/vtodo.py:302-342", "src/pycalendar/componentbase.py:165-185", "src/pycalendar/componentbase.py:651-658", "src/pycalendar/property.py:336-363", "src/pycalendar/property.py:575-618", "src/pycalendar/icalendar/property.py:187-300"]}
{"id": "C151", "title": "Times that are edited are written", "statement": "A calendar is read, the times of an event or a to-do in it are edited through editTimingStartEnd, editTimingStartDuration or editTimingDue, and the calendar is written and read again. Then the component has the start, end or due time that was given, in the same time zone; no DTSTART, DTEND, DURATION or DUE from before is left; and all else is as it was.", "quantifier": "all calendars with lines of the types that RFC 5545 gives to the properties, all dates and all date-times of the years 0 to 9999 in UTC, without a zone and in zones with any name of plain characters, all durations, every order in which components and properties are written", "why_tests_cant": "Tests edit a few times and look at the properties. That the TZID and VALUE parameters that are written always bring back the same time, and that no old DURATION or DUE changes it, is about all times and all contents of the component.", "anchors": ["src/pycalendar/icalendar/componentrecur.py:517-580", "src/pycalendar/icalendar/componentrecur.py:241-266", "src/pycalendar/icalendar/vtodo.py:224-240", "src/pycalendar/icalendar/property.py:187-216", "src/pycalendar/icalendar/property.py:280-300", "src/pycalendar/icalendar/property.py:326-331", "src/pycalendar/property.py:575-618"]}
{"id": "C152", "title": "Alarms that are edited are written", "statement": "A calendar is read, an alarm of an event or a to-do in it is edited through any sequence of editStatus, editAction, editTriggerOn, editTriggerBy and editRepeats, and the calendar is written and read again. Then the alarm that is read has the action with its data, the status, the time or the distance from the start or the end, the number of repeats and the interval that the edited alarm had, and the properties that no edit was about are as they were. A new alarm that is edited so and added to an event or a to-do is there when the calendar is read again, beside the components that were there before.", "quantifier": "all calendars with lines of the types that RFC 5545 gives to the properties, all sequences of edits, all date-times of the years 0 to 9999 in UTC and without a zone, all durations, every order in which components and properties are written", "why_tests_cant": "Tests edit an alarm and look at its properties, or write an alarm that was not edited. That every sequence of edits leaves lines from which the same alarm is read, whatever lines were there before, is about all histories and all values.", "anchors": ["src/pycalendar/icalendar/valarm.py:503-583", "src/pycalendar/icalendar/valarm.py:98-281", "src/pycalendar/icalendar/valarm.py:413-474", "src/pycalendar/icalendar/property.py:187-216", "src/pycalendar/property.py:575-618"]}
{"id": "C153", "title": "Components that are added or removed are written so", "statement": "Two calendars are read and every component of the one is added to the other with addComponent: when that calendar is written and read again it has the components of both, each as often as before, with the same properties, and its own properties are as they were. After removeAllComponent of a type, in letters of any case, the calendar that is written and read again has no component of the type and all the others; without a type it has no components.", "quantifier": "all pairs of calendars with lines of the types that RFC 5545 gives to the properties, all types of components, every order in which components and properties are written", "why_tests_cant": "Tests add or remove one component and count. That the text of the merged calendar reads back to exactly the components of both, with nothing lost between the groups in which components are written, is about all pairs of calendars.", "anchors": ["src/pycalendar/componentbase.py:126-145", "src/pycalendar/icalendar/calendar.py:308-334", "src/pycalendar/componentbase.py:269-282", "src/pycalendar/componentbase.py:371-403"]}
{"id": "C154", "title": "A UID that is changed is written", "statement": "A calendar is read, changeUID(old, new) is called with a UID that is not empty, and the calendar is written and read again. Then it has as many components as before; those whose UID was old have the UID new, and the others have the UID that they had; all other properties of the components, the components in them, and the properties of the calendar are as they were.", "quantifier": "all calendars with lines of the types that RFC 5545 gives to the properties, all old and new UIDs with any characters, every order in which components and properties are written", "why_tests_cant": "Tests change the UID of a calendar with one or two components. That every component with the UID is changed and no other, also for UIDs with characters that are escaped in the text, is about all calendars and all texts.", "anchors": ["src/pycalendar/icalendar/calendar.py:136-160", "src/pycalendar/icalendar/component.py:87-127", "src/pycalendar/icalendar/component.py:160-165"]}
