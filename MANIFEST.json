{
 "claims": [
  {
   "property": "C01",
   "status": "proved",
   "theorems": [
    "PyCal.DateTime.C01_arith_valid"
   ],
   "note": ""
  },
  {
   "property": "C02",
   "status": "proved",
   "theorems": [
    "PyCal.DateTime.C02_normalise_id",
    "PyCal.DateTime.C02_normalise_idem",
    "PyCal.DateTime.C02_zero_offsets"
   ],
   "note": ""
  },
  {
   "property": "C03",
   "status": "partial",
   "theorems": [
    "PyCal.DateTime.C03_add_forward",
    "PyCal.DateTime.C03_add_backward",
    "PyCal.DateTime.C03_add_days",
    "PyCal.DateTime.C03_posix_unique",
    "PyCal.DateTime.C03_posix_partial",
    "PyCal.DateTime.C03_posix_window_partial",
    "PyCal.DateTime.C03_posix_fails",
    "PyCal.C03_offset_month",
    "PyCal.C03_offset_year",
    "PyCal.C03_offset_day",
    "PyCal.C03_offset_time"
   ],
   "note": "C03_posix_partial: absolute time moves by exactly the duration, for times with a fixed UTC offset, provided the move does not cross a non-leap century year. The unrestricted statement is false, see `C03_posix_fails`. C03_posix_window_partial: the same for the years 1901..2100, the range without skipped centuries. Missing: the other years, `C03_posix_fails`. Shown false in general or outside the claim by: C03_posix_fails."
  },
  {
   "property": "C04",
   "status": "partial",
   "theorems": [
    "PyCal.DateTime.C04_add_sub_cancel",
    "PyCal.DateTime.C04_sub_add_cancel",
    "PyCal.DateTime.C04_add_add",
    "PyCal.DateTime.C04_diff_partial",
    "PyCal.DateTime.C04_floating_partial",
    "PyCal.DateTime.C04_diff_fails",
    "PyCal.DateTime.C04_dateOnly_fails",
    "PyCal.DateTime.C04_dateOnly_days"
   ],
   "note": "C04_diff_partial: `(t + d) - t` has the total of `d`, for UTC, floating and numeric-offset times, when no non-leap century year is crossed. The unrestricted claim is false (`C04_diff_fails`). C04_floating_partial: a floating operand is read in the zone of the other one, so that the clock reading of `t + d`, taken as floating, minus `t` is `d`, and `t` minus it is `-d`. Missing: values between which the end of a skipped century year lies, `C04_diff_fails`, and dates, `C04_dateOnly_fails`. Shown false in general or outside the claim by: C04_diff_fails, C04_dateOnly_fails."
  },
  {
   "property": "C05",
   "status": "partial",
   "theorems": [
    "PyCal.DateTime.C05_epoch",
    "PyCal.DateTime.C05_weekday_next_partial",
    "PyCal.DateTime.C05_weekday_window_partial",
    "PyCal.DateTime.C05_fails"
   ],
   "note": "C05_weekday_next_partial: the weekday advances by one from a date to the next civil day, for every date except 31 December of a non-leap century year; the unrestricted claim is false, see `C05_fails`. Together with `C05_epoch` this determines the weekday for 1901..2100. C05_weekday_window_partial: in the years 1901..2100 the weekday advances by one every civil day. Missing: the other years, `C05_fails`. Shown false in general or outside the claim by: C05_fails."
  },
  {
   "property": "C06",
   "status": "proved",
   "theorems": [
    "PyCal.DateTime.C06_setYearDay_pos",
    "PyCal.DateTime.C06_setYearDay_neg",
    "PyCal.DateTime.C06_yearDay",
    "PyCal.DateTime.C06_get_set",
    "PyCal.DateTime.C06_set_get"
   ],
   "note": ""
  },
  {
   "property": "C07",
   "status": "proved",
   "theorems": [
    "PyCal.DateTime.C07_setMonthDay_pos",
    "PyCal.DateTime.C07_setMonthDay_neg",
    "PyCal.DateTime.C07_isMonthDay"
   ],
   "note": ""
  },
  {
   "property": "C08",
   "status": "proved",
   "theorems": [
    "PyCal.DateTime.C08_set_pos",
    "PyCal.DateTime.C08_set_neg",
    "PyCal.DateTime.C08_is"
   ],
   "note": ""
  },
  {
   "property": "C09",
   "status": "proved",
   "theorems": [
    "PyCal.DateTime.C09_set_pos",
    "PyCal.DateTime.C09_set_neg"
   ],
   "note": ""
  },
  {
   "property": "C10",
   "status": "partial",
   "theorems": [
    "PyCal.DateTime.C10_weekNo_partial",
    "PyCal.DateTime.C10_weekNo_window_partial",
    "PyCal.DateTime.C10_fails"
   ],
   "note": "C10_weekNo_partial: `getWeekNo()` is the ISO week number: the Thursday of the date's week is a Thursday, and it is the `k`-th Thursday of its own year where `k` is the returned number. The library's weekday arithmetic is only right away from non-leap century years (see C05); the two hypotheses exclude dates in such a year and in the year after it. Missing: those dates, `C10_fails`. C10_weekNo_window_partial: in the years 1902..2099 the two hypotheses always hold. Missing: the other years, `C10_fails`. Shown false in general or outside the claim by: C10_fails."
  },
  {
   "property": "C11",
   "status": "partial",
   "theorems": [
    "PyCal.DateTime.C11_setWeekNo_partial",
    "PyCal.DateTime.C11_fails_sunday",
    "PyCal.DateTime.C11_fails_year_starting_sunday",
    "PyCal.DateTime.C11_exact_partial"
   ],
   "note": "C11_setWeekNo_partial: for a date that is not a Sunday, in a year that does not start on a Sunday, `setWeekNo(n)` reaches ISO week `n` and keeps the weekday, for `n` up to 52, and for 53 if the year has 53 Thursdays. Years next to a non-leap century year are excluded (C05). For Sundays and for years starting on a Sunday the claim is false: `C11_fails_sunday`, `C11_fails_year_starting_sunday`. C11_exact_partial: what `setWeekNo(n)` does for every date that is not in week `n` already, `n` from 2 to 51: it keeps the weekday, and lands in week `n`, one week too late in a year that starts on a Sunday, one week too early from a Sunday (so that from a Sunday in a year that starts on one it is right). Years next to a non-leap century year are excluded (C05). Missing: the claim itself where a week is missed, `C11_fails_sunday` and `C11_fails_year_starting_sunday`. Shown false in general or outside the claim by: C11_fails_sunday, C11_fails_year_starting_sunday."
  },
  {
   "property": "C12",
   "status": "proved",
   "theorems": [
    "PyCal.DateTime.C12_setNextDayOfWeek"
   ],
   "note": ""
  },
  {
   "property": "C13",
   "status": "partial",
   "theorems": [
    "PyCal.DateTime.C13_monthly_allow_invalid",
    "PyCal.DateTime.C13_monthly_partial",
    "PyCal.DateTime.C13_monthly_spill",
    "PyCal.DateTime.C13_fails",
    "PyCal.DateTime.C13_monthly_28_partial",
    "PyCal.DateTime.C13_daily_weekly",
    "PyCal.DateTime.C13_clock"
   ],
   "note": "C13_monthly_partial: otherwise, if the target month has the day, stepping goes there and changes nothing else. The documented behaviour for the remaining case (\"find the next month with the same day number\") is not what the code does, see `C13_monthly_spill` and `C13_fails`. C13_monthly_28_partial: every day up to the 28th is kept, in every month. Missing: the days from the 29th on, `C13_fails`. Shown false in general or outside the claim by: C13_fails."
  },
  {
   "property": "C14",
   "status": "proved",
   "theorems": [
    "PyCal.Duration.C14_total_ofSeconds",
    "PyCal.Duration.C14_total_ofAmounts",
    "PyCal.Duration.C14_ofSeconds_parts",
    "PyCal.Duration.C14_compare",
    "PyCal.Duration.C14_eq_iff"
   ],
   "note": ""
  },
  {
   "property": "C15",
   "status": "proved",
   "theorems": [
    "PyCal.Duration.C15_parse_grammar",
    "PyCal.Duration.C15_generate_grammar",
    "PyCal.Duration.C15_roundtrip",
    "PyCal.Duration.C15_roundtrip_seconds",
    "PyCal.Duration.C15_roundtrip_parsed",
    "PyCal.Duration.C15_reused_fails"
   ],
   "note": "Shown false in general or outside the claim by: C15_reused_fails."
  },
  {
   "property": "C16",
   "status": "partial",
   "theorems": [
    "PyCal.Duration.C16_fails",
    "PyCal.Duration.C16_fresh_partial",
    "PyCal.Duration.C16_accept_partial",
    "PyCal.Duration.C16_exact_partial"
   ],
   "note": "C16_fresh_partial: part that holds: starting from objects that hold no amounts (fresh ones; the direction is irrelevant) the result is determined by the text. Missing: objects holding a nonzero duration. C16_accept_partial: part that holds for every prior state: whether the text is accepted, and the sign of the result, do not depend on the prior state. Missing: the amounts, `C16_fails`. C16_exact_partial: what parsing gives for every prior state. A text is refused whatever the object held, or it gives the direction and amounts for the units whose letter is in it, and the object keeps what it held of the other units. Needed: strict parsing, or a text without weeks (after a number of weeks anything is accepted, `C124_fails_duration`). Shown false in general or outside the claim by: C16_fails."
  },
  {
   "property": "C17",
   "status": "partial",
   "theorems": [
    "PyCal.DateTime.C17_trichotomy",
    "PyCal.DateTime.C17_antisymm",
    "PyCal.DateTime.C17_dates_partial",
    "PyCal.DateTime.C17_one_zone_partial",
    "PyCal.DateTime.C17_instants_partial",
    "PyCal.DateTime.C17_fails_dates",
    "PyCal.DateTime.C17_fails_floating",
    "PyCal.DateTime.C17_fails_gap"
   ],
   "note": "C17_dates_partial: comparison is a transitive order on date-only values, and `a < b` means an earlier calendar date. Missing: date-only values together with others, `C17_fails_dates`. C17_one_zone_partial: comparison is a transitive order on the date-times that are floating or in one fixed zone, and it is the order of the clock readings. Missing: floating times together with several zones, `C17_fails_floating`. C17_instants_partial: comparison is a transitive order on instants in any mixture of zones, namely the order of their absolute times, if in each zone later clock times are later instants. Missing: times that the clock of the zone leaves out, `C17_fails_gap`, and mixtures with dates and floating times. Shown false in general or outside the claim by: C17_fails_dates, C17_fails_floating, C17_fails_gap."
  },
  {
   "property": "C18",
   "status": "partial",
   "theorems": [
    "PyCal.DateTime.C18_hash_partial",
    "PyCal.DateTime.C18_fails_dates",
    "PyCal.DateTime.C18_fails_floating"
   ],
   "note": "C18_hash_partial: equal date-times have equal hashes if both are date-only in the same zone, or neither is date-only and they are in the same zone or both not floating. The environment must not look at an irrelevant field (`tzid` of a UTC time), which holds because `tzOffset` of a UTC time is `0`. The unrestricted statement is false: `C18_fails_dates`, `C18_fails_floating`. Shown false in general or outside the claim by: C18_fails_dates, C18_fails_floating."
  },
  {
   "property": "C19",
   "status": "partial",
   "theorems": [
    "PyCal.Obj.C19_posix_partial",
    "PyCal.Obj.C19_queries_partial",
    "PyCal.Obj.C19_fails_offset_query",
    "PyCal.Obj.C19_fails_parse",
    "PyCal.Obj.C19_fails_century"
   ],
   "note": "C19_posix_partial: after any sequence of safe calls on a new date-time object, `getPosixTime()` and `timeZoneSecondsOffset()` return what the current fields say. Missing: the calls that are not safe, `C19_fails_offset_query`, `C19_fails_parse` and `C19_fails_century`. C19_queries_partial: queries have no influence — interspersing a sequence of calls with queries (which fill the caches) leads to the same fields as the sequence without them. Missing: the answers after calls that are not safe (as for `C19_posix_partial`). Shown false in general or outside the claim by: C19_fails_offset_query, C19_fails_parse, C19_fails_century."
  },
  {
   "property": "C20",
   "status": "proved",
   "theorems": [
    "PyCal.C20_decode_escape",
    "PyCal.C20_escaped",
    "PyCal.C20_no_linebreak",
    "PyCal.C20_decode_rfc",
    "PyCal.C20_escape_decode"
   ],
   "note": ""
  },
  {
   "property": "C21",
   "status": "proved",
   "theorems": [
    "PyCal.C21_decode_rfc",
    "PyCal.C21_roundtrip",
    "PyCal.C21_roundtrip_exact",
    "PyCal.C21_encoded_safe"
   ],
   "note": ""
  },
  {
   "property": "C22",
   "status": "proved",
   "theorems": [
    "PyCal.C22_fold",
    "PyCal.C22_read_back",
    "PyCal.C22_unfold",
    "PyCal.C22_nontermination"
   ],
   "note": "Shown false in general or outside the claim by: C22_nontermination."
  },
  {
   "property": "C23",
   "status": "partial",
   "theorems": [
    "PyCal.C23_roundtrip_partial",
    "PyCal.C23_fails"
   ],
   "note": "C23_roundtrip_partial: exact range of validity: the round trip restores a non-empty list exactly when no string but the last ends in a backslash. Missing for C23: lists where another string does. Shown false in general or outside the claim by: C23_fails."
  },
  {
   "property": "C24",
   "status": "partial",
   "theorems": [
    "PyCal.C24_roundtrip_partial",
    "PyCal.C24_size_partial",
    "PyCal.C24_exact_partial",
    "PyCal.C24_fails"
   ],
   "note": "C24_roundtrip_partial: for values in which no string but the last ends in a backslash: a structured value with the proper number of components is restored. Missing for C24: values where another string ends in a backslash. C24_size_partial: values with too few components are filled up with empty ones; of values with too many the first ones are kept, all are kept, or the value is rejected, as the parser is told. Missing: texts that end in a backslash, `C24_fails`. C24_exact_partial: exact range of validity: a structured value is restored exactly if no string but the last ends in a backslash. Missing for C24: values where another string does. Shown false in general or outside the claim by: C24_fails."
  },
  {
   "property": "C25",
   "status": "partial",
   "theorems": [
    "PyCal.DateTime.C25_text_partial",
    "PyCal.DateTime.C25_offset",
    "PyCal.DateTime.C25_offset_ical_fails",
    "PyCal.DateTime.C25_utc_date_fails",
    "PyCal.DateTime.C25_reuse_fails"
   ],
   "note": "C25_text_partial: for date-times without a numeric UTC offset: parsing either text form restores all fields, the date-only flag and the UTC flag; only the timezone name, which is not part of the text, is gone. (`ext`: the ISO form `getXMLText`, which needs the `fullISO` parser; the iCalendar form can be read by both parsers.) Missing for C25: dates carrying the UTC flag, and numeric offsets (see `C25_offset` for those that do survive). Shown false in general or outside the claim by: C25_offset_ical_fails, C25_utc_date_fails, C25_reuse_fails."
  },
  {
   "property": "C26",
   "status": "partial",
   "theorems": [
    "PyCal.C26_roundtrip_partial",
    "PyCal.C26_vcard_fails"
   ],
   "note": "C26_roundtrip_partial: for iCalendar text (`fullISO = false`) and jCal/JSON text (`fullISO = true`, where both sides use the extended form): offsets of less than 100 hours are restored. Missing: vCard text, `C26_vcard_fails`, and longer offsets, which no standard has. Shown false in general or outside the claim by: C26_vcard_fails."
  },
  {
   "property": "C27",
   "status": "partial",
   "theorems": [
    "PyCal.Period.C27_partition",
    "PyCal.Period.C27_half_open",
    "PyCal.Period.C27_overlap_symm",
    "PyCal.Period.C27_overlap",
    "PyCal.Period.C27_ends",
    "PyCal.Period.C27_duration_partial",
    "PyCal.Period.C27_fails_duration"
   ],
   "note": "C27_duration_partial: the duration of a period is the time from its start to its end: adding it to the start gives the end, which is of the same kind, and a period given by its duration has that one. Missing: values between which the end of a skipped century year lies, `C03_posix_fails`, dates, and time zones whose offset changes, `C27_fails_duration`. Shown false in general or outside the claim by: C27_fails_duration."
  },
  {
   "property": "C28",
   "status": "partial",
   "theorems": [
    "PyCal.Rule.C28_exact_partial",
    "PyCal.Rule.C28_ends_partial",
    "PyCal.Rule.C28_fails_until",
    "PyCal.Rule.C28_fails_dates",
    "PyCal.Rule.C28_fails_endless"
   ],
   "note": "C28_exact_partial: the expansion over a range of a rule without BYxxx parts consists of exactly those repetitions of the start that exist, lie in the range, are not after UNTIL and are among the first COUNT existing ones; they come in strictly increasing order. Needed: everything is of one kind (`Sound`), in particular a date-only start is not repeated hourly, minutely or secondly; COUNT is at least 1; COUNT and UNTIL are not both given; the start is not after UNTIL. The claim fails without these, see `C28_fails_dates`, `C28_fails_until`; the expansion may also not end, see `C28_fails_endless`. C28_ends_partial: under the same conditions the expansion ends, provided a start on 29 February is in a Gregorian leap year (see `C28_fails_endless`). Shown false in general or outside the claim by: C28_fails_until, C28_fails_dates, C28_fails_endless."
  },
  {
   "property": "C29",
   "status": "partial",
   "theorems": [
    "PyCal.Rule.C29_count",
    "PyCal.Rule.C29_count_by",
    "PyCal.Rule.C29_until_partial",
    "PyCal.Rule.C29_fails_both",
    "PyCal.Rule.C29_fails_zero"
   ],
   "note": "C29_until_partial: UNTIL: whatever queries with the bound `B` were made before, no date an expansion returns is after `B`. The bound is the UNTIL value itself, or for floating starts its clock time moved by the float offset. For rules without BYxxx parts the start must not be after the bound, otherwise it is returned all the same (`C28_fails_until`), and COUNT must not be given as well, for then UNTIL is ignored (`C29_fails_both`). Shown false in general or outside the claim by: C29_fails_both, C29_fails_zero."
  },
  {
   "property": "C30",
   "status": "partial",
   "theorems": [
    "PyCal.Rule.C30_simple_partial",
    "PyCal.Rule.C30_fails_raise",
    "PyCal.Rule.C30_fails_max",
    "PyCal.Rule.C30_fails_offset",
    "PyCal.Rule.C30_fails_kind",
    "PyCal.Rule.C30_complex_partial",
    "PyCal.Rule.C30_fails_limited",
    "PyCal.RecurrenceSet.C30_set_partial"
   ],
   "note": "C30_simple_partial: rules without BYxxx parts: whatever queries were made before on the rule object, for whatever starts and ranges, the answer (dates and `limited` flag) is the one a new object gives. Needed: the earlier queries and this one have starts of one kind and the same float offset, and none of them raised `TooManyInstancesError`. Without that the claim fails: `C30_fails_raise`, `C30_fails_offset`, `C30_fails_kind`. C30_complex_partial: rules with BYxxx parts: whatever queries were made before on the rule object, for whatever starts and ranges, the dates returned are those a new object returns. Needed: the conditions of `C54_exact_partial` for this query and the earlier ones, starts of one kind and the same float offset, and no `TooManyInstancesError` before. The `limited` flag, unlike that of rules without BYxxx parts, can depend on the earlier queries: `C30_fails_limited`. C30_set_partial: recurrence sets: whatever queries were made before on the set, for whatever starts and ranges, the dates returned are those that a set of new rules returns (C34 says which these are). Needed: the conditions of `C30_simple_partial` or `C30_complex_partial` for each rule in this query and the earlier ones, and no `TooManyInstancesError` (`C30_fails_raise`). Shown false in general or outside the claim by: C30_fails_raise, C30_fails_max, C30_fails_offset, C30_fails_kind, C30_fails_limited."
  },
  {
   "property": "C31",
   "status": "partial",
   "theorems": [
    "PyCal.Rule.C31_limits_partial",
    "PyCal.Rule.C31_weekNo_partial",
    "PyCal.Rule.C31_fails_weekNo",
    "PyCal.Rule.C31_fails_yearDay"
   ],
   "note": "C31_limits_partial: used as limits, BYMONTH, BYMONTHDAY, BYDAY (numbers count within the month), BYHOUR, BYMINUTE and BYSECOND keep exactly the dates that match one of their values, in order. Missing: BYYEARDAY (`C31_fails_yearDay`) and negative BYWEEKNO values (`C31_fails_weekNo`). C31_weekNo_partial: BYWEEKNO: dates are kept exactly if one of the positive values is the ISO week number, i.e. (C10) the Thursday of the week is the `n`-th Thursday of its own year. Missing: negative values, `C31_fails_weekNo`, and years outside 1902..2099 (C10). Shown false in general or outside the claim by: C31_fails_weekNo, C31_fails_yearDay."
  },
  {
   "property": "C32",
   "status": "partial",
   "theorems": [
    "PyCal.Rule.C32_substitute",
    "PyCal.Rule.C32_monthDay",
    "PyCal.Rule.C32_day_monthly",
    "PyCal.Rule.C32_day_yearly_partial",
    "PyCal.Rule.C32_fails_yearly",
    "PyCal.Rule.C32_day_weekly_partial",
    "PyCal.C32_weekNo_partial"
   ],
   "note": "C32_day_yearly_partial: BYDAY within years: exactly the dates of the year of one of the given dates, with its time of day, that match one of the values. Missing: the numbers 53 and -53, with which the result can lie in the next or previous year (`C32_fails_yearly`). C32_day_weekly_partial: BYDAY within weeks: exactly the dates in the week (starting at WKST) of one of the given dates, with its time of day, on one of the listed weekdays. Values with a number are ignored (RFC 5545 forbids them here). Missing: years outside 1902..2099, where weekdays are wrong (C05). C32_weekNo_partial: BYWEEKNO: a YEARLY rule with BYWEEKNO alone gives one date for each week number listed, in that order, in that ISO week, on the weekday and at the time of the date it starts from. Weeks 1 to 52, a date that is not a Sunday, a year that does not start on a Sunday and is not near a non-leap century year. Missing: Sundays and years that start on a Sunday, which give other weeks, `C11_fails_sunday` and `C11_fails_year_starting_sunday`. Shown false in general or outside the claim by: C32_fails_yearly."
  },
  {
   "property": "C33",
   "status": "partial",
   "theorems": [
    "PyCal.Rule.C33_setPos_partial",
    "PyCal.Rule.C33_mem",
    "PyCal.Rule.C33_once_partial",
    "PyCal.Rule.C33_fails"
   ],
   "note": "C33_setPos_partial: BYSETPOS gives, for the candidates sorted by absolute time, one element for each listed position that exists (0 never does), in the order of the list. \"Each once, in order\" is missing: see `C33_once_partial`, `C33_fails`. C33_once_partial: if all listed positions are positive, distinct, and the candidates are distinct, no date is given twice. Missing: negative positions, `C33_fails`. Shown false in general or outside the claim by: C33_fails."
  },
  {
   "property": "C34",
   "status": "partial",
   "theorems": [
    "PyCal.RecurrenceSet.C34_exact_partial",
    "PyCal.RecurrenceSet.C34_limited_partial",
    "PyCal.RecurrenceSet.C34_ascending_partial",
    "PyCal.RecurrenceSet.C34_fails_order",
    "PyCal.RecurrenceSet.C34_fails_dates",
    "PyCal.RecurrenceSet.C34_fails_period"
   ],
   "note": "C34_exact_partial: the result has exactly the instants that are included and not excluded, each of them once, and all its elements are included dates. The condition (`Uniform`): everything compares as an instant, and periods that overlap the range start in it. The iteration order of the sets (`o`) does not matter, nor does `maxInstances`, if nothing is raised. Missing: dates among date-times, `C34_fails_dates`, and periods that began before the range, `C34_fails_period`. C34_limited_partial: the returned flag: it tells if something was left out because of the range. Missing: as for `C34_exact_partial`. C34_ascending_partial: order: without exclusions the result is in ascending order. Missing: the order with exclusions, `C34_fails_order`. Shown false in general or outside the claim by: C34_fails_order, C34_fails_dates, C34_fails_period."
  },
  {
   "property": "C35",
   "status": "partial",
   "theorems": [
    "PyCal.C35_offset_partial",
    "PyCal.C35_ends_partial",
    "PyCal.C35_zone_partial",
    "PyCal.C35_fails_before",
    "PyCal.C35_fails_element"
   ],
   "note": "C35_offset_partial: after any queries, the UTC offset given for a time is that after the last transition at or before it, and 0 before the first; for a search relative to UTC if the transitions up to then are in the same order in UTC and none of them moves over the turn of a year. Missing: times before the first transition, `C35_fails_before`, and the element in force, `C35_fails_element`. C35_ends_partial: in a time zone as parsed (see `C35_zone_partial`), in whatever state previous questions left it, every question about an offset is answered (the calculation ends), and allowing more iterations gives the same answer. Missing: rules that can run forever (`C28_fails_endless`). C35_zone_partial: in a time zone as parsed, with whatever RRULEs (with values in their ranges; with BYxxx parts not WEEKLY) and RDATEs its elements have, after any queries, the UTC offset given for a time is that after the last transition at or before it, and 0 before the first. Needed: transitions at whole minutes; relative to UTC, that transitions up to then are in the same order in UTC and none of them moves over the turn of a year. Missing: before the first transition (`C35_fails_before`), the element itself (`C35_fails_element`), date-only queries (`C36_fails_date`). Shown false in general or outside the claim by: C35_fails_before, C35_fails_element."
  },
  {
   "property": "C36",
   "status": "partial",
   "theorems": [
    "PyCal.C36_history_partial",
    "PyCal.C36_zone_partial",
    "PyCal.C36_fails_seconds",
    "PyCal.C36_fails_date",
    "PyCal.C36_fails_year",
    "PyCal.C36_fails_tie"
   ],
   "note": "C36_history_partial: the answer does not depend on what was asked before, nor on the order in which sets are run through, if no two transitions at one time lead to different offsets. Missing: transitions not at whole minutes, `C36_fails_seconds`, dates, `C36_fails_date`, the turn of the year in UTC, `C36_fails_year`, and ties, `C36_fails_tie`. C36_zone_partial: in a time zone as parsed, the answer does not depend on what was asked before, nor on the order in which sets are run through. Needed: as for `C35_zone_partial`, and that no two transitions at one time lead to different offsets (`C36_fails_tie`). Shown false in general or outside the claim by: C36_fails_seconds, C36_fails_date, C36_fails_year, C36_fails_tie."
  },
  {
   "property": "C37",
   "status": "partial",
   "theorems": [
    "PyCal.C37_posix_partial",
    "PyCal.C37_moment_partial",
    "PyCal.C37_roundtrip",
    "PyCal.C37_zone_partial",
    "PyCal.C37_fails_ambiguous",
    "PyCal.C37_fails_century",
    "PyCal.C37_fails_date"
   ],
   "note": "C37_posix_partial: after any sequence of safe calls on a date-time object (C19), `adjustToUTC` does not change what `getPosixTime` returns, and leaves a UTC time unless the object is date-only or floating. Missing: conversions over the end of a century year that is not a leap year (`C37_fails_century`). C37_moment_partial: from any zone to any zone: after any sequence of safe calls on a date-time object that is in UTC or in a zone, `adjustTimezone` does not change what `getPosixTime` returns, if the new zone gives the same offset for the UTC time and for the clock time shown (`C37_zone_partial` says when). Missing: the hour shown twice, and the years whose end the library counts wrongly (C03). C37_zone_partial: in a time zone as parsed (see `C35_zone_partial`), a UTC time converted to the zone and back is the same UTC time, unless the clock time shown can also be read as another time. Missing: the hour shown twice at the end of daylight saving time (`C37_fails_ambiguous`). Shown false in general or outside the claim by: C37_fails_ambiguous, C37_fails_century, C37_fails_date."
  },
  {
   "property": "C38",
   "status": "partial",
   "theorems": [
    "PyCal.C38_slash_partial",
    "PyCal.C38_sibling_partial",
    "PyCal.C38_plain_partial",
    "PyCal.C38_found",
    "PyCal.C38_fails_sibling",
    "PyCal.C38_fails_dots",
    "PyCal.C38_fails_relative"
   ],
   "note": "C38_slash_partial: if the database path is absolute and ends with a slash, the file looked for is inside the database directory, whatever the TZID. Missing: paths without the slash (`C38_fails_sibling`) and relative paths (`C38_fails_relative`). C38_sibling_partial: if the database path is absolute, the file looked for is inside the database directory or inside a neighbour of that directory whose name begins with the same letters. Missing: the neighbours, `C38_fails_sibling`, and relative paths, `C38_fails_relative`. C38_plain_partial: for an absolute database path and a TZID that does not begin with a slash and has no component `..`, the file looked for is inside the database directory. Missing: other TZIDs, `C38_fails_sibling` and `C38_fails_dots`. Shown false in general or outside the claim by: C38_fails_sibling, C38_fails_dots, C38_fails_relative."
  },
  {
   "property": "C39",
   "status": "proved",
   "theorems": [
    "PyCal.TzDb.C39_stable",
    "PyCal.TzDb.C39_merge",
    "PyCal.TzDb.C39_mergeAll",
    "PyCal.TzDb.C39_inCalendar",
    "PyCal.TzDb.C39_standard",
    "PyCal.TzDb.C39_merged",
    "PyCal.TzDb.C39_clear",
    "PyCal.TzDb.C39_fails_add",
    "PyCal.TzDb.C39_fails_addStandard"
   ],
   "note": "Shown false in general or outside the claim by: C39_fails_add, C39_fails_addStandard."
  },
  {
   "property": "C40",
   "status": "partial",
   "theorems": [
    "PyCal.C40_complete",
    "PyCal.C40_delimited",
    "PyCal.C40_sound_partial",
    "PyCal.C40_calendar",
    "PyCal.C40_calendar_partial",
    "PyCal.C40_placed",
    "PyCal.C40_fails_unclosed",
    "PyCal.C40_fails_mismatch",
    "PyCal.C40_fails_twice",
    "PyCal.C40_fails_leftover",
    "PyCal.C40_fails_unknown",
    "PyCal.C40_fails_errors",
    "PyCal.C40_fails_zone",
    "PyCal.C40_fails_version"
   ],
   "note": "C40_sound_partial: accepted data is one complete, properly nested object if the result has as many components as there are lines `BEGIN:` and no property `END`. Missing: without these conditions it is false (`C40_fails_unclosed`, `C40_fails_mismatch`, `C40_fails_twice`, `C40_fails_unknown`). C40_calendar_partial: of `Calendar`: accepted data is one complete, properly nested object if nothing that was begun is missing in the result and nothing in it is called `END`. Missing: data in which something is begun and not ended, or ended and not begun, `C40_fails_unclosed`, `C40_fails_mismatch`. Shown false in general or outside the claim by: C40_fails_unclosed, C40_fails_mismatch, C40_fails_twice, C40_fails_leftover, C40_fails_unknown, C40_fails_errors, C40_fails_zone, C40_fails_version."
  },
  {
   "property": "C41",
   "status": "partial",
   "theorems": [
    "PyCal.C41_roundtrip_partial",
    "PyCal.C41_calendar_partial",
    "PyCal.C41_fails_container",
    "PyCal.C41_fails_end",
    "PyCal.C41_fails_unknown",
    "PyCal.C41_fails_zone"
   ],
   "note": "C41_roundtrip_partial: what is written for a container is accepted, and is the same container but for the order in which properties and components are written. Missing: components that are not `Writable` (`C41_fails_container`, `C41_fails_end`, `C41_fails_unknown`); of properties, that the line is read back, which is C46; that the lines are folded and unfolded, which is C22. C41_calendar_partial: of `Calendar`: the same for `Calendar.parse`, if there is no component whose type differs from VTIMEZONE in case. Missing: as in `C41_roundtrip_partial`; such components (`C41_fails_zone`). Shown false in general or outside the claim by: C41_fails_container, C41_fails_end, C41_fails_unknown, C41_fails_zone."
  },
  {
   "property": "C42",
   "status": "proved",
   "theorems": [
    "PyCal.C42_properties",
    "PyCal.C42_same_name",
    "PyCal.C42_components",
    "PyCal.C42_property_order",
    "PyCal.C42_component_order"
   ],
   "note": ""
  },
  {
   "property": "C43",
   "status": "partial",
   "theorems": [
    "PyCal.C43_check",
    "PyCal.C43_fix_partial",
    "PyCal.C43_classes_partial",
    "PyCal.C43_no_exception",
    "PyCal.C43_fails_tables",
    "PyCal.C43_fails_exception",
    "PyCal.C43_fails_text"
   ],
   "note": "C43_fix_partial: after fix mode, a second `validate`, in either mode, changes and fixes nothing more, and all that it reports was reported as not fixed. Missing: tables that require the property that the class removes (`C43_fails_tables`), and fix mode ends with an exception for a STATUS without text (`C43_fails_exception`). C43_classes_partial: of the classes of the library: after fix mode, a second `validate`, in either mode, changes and fixes nothing more, and all that it reports was reported as not fixed. Missing: that fix mode does not end with an exception, which is false (`C43_fails_exception`). Shown false in general or outside the claim by: C43_fails_tables, C43_fails_exception, C43_fails_text."
  },
  {
   "property": "C44",
   "status": "partial",
   "theorems": [
    "PyCal.C44_roundtrip_partial",
    "PyCal.C44_fails_zone",
    "PyCal.C44_fails_both",
    "PyCal.C44_fails_missing",
    "PyCal.C44_reparse_partial"
   ],
   "note": "C44_roundtrip_partial: parsing the text generated for a rule gives the rule back, all fields. Needed (`Writable`): allowed values, and nothing set that is not in use. UNTIL must be a date, UTC or floating: a time zone, which RFC 5545 does not allow there, is lost. Missing: UNTIL in a time zone, `C44_fails_zone`, COUNT and UNTIL together, `C44_fails_both`, and a rule that is to use an UNTIL it does not have, `C44_fails_missing`. C44_reparse_partial: from the text: what has been parsed is written and parsed again without a change, unless it has an odd UNTIL or BYSETPOS. Missing: those rules. Shown false in general or outside the claim by: C44_fails_zone, C44_fails_both, C44_fails_missing."
  },
  {
   "property": "C45",
   "status": "partial",
   "theorems": [
    "PyCal.C45_equals",
    "PyCal.C45_fails_stale",
    "PyCal.C45_hash_partial",
    "PyCal.C45_fails_hash"
   ],
   "note": "C45_hash_partial: hash, the part that holds: without the lists, equal rules have equal hash keys if their UNTIL have (that is C18). Missing: the lists, whose order changes the hash, `C45_fails_hash`. Shown false in general or outside the claim by: C45_fails_stale, C45_fails_hash."
  },
  {
   "property": "C46",
   "status": "partial",
   "theorems": [
    "PyCal.C46_roundtrip_partial",
    "PyCal.C46_value_iff",
    "PyCal.C46_fails_space",
    "PyCal.C46_fails_backslash",
    "PyCal.C46_fails_swallow",
    "PyCal.C46_fails_order",
    "PyCal.C46_fails_novalues"
   ],
   "note": "C46_roundtrip_partial: the text generated for a property is read back as the same group, name, parameters and value text, if the names are tokens and each parameter value is `ValueOk`. Missing: values that are not (`C46_value_iff`), values of one parameter come back in ascending order, and carriage returns as line feeds. Shown false in general or outside the claim by: C46_fails_space, C46_fails_backslash, C46_fails_swallow, C46_fails_order, C46_fails_novalues."
  },
  {
   "property": "C47",
   "status": "partial",
   "theorems": [
    "PyCal.C47_index_partial",
    "PyCal.C47_fails_merge",
    "PyCal.C47_fails_same",
    "PyCal.C47_fails_empty",
    "PyCal.C47_fails_remove"
   ],
   "note": "C47_index_partial: after any history of proper operations, none of which fails, the overridden instances recorded for a UID are exactly the contained components with that UID and a RECURRENCE-ID, in order. Missing: histories that are not proper; without each of the conditions it is false (`C47_fails_merge`, `C47_fails_same`, `C47_fails_empty`, `C47_fails_remove`). Shown false in general or outside the claim by: C47_fails_merge, C47_fails_same, C47_fails_empty, C47_fails_remove."
  },
  {
   "property": "C48",
   "status": "partial",
   "theorems": [
    "PyCal.Event.C48_length_partial",
    "PyCal.Event.C48_starts",
    "PyCal.Event.C48_end",
    "PyCal.Event.C48_fails_duration",
    "PyCal.Event.C48_fails_allday",
    "PyCal.Event.C48_fails_offset"
   ],
   "note": "C48_length_partial: every instance of an event in a period lasts as long, by the clock, as the event itself. For a recurring event this needs a DTEND of the same kind as DTSTART, at the same offset from UTC and with no non-leap century year between. Missing: recurring events with DURATION or without an end (`C48_fails_duration`, `C48_fails_allday`), and the elapsed time when the offset changes (`C48_fails_offset`). Shown false in general or outside the claim by: C48_fails_duration, C48_fails_allday, C48_fails_offset."
  },
  {
   "property": "C49",
   "status": "partial",
   "theorems": [
    "PyCal.Event.C49_overlap_partial",
    "PyCal.Event.C49_ends_partial",
    "PyCal.Event.C49_allday_partial",
    "PyCal.Event.C49_fails_allday",
    "PyCal.Event.C49_fails_empty",
    "PyCal.Event.C49_fix"
   ],
   "note": "C49_overlap_partial: an event that does not recur and ends after it starts is in a non-empty period exactly when some time of their kind is in both. Missing: events without any length (`C49_fails_empty`) and times of different kinds (`C49_allday_partial`, `C49_fails_allday`). C49_ends_partial: without the condition on lengths: the answer is whether the event starts before the end of the period and ends after its start. Missing: what an event without length should give, `C49_fails_empty`, and all-day events, `C49_fails_allday`. C49_allday_partial: all day events and any period: the answer depends on the dates of the ends of the period, as they are written, alone. Missing: the times of day (`C49_fails_allday`). Shown false in general or outside the claim by: C49_fails_allday, C49_fails_empty."
  },
  {
   "property": "C50",
   "status": "partial",
   "theorems": [
    "PyCal.Alarm.C50_fails_trigger",
    "PyCal.Alarm.C50_fails_next",
    "PyCal.Alarm.C50_fails_completed",
    "PyCal.Alarm.C50_count_partial",
    "PyCal.Alarm.C50_kept_partial",
    "PyCal.Alarm.C50_started"
   ],
   "note": "C50_count_partial: the repetitions counted never exceed REPEAT. Missing: everything else the claim says (`C50_fails_trigger`, `C50_fails_next`, `C50_fails_completed`). C50_kept_partial: the repetitions counted are not forgotten while the alarm is started and not changed, nor when it is completed. Missing: that the repetitions are made, `C50_fails_trigger`, `C50_fails_next` and `C50_fails_completed`. Shown false in general or outside the claim by: C50_fails_trigger, C50_fails_next, C50_fails_completed."
  },
  {
   "property": "C51",
   "status": "partial",
   "theorems": [
    "PyCal.Period.C51_gt_fails",
    "PyCal.Period.C51_order_partial"
   ],
   "note": "C51_order_partial: on periods of one kind `<` is a strict order by start, then end, and `==` is \"neither before the other\"; missing is `>` (`C51_gt_fails`). Shown false in general or outside the claim by: C51_gt_fails."
  },
  {
   "property": "C52",
   "status": "partial",
   "theorems": [
    "PyCal.Rule.C52_yearDay_partial",
    "PyCal.Rule.C52_fails",
    "PyCal.Rule.C52_fails_day100"
   ],
   "note": "C52_yearDay_partial: BYYEARDAY in a yearly rule. For values within 31 days of either end of the year and ±366, of the dates produced exactly those that exist count, and these are the dates of the year of one of the given ones, with its time of day, that match one of the values. For all other values the claim is false: `C52_fails`. Shown false in general or outside the claim by: C52_fails, C52_fails_day100."
  },
  {
   "property": "C53",
   "status": "partial",
   "theorems": [
    "PyCal.Rule.C53_daily",
    "PyCal.Rule.C53_hourly",
    "PyCal.Rule.C53_minutely",
    "PyCal.Rule.C53_secondly",
    "PyCal.Rule.C53_weekly_partial",
    "PyCal.Rule.C53_fails_weekly",
    "PyCal.Rule.C53_monthly",
    "PyCal.Rule.C53_yearly_month",
    "PyCal.Rule.C53_yearly_day_partial",
    "PyCal.Rule.C53_fails_yearly"
   ],
   "note": "C53_weekly_partial: WEEKLY: the weekdays of BYDAY in the week of `t` (or the weekday of `t`), at all combinations of the given hours, minutes and seconds, provided the date of `t` itself passes BYMONTH and BYWEEKNO. RFC 5545 applies BYMONTH to the dates produced instead: `C53_fails_weekly`. Years 1902..2099 (C05). C53_yearly_day_partial: YEARLY with BYDAY but no other date part: the days of the year of `t` on the given weekdays, numbers counting within the year. Missing: the numbers ±53 (`C32_fails_yearly`). Shown false in general or outside the claim by: C53_fails_weekly, C53_fails_yearly."
  },
  {
   "property": "C54",
   "status": "partial",
   "theorems": [
    "PyCal.Rule.C54_list_partial",
    "PyCal.Rule.C54_exact_partial",
    "PyCal.Rule.C54_ends_partial",
    "PyCal.Rule.C54_fails_posix",
    "PyCal.Rule.C54_fails_duplicates"
   ],
   "note": "C54_list_partial: as a list: for all sufficiently large `N`, the expansion over a range is the concatenation of the sorted candidate sets of the first `N` repetitions of the start, without what is before the start, cut off after COUNT - 1 dates after the start if there is a COUNT, restricted to the range and to what is not past UNTIL. Missing: as for the theorem about the elements; `C54_fails_posix`, `C54_fails_duplicates`. C54_exact_partial: the expansion over a range of a rule with BYxxx parts consists of exactly those dates that the BYxxx parts give (C53) for some repetition of the start, that are in the range, not before the start and not after UNTIL; with COUNT, additionally, they are after the start and fewer than COUNT - 1 such dates come before (the start itself counts, but is left to the caller to add). They come in increasing order. Needed (`Good`): values in their ranges, none of the parts that do not work (C52, C53); everything of one kind; a MONTHLY or YEARLY start on a day up to the 28th if the range is given in another time zone (`C54_fails_posix`); WEEKLY up to 2099. Dates given twice by the parts also count twice for COUNT (`C54_fails_duplicates`). C54_ends_partial: the expansion of a rule with BYxxx parts ends, whatever the parts, if everything is of one kind and a start on 29 February is in a Gregorian leap year. Missing: mixtures of dates, floating times and times in zones, where comparison is no order (C17). Shown false in general or outside the claim by: C54_fails_posix, C54_fails_duplicates."
  },
  {
   "property": "C55",
   "status": "proved",
   "theorems": [
    "PyCal.Rule.C55_max"
   ],
   "note": ""
  },
  {
   "property": "C56",
   "status": "partial",
   "theorems": [
    "PyCal.C56_accepts",
    "PyCal.C56_values_partial",
    "PyCal.C56_fails_setpos",
    "PyCal.C56_fails_repeated",
    "PyCal.C56_days"
   ],
   "note": "C56_values_partial: a rule that has been parsed has only allowed values: COUNT and INTERVAL at least 1, not both COUNT and UNTIL, all BYxxx values but those of BYSETPOS in their ranges. Missing: BYSETPOS (`C56_fails_setpos`) and UNTIL. Shown false in general or outside the claim by: C56_fails_setpos, C56_fails_repeated."
  },
  {
   "property": "C57",
   "status": "partial",
   "theorems": [
    "PyCal.RecurrenceSet.C57_rdates_partial",
    "PyCal.RecurrenceSet.C57_fails_over",
    "PyCal.RecurrenceSet.C57_fails_under"
   ],
   "note": "C57_rdates_partial: if an RDATE is in the range or a period overlaps it, at most `maxInstances` dates are returned. Missing: sets without such a date, `C57_fails_over` and `C57_fails_under`. Shown false in general or outside the claim by: C57_fails_over, C57_fails_under."
  },
  {
   "property": "C58",
   "status": "partial",
   "theorems": [
    "PyCal.C58_ends_partial",
    "PyCal.C58_ends_vcard_partial",
    "PyCal.C58_fails_vcard"
   ],
   "note": "C58_ends_partial: reading an iCalendar property line ends, whatever the line. Missing: vCard lines, `C58_fails_vcard`. C58_ends_vcard_partial: reading a vCard property line without double quotes ends. Missing: lines with double quotes, see `C58_fails_vcard`. Shown false in general or outside the claim by: C58_fails_vcard."
  },
  {
   "property": "C59",
   "status": "partial",
   "theorems": [
    "PyCal.Event.C59_instances_partial",
    "PyCal.Event.C59_single_partial",
    "PyCal.Event.C59_fails_alone",
    "PyCal.Event.C59_fails_range",
    "PyCal.Event.C59_fails_future",
    "PyCal.Event.C59_fails_before"
   ],
   "note": "C59_instances_partial: in a calendar, a recurring event that is not itself an overridden instance gives one instance for each recurrence in the period that no overridden instance is for, and only those; an instance is a recurrence, flagged as such, and starts with it. Conditions: everything compares as an instant (`Uniform`, as in C34) and at most one overridden instance has each kind of RANGE. Missing: without a calendar there are no instances (`C59_fails_alone`), two RANGEs raise (`C59_fails_range`), one is ignored (`C59_fails_future`), and a recurrence that began before the period is left out although it lasts into it (`C59_fails_before`). C59_single_partial: an overridden instance or an event that does not recur gives one instance, with its own start and end, if it is in the period, and none otherwise. Missing: recurring events, for which see the theorems below and `C59_fails_alone`, `C59_fails_range`, `C59_fails_future`, `C59_fails_before`. Shown false in general or outside the claim by: C59_fails_alone, C59_fails_range, C59_fails_future, C59_fails_before."
  },
  {
   "property": "C60",
   "status": "partial",
   "theorems": [
    "PyCal.Event.C60_instances_partial",
    "PyCal.Event.C60_fails_order"
   ],
   "note": "C60_instances_partial: `getVEvents` gives the instances of each event, one event after the other in the order of the calendar; none is lost or added by the sorting. Missing: that they are sorted (`C60_fails_order`). Shown false in general or outside the claim by: C60_fails_order."
  },
  {
   "property": "C61",
   "status": "partial",
   "theorems": [
    "PyCal.CompEq.C61_equal_partial",
    "PyCal.CompEq.C61_sets_partial",
    "PyCal.CompEq.C61_equivalence_partial",
    "PyCal.CompEq.C61_order",
    "PyCal.CompEq.C61_fails_twice",
    "PyCal.CompEq.C61_fails_floating",
    "PyCal.CompEq.C61_fails_transitive",
    "PyCal.CompEq.C61_fails_rule"
   ],
   "note": "C61_equal_partial: full strength but for the kinds of values: components are `==` exactly when they have the same type, the same properties one for one, and the same sub-components one for one in any order. This is proved if no component has one property twice (`C61_fails_twice`), and for dates and date-times of a family on which `==` is transitive (`C61_fails_floating`, `C61_fails_transitive`); properties are the same if `set` takes them for the same (`C61_fails_rule`). C61_sets_partial: without the condition on repeated properties: how often a property occurs does not count. Missing: that components which are `==` have each property equally often, `C61_fails_twice`. C61_equivalence_partial: on such components `==` is reflexive, symmetric and transitive. Missing: components with floating times and times in zones, `C61_fails_transitive`. Shown false in general or outside the claim by: C61_fails_twice, C61_fails_floating, C61_fails_transitive, C61_fails_rule."
  },
  {
   "property": "C62",
   "status": "partial",
   "theorems": [
    "PyCal.Timing.C62_startEnd_partial",
    "PyCal.Timing.C62_oneDay_partial",
    "PyCal.Timing.C62_startDuration_partial",
    "PyCal.Timing.C62_oneDayDuration_partial",
    "PyCal.Timing.C62_due_partial",
    "PyCal.Timing.C62_fails_none",
    "PyCal.Timing.C62_fails_order",
    "PyCal.Timing.C62_fails_oneDay",
    "PyCal.Timing.C62_fails_duration",
    "PyCal.Timing.C62_fails_todo"
   ],
   "note": "C62_startEnd_partial: a start and a later end are kept and written, whatever was there before. (Missing: an end that is not later, `C62_fails_order`; an all-day event of one day, `C62_oneDay_partial`; a to-do, `C62_fails_todo`.) C62_oneDay_partial: an all-day event of one day has the same times when it is read again (but no end, `C62_fails_oneDay`). C62_startDuration_partial: a start and a duration are kept and written. (Missing: all-day events of at most one day; a to-do.) C62_oneDayDuration_partial: an all-day event with a duration of one day, however it is put (P1D, PT24H), has the same times when it is read again. Missing: an end one day later, `C62_fails_oneDay`, and durations that are no number of days, `C62_fails_duration`. C62_due_partial: the due time of a to-do is kept and written. Missing: the end of a to-do, `C62_fails_todo`. Shown false in general or outside the claim by: C62_fails_none, C62_fails_order, C62_fails_oneDay, C62_fails_duration, C62_fails_todo."
  },
  {
   "property": "C63",
   "status": "partial",
   "theorems": [
    "PyCal.Recurring.C63_rules_partial",
    "PyCal.Recurring.C63_single",
    "PyCal.Recurring.C63_fails_raises",
    "PyCal.Recurring.C63_fails_exclude",
    "PyCal.Recurring.C63_loaded"
   ],
   "note": "C63_rules_partial: `editRecurrenceSet` of a set of rules writes these, and they are what is read again (but it raises, `C63_fails_raises`). Shown false in general or outside the claim by: C63_fails_raises, C63_fails_exclude."
  },
  {
   "property": "C64",
   "status": "partial",
   "theorems": [
    "PyCal.C64_reread_partial",
    "PyCal.C64_settles",
    "PyCal.C64_dates",
    "PyCal.C64_fails_text",
    "PyCal.C64_fails_class",
    "PyCal.C64_fails_special"
   ],
   "note": "C64_reread_partial: where it holds: a property read from a text and written is read again with the same type of value, in iCalendar and in vCard and whatever default types a program registers, unless it has no default type and VALUE=TEXT, or the library has no class for the VALUE it has, or it is one of GEO, REQUEST-STATUS, ADR, N and ORG and has a VALUE other than the default. Missing: those properties. Shown false in general or outside the claim by: C64_fails_text, C64_fails_class, C64_fails_special."
  },
  {
   "property": "C65",
   "status": "partial",
   "theorems": [
    "PyCal.C65_text_partial",
    "PyCal.C65_other_partial",
    "PyCal.C65_asked_partial",
    "PyCal.C65_fails",
    "PyCal.C65_fails_break"
   ],
   "note": "C65_text_partial: where it holds: a string given to a property that has no other type is the string read from what is written, if the property has a default type that says so: TEXT. Missing: other properties, `C65_fails` and `C65_fails_break`. C65_other_partial: for a property that the tables do not have: a string given to the constructor of an iCalendar property is restored (it is written as it stands); a string given to the constructor of a vCard property or to `setValue` comes back in its escaped form, so that it is restored exactly if it has no comma, semicolon, backslash or line break. Missing: strings with one of these, `C65_fails`, and line breaks in the first case, `C65_fails_break`. C65_asked_partial: for a property with a VALUE parameter that names TEXT: a string given to `setValue` is the string read from what is written, if the property has a default type, whichever that is; otherwise no VALUE is written and the string comes back in its escaped form. A VALUE that names no type leaves the type as it is without. Missing: properties without a default type, `C65_fails`. Shown false in general or outside the claim by: C65_fails, C65_fails_break."
  },
  {
   "property": "C66",
   "status": "partial",
   "theorems": [
    "PyCal.C66_split_partial",
    "PyCal.C66_restored_partial",
    "PyCal.C66_fails"
   ],
   "note": "C66_split_partial: exactly: of a list of texts that is written and read again each text is split at its commas. Missing for C66: texts with commas, and the empty list. C66_restored_partial: where it holds: a list of texts is restored exactly if no text has a comma. Missing: texts with a comma, `C66_fails`. Shown false in general or outside the claim by: C66_fails."
  },
  {
   "property": "C67",
   "status": "partial",
   "theorems": [
    "PyCal.C67_fix_partial",
    "PyCal.C67_allow_partial",
    "PyCal.C67_no_linefeed",
    "PyCal.C67_fails"
   ],
   "note": "C67_fix_partial: exactly, for the default setting: a URI is restored exactly if it has no backslash. Missing: URIs with one. C67_allow_partial: for the other setting, in which nothing is decoded: a URI is restored exactly if it has no line feed. Missing: URIs with a line feed, which is written as a backslash and a letter. Shown false in general or outside the claim by: C67_fails."
  },
  {
   "property": "C68",
   "status": "partial",
   "theorems": [
    "PyCal.C68_fails_raise",
    "PyCal.C68_fix_partial",
    "PyCal.C68_one_text_partial",
    "PyCal.C68_many_partial",
    "PyCal.C68_fails"
   ],
   "note": "C68_fix_partial: exactly, for the default setting FIX and for IGNORE: a request status is restored exactly if its code has no backslash and, if there is a third element, the description does not end in one (and the third element is not the empty string). Missing: the others. C68_one_text_partial: what is read of a request status that was written as one text, with the first semicolon escaped as well, or without one: the code is what is before the semicolon. (Settings other than RAISE.) Missing: the setting RAISE, `C68_fails_raise`. C68_many_partial: of more than three elements only the first three are read. Missing: descriptions that end in a backslash, `C68_fails`, and the setting RAISE, `C68_fails_raise`. Shown false in general or outside the claim by: C68_fails_raise, C68_fails."
  },
  {
   "property": "C69",
   "status": "partial",
   "theorems": [
    "PyCal.Zonal.C69_date_partial",
    "PyCal.Zonal.C69_fails_atMost",
    "PyCal.Zonal.C69_fails_midnight",
    "PyCal.Zonal.C69_fails_hours",
    "PyCal.Zonal.C69_fails_seconds",
    "PyCal.Zonal.C69_instant_partial",
    "PyCal.Zonal.C69_fails_letter"
   ],
   "note": "C69_date_partial: for a rule with a day written as the last weekday of the month, as the first such weekday on or after a day, or as a day, and a time of hours and minutes before midnight, `datetimeForYear` gives the day that the rule means, that time, and the letters after the time. Missing: days of the form `Sun<=25` (`C69_fails_atMost`), the time 24:00 (`C69_fails_midnight`), times without minutes but with a letter (`C69_fails_hours`) or with seconds (`C69_fails_seconds`), and a day of the next year in the years 1800, 1900, 2100, ... C69_instant_partial: the instant: a time with the letter `u`, `s`, `w` or none is converted to UTC as that letter says, with the offsets given; to a real time. Missing: the letters `g` and `z` (`C69_fails_letter`). Shown false in general or outside the claim by: C69_fails_atMost, C69_fails_midnight, C69_fails_hours, C69_fails_seconds, C69_fails_letter."
  },
  {
   "property": "C70",
   "status": "partial",
   "theorems": [
    "PyCal.Zonal.C70_utcOffset",
    "PyCal.Zonal.C70_save_partial",
    "PyCal.Zonal.C70_fails_save",
    "PyCal.Zonal.C70_fails_save_seconds",
    "PyCal.Zonal.C70_numeric_partial",
    "PyCal.Zonal.C70_fails_numeric",
    "PyCal.Zonal.C70_name"
   ],
   "note": "C70_save_partial: the saving of a rule is read right if it has no seconds and is not between minus one hour and zero. Missing: `C70_fails_save`, `C70_fails_save_seconds`. C70_numeric_partial: a saving written in place of the name of a rule is recognised, and read right if it has no seconds and no minutes with a minus sign. Missing: `C70_fails_numeric`. Shown false in general or outside the claim by: C70_fails_save, C70_fails_save_seconds, C70_fails_numeric."
  },
  {
   "property": "C71",
   "status": "partial",
   "theorems": [
    "PyCal.Zonal.C71_expand_partial",
    "PyCal.Zonal.C71_fails_last",
    "PyCal.Zonal.C71_cache",
    "PyCal.Zonal.C71_fails_again"
   ],
   "note": "C71_expand_partial: a rule that has not been expanded before is expanded to one transition, as `datetimeForYear` gives it, for each of its years, in order; up to the last year for a rule that ends by then (`maxYear`), and to the year before that for one that goes on. The offset is the saving added to the standard offset. Missing: a rule that goes on should have its transition in the last year just as one that ends with it (`C71_fails_last`); the year 9999 stands for no end; a second expansion ignores the last year asked for (`C71_fails_again`). Shown false in general or outside the claim by: C71_fails_last, C71_fails_again."
  },
  {
   "property": "C72",
   "status": "partial",
   "theorems": [
    "PyCal.Zonal.C72_next_partial",
    "PyCal.Zonal.C72_last",
    "PyCal.Zonal.C72_last_before_partial",
    "PyCal.Zonal.C72_last_after_partial",
    "PyCal.Zonal.C72_day_partial",
    "PyCal.Zonal.C72_fails_first",
    "PyCal.Zonal.C72_fails_spill",
    "PyCal.Zonal.C72_fails_leap",
    "PyCal.Zonal.C72_fails_february",
    "PyCal.Zonal.C72_fails_saturday",
    "PyCal.Zonal.C72_fails_january",
    "PyCal.Zonal.C72_fails_december",
    "PyCal.Zonal.C72_fails_day"
   ],
   "note": "C72_next_partial: for a rule of the form `Sun>=n` whose first transition `start` is, in local time, on the day before the one meant, on that day, or on the day after (`s`), the recurrence rule matches exactly the local dates of the transitions in every year: if the seven days possible lie in the month in every year (and the days of the rule in the year), and, for February of a leap year, if the first of them is not the 9th or 16th. Missing: otherwise see `C72_fails_first`, `C72_fails_spill`, `C72_fails_leap`. C72_last_before_partial: for a rule of the form `lastSun` whose transitions are, in local time, on the day before, the recurrence rule is exact for every month but February (`C72_fails_february`). C72_last_after_partial: for a rule of the form `lastSun` whose transitions are, in local time, on the day after, the recurrence rule is exact for the months from February to November and the weekdays other than Saturday (`C72_fails_saturday`, `C72_fails_january`, `C72_fails_december`). C72_day_partial: for a rule with a day of the month, the recurrence rule is exact if the day meant and the local one exist in that month of every year. Missing: `C72_fails_day`. Shown false in general or outside the claim by: C72_fails_first, C72_fails_spill, C72_fails_leap, C72_fails_february, C72_fails_saturday, C72_fails_january, C72_fails_december, C72_fails_day."
  },
  {
   "property": "C73",
   "status": "partial",
   "theorems": [
    "PyCal.Zonal.C73_rules_partial",
    "PyCal.Zonal.C73_kind",
    "PyCal.Zonal.C73_numeric",
    "PyCal.Zonal.C73_fails_none",
    "PyCal.Zonal.C73_fails_first",
    "PyCal.Zonal.C73_fails_letter"
   ],
   "note": "C73_rules_partial: a line of a zone with a named rule set, in force from `lastUntil` (the end of the line before, where the offset was `lastOffset` and the standard offset `lastStd`), gives transitions that at every instant from there to its end show the offset that its rules put in force: that of the latest transition of the rules, each read with the offset before it, or the standard offset before the first. The end is read with the offset that the line is left with. For this the rules must have a transition before the last year (`C73_fails_none`), their transitions must be in the order of time when so read, not two at the same time; the first of them must be on the same side of the start of the line with the offset of the line before as with that of this line (`C73_fails_first`); times must not have the letters `g` or `z` (`C73_fails_letter`). Shown false in general or outside the claim by: C73_fails_none, C73_fails_first, C73_fails_letter."
  },
  {
   "property": "C74",
   "status": "partial",
   "theorems": [
    "PyCal.Zonal.C74_offsets_partial",
    "PyCal.Zonal.C74_follow",
    "PyCal.Zonal.C74_fails_close",
    "PyCal.Zonal.C74_fails_start"
   ],
   "note": "C74_offsets_partial: the result of expanding a zone from a year on shows at every instant, from the first transition in that year on, the offset that the transitions of its lines (`C73_rules_partial`, `C73_numeric`) show; and gives with each transition the offset in force just before it. (`ess` are the transitions of the lines, each expanded from the end of the one before; `start` is the offset of the first line.) For this the transitions must be in the order of time, and local time must go forward from each to the next (`C74_fails_close`), and from 1 January 1800 to the first (`C74_fails_start`). Shown false in general or outside the claim by: C74_fails_close, C74_fails_start."
  },
  {
   "property": "C75",
   "status": "partial",
   "theorems": [
    "PyCal.Zonal.C75_until_partial",
    "PyCal.Zonal.C75_open",
    "PyCal.Zonal.C75_fails_day",
    "PyCal.Zonal.C75_fails_hours",
    "PyCal.Zonal.C75_fails_seconds"
   ],
   "note": "C75_until_partial: the end of a zone line is the year, or the beginning of the month of the year, or the day named, at midnight or at the time written, with its letter; a comment after it is ignored. Missing: the only days with a weekday that are known are lastSun, lastSat, Sun>=1 and Sun>=8 (`C75_fails_day`); times of hours only (`C75_fails_hours`), and with seconds and a letter (`C75_fails_seconds`) are not read. Shown false in general or outside the claim by: C75_fails_day, C75_fails_hours, C75_fails_seconds."
  },
  {
   "property": "C76",
   "status": "partial",
   "theorems": [
    "PyCal.TzComp.C76_added",
    "PyCal.TzComp.C76_present_partial",
    "PyCal.TzComp.C76_again",
    "PyCal.TzComp.C76_fails_rdate",
    "PyCal.TzComp.C76_fails_nested",
    "PyCal.TzComp.C76_fails_default"
   ],
   "note": "C76_present_partial: afterwards a TZID used by a date-time has its VTIMEZONE in the calendar, unless the database has none for it, or it calls it standard and not all were asked for. What is missing for the full claim: TZIDs in lists of date-times, in periods and in inner components are not looked for. Shown false in general or outside the claim by: C76_fails_rdate, C76_fails_nested, C76_fails_default."
  },
  {
   "property": "C77",
   "status": "proved",
   "theorems": [
    "PyCal.TzComp.C77_left",
    "PyCal.TzComp.C77_changed",
    "PyCal.TzComp.C77_restored",
    "PyCal.TzComp.C77_stays"
   ],
   "note": ""
  },
  {
   "property": "C78",
   "status": "partial",
   "theorems": [
    "PyCal.DComp.C78_master",
    "PyCal.DComp.C78_start",
    "PyCal.DComp.C78_same_zone",
    "PyCal.DComp.C78_instant_partial",
    "PyCal.DComp.C78_period",
    "PyCal.DComp.C78_length_partial",
    "PyCal.DComp.C78_duration",
    "PyCal.DComp.C78_fails_todo",
    "PyCal.DComp.C78_fails_dtend",
    "PyCal.DComp.C78_fails_length"
   ],
   "note": "C78_instant_partial: a date-time in UTC or in a zone is put into the zone of the master's DTSTART; it is the same moment if that zone gives the same offset for the UTC time and for the clock time shown (C37 says when). Missing: the hour shown twice (`C37_fails_ambiguous`), and the years whose end the library counts wrongly (C03). C78_length_partial: in UTC, at a fixed offset and in floating time the new component is as long as the master. Missing: named zones, where the length is added to the clock time (`C78_fails_length`). Shown false in general or outside the claim by: C78_fails_todo, C78_fails_dtend, C78_fails_length."
  },
  {
   "property": "C79",
   "status": "partial",
   "theorems": [
    "PyCal.PeriodObj.C79_accepts",
    "PyCal.PeriodObj.C79_end",
    "PyCal.PeriodObj.C79_duration_partial",
    "PyCal.PeriodObj.C79_json_end",
    "PyCal.PeriodObj.C79_json_duration_partial",
    "PyCal.PeriodObj.C79_fails_plus",
    "PyCal.PeriodObj.C79_fails_negative",
    "PyCal.PeriodObj.C79_fails_reuse"
   ],
   "note": "C79_duration_partial: the text of a period with a duration that is not negative is read as a period with that duration. Missing: negative durations (`C79_fails_negative`). C79_json_duration_partial: and for the jCal form of a period with a duration. Missing: negative durations. Shown false in general or outside the claim by: C79_fails_plus, C79_fails_negative, C79_fails_reuse."
  },
  {
   "property": "C80",
   "status": "partial",
   "theorems": [
    "PyCal.PeriodObj.C80_look",
    "PyCal.PeriodObj.C80_values",
    "PyCal.PeriodObj.C80_written_partial",
    "PyCal.PeriodObj.C80_adjust_partial",
    "PyCal.PeriodObj.C80_fails_zone",
    "PyCal.PeriodObj.C80_fails_adjust"
   ],
   "note": "C80_written_partial: for a period in UTC or floating time that does not end before it starts, however it was made, whatever was asked of it before and whichever way of writing is chosen, its copy and what its text is read as have the same start and end. Missing: periods in a timezone (`C80_fails_zone`), dates, and spans over the end of a non-leap century year, where the difference of two date-times is off by a day (C03). C80_adjust_partial: where the offset from UTC does not depend on the date, it makes no difference to the period in UTC whether the end had been asked for before. Missing: timezones (`C80_fails_adjust`). Shown false in general or outside the claim by: C80_fails_zone, C80_fails_adjust."
  },
  {
   "property": "C81",
   "status": "partial",
   "theorems": [
    "PyCal.C81_single",
    "PyCal.C81_list_partial",
    "PyCal.C81_json_partial",
    "PyCal.C81_periods_partial",
    "PyCal.C81_fails_mixed",
    "PyCal.C81_fails_list",
    "PyCal.C81_fails_period",
    "PyCal.C81_fails_setValue",
    "PyCal.C81_setValue"
   ],
   "note": "C81_list_partial: the same for a list of date-times of one kind in a property that can have several values (RDATE, EXDATE). Missing: other lists (`C81_fails_mixed`, `C81_fails_list`). C81_json_partial: the same from jCal. Missing: as for the text. C81_periods_partial: periods in UTC, floating or with dates are read from the text. Missing: periods in a timezone, which is not written (`C81_fails_period`). Shown false in general or outside the claim by: C81_fails_mixed, C81_fails_list, C81_fails_period, C81_fails_setValue."
  },
  {
   "property": "C82",
   "status": "partial",
   "theorems": [
    "PyCal.C82_ical_partial",
    "PyCal.C82_vcard_partial",
    "PyCal.C82_fails_class",
    "PyCal.C82_fails_vcard"
   ],
   "note": "C82_ical_partial: where it holds in iCalendar: the type of the value of a property is the same after writing and reading jCal, exactly if the library has a class for the type that the property asks for. Missing: the types BOOLEAN and TIME. C82_vcard_partial: where it holds in vCards: the type is the same after writing and reading jCal, exactly if the library has a class for it, it is not a structured one, and it is not an offset from UTC that only the VALUE parameter tells. Missing: those. Shown false in general or outside the claim by: C82_fails_class, C82_fails_vcard."
  },
  {
   "property": "C83",
   "status": "partial",
   "theorems": [
    "PyCal.C83_accepts",
    "PyCal.C83_written",
    "PyCal.C83_roundtrip_partial",
    "PyCal.C83_fails_zone",
    "PyCal.C83_fails_lenient"
   ],
   "note": "C83_roundtrip_partial: a rule that is written in jCal and read again is the same rule, in whatever order the members come. Missing: rules that are not `Writable`, of which those with an UNTIL in a time zone can occur (`C83_fails_zone`). Shown false in general or outside the claim by: C83_fails_zone, C83_fails_lenient."
  },
  {
   "property": "C84",
   "status": "partial",
   "theorems": [
    "PyCal.C84_reports",
    "PyCal.C84_raises",
    "PyCal.C84_rfc_partial",
    "PyCal.C84_fixed",
    "PyCal.C84_fails_dtstart"
   ],
   "note": "C84_rfc_partial: in a component without problems the properties occur as often as RFC 5545 says. Missing: the DTSTART of an event, which may occur several times (`C84_fails_dtstart`). Shown false in general or outside the claim by: C84_fails_dtstart."
  },
  {
   "property": "C85",
   "status": "partial",
   "theorems": [
    "PyCal.C85_wholeNumber",
    "PyCal.C85_wholeGeo",
    "PyCal.C85_floatText",
    "PyCal.C85_params_iff",
    "PyCal.C85_ical_partial",
    "PyCal.C85_vcard_partial",
    "PyCal.C85_written",
    "PyCal.C85_fails_values",
    "PyCal.C85_fails_repeated",
    "PyCal.C85_fails_status",
    "PyCal.C85_integerText",
    "PyCal.C85_fails_geo",
    "PyCal.C85_fails_fraction",
    "PyCal.C85_fails_parts"
   ],
   "note": "C85_ical_partial: where it holds in iCalendar: a property whose parameters each stand alone with one value, and whose values are texts, numbers, coordinates, durations, offsets, request statuses or rules, comes back the same: name (but for case), parameters, type and values. Missing: parameters with several values, and a type asked for with VALUE that the library has no class for; date-times are in C81. C85_vcard_partial: where it holds in vCards. Missing: parameters with several values, groups, and types that only the VALUE parameter tells and that jCal does not keep (C82). Shown false in general or outside the claim by: C85_fails_values, C85_fails_repeated, C85_fails_status, C85_fails_geo, C85_fails_fraction, C85_fails_parts."
  },
  {
   "property": "C86",
   "status": "partial",
   "theorems": [
    "PyCal.C86_written",
    "PyCal.C86_roundtrip_partial",
    "PyCal.C86_cards_partial",
    "PyCal.C86_cards_all",
    "PyCal.C86_placed",
    "PyCal.C86_fails_container",
    "PyCal.C86_fails_case"
   ],
   "note": "C86_roundtrip_partial: where it holds: the jCal form of a container is read as the same container, if each property is read from what is written for it (C81, C83, C85). Missing: components whose type has small letters or is `UNKNOWN`, or that the component around does not take. C86_cards_partial: several cards: the array of what is written for cards is read as the same cards in the same order. Missing: as for one container. Shown false in general or outside the claim by: C86_fails_container, C86_fails_case."
  },
  {
   "property": "C87",
   "status": "partial",
   "theorems": [
    "PyCal.FB87.C87_busy_partial",
    "PyCal.FB87.C87_found_partial",
    "PyCal.FB87.C87_queries",
    "PyCal.FB87.C87_fails_type",
    "PyCal.FB87.C87_fails_expand",
    "PyCal.FB87.C87_fails_duration",
    "PyCal.FB87.C87_fails_stale",
    "PyCal.FB87.C87_fails_stale_always",
    "PyCal.FB87.C87_added_partial"
   ],
   "note": "C87_busy_partial: what `cacheBusyTime` finds, for FBTYPE values of the standard: nothing if the component lists no busy period; otherwise exactly the busy periods the component lists, each with its type, the earliest first (those that start together in the order of the component); and a span from DTSTART, or else the first start, to DTEND, or else the last end. (Missing: other FBTYPE values, `C87_fails_type`; DURATION, `C87_fails_duration`.) C87_found_partial: a component is found for a range that overlaps one of its busy periods, provided DTSTART and DTEND, where given, do not cut the busy period. Missing: DTSTART with DURATION, `C87_fails_duration`, and types of busy time outside the standard, `C87_fails_type`. C87_added_partial: a property added before the first query or before a copy: the component is found for a range that overlaps a busy period it listed before, and for one that overlaps a busy period of the new property. Needed: as for `C87_found_partial`. Missing: properties added after a query, `C87_fails_stale_always`. Shown false in general or outside the claim by: C87_fails_type, C87_fails_expand, C87_fails_duration, C87_fails_stale, C87_fails_stale_always."
  },
  {
   "property": "C88",
   "status": "partial",
   "theorems": [
    "PyCal.Zonal.C88_fails_start",
    "PyCal.Zonal.C88_fails_none",
    "PyCal.Zonal.C88_fails_until",
    "PyCal.Zonal.C88_fails_name",
    "PyCal.Zonal.C88_exact_partial",
    "PyCal.Zonal.C88_name",
    "PyCal.Zonal.C88_fails_format"
   ],
   "note": "C88_exact_partial: the components of the VTIMEZONE that is written for a zone take effect exactly at the transitions of the zone, with their offsets, as DAYLIGHT if the rule (or line) saves time and STANDARD if not; where nothing ends a rule they go on after its last transition as the rule does. Here the lines with `LMT`, which are left out, come first, and the other lines have the transitions that `LineOk` describes. Missing: `C88_fails_start`, `C88_fails_none`, `C88_fails_until`, and the rules for which C72 fails. Shown false in general or outside the claim by: C88_fails_start, C88_fails_none, C88_fails_until, C88_fails_name, C88_fails_format."
  },
  {
   "property": "C89",
   "status": "partial",
   "theorems": [
    "PyCal.C89_written_partial",
    "PyCal.C89_fails_raises",
    "PyCal.C89_fails_geo",
    "PyCal.C89_fails_offset",
    "PyCal.C89_fails_parameter"
   ],
   "note": "C89_written_partial: a property is written as RFC 6321 says, if its values are texts, numbers, dates, rules or offsets in whole minutes and its parameters are among those whose values are texts. Missing: durations, periods and request statuses (`C89_fails_raises`), GEO (`C89_fails_geo`), offsets with seconds (`C89_fails_offset`) and the other parameters (`C89_fails_parameter`). Shown false in general or outside the claim by: C89_fails_raises, C89_fails_geo, C89_fails_offset, C89_fails_parameter."
  },
  {
   "property": "C90",
   "status": "partial",
   "theorems": [
    "PyCal.C90_written_partial",
    "PyCal.C90_all",
    "PyCal.C90_root",
    "PyCal.C90_fails_raises"
   ],
   "note": "C90_written_partial: what is written for a component has the form of RFC 6321, and every property and component is in it once. Missing: that it is written (`C90_all`, `C90_fails_raises`). Shown false in general or outside the claim by: C90_fails_raises."
  },
  {
   "property": "C91",
   "status": "partial",
   "theorems": [
    "PyCal.C91_text_partial",
    "PyCal.C91_everything",
    "PyCal.C91_json_partial",
    "PyCal.C91_xml_partial",
    "PyCal.C91_fails_subs",
    "PyCal.C91_fails_nested",
    "PyCal.C91_fails_case",
    "PyCal.C91_subFilter",
    "PyCal.C91_testSub"
   ],
   "note": "C91_text_partial: what is written through a filter is what is written for the component that has only the properties and components the calls ask for. Missing: filters for components (`C91_fails_subs`) and names of properties that are not in capital letters (`C91_fails_case`). `bare`: a property without its value. C91_json_partial: the same in jCal, if there are no components or none are asked for. Missing: filters for components, all components (`C91_fails_nested`), and names not in capital letters. C91_xml_partial: the same in xCal; if the component has components but none are asked for, the element for them is there but empty. What is missing is as in jCal. Shown false in general or outside the claim by: C91_fails_subs, C91_fails_nested, C91_fails_case."
  },
  {
   "property": "C92",
   "status": "partial",
   "theorems": [
    "PyCal.C92_roundtrip_partial",
    "PyCal.C92_calendar_partial",
    "PyCal.C92_text",
    "PyCal.C92_utf8"
   ],
   "note": "C92_roundtrip_partial: the bytes written for a calendar are read as the same calendar, with the same group, name, parameters and value in every property. `PlainLine` says what a property must be like; components must not have the type of the calendar or `UNKNOWN` and must be where they may be. Missing: what is missing in C41 and C46; the values are in the theorems about each type. C92_calendar_partial: of `Calendar`: the same for `Calendar.parse`, if there is no component whose type differs from VTIMEZONE in case (`C41_fails_zone`). Missing: as in `C92_roundtrip_partial`."
  },
  {
   "property": "C93",
   "status": "partial",
   "theorems": [
    "PyCal.Attr.C93_edits_partial",
    "PyCal.Attr.C93_loaded",
    "PyCal.Attr.C93_status_partial",
    "PyCal.Attr.C93_set",
    "PyCal.Attr.C93_others",
    "PyCal.Attr.C93_fails_uid",
    "PyCal.Attr.C93_fails_summary",
    "PyCal.Attr.C93_fails_complete",
    "PyCal.Attr.C93_fails_none",
    "PyCal.Attr.C93_fails_case",
    "PyCal.Attr.C93_fails_floating",
    "PyCal.Attr.C93_fails_again",
    "PyCal.Attr.C93_fails_key",
    "PyCal.Attr.C93_description_partial",
    "PyCal.Attr.C93_fails_name"
   ],
   "note": "C93_edits_partial: after any edits of an event or a to-do that has been loaded, its attributes are those of a new component with the same properties. Missing: an empty summary (`C93_fails_summary`), the status \"completed\" of a to-do (`C93_fails_complete`). C93_status_partial: the status of a component that has been loaded is the one named by its STATUS, in upper case (`C93_fails_case`), and none if it has no STATUS or one not in the table. C93_description_partial: the description of a calendar and the property agree after an edit, and the name is left alone. Missing: the name (`C93_fails_name`). Shown false in general or outside the claim by: C93_fails_uid, C93_fails_summary, C93_fails_complete, C93_fails_none, C93_fails_case, C93_fails_floating, C93_fails_again, C93_fails_key, C93_fails_name."
  },
  {
   "property": "C94",
   "status": "partial",
   "theorems": [
    "PyCal.Attr.C94_state_partial",
    "PyCal.Attr.C94_fails_due",
    "PyCal.Attr.C94_fails_status"
   ],
   "note": "C94_state_partial: a to-do that is completed is done, one that is cancelled is cancelled, and one that is to be done or in process and has no due time is due now. Missing: those with a due time (`C94_fails_due`) or without a status (`C94_fails_status`). Shown false in general or outside the claim by: C94_fails_due, C94_fails_status."
  },
  {
   "property": "C95",
   "status": "proved",
   "theorems": [
    "PyCal.Zonal.C95_fields",
    "PyCal.Zonal.C95_rule_read",
    "PyCal.Zonal.C95_rule_write",
    "PyCal.Zonal.C95_rule_again",
    "PyCal.Zonal.C95_ruleset_write",
    "PyCal.Zonal.C95_fails_ruleset",
    "PyCal.Zonal.C95_zone_write",
    "PyCal.Zonal.C95_zone_again"
   ],
   "note": "Shown false in general or outside the claim by: C95_fails_ruleset."
  },
  {
   "property": "C96",
   "status": "partial",
   "theorems": [
    "PyCal.Zonal.C96_links",
    "PyCal.Zonal.C96_fails_blank",
    "PyCal.Zonal.C96_read_partial",
    "PyCal.Zonal.C96_strange",
    "PyCal.Zonal.C96_fails_last",
    "PyCal.Zonal.C96_fails_short",
    "PyCal.Zonal.C96_fails_note"
   ],
   "note": "C96_read_partial: a file of time zone data is read as what it says: the rules of each name in the order of the file, behind those of earlier files, the last zone of each name, and the last link for each name. Missing: files without an end of line at the end, `C96_fails_last`, and some lines that begin with blanks, `C96_fails_short`, `C96_fails_note`. Shown false in general or outside the claim by: C96_fails_blank, C96_fails_last, C96_fails_short, C96_fails_note."
  },
  {
   "property": "C97",
   "status": "partial",
   "theorems": [
    "PyCal.Zonal.C97_good",
    "PyCal.Zonal.C97_files",
    "PyCal.Zonal.C97_reach",
    "PyCal.Zonal.C97_list",
    "PyCal.Zonal.C97_text_partial",
    "PyCal.Zonal.C97_fails_text",
    "PyCal.Zonal.C97_fails_chain"
   ],
   "note": "C97_text_partial: if the name occurs once in the text, it is exchanged and nothing else is. Missing: names that occur more often, `C97_fails_text`. Shown false in general or outside the claim by: C97_fails_text, C97_fails_chain."
  },
  {
   "property": "C98",
   "status": "partial",
   "theorems": [
    "PyCal.Alm.C98_edits_partial",
    "PyCal.Alm.C98_set",
    "PyCal.Alm.C98_others",
    "PyCal.Alm.C98_loaded",
    "PyCal.Alm.C98_data",
    "PyCal.Alm.C98_trigger",
    "PyCal.Alm.C98_email",
    "PyCal.Alm.C98_duplicate_partial",
    "PyCal.Alm.C98_fails_unknown",
    "PyCal.Alm.C98_fails_case",
    "PyCal.Alm.C98_fails_related",
    "PyCal.Alm.C98_fails_attendees",
    "PyCal.Alm.C98_fails_interval",
    "PyCal.Alm.C98_fails_speak",
    "PyCal.Alm.C98_fails_key",
    "PyCal.Alm.C98_fails_duplicate"
   ],
   "note": "C98_edits_partial: after loading and any sequence of edits, an alarm tells what a new alarm with the same properties would tell, if the data of each new action is of its class and the action has a name. Missing: actions without a name, `C98_fails_unknown`. C98_duplicate_partial: a duplicate, if there is one, tells the same and has the same properties. Missing: alarms that cannot be duplicated, `C98_fails_duplicate`. Shown false in general or outside the claim by: C98_fails_unknown, C98_fails_case, C98_fails_related, C98_fails_attendees, C98_fails_interval, C98_fails_speak, C98_fails_key, C98_fails_duplicate."
  },
  {
   "property": "C99",
   "status": "partial",
   "theorems": [
    "PyCal.C99_exact",
    "PyCal.C99_append",
    "PyCal.C99_blank",
    "PyCal.C99_version",
    "PyCal.C99_roundtrip_partial",
    "PyCal.C99_fails_truncated",
    "PyCal.C99_fails_version",
    "PyCal.C99_fails_hang"
   ],
   "note": "C99_roundtrip_partial: the texts written for cards, one after another, are read as the same cards in the same order, with the same group, name, parameters and value in every property. Missing: what is missing in C46; binary photos, which are folded by a loop of their own; the values are in the theorems about each type. Shown false in general or outside the claim by: C99_fails_truncated, C99_fails_version, C99_fails_hang."
  },
  {
   "property": "C100",
   "status": "partial",
   "theorems": [
    "PyCal.C100_complete",
    "PyCal.C100_keeps",
    "PyCal.C100_result",
    "PyCal.C100_fails_truncated",
    "PyCal.C100_fails_unclosed",
    "PyCal.C100_fails_exception",
    "PyCal.C100_file",
    "PyCal.C100_noCalendar",
    "PyCal.C100_agrees"
   ],
   "note": "Shown false in general or outside the claim by: C100_fails_truncated, C100_fails_unclosed, C100_fails_exception."
  },
  {
   "property": "C101",
   "status": "partial",
   "theorems": [
    "PyCal.BusyTiming.C101_read",
    "PyCal.BusyTiming.C101_view",
    "PyCal.BusyTiming.C101_startEnd_iff",
    "PyCal.BusyTiming.C101_startEnd",
    "PyCal.BusyTiming.C101_startDuration_iff",
    "PyCal.BusyTiming.C101_duplicate",
    "PyCal.BusyTiming.C101_fails_none",
    "PyCal.BusyTiming.C101_fails_oneDay",
    "PyCal.BusyTiming.C101_fails_stale"
   ],
   "note": "Shown false in general or outside the claim by: C101_fails_none, C101_fails_oneDay, C101_fails_stale."
  },
  {
   "property": "C102",
   "status": "partial",
   "theorems": [
    "PyCal.C102_asked_partial",
    "PyCal.C102_ends_partial",
    "PyCal.C102_same",
    "PyCal.C102_text",
    "PyCal.C102_fixed",
    "PyCal.C102_element_partial",
    "PyCal.C102_history_partial",
    "PyCal.C102_date_partial",
    "PyCal.C102_agrees_partial",
    "PyCal.C102_order",
    "PyCal.C102_fails_order",
    "PyCal.C102_meets",
    "PyCal.C102_fails_thisYear",
    "PyCal.C102_fails_seconds"
   ],
   "note": "C102_asked_partial: after the offset was asked for: if at some time before the offset was asked for, for a time in the same year or a later one, then the text for a time describes the element with the last transition at or before it, and is empty if there is none. Missing: if the offset was not asked for (`C102_fails_thisYear`), dates. C102_ends_partial: every question is answered: in a time zone as parsed, after any queries, there is a text for every time, and allowing more iterations gives the same. Missing: rules that can run forever (`C28_fails_endless`). C102_element_partial: in a time zone as parsed, after any queries, the text for a time describes the element with the last transition at or before it (the first such element in the order of the time zone), and is empty if there is none. Needed: no element has a transition, other than its first, from 1 January of the year of the time up to the time. Missing: such times (`C102_fails_thisYear`), dates. C102_history_partial: under the same conditions the text does not depend on what was asked before, nor on the order in which sets are run through. Missing: the other times, `C102_fails_thisYear`. C102_date_partial: under the same conditions, the text of a date-time describes the element in force in the time zone that its TZID names, or in the default time zone if it has none; there is no text if the database does not have that time zone. Missing: the other times, `C102_fails_thisYear`. C102_agrees_partial: under the same conditions, in a time zone without names and with offsets in whole minutes, the text says the offset that `getTimezoneOffsetSeconds` gives, from the first transition on. Missing: offsets with seconds, `C102_fails_seconds`. Shown false in general or outside the claim by: C102_fails_order, C102_fails_thisYear, C102_fails_seconds."
  },
  {
   "property": "C103",
   "status": "partial",
   "theorems": [
    "PyCal.DateTime.C103_date",
    "PyCal.DateTime.C103_weekday_partial",
    "PyCal.DateTime.C103_year",
    "PyCal.DateTime.C103_noYear",
    "PyCal.DateTime.C103_clock",
    "PyCal.DateTime.C103_time",
    "PyCal.DateTime.C103_order",
    "PyCal.DateTime.C103_whole",
    "PyCal.DateTime.C103_zone",
    "PyCal.DateTime.C103_fails_weekday",
    "PyCal.DateTime.C103_fails_date"
   ],
   "note": "C103_weekday_partial: in the years 1901 to 2100 the day shown is the day of the week of the date. Missing: other years (`C103_fails_weekday`). Shown false in general or outside the claim by: C103_fails_weekday, C103_fails_date."
  },
  {
   "property": "C104",
   "status": "partial",
   "theorems": [
    "PyCal.C104_start",
    "PyCal.C104_end_partial",
    "PyCal.C104_duration_partial",
    "PyCal.C104_length_partial",
    "PyCal.C104_last",
    "PyCal.C104_self",
    "PyCal.C104_set",
    "PyCal.C104_copy",
    "PyCal.C104_copy_master",
    "PyCal.C104_fails_due",
    "PyCal.C104_fails_has",
    "PyCal.C104_fails_copy"
   ],
   "note": "C104_end_partial: the end of a changed instance with a DTEND is that. Missing: to-dos with DUE, `C104_fails_due`, and what it says about having an end, `C104_fails_has`. C104_duration_partial: a changed instance with a DURATION lasts as long as that says. Missing: what it says about having an end, `C104_fails_has`. C104_length_partial: a changed instance that says nothing of its end lasts as long as its master. Missing: to-dos with DUE, `C104_fails_due`. Shown false in general or outside the claim by: C104_fails_due, C104_fails_has, C104_fails_copy."
  },
  {
   "property": "C105",
   "status": "partial",
   "theorems": [
    "PyCal.C105_rules_partial",
    "PyCal.C105_copy_partial",
    "PyCal.C105_copySet_partial",
    "PyCal.C105_fails_copy",
    "PyCal.C105_fails_order",
    "PyCal.C105_fails_dates",
    "PyCal.C105_fails_equals",
    "PyCal.C105_simple",
    "PyCal.C105_advanced",
    "PyCal.C105_fails_dialog",
    "PyCal.C105_shown"
   ],
   "note": "C105_rules_partial: two lists of rules are equal just if the rules of one say the same as those of the other, in any order. For rules whose UNTIL are of one kind (C17) and that hold no stale count (C45). Missing: UNTIL of several kinds, `C105_fails_order`; lists of dates and periods, `C105_fails_dates`. C105_copy_partial: a copy of a rule equals it and has the same cache, if it has an UNTIL just when it uses it (as after parsing). Missing: the other rules, `C105_fails_copy`. C105_copySet_partial: the same for a set. Missing: the other rules, `C105_fails_copy`. Shown false in general or outside the claim by: C105_fails_copy, C105_fails_order, C105_fails_dates, C105_fails_equals, C105_fails_dialog."
  },
  {
   "property": "C106",
   "status": "partial",
   "theorems": [
    "PyCal.C106_second_partial",
    "PyCal.C106_first_partial",
    "PyCal.C106_start_partial",
    "PyCal.C106_matched_partial",
    "PyCal.C106_refl",
    "PyCal.C106_zones",
    "PyCal.C106_text_partial",
    "PyCal.C106_fails_text",
    "PyCal.C106_fails_start",
    "PyCal.C106_fails_order",
    "PyCal.C106_fails_data",
    "PyCal.C106_fails_missing",
    "PyCal.C106_data_partial",
    "PyCal.C106_fails_zones"
   ],
   "note": "C106_second_partial: all that is reported of two calendars' transitions of one time zone. Of the second calendar: exactly the transitions that the first does not have and at which the offset changes. Missing: transitions of time zone data, `C106_fails_data`. C106_first_partial: of the first calendar, if none of the differences is at the start: exactly the transitions that the second does not have and at which the offset changes. Missing: those at the start, `C106_fails_start`. C106_start_partial: in general, all that is reported of the first calendar is not in the second, and everything that is not in the second and changes the offset is reported, but for one transition at the start. Missing: that one, `C106_fails_start`. C106_matched_partial: \"Matched\" is said just if the two have the same transitions that change the offset, if none of the first's is at the start. Missing: those, `C106_fails_start`. C106_text_partial: different offsets of less than sixty hours are shown as different texts. Missing: longer offsets, `C106_fails_text`. C106_data_partial: time zone data: what `tzconvert.expandZone` gives for a zone, to be compared, shows at every instant, from the first transition in the first year on, the offset that the lines of the zone show, and with each transition the offset in force just before it. Needed: as in `C74_offsets_partial`. Missing: the same. Shown false in general or outside the claim by: C106_fails_text, C106_fails_start, C106_fails_order, C106_fails_data, C106_fails_missing, C106_fails_zones."
  },
  {
   "property": "C107",
   "status": "partial",
   "theorems": [
    "PyCal.C107_utc",
    "PyCal.C107_utc_tzid",
    "PyCal.C107_number",
    "PyCal.C107_text",
    "PyCal.C107_others",
    "PyCal.C107_kind",
    "PyCal.C107_fails_type",
    "PyCal.C107_control",
    "PyCal.C107_control_order"
   ],
   "note": "Shown false in general or outside the claim by: C107_fails_type."
  },
  {
   "property": "C108",
   "status": "proved",
   "theorems": [
    "PyCal.C108_exact",
    "PyCal.C108_rfc"
   ],
   "note": ""
  },
  {
   "property": "C109",
   "status": "partial",
   "theorems": [
    "PyCal.C109_same",
    "PyCal.C109_layout",
    "PyCal.C109_calendar_partial",
    "PyCal.C109_fails_geo"
   ],
   "note": "C109_calendar_partial: the XML text of a calendar is made from exactly the elements of the calendar, with its texts unchanged, unless there is a floating point number among the texts. Missing: calendars with one, `C109_fails_geo`. Shown false in general or outside the claim by: C109_fails_geo."
  },
  {
   "property": "C110",
   "status": "partial",
   "theorems": [
    "PyCal.C110_exact",
    "PyCal.C110_vcard_partial",
    "PyCal.C110_symmetric",
    "PyCal.C110_transitive_partial",
    "PyCal.C110_hash_partial",
    "PyCal.C110_fails_group",
    "PyCal.C110_fails_case",
    "PyCal.C110_fails_text",
    "PyCal.C110_fails_rule",
    "PyCal.C110_fails_ne"
   ],
   "note": "C110_vcard_partial: vCard: the same, without the group (`C110_fails_group`). C110_transitive_partial: `==` is transitive, if the dates and date-times in the values are of a family on which `==` is. Missing: the others, as for components (`C61_fails_floating`). C110_hash_partial: properties that are `==` have one hash, if the dates and date-times in the values are of a family on which that is so (C18), and the lists of recurrence rules are in ascending order. Missing: other dates (`C18_fails_dates`, `C18_fails_floating`), other rules (`C45_fails_hash`, `C110_fails_rule`). Shown false in general or outside the claim by: C110_fails_group, C110_fails_case, C110_fails_text, C110_fails_rule, C110_fails_ne."
  },
  {
   "property": "C111",
   "status": "partial",
   "theorems": [
    "PyCal.C111_unfold",
    "PyCal.C111_read",
    "PyCal.C111_roundtrip_partial",
    "PyCal.C111_fails_long",
    "PyCal.C111_fails_novalue"
   ],
   "note": "C111_roundtrip_partial: the text of a photo is read as a property with the same group, name, parameters and value, with any properties after it. Missing: what is missing in C46 (parameter values that cannot be read back). Shown false in general or outside the claim by: C111_fails_long, C111_fails_novalue."
  },
  {
   "property": "C112",
   "status": "partial",
   "theorems": [
    "PyCal.C112_fails_new",
    "PyCal.C112_fails_text",
    "PyCal.C112_fails_duplicate",
    "PyCal.C112_empty_partial",
    "PyCal.C112_duplicate_partial"
   ],
   "note": "C112_empty_partial: a card made without default properties has none; its text is the two lines of an empty card, and it can be copied. Missing: cards made with default properties, `C112_fails_new`, `C112_fails_text`. C112_duplicate_partial: a card is copied exactly if every property has a value, and the copy has the same properties. Missing: cards made with default properties. Shown false in general or outside the claim by: C112_fails_new, C112_fails_text, C112_fails_duplicate."
  },
  {
   "property": "C113",
   "status": "partial",
   "theorems": [
    "PyCal.C113_read",
    "PyCal.C113_written",
    "PyCal.C113_raise",
    "PyCal.C113_fails_ignore"
   ],
   "note": "Shown false in general or outside the claim by: C113_fails_ignore."
  },
  {
   "property": "C114",
   "status": "partial",
   "theorems": [
    "PyCal.C114_float_partial",
    "PyCal.C114_again",
    "PyCal.C114_text",
    "PyCal.C114_fails_digits",
    "PyCal.C114_fails_exponent",
    "PyCal.C114_fails_nan",
    "PyCal.C114_integer",
    "PyCal.C114_geo_partial",
    "PyCal.C114_geo_backslash",
    "PyCal.C114_fails_index"
   ],
   "note": "C114_float_partial: a text is written for what was read from the text of a number, and stands for that number, with the same sign, just if the number has at most twelve significant digits and is 0 or from 0.0001 to less than 100000000000. Missing: the other numbers, `C114_fails_digits` and `C114_fails_exponent`. C114_geo_partial: coordinates: the two numbers are read, and what is written for numbers as above has texts of these numbers and is read as the same floats. Missing: the other numbers, `C114_fails_digits`, and texts without the first number, `C114_fails_index`. Shown false in general or outside the claim by: C114_fails_digits, C114_fails_exponent, C114_fails_nan, C114_fails_index."
  },
  {
   "property": "C115",
   "status": "partial",
   "theorems": [
    "PyCal.C115_written_partial",
    "PyCal.C115_fails_type",
    "PyCal.C115_read_partial",
    "PyCal.C115_fails_several",
    "PyCal.C115_fails_org",
    "PyCal.C115_org_partial"
   ],
   "note": "C115_written_partial: the value that is written for a name or an address is the array that RFC 7095 has, and the name is in small letters. Missing: the type, `C115_fails_type`. C115_read_partial: jCard data with texts as components is read as these components, whatever the case of the type. Missing: components with several values, `C115_fails_several`. C115_org_partial: an organisation with units is written as the array of RFC 7095. Missing: organisations without units, `C115_fails_org`. Shown false in general or outside the claim by: C115_fails_type, C115_fails_several, C115_fails_org."
  },
  {
   "property": "C116",
   "status": "partial",
   "theorems": [
    "PyCal.C116_words",
    "PyCal.C116_name_partial",
    "PyCal.C116_fails_empty",
    "PyCal.C116_fails_set",
    "PyCal.C116_duplicate_partial",
    "PyCal.C116_fails_many",
    "PyCal.C116_fails_short"
   ],
   "note": "C116_name_partial: if no component has several texts of which one is empty, the full name has the texts that are not empty, with one space between them. Missing: other names, `C116_fails_empty`. C116_duplicate_partial: the copy of a name or address that was read (too many components being cut off or refused) is the same. Missing: names with too many components, `C116_fails_many`, or too few from jCard, `C116_fails_short`. Shown false in general or outside the claim by: C116_fails_empty, C116_fails_set, C116_fails_many, C116_fails_short."
  },
  {
   "property": "C117",
   "status": "partial",
   "theorems": [
    "PyCal.C117_unpack",
    "PyCal.C117_restored_partial",
    "PyCal.C117_order",
    "PyCal.C117_injective",
    "PyCal.C117_fails_year",
    "PyCal.C117_fails_negative",
    "PyCal.C117_fails_table"
   ],
   "note": "C117_restored_partial: a date in the years before 65536 is restored. Missing: other years, `C117_fails_year` and `C117_fails_negative`. Shown false in general or outside the claim by: C117_fails_year, C117_fails_negative, C117_fails_table."
  },
  {
   "property": "C118",
   "status": "partial",
   "theorems": [
    "PyCal.C118_kinds",
    "PyCal.C118_id",
    "PyCal.C118_new",
    "PyCal.C118_first",
    "PyCal.C118_name_partial",
    "PyCal.C118_fails_utc",
    "PyCal.C118_floating_partial",
    "PyCal.C118_fails_number",
    "PyCal.C118_fails_new",
    "PyCal.C118_duplicate",
    "PyCal.C118_match",
    "PyCal.C118_match_iff",
    "PyCal.C118_fails_match",
    "PyCal.C118_same_partial",
    "PyCal.C118_fails_zero"
   ],
   "note": "C118_name_partial: with the default time zone set by a name, a time zone made without arguments is the one made with that name, just if the name is not another spelling of UTC. Missing: other spellings, `C118_fails_utc`. C118_floating_partial: a floating time has the offset of the default time zone, if that was set by a name, or by a text for UTC; for no time zone, as which UTC is looked up, the data must have 0. Missing: a default time zone given by a number, `C118_fails_number`. C118_same_partial: the comparison of time zone objects agrees with that of the time zones of date-times, unless an identifier is empty or an offset of 0. Missing: those, `C118_fails_zero`. Shown false in general or outside the claim by: C118_fails_utc, C118_fails_number, C118_fails_new, C118_fails_match, C118_fails_zero."
  },
  {
   "property": "C119",
   "status": "partial",
   "theorems": [
    "PyCal.C119_element",
    "PyCal.C119_sorted",
    "PyCal.C119_order",
    "PyCal.C119_offsets_partial",
    "PyCal.C119_copy_partial",
    "PyCal.C119_fails_name"
   ],
   "note": "C119_offsets_partial: also if several observances have one DTSTART, the offsets do not depend on the order of the observances in the text, nor on what was asked before. Needed: what `C36_zone_partial` needs. Missing: the name that is shown, `C119_fails_name`. C119_copy_partial: a copy, made at any time, gives the offsets that the original gives, whatever was asked of the original before or is asked of either afterwards. Needed: what `C36_zone_partial` needs. Missing: as for `C119_offsets_partial`. Shown false in general or outside the claim by: C119_fails_name."
  },
  {
   "property": "C120",
   "status": "partial",
   "theorems": [
    "PyCal.C120_range_partial",
    "PyCal.C120_exact_partial",
    "PyCal.C120_ends_partial",
    "PyCal.C120_fails_year",
    "PyCal.C120_fails_history",
    "PyCal.C120_fails_end"
   ],
   "note": "C120_range_partial: in a time zone as parsed (see `C35_zone_partial`), in whatever state previous calls left it, `expandAll(start, end)` gives a list of transitions of the time zone, each once and in the order of their local times, with their UTC times, all from `start` to `end`; and it has all from `start` to before 1 January of the year of `end`. Missing: those in the year of `end` (see `C120_exact_partial`); date-only arguments. C120_exact_partial: the first call of `expandAll(start, end)` on a time zone as parsed gives exactly the transitions from `start` to before `end`. Needed: elements with recurrences start in a year before that of `end` (`C120_fails_year`), those without do not start at `end` (`C120_fails_end`). Missing: later calls with an `end` in the same year (`C120_fails_history`). C120_ends_partial: the call ends, in whatever state previous calls left the time zone, and more iterations than needed give the same list. Missing: which transitions are listed, `C120_fails_year`, `C120_fails_history` and `C120_fails_end`. Shown false in general or outside the claim by: C120_fails_year, C120_fails_history, C120_fails_end."
  },
  {
   "property": "C121",
   "status": "proved",
   "theorems": [
    "PyCal.C121_found",
    "PyCal.C121_all",
    "PyCal.C121_raises",
    "PyCal.C121_named",
    "PyCal.C121_private"
   ],
   "note": ""
  },
  {
   "property": "C122",
   "status": "partial",
   "theorems": [
    "PyCal.C122_ask",
    "PyCal.C122_component_partial",
    "PyCal.C122_calendar_partial",
    "PyCal.C122_fails_unnamed",
    "PyCal.C122_fails_stale",
    "PyCal.C122_fails_raises"
   ],
   "note": "C122_component_partial: of a component other than a calendar: `removeAllComponent` never raises, whatever else `==` says, and leaves none of the name and all others, in order; without a name (or with an empty one) nothing is left. Missing: calendars, which record components by UID, `C122_fails_unnamed`, `C122_fails_stale`, `C122_fails_raises`. C122_calendar_partial: of a calendar after any history of proper operations (`C47_index_partial`): with a name `removeAllComponent` does not raise, leaves the components of other names in order, and what is recorded for each UID is again exactly what is contained. Missing: histories that are not proper, and no name; then it is false (`C122_fails_unnamed`, `C122_fails_raises`). Shown false in general or outside the claim by: C122_fails_unnamed, C122_fails_stale, C122_fails_raises."
  },
  {
   "property": "C123",
   "status": "partial",
   "theorems": [
    "PyCal.C123_exact_partial",
    "PyCal.C123_recurring",
    "PyCal.C123_fails_period",
    "PyCal.C123_fails_attribute"
   ],
   "note": "C123_exact_partial: what the expansion of a component gives are exactly the instants that its DTSTART, its RRULE and its RDATE properties say in the range and its EXRULE and EXDATE properties do not bar, each once. Missing: RDATE or EXDATE with periods (`C123_fails_period`), and, as in C34, dates and times that do not compare as instants and rules that have been expanded before. Shown false in general or outside the claim by: C123_fails_period, C123_fails_attribute."
  },
  {
   "property": "C124",
   "status": "partial",
   "theorems": [
    "PyCal.C124_text_partial",
    "PyCal.C124_duration_partial",
    "PyCal.C124_nested",
    "PyCal.C124_same",
    "PyCal.C124_fails_text",
    "PyCal.C124_fails_duration",
    "PyCal.C124_space",
    "PyCal.C124_fails_geo",
    "PyCal.C124_fails_date",
    "PyCal.C124_fails_uri",
    "PyCal.C124_fails_status"
   ],
   "note": "C124_text_partial: for texts, exactly: after `allRaise` a text is read exactly if each backslash begins an escape that is known or is the last character, and then as what the escapes say. Missing: the standards know neither `\\r` nor a backslash at the end (`C124_fails_text`). C124_duration_partial: for durations, exactly: after `allRaise` a duration is read exactly if RFC 5545 allows it or it has seconds right after the hours, and then as the time it says. Missing: `C124_fails_duration`. Shown false in general or outside the claim by: C124_fails_text, C124_fails_duration, C124_fails_geo, C124_fails_date, C124_fails_uri, C124_fails_status."
  },
  {
   "property": "C125",
   "status": "proved",
   "theorems": [
    "PyCal.C125_control",
    "PyCal.C125_clean",
    "PyCal.C125_card"
   ],
   "note": ""
  },
  {
   "property": "C126",
   "status": "partial",
   "theorems": [
    "PyCal.Rule.C126_set_partial",
    "PyCal.Rule.C126_simple_partial",
    "PyCal.Rule.C126_complex_partial",
    "PyCal.Rule.C126_fails_until",
    "PyCal.Rule.C126_fails_until_date",
    "PyCal.Rule.C126_fails_start"
   ],
   "note": "C126_set_partial: a setter assigns the part it is for, leaves the other parts as they are, and clears the cache if anything changed. Needed: the UNTIL given does not merely equal the old one (`C126_fails_until`). C126_simple_partial: rules without BYxxx parts: whatever was set and expanded before, with whatever parts the rule had at the time, the answer (dates and `limited` flag) is the one a new object with the parts the rule has now gives. Needed: the earlier queries and this one are as in `C30_simple_partial` and `C30_complex_partial`. Missing: an UNTIL equal to the old one, `C126_fails_until`, and a start that is itself changed, `C126_fails_start`. C126_complex_partial: rules with BYxxx parts: whatever was set and expanded before, the dates are those a new object with the parts the rule has now gives. Needed: as for `C126_simple_partial`; the `limited` flag can depend on earlier queries (`C30_fails_limited`). Shown false in general or outside the claim by: C126_fails_until, C126_fails_until_date, C126_fails_start."
  },
  {
   "property": "C127",
   "status": "partial",
   "theorems": [
    "PyCal.Copy.C127_content",
    "PyCal.Copy.C127_independent_partial",
    "PyCal.Copy.C127_fails_shared",
    "PyCal.Copy.C127_raises_exact",
    "PyCal.Copy.C127_key_partial",
    "PyCal.Copy.C127_fails_text"
   ],
   "note": "C127_independent_partial: independence: let the objects made so far be those below `n`. If no organisation, name or address holds a list, then after any changes of objects other than those the copy is made of (old ones, and ones made later) the copy is what it was, and after any changes of objects that the copy is made of or that were made later the original is what it was. Needed: no such lists; see `C127_fails_shared`. C127_key_partial: the order in the text: a component that has a UID or is of unknown type (or is part of a time zone) is put where its original is put: the copy has its key. Missing: other components, such as alarms, `C127_fails_text`. Shown false in general or outside the claim by: C127_fails_shared, C127_fails_text."
  },
  {
   "property": "C128",
   "status": "partial",
   "theorems": [
    "PyCal.Query.C128_fails_freebusy",
    "PyCal.Query.C128_fails_fb",
    "PyCal.Query.C128_fails_list",
    "PyCal.Query.C128_fails_todos"
   ],
   "note": "Shown false in general or outside the claim by: C128_fails_freebusy, C128_fails_fb, C128_fails_list, C128_fails_todos."
  },
  {
   "property": "C129",
   "status": "partial",
   "theorems": [
    "PyCal.C129_ical_partial",
    "PyCal.C129_vcard_partial",
    "PyCal.C129_raises",
    "PyCal.C129_accessors",
    "PyCal.C129_type",
    "PyCal.C129_kinds",
    "PyCal.C129_fails_string",
    "PyCal.C129_fails_list",
    "PyCal.C129_fails_none",
    "PyCal.C129_copies",
    "PyCal.C129_fails_special"
   ],
   "note": "C129_ical_partial: iCalendar: of a property that is made, the value is the one that was given exactly if that is a number, a date-time, duration, rule or period, a list, a UTC offset, or a string and the type asked for (or the default one of the name) is one of strings. Needed: the others, which C129 is false for. Missing: `C129_fails_string`, `C129_fails_none`. C129_vcard_partial: vCard: of a property that is made, the value is the one that was given exactly if that is a number, a date-time, a UTC offset, an address, a name, the list of an ORG, or a byte string where the type is one of strings. Needed: the others, which C129 is false for. Missing: `C129_fails_string`, `C129_fails_list`, `C129_fails_none`. Shown false in general or outside the claim by: C129_fails_string, C129_fails_list, C129_fails_none, C129_fails_special."
  },
  {
   "property": "C130",
   "status": "partial",
   "theorems": [
    "PyCal.C130_ical_partial",
    "PyCal.C130_vcard_partial",
    "PyCal.C130_ical_written",
    "PyCal.C130_vcard_written_partial",
    "PyCal.C130_fails_offset",
    "PyCal.C130_registered",
    "PyCal.C130_fails_case",
    "PyCal.C130_fails_other",
    "PyCal.C130_fails_agent"
   ],
   "note": "C130_ical_partial: iCalendar: a property of RFC 5545 that is read without VALUE, or with a VALUE that the RFC allows it, gets a value of the type that the RFC gives, and a list of values exactly if the RFC allows one, whatever a program registers. Missing: VALUE parameters not in capitals, `C130_fails_case`, and the properties that the RFC does not name, whose values are texts, `C130_fails_other`. C130_vcard_partial: vCard: the same for the properties of RFC 2426 other than AGENT. Missing: as before, and the card in an AGENT property, `C130_fails_agent`. C130_vcard_written_partial: what is written of vCard: the same for the properties of RFC 2426 other than AGENT. Missing: AGENT, and the offset in TZ if a program has asked for VALUE, `C130_fails_offset`. Shown false in general or outside the claim by: C130_fails_offset, C130_fails_case, C130_fails_other, C130_fails_agent."
  },
  {
   "property": "C131",
   "status": "partial",
   "theorems": [
    "PyCal.C131_exact",
    "PyCal.C131_read_partial",
    "PyCal.C131_fails_space",
    "PyCal.C131_fails_backslash"
   ],
   "note": "C131_read_partial: a line that the standards allow is read as what it says. Needed: no value of a parameter without quotes begins with a space, `C131_fails_space`, none in quotes ends in an odd number of backslashes, `C131_fails_backslash`. Shown false in general or outside the claim by: C131_fails_space, C131_fails_backslash."
  },
  {
   "property": "C132",
   "status": "partial",
   "theorems": [
    "PyCal.C132_read_partial",
    "PyCal.C132_fails_utc",
    "PyCal.C132_lists"
   ],
   "note": "C132_read_partial: the start and the recurrence set: a component written as the standards say has the start of its DTSTART line and the recurrence set of its RRULE, EXRULE, RDATE and EXDATE lines, in their order, whatever other lines there are between them, whatever the case of names, and in the time zone of the TZID parameter; without such lines it has none. Missing: RDATE with periods (`C123_fails_period`); parameter values that are not `Readable` (`C131_fails_space`, `C131_fails_backslash`). Shown false in general or outside the claim by: C132_fails_utc."
  },
  {
   "property": "C133",
   "status": "partial",
   "theorems": [
    "PyCal.Rule.C133_count_partial",
    "PyCal.Rule.C133_rule_partial",
    "PyCal.Rule.C133_setpos_partial",
    "PyCal.Rule.C133_setpos_count_partial"
   ],
   "note": "C133_count_partial: rules with COUNT: of the date-times after the start, the expansion over a range has exactly those that RFC 5545 describes and that have fewer than COUNT - 1 others between the start and themselves; the start is the first. Missing: as for `C133_rule_partial`; parts of which two values can give the same date, as the code then counts it twice (`C54_fails_duplicates`). C133_rule_partial: rules without COUNT: the expansion over a range consists of exactly the date-times that RFC 5545 describes: they are in one of the intervals, match all BYxxx parts, agree with the start where no part says anything, and are in the range, not before the start and not after UNTIL. Missing: `Standard`, that is BYYEARDAY (`C52_fails`), BYWEEKNO (`C31_fails_weekNo`), BYMONTH in WEEKLY rules (`C53_fails_weekly`), BYMONTHDAY without BYMONTH in YEARLY rules (`C53_fails_yearly`); BYSETPOS, for which see `C133_setpos_partial`; years to 2098 (`C05_fails`); `Good` as for C54. C133_setpos_partial: rules with BYSETPOS and without COUNT: the expansion over a range consists of exactly the date-times that RFC 5545 describes: of the dates of one interval that match the other parts, those at one of the positions, from the start or the end of the interval. Needed: two values of a part give different dates (`Distinct`), as a date would otherwise have two positions; dates of one interval have the same order by clock as by instant (`Steady`). Missing: as for `C133_rule_partial`; a date can be in the list twice (`C33_fails`). C133_setpos_count_partial: rules with BYSETPOS and COUNT: of the date-times after the start, the expansion over a range has exactly those that RFC 5545 describes and that have fewer than COUNT - 1 others between the start and themselves; the start is the first. Missing: as for `C133_setpos_partial`; positions of which two can be of the same date, which then counts twice (`C33_fails`)."
  },
  {
   "property": "C134",
   "status": "partial",
   "theorems": [
    "PyCal.C134_dates_partial",
    "PyCal.C134_limit_partial"
   ],
   "note": "C134_dates_partial: from the lines of an event to its dates: an event written as the standards say, with a start and lines for recurrence, is read; its expansion over a range ends, and then has, each of them once, exactly the dates that RFC 5545 gives: the start, the RDATEs and the instances of the RRULEs, without the EXDATEs and the instances of the EXRULEs, from the start of the range on and before its end. Missing: `OneKind`, that is what the standards allow beyond one kind of date-times with a fixed offset, and beyond rules that are `Handled` (see `C133_rule_partial`, `C133_setpos_partial`); COUNT in EXRULEs; RDATE with periods (`C123_fails_period`). C134_limit_partial: with a limit on the number of instances: if the expansion does not raise, it has the same dates. Missing: as for `C134_dates_partial`."
  },
  {
   "property": "C135",
   "status": "proved",
   "theorems": [
    "PyCal.C135_number",
    "PyCal.C135_dateTime",
    "PyCal.C135_utcOffset",
    "PyCal.C135_bounds",
    "PyCal.C135_fails_range",
    "PyCal.C135_fails_short",
    "PyCal.C135_fails_sign",
    "PyCal.C135_fails_separator"
   ],
   "note": "Shown false in general or outside the claim by: C135_fails_range, C135_fails_short, C135_fails_sign, C135_fails_separator."
  },
  {
   "property": "C136",
   "status": "partial",
   "theorems": [
    "PyCal.C136_dates_partial",
    "PyCal.C136_limit_partial"
   ],
   "note": "C136_dates_partial: from the lines of an event in a time zone to its dates: an event written as the standards say, with a start and lines for recurrence, is read; its expansion over a range ends, and then has, each of them once, exactly the dates that RFC 5545 gives in the range: the start, the RDATEs and the instances of the RRULEs, without the EXDATEs and the instances of the EXRULEs. The event may be in a time zone, and UNTILs, EXDATEs and the range on another clock, such as UTC. Missing: `Zoned`, that is RDATEs of another kind than the start (`C34_fails_dates`), EXDATEs of both kinds, clocks that show the same time twice around an end of the range or an UNTIL, rules that give several times of one day around a change of the offset (`Rule.Steady`), and rules that are not `Handled` (see `C133_rule_partial`, `C133_setpos_partial`); COUNT in EXRULEs; RDATE with periods (`C123_fails_period`). C136_limit_partial: with a limit on the number of instances: if the expansion does not raise, it has the same dates. Missing: as for `C136_dates_partial`."
  },
  {
   "property": "C137",
   "status": "partial",
   "theorems": [
    "PyCal.C137_instances_partial",
    "PyCal.C137_fails_case",
    "PyCal.C137_fails_todo",
    "PyCal.C137_fails_period",
    "PyCal.C137_fails_range",
    "PyCal.C137_fails_ranges",
    "PyCal.C137_fails_types",
    "PyCal.C137_fails_length"
   ],
   "note": "C137_instances_partial: from the text of a calendar to its instances: `getVEvents` of a calendar whose text is well-formed has for each event the instances that its lines and those of the other events with its UID describe, each with its start and its end, and no others: for a recurring event its dates in the period, other than those for which there is another event, each as long as the event itself, and for other events their own times, if they are in the period; events and their instances may be in different time zones. Missing: `EventFits`, that is: recurring events without DTEND (`C48_fails_duration`, `C48_fails_allday`) or at another offset at the end (`C48_fails_offset`), DURATION of a part of a day for dates, instances given by events that recur themselves, RECURRENCE-IDs of both kinds, `Zoned` (see `C136_dates_partial`); RANGE in RECURRENCE-ID (`C59_fails_range`, `C59_fails_future`); RECURRENCE-ID in other components (`C137_fails_todo`); `BEGIN:vevent` (`C137_fails_case`); `BEGIN:vtimezone` (`C40_fails_zone`); RDATE with periods (`C137_fails_period`). Shown false in general or outside the claim by: C137_fails_case, C137_fails_todo, C137_fails_period, C137_fails_range, C137_fails_ranges, C137_fails_types, C137_fails_length."
  },
  {
   "property": "C138",
   "status": "partial",
   "theorems": [
    "PyCal.C138_offset_partial",
    "PyCal.C138_utc_partial"
   ],
   "note": "C138_offset_partial: from the text of a calendar to the offsets of its time zones: `getTimezoneOffsetSeconds` of a calendar whose text is well-formed gives, for a local time and the name of one of its time zones, after whatever questions, the TZOFFSETTO of the observance with the last onset that is not after that time, as the lines of the time zone describe them, and 0 before the first onset; for other names it gives 0. Needed: `ZoneFits`, that is: onsets at whole minutes and not before DTSTART, from 1902 on, by YEARLY rules as in `C133_rule_partial`, or by RDATEs that are no periods. Missing: before the first onset (`C35_fails_before`), years to 2098 (`C05_fails`), dates (`C36_fails_date`), `BEGIN:vtimezone` (`C40_fails_zone`). C138_utc_partial: times in UTC: `getTimezoneOffsetSeconds` with `relative_to_utc` gives, for a time in UTC and the name of one of the time zones, the TZOFFSETTO of the observance with the last onset that, in UTC, is not after that time, and 0 before the first. Needed: as in `C138_offset_partial`; and `InOrder`: changes that are in the same order in UTC as on the clock, and not in a later year on the clock (`C36_fails_year`). Missing: years from 2098 on."
  },
  {
   "property": "C139",
   "status": "partial",
   "theorems": [
    "PyCal.C139_objects",
    "PyCal.C139_unknown",
    "PyCal.C139_offset_partial",
    "PyCal.C139_utc_partial",
    "PyCal.C139_instants_partial",
    "PyCal.C139_fails_known",
    "PyCal.C139_fails_cached"
   ],
   "note": "C139_offset_partial: the offsets after a calendar is read: when a calendar whose text is well-formed is read, and its TZIDs were not known before, then for a local time and the name of one of its time zones the database gives the TZOFFSETTO of the observance with the last onset that is not after that time, as the lines of the time zone describe them, and 0 before the first onset; whatever is asked and whatever other calendars are read before and after. Needed: as in `C138_offset_partial`. Missing: TZIDs that were known before (`C139_fails_known`), a directory with files. C139_utc_partial: offsets for times in UTC: likewise, for a time in UTC, with `relative_to_utc`, the TZOFFSETTO of the observance with the last onset that in UTC is not after that time, and 0 before the first. Needed: as in `C138_utc_partial`. Missing: as for `C139_offset_partial`. C139_instants_partial: from the text of a calendar to the instants of its events: when a calendar whose text is well-formed is read, and its TZIDs were not known before, then, with the offsets that the lines of its time zones describe: the database gives these offsets, whatever is asked and whatever other calendars are read before and after; `getVEvents` has for each event the instances that the lines describe, as in C137; and `getPosixTime` of their starts and ends in UTC or in one of the time zones of the calendar is the instant that the lines of the time zone describe. Needed: the events as in `C137_instances_partial`, the time zones as in `C138_offset_partial`; starts and ends that are date-times. Missing: TZIDs that were known before (`C139_fails_known`), date-times with values from before (`C139_fails_cached`), a directory with files, floating times, which have no instant, times before the first onset (`C35_fails_before`). Shown false in general or outside the claim by: C139_fails_known, C139_fails_cached."
  },
  {
   "property": "C140",
   "status": "partial",
   "theorems": [
    "PyCal.C140_shown_partial",
    "PyCal.C140_fails_twice"
   ],
   "note": "C140_shown_partial: from the text of a calendar to the local times of instants: when a calendar whose text is well-formed is read, and its TZIDs were not known before, then, with the offsets that the lines of its time zones describe: the database gives these offsets, whatever is asked and whatever other calendars are read before and after; `adjustTimezone` of a time in UTC to one of the time zones gives the clock that is ahead by the offset of the last onset that, in UTC, is not after it; and if one can tell from the clock which changes have been, the local time is the same instant as the lines describe it, `getPosixTime` gives this instant, and converted back to UTC it is the same time. Needed: the time zones as in `C138_utc_partial`. Missing: the hour shown twice (`C140_fails_twice`), times before the first onset (`C35_fails_before`), TZIDs that were known before (`C139_fails_known`), years from 2098 on. Shown false in general or outside the claim by: C140_fails_twice."
  },
  {
   "property": "C141",
   "status": "partial",
   "theorems": [
    "PyCal.C141_text",
    "PyCal.C141_time",
    "PyCal.C141_fails_offset",
    "PyCal.C141_offset",
    "PyCal.C141_rule_partial",
    "PyCal.C141_fails_missing",
    "PyCal.C141_line_partial",
    "PyCal.C141_fails_control",
    "PyCal.C141_fails_no_value"
   ],
   "note": "C141_rule_partial: rules: what `Recurrence.generate` writes is a `recur` that says the rule. Needed: at most one of COUNT and UNTIL, UNTIL in UTC, floating or a date, of the years 0 to 9999, and values that the parts may have. Missing: UNTIL in a time zone, COUNT with UNTIL (`C44_fails_zone`, `C44_fails_both`), a rule that is to use an UNTIL it does not have (`C141_fails_missing`), and lists that the setters let be empty or with values out of range. C141_line_partial: lines: what is written for a property is a content line of the standard with its name, its group, its value and, for each name, parameters with its values. Needed: names of letters, digits and hyphens, parameters with values, values of parameters without control characters but line breaks and tabs. Missing: parameters without values, `C141_fails_no_value`, and control characters, `C141_fails_control`. (That the value is of the grammar of its type is for the theorems above.) Shown false in general or outside the claim by: C141_fails_offset, C141_fails_missing, C141_fails_control, C141_fails_no_value."
  },
  {
   "property": "C142",
   "status": "partial",
   "theorems": [
    "PyCal.C142_offset_partial",
    "PyCal.C142_utc_partial",
    "PyCal.C142_zone_partial"
   ],
   "note": "C142_offset_partial: local times: the components that the time zone compiler makes of zones are written as a calendar, which can be read; then `getTimezoneOffsetSeconds` gives, for a local time and the name of one of the zones, the offset after the last change of its components that is not after that time, and 0 before the first. Needed: `Fits`, different names, and that the lines of the calendar itself and X-LIC-LOCATION can be read. Missing: rules with BYYEARDAY, seconds, years from 2099 on. C142_utc_partial: times in UTC: with `relative_to_utc`, the offset after the last change that, in UTC, is not after the time. Needed: as in `C142_offset_partial`, and that the changes are in order (`C138_utc_partial`). Missing: years from 2098 on. C142_zone_partial: zones: the same for a zone of the time zone data, with the transitions of the zone, and those with which its rules go on where nothing ends them (`C88_exact_partial`), in place of the components. Needed: as in `C142_offset_partial` and in `C88_exact_partial`. Missing: the same."
  },
  {
   "property": "C143",
   "status": "partial",
   "theorems": [
    "PyCal.C143_shown_partial",
    "PyCal.C143_asked_partial",
    "PyCal.C143_fails_thisYear"
   ],
   "note": "C143_shown_partial: from the text of a calendar to the names of its time zones: `getTimezoneDescriptor` of a calendar whose text is well-formed gives, for a local time and the name of one of its time zones, after whatever questions, the TZNAME in parentheses of the observance with the last onset that is not after that time, or without TZNAME its TZOFFSETTO, as the lines describe them, and nothing before the first onset; for other names it gives nothing. Needed: as in `C138_offset_partial`; no onset, but the first of an observance, from 1 January up to the time, or `C143_asked_partial`. Missing: such onsets (`C102_fails_thisYear`), several TZNAMEs, seconds of offsets (`C102_fails_seconds`), years to 2098 (`C05_fails`), dates. C143_asked_partial: after the offset was asked for: `getTimezoneDescriptor` is right for every time, if before it the offset of the time zone was asked for, for a time in the same year or a later one. Needed: as in `C138_offset_partial`. Missing: several TZNAMEs, seconds of offsets (`C102_fails_seconds`), years to 2098 (`C05_fails`), dates. Shown false in general or outside the claim by: C143_fails_thisYear."
  },
  {
   "property": "C144",
   "status": "partial",
   "theorems": [
    "PyCal.C144_lines_partial",
    "PyCal.C144_instances_partial",
    "PyCal.C144_fails_zones",
    "PyCal.C144_fails_space",
    "PyCal.C144_fails_date"
   ],
   "note": "C144_lines_partial: all lines: as in `C144_instances_partial`, with what has to be said of the other lines put in terms of the text: their values are of the types that RFC 5545 gives to the properties. Needed: components that compare equal have the same type (see C41); positions (GEO) and request states that are written can be read (see C68, C92). Missing: as in `C144_instances_partial`; commas in lists of texts (`C66_fails`); properties that RFC 5545 does not name, with a VALUE (`C148_fails_extra`). C144_instances_partial: written and read again: a calendar with events as in C137 is written as a text that can be read, and the calendar that is read from it has the same instances, in the same number, each with the same start and the same end, for every period (and every order in which components and properties are written). Needed: components that compare equal have the same type (see C41); the other properties and components are each read from what is written for them, which is left open here (`Kept`; see `C144_lines_partial`). Missing: what is missing in C137; several TZIDs in a line (`C144_fails_zones`); values of parameters that begin with a space (`C144_fails_space`); times that are said to be dates (`C144_fails_date`). (The folding of lines is in C22.) Shown false in general or outside the claim by: C144_fails_zones, C144_fails_space, C144_fails_date."
  },
  {
   "property": "C145",
   "status": "partial",
   "theorems": [
    "PyCal.C145_valid_partial",
    "PyCal.C145_fails_case"
   ],
   "note": "C145_valid_partial: a calendar that was parsed has a VERSION, and what its VERSION and its CALSCALE say is `2.0` and `GREGORIAN`: other texts are rejected, wherever in the calendar the line is. Missing: names that are not in capital letters, which the standard allows (`C145_fails_case`). Shown false in general or outside the claim by: C145_fails_case."
  },
  {
   "property": "C146",
   "status": "partial",
   "theorems": [
    "PyCal.C146_alarm_partial",
    "PyCal.C146_fails_attach"
   ],
   "note": "C146_alarm_partial: from the lines of an alarm to what it says: the action; when it goes off, at a time or so long from the start or the end; how often again and after which time; what is shown, or sent and to whom. Missing: names of actions and values of RELATED that are not in capital letters (`C98_fails_case`, `C98_fails_related`); ATTACH, of which nothing is kept (`C146_fails_attach`). Shown false in general or outside the claim by: C146_fails_attach."
  },
  {
   "property": "C147",
   "status": "partial",
   "theorems": [
    "PyCal.C147_busy_partial"
   ],
   "note": "C147_busy_partial: from the text of a calendar to its busy time: a VFREEBUSY of a calendar whose text is well-formed has the busy periods that its FREEBUSY lines list, each with its type and the earliest first; those that start together are in the order of the lines. It is found for a period exactly if that overlaps the time from DTSTART, or else the first start, to DTEND, or else the last end. Missing: types that the standard does not define (`C87_fails_type`), durations with a plus sign (`C79_fails_plus`)."
  },
  {
   "property": "C148",
   "status": "partial",
   "theorems": [
    "PyCal.C148_alarms_partial",
    "PyCal.C148_fails_related",
    "PyCal.C148_same_partial",
    "PyCal.C148_busy_partial",
    "PyCal.C148_fails_types",
    "PyCal.C148_fails_extra",
    "PyCal.C148_zones_partial"
   ],
   "note": "C148_alarms_partial: the alarms: as in `C148_same_partial`, and the alarms of the components that are read again tell the same as before. Missing: as in `C148_same_partial`; several values for RELATED (`C148_fails_related`). C148_same_partial: written and read again: a calendar whose lines have values of the types that RFC 5545 gives to the properties is written as a text that can be read, and the calendar that is read from it has the same components, up to their order, and in them the same properties with the same values of the same types (durations may be put differently) and the same parameters (for every order in which components and properties are written). Needed: components that compare equal have the same type (see C41); positions (GEO) and request states that are written can be read (see C68, C92), and of their values nothing is said here. Missing: as in `C144_lines_partial` (`C148_fails_extra`); parameters with several values (`C148_fails_types`). C148_busy_partial: the busy time: as in `C148_same_partial`, and the free-busy components that are read again have the same busy time, and are found for the same periods. Missing: as in `C148_same_partial`; several values for FBTYPE (`C148_fails_types`). C148_zones_partial: the time zones: as in `C148_same_partial`, and the time zones of the calendar that is read again are those of the calendar before; questions for offsets, one after the other, have the same answers. Needed: no two time zones of one name, and no two observances in a time zone with one DTSTART, which is a local time (in whatever order they are written). Missing: as in `C148_same_partial`. Shown false in general or outside the claim by: C148_fails_related, C148_fails_types, C148_fails_extra."
  },
  {
   "property": "C149",
   "status": "partial",
   "theorems": [
    "PyCal.C149_attributes_partial",
    "PyCal.C149_again_partial",
    "PyCal.C149_fails_case"
   ],
   "note": "C149_attributes_partial: from the text of a calendar to the attributes of its events and to-dos: UID, SEQUENCE, SUMMARY and STATUS, and of a to-do PRIORITY, PERCENT-COMPLETE and COMPLETED, are those of the lines, with escapes undone; and so are the name and the description of the calendar. Missing: names of states that are not in capital letters (`C149_fails_case`). C149_again_partial: the attributes of a calendar that is written and read again: as in `C148_same_partial`, and the events and to-dos have the same attributes (also the keys under which they are kept), and the calendar has the same name and description. Missing: as in `C148_same_partial`. Shown false in general or outside the claim by: C149_fails_case."
  },
  {
   "property": "C150",
   "status": "partial",
   "theorems": [
    "PyCal.C150_description_partial",
    "PyCal.C150_edits_partial"
   ],
   "note": "C150_description_partial: the description of a calendar: after `editDescription` the calendar that is written and read again has this description, the name that it had, and its other properties and its components. Missing: as in `C148_same_partial`; the name of a calendar cannot be edited (`C93_fails_name`). C150_edits_partial: what is edited is written: a calendar is read, an event or a to-do in it is edited (its UID, SEQUENCE, SUMMARY, DESCRIPTION, LOCATION and STATUS, the time when a to-do was completed, DTSTAMP and LAST-MODIFIED, in any order and as often as one likes), and the calendar is written and read again. Then the component that was edited has the attributes that it had after the edits, and the other components are as they were (`SameComp`, C148). Missing: as in `C148_same_partial`; edits of an event or a to-do with a RECURRENCE-ID; an empty summary (`C93_fails_summary`), the status \"completed\" of a to-do (`C93_fails_complete`), and its status 0, which makes a property without a value; times that are dates only."
  },
  {
   "property": "C151",
   "status": "partial",
   "theorems": [
    "PyCal.C151_startEnd_partial",
    "PyCal.C151_startDuration_partial",
    "PyCal.C151_oneDay_partial",
    "PyCal.C151_due_partial"
   ],
   "note": "C151_startEnd_partial: a start and an end: after `editTimingStartEnd` the event that is written and read again has this start and this end, no duration or due time from before, and its other properties; with `C62_startEnd_partial` these are the times that it had. Missing: as in `C150_edits_partial`; an all-day event of one day, `C151_oneDay_partial`. C151_startDuration_partial: a start and a duration: after `editTimingStartDuration` the event that is written and read again has this start, and ends when the duration is over; with `C62_startDuration_partial` these are the times that it had. Missing: as in `C150_edits_partial`; all-day events of one day (`C151_oneDay_partial`) or less; durations with weeks and days (`Duration.Unmixed`). C151_oneDay_partial: all-day events of one day: these are written without an end or a duration, and have their day when they are read again; with `C62_oneDay_partial` it is the day that they had. Missing: as in `C150_edits_partial`; durations of a part of a day. C151_due_partial: the time when a to-do is due: after `editTimingDue` the to-do that is written and read again is due then and has no start; with `C62_due_partial` it is what it was. Missing: as in `C150_edits_partial`."
  },
  {
   "property": "C152",
   "status": "partial",
   "theorems": [
    "PyCal.C152_alarms_partial",
    "PyCal.C152_new_partial"
   ],
   "note": "C152_alarms_partial: an alarm of an event or a to-do of a calendar that is read is edited, and the calendar is written and read again. Then the alarm tells what the alarm that was edited tells, and its other properties are as they were. Missing: actions without a text or a URI with a backslash; times of alarms in zones; as in `C150_edits_partial`. C152_new_partial: new alarms: an alarm without properties is edited and added to an event or a to-do of a calendar that was read, which is written and read again. Then there is one more alarm in the component, which tells what the new one tells. Missing: as in `C152_alarms_partial`."
  },
  {
   "property": "C153",
   "status": "partial",
   "theorems": [
    "PyCal.C153_added_partial",
    "PyCal.C153_removed_partial"
   ],
   "note": "C153_added_partial: two calendars in one: two calendars are read, and the components of the one are added to the other, which is written and read again. It then has the components of both, each as often as before, and the properties that it had. Missing: as in `C148_same_partial`. C153_removed_partial: components that are removed: after `removeAllComponent` the calendar that is written and read again has none of the components of this type, and all others. Missing: as in `C148_same_partial`; that `removeAllComponent` returns is C122."
  },
  {
   "property": "C154",
   "status": "partial",
   "theorems": [
    "PyCal.C154_changed_partial"
   ],
   "note": "C154_changed_partial: a calendar is read, the UID of its components is changed with `changeUID`, and it is written and read again. Then the components with the old UID have the new one, the others the UID that they had, and all else is as it was; the components are as many as before. Missing: as in `C148_same_partial`; components with the old UID and a RECURRENCE-ID; a new UID that is empty."
  }
 ]
}