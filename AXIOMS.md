# Axioms of the claim theorems

Output of `#print axioms` for every theorem named in MANIFEST.json, grouped.

## none (14 theorems)

* `PyCal.DateTime.C05_fails`
* `PyCal.DateTime.C10_fails`
* `PyCal.DateTime.C17_fails_dates`
* `PyCal.DateTime.C17_fails_floating`
* `PyCal.DateTime.C17_fails_gap`
* `PyCal.DateTime.C18_fails_dates`
* `PyCal.DateTime.C18_fails_floating`
* `PyCal.Alarm.C50_fails_trigger`
* `PyCal.Period.C51_gt_fails`
* `PyCal.BusyTiming.C101_duplicate`
* `PyCal.C102_fails_order`
* `PyCal.C104_copy`
* `PyCal.C105_fails_equals`
* `PyCal.C116_fails_set`

## propext (47 theorems)

* `PyCal.DateTime.C05_epoch`
* `PyCal.Duration.C14_eq_iff`
* `PyCal.Duration.C16_fresh_partial`
* `PyCal.TzDb.C39_stable`
* `PyCal.TzDb.C39_clear`
* `PyCal.TzDb.C39_fails_add`
* `PyCal.TzDb.C39_fails_addStandard`
* `PyCal.C45_hash_partial`
* `PyCal.Alarm.C50_fails_next`
* `PyCal.Alarm.C50_fails_completed`
* `PyCal.Alarm.C50_kept_partial`
* `PyCal.Alarm.C50_started`
* `PyCal.Recurring.C63_rules_partial`
* `PyCal.Recurring.C63_single`
* `PyCal.Recurring.C63_fails_raises`
* `PyCal.Recurring.C63_fails_exclude`
* `PyCal.C64_fails_text`
* `PyCal.C64_fails_class`
* `PyCal.C64_fails_special`
* `PyCal.C67_no_linefeed`
* `PyCal.Zonal.C70_name`
* `PyCal.Zonal.C72_fails_spill`
* `PyCal.Zonal.C72_fails_leap`
* `PyCal.Zonal.C72_fails_day`
* `PyCal.C81_fails_setValue`
* `PyCal.C81_setValue`
* `PyCal.C104_copy_master`
* `PyCal.C104_fails_copy`
* `PyCal.C105_fails_order`
* `PyCal.C105_simple`
* `PyCal.C106_fails_order`
* `PyCal.C106_fails_missing`
* `PyCal.C116_words`
* `PyCal.C117_fails_negative`
* `PyCal.C118_kinds`
* `PyCal.C118_match`
* `PyCal.C118_match_iff`
* `PyCal.C118_fails_match`
* `PyCal.C118_same_partial`
* `PyCal.C122_fails_unnamed`
* `PyCal.Rule.C126_fails_until`
* `PyCal.Query.C128_fails_list`
* `PyCal.Query.C128_fails_todos`
* `PyCal.C129_fails_string`
* `PyCal.C129_fails_list`
* `PyCal.C129_fails_none`
* `PyCal.C129_fails_special`

## propext, Quot.sound (170 theorems)

* `PyCal.DateTime.C03_posix_fails`
* `PyCal.DateTime.C04_diff_fails`
* `PyCal.DateTime.C04_dateOnly_fails`
* `PyCal.DateTime.C11_fails_sunday`
* `PyCal.DateTime.C11_fails_year_starting_sunday`
* `PyCal.DateTime.C13_fails`
* `PyCal.Duration.C14_total_ofSeconds`
* `PyCal.Duration.C14_total_ofAmounts`
* `PyCal.Duration.C14_ofSeconds_parts`
* `PyCal.Duration.C15_parse_grammar`
* `PyCal.Duration.C16_accept_partial`
* `PyCal.Obj.C19_fails_offset_query`
* `PyCal.Obj.C19_fails_parse`
* `PyCal.Obj.C19_fails_century`
* `PyCal.C20_decode_escape`
* `PyCal.C20_escaped`
* `PyCal.C20_no_linebreak`
* `PyCal.C20_decode_rfc`
* `PyCal.C20_escape_decode`
* `PyCal.C21_decode_rfc`
* `PyCal.C21_roundtrip`
* `PyCal.C21_roundtrip_exact`
* `PyCal.C21_encoded_safe`
* `PyCal.C22_nontermination`
* `PyCal.C23_roundtrip_partial`
* `PyCal.DateTime.C25_offset_ical_fails`
* `PyCal.DateTime.C25_utc_date_fails`
* `PyCal.C26_vcard_fails`
* `PyCal.Period.C27_fails_duration`
* `PyCal.Rule.C28_fails_until`
* `PyCal.Rule.C28_fails_dates`
* `PyCal.Rule.C29_count`
* `PyCal.Rule.C29_count_by`
* `PyCal.Rule.C29_until_partial`
* `PyCal.Rule.C29_fails_both`
* `PyCal.Rule.C29_fails_zero`
* `PyCal.Rule.C30_fails_raise`
* `PyCal.Rule.C30_fails_max`
* `PyCal.Rule.C30_fails_offset`
* `PyCal.Rule.C30_fails_kind`
* `PyCal.Rule.C30_fails_limited`
* `PyCal.Rule.C31_fails_yearDay`
* `PyCal.Rule.C32_substitute`
* `PyCal.Rule.C32_fails_yearly`
* `PyCal.Rule.C33_fails`
* `PyCal.RecurrenceSet.C34_fails_order`
* `PyCal.RecurrenceSet.C34_fails_dates`
* `PyCal.RecurrenceSet.C34_fails_period`
* `PyCal.C35_fails_before`
* `PyCal.C35_fails_element`
* `PyCal.C36_fails_seconds`
* `PyCal.C36_fails_date`
* `PyCal.C36_fails_year`
* `PyCal.C36_fails_tie`
* `PyCal.C37_fails_ambiguous`
* `PyCal.C37_fails_century`
* `PyCal.C37_fails_date`
* `PyCal.TzDb.C39_merge`
* `PyCal.TzDb.C39_mergeAll`
* `PyCal.TzDb.C39_inCalendar`
* `PyCal.TzDb.C39_standard`
* `PyCal.TzDb.C39_merged`
* `PyCal.C45_fails_stale`
* `PyCal.Event.C48_fails_duration`
* `PyCal.Event.C48_fails_allday`
* `PyCal.Event.C48_fails_offset`
* `PyCal.Event.C49_fails_empty`
* `PyCal.Alarm.C50_count_partial`
* `PyCal.Rule.C52_fails_day100`
* `PyCal.Rule.C53_fails_weekly`
* `PyCal.Rule.C53_fails_yearly`
* `PyCal.Rule.C54_fails_posix`
* `PyCal.Rule.C54_fails_duplicates`
* `PyCal.RecurrenceSet.C57_fails_over`
* `PyCal.RecurrenceSet.C57_fails_under`
* `PyCal.Event.C59_fails_alone`
* `PyCal.Event.C59_fails_range`
* `PyCal.Event.C59_fails_future`
* `PyCal.Event.C59_fails_before`
* `PyCal.Event.C60_fails_order`
* `PyCal.Timing.C62_startEnd_partial`
* `PyCal.Timing.C62_oneDay_partial`
* `PyCal.Timing.C62_startDuration_partial`
* `PyCal.Timing.C62_oneDayDuration_partial`
* `PyCal.Timing.C62_due_partial`
* `PyCal.Timing.C62_fails_none`
* `PyCal.Timing.C62_fails_order`
* `PyCal.Timing.C62_fails_oneDay`
* `PyCal.Timing.C62_fails_duration`
* `PyCal.Timing.C62_fails_todo`
* `PyCal.Recurring.C63_loaded`
* `PyCal.C66_split_partial`
* `PyCal.C66_restored_partial`
* `PyCal.C67_fix_partial`
* `PyCal.C67_allow_partial`
* `PyCal.C68_fails_raise`
* `PyCal.C68_one_text_partial`
* `PyCal.C68_many_partial`
* `PyCal.Zonal.C72_fails_first`
* `PyCal.Zonal.C73_kind`
* `PyCal.TzComp.C76_added`
* `PyCal.TzComp.C76_present_partial`
* `PyCal.TzComp.C76_again`
* `PyCal.DComp.C78_master`
* `PyCal.DComp.C78_start`
* `PyCal.DComp.C78_same_zone`
* `PyCal.DComp.C78_duration`
* `PyCal.DComp.C78_fails_todo`
* `PyCal.DComp.C78_fails_dtend`
* `PyCal.DComp.C78_fails_length`
* `PyCal.PeriodObj.C79_accepts`
* `PyCal.PeriodObj.C79_fails_negative`
* `PyCal.PeriodObj.C80_look`
* `PyCal.PeriodObj.C80_values`
* `PyCal.PeriodObj.C80_fails_zone`
* `PyCal.PeriodObj.C80_fails_adjust`
* `PyCal.C81_fails_mixed`
* `PyCal.C91_fails_case`
* `PyCal.C92_utf8`
* `PyCal.Attr.C93_description_partial`
* `PyCal.Attr.C93_fails_name`
* `PyCal.Zonal.C95_fields`
* `PyCal.Zonal.C95_rule_read`
* `PyCal.Zonal.C95_fails_ruleset`
* `PyCal.Alm.C98_duplicate_partial`
* `PyCal.BusyTiming.C101_read`
* `PyCal.BusyTiming.C101_view`
* `PyCal.BusyTiming.C101_startEnd`
* `PyCal.BusyTiming.C101_startDuration_iff`
* `PyCal.BusyTiming.C101_fails_none`
* `PyCal.BusyTiming.C101_fails_oneDay`
* `PyCal.C102_order`
* `PyCal.C104_start`
* `PyCal.C104_end_partial`
* `PyCal.C104_last`
* `PyCal.C104_self`
* `PyCal.C104_set`
* `PyCal.C104_fails_due`
* `PyCal.C104_fails_has`
* `PyCal.C105_shown`
* `PyCal.C106_text_partial`
* `PyCal.C106_fails_text`
* `PyCal.C115_written_partial`
* `PyCal.C116_name_partial`
* `PyCal.C116_fails_empty`
* `PyCal.C116_duplicate_partial`
* `PyCal.C116_fails_many`
* `PyCal.C117_fails_table`
* `PyCal.C118_fails_zero`
* `PyCal.C119_element`
* `PyCal.C120_fails_year`
* `PyCal.C120_fails_history`
* `PyCal.C120_fails_end`
* `PyCal.C122_component_partial`
* `PyCal.C124_duration_partial`
* `PyCal.C124_nested`
* `PyCal.C124_space`
* `PyCal.C124_fails_status`
* `PyCal.Rule.C126_fails_until_date`
* `PyCal.Rule.C126_fails_start`
* `PyCal.Query.C128_fails_fb`
* `PyCal.C129_ical_partial`
* `PyCal.C129_vcard_partial`
* `PyCal.C129_raises`
* `PyCal.C129_accessors`
* `PyCal.C129_copies`
* `PyCal.C130_fails_case`
* `PyCal.C139_objects`
* `PyCal.C139_unknown`
* `PyCal.C141_text`

## propext, Classical.choice, Quot.sound (673 theorems)

* `PyCal.DateTime.C01_arith_valid`
* `PyCal.DateTime.C02_normalise_id`
* `PyCal.DateTime.C02_normalise_idem`
* `PyCal.DateTime.C02_zero_offsets`
* `PyCal.DateTime.C03_add_forward`
* `PyCal.DateTime.C03_add_backward`
* `PyCal.DateTime.C03_add_days`
* `PyCal.DateTime.C03_posix_unique`
* `PyCal.DateTime.C03_posix_partial`
* `PyCal.DateTime.C03_posix_window_partial`
* `PyCal.C03_offset_month`
* `PyCal.C03_offset_year`
* `PyCal.C03_offset_day`
* `PyCal.C03_offset_time`
* `PyCal.DateTime.C04_add_sub_cancel`
* `PyCal.DateTime.C04_sub_add_cancel`
* `PyCal.DateTime.C04_add_add`
* `PyCal.DateTime.C04_diff_partial`
* `PyCal.DateTime.C04_floating_partial`
* `PyCal.DateTime.C04_dateOnly_days`
* `PyCal.DateTime.C05_weekday_next_partial`
* `PyCal.DateTime.C05_weekday_window_partial`
* `PyCal.DateTime.C06_setYearDay_pos`
* `PyCal.DateTime.C06_setYearDay_neg`
* `PyCal.DateTime.C06_yearDay`
* `PyCal.DateTime.C06_get_set`
* `PyCal.DateTime.C06_set_get`
* `PyCal.DateTime.C07_setMonthDay_pos`
* `PyCal.DateTime.C07_setMonthDay_neg`
* `PyCal.DateTime.C07_isMonthDay`
* `PyCal.DateTime.C08_set_pos`
* `PyCal.DateTime.C08_set_neg`
* `PyCal.DateTime.C08_is`
* `PyCal.DateTime.C09_set_pos`
* `PyCal.DateTime.C09_set_neg`
* `PyCal.DateTime.C10_weekNo_partial`
* `PyCal.DateTime.C10_weekNo_window_partial`
* `PyCal.DateTime.C11_setWeekNo_partial`
* `PyCal.DateTime.C11_exact_partial`
* `PyCal.DateTime.C12_setNextDayOfWeek`
* `PyCal.DateTime.C13_monthly_allow_invalid`
* `PyCal.DateTime.C13_monthly_partial`
* `PyCal.DateTime.C13_monthly_spill`
* `PyCal.DateTime.C13_monthly_28_partial`
* `PyCal.DateTime.C13_daily_weekly`
* `PyCal.DateTime.C13_clock`
* `PyCal.Duration.C14_compare`
* `PyCal.Duration.C15_generate_grammar`
* `PyCal.Duration.C15_roundtrip`
* `PyCal.Duration.C15_roundtrip_seconds`
* `PyCal.Duration.C15_roundtrip_parsed`
* `PyCal.Duration.C15_reused_fails`
* `PyCal.Duration.C16_fails`
* `PyCal.Duration.C16_exact_partial`
* `PyCal.DateTime.C17_trichotomy`
* `PyCal.DateTime.C17_antisymm`
* `PyCal.DateTime.C17_dates_partial`
* `PyCal.DateTime.C17_one_zone_partial`
* `PyCal.DateTime.C17_instants_partial`
* `PyCal.DateTime.C18_hash_partial`
* `PyCal.Obj.C19_posix_partial`
* `PyCal.Obj.C19_queries_partial`
* `PyCal.C22_fold`
* `PyCal.C22_read_back`
* `PyCal.C22_unfold`
* `PyCal.C23_fails`
* `PyCal.C24_roundtrip_partial`
* `PyCal.C24_size_partial`
* `PyCal.C24_exact_partial`
* `PyCal.C24_fails`
* `PyCal.DateTime.C25_text_partial`
* `PyCal.DateTime.C25_offset`
* `PyCal.DateTime.C25_reuse_fails`
* `PyCal.C26_roundtrip_partial`
* `PyCal.Period.C27_partition`
* `PyCal.Period.C27_half_open`
* `PyCal.Period.C27_overlap_symm`
* `PyCal.Period.C27_overlap`
* `PyCal.Period.C27_ends`
* `PyCal.Period.C27_duration_partial`
* `PyCal.Rule.C28_exact_partial`
* `PyCal.Rule.C28_ends_partial`
* `PyCal.Rule.C28_fails_endless`
* `PyCal.Rule.C30_simple_partial`
* `PyCal.Rule.C30_complex_partial`
* `PyCal.RecurrenceSet.C30_set_partial`
* `PyCal.Rule.C31_limits_partial`
* `PyCal.Rule.C31_weekNo_partial`
* `PyCal.Rule.C31_fails_weekNo`
* `PyCal.Rule.C32_monthDay`
* `PyCal.Rule.C32_day_monthly`
* `PyCal.Rule.C32_day_yearly_partial`
* `PyCal.Rule.C32_day_weekly_partial`
* `PyCal.C32_weekNo_partial`
* `PyCal.Rule.C33_setPos_partial`
* `PyCal.Rule.C33_mem`
* `PyCal.Rule.C33_once_partial`
* `PyCal.RecurrenceSet.C34_exact_partial`
* `PyCal.RecurrenceSet.C34_limited_partial`
* `PyCal.RecurrenceSet.C34_ascending_partial`
* `PyCal.C35_offset_partial`
* `PyCal.C35_ends_partial`
* `PyCal.C35_zone_partial`
* `PyCal.C36_history_partial`
* `PyCal.C36_zone_partial`
* `PyCal.C37_posix_partial`
* `PyCal.C37_moment_partial`
* `PyCal.C37_roundtrip`
* `PyCal.C37_zone_partial`
* `PyCal.C38_slash_partial`
* `PyCal.C38_sibling_partial`
* `PyCal.C38_plain_partial`
* `PyCal.C38_found`
* `PyCal.C38_fails_sibling`
* `PyCal.C38_fails_dots`
* `PyCal.C38_fails_relative`
* `PyCal.C40_complete`
* `PyCal.C40_delimited`
* `PyCal.C40_sound_partial`
* `PyCal.C40_calendar`
* `PyCal.C40_calendar_partial`
* `PyCal.C40_placed`
* `PyCal.C40_fails_unclosed`
* `PyCal.C40_fails_mismatch`
* `PyCal.C40_fails_twice`
* `PyCal.C40_fails_leftover`
* `PyCal.C40_fails_unknown`
* `PyCal.C40_fails_errors`
* `PyCal.C40_fails_zone`
* `PyCal.C40_fails_version`
* `PyCal.C41_roundtrip_partial`
* `PyCal.C41_calendar_partial`
* `PyCal.C41_fails_container`
* `PyCal.C41_fails_end`
* `PyCal.C41_fails_unknown`
* `PyCal.C41_fails_zone`
* `PyCal.C42_properties`
* `PyCal.C42_same_name`
* `PyCal.C42_components`
* `PyCal.C42_property_order`
* `PyCal.C42_component_order`
* `PyCal.C43_check`
* `PyCal.C43_fix_partial`
* `PyCal.C43_classes_partial`
* `PyCal.C43_no_exception`
* `PyCal.C43_fails_tables`
* `PyCal.C43_fails_exception`
* `PyCal.C43_fails_text`
* `PyCal.C44_roundtrip_partial`
* `PyCal.C44_fails_zone`
* `PyCal.C44_fails_both`
* `PyCal.C44_fails_missing`
* `PyCal.C44_reparse_partial`
* `PyCal.C45_equals`
* `PyCal.C45_fails_hash`
* `PyCal.C46_roundtrip_partial`
* `PyCal.C46_value_iff`
* `PyCal.C46_fails_space`
* `PyCal.C46_fails_backslash`
* `PyCal.C46_fails_swallow`
* `PyCal.C46_fails_order`
* `PyCal.C46_fails_novalues`
* `PyCal.C47_index_partial`
* `PyCal.C47_fails_merge`
* `PyCal.C47_fails_same`
* `PyCal.C47_fails_empty`
* `PyCal.C47_fails_remove`
* `PyCal.Event.C48_length_partial`
* `PyCal.Event.C48_starts`
* `PyCal.Event.C48_end`
* `PyCal.Event.C49_overlap_partial`
* `PyCal.Event.C49_ends_partial`
* `PyCal.Event.C49_allday_partial`
* `PyCal.Event.C49_fails_allday`
* `PyCal.Event.C49_fix`
* `PyCal.Period.C51_order_partial`
* `PyCal.Rule.C52_yearDay_partial`
* `PyCal.Rule.C52_fails`
* `PyCal.Rule.C53_daily`
* `PyCal.Rule.C53_hourly`
* `PyCal.Rule.C53_minutely`
* `PyCal.Rule.C53_secondly`
* `PyCal.Rule.C53_weekly_partial`
* `PyCal.Rule.C53_monthly`
* `PyCal.Rule.C53_yearly_month`
* `PyCal.Rule.C53_yearly_day_partial`
* `PyCal.Rule.C54_list_partial`
* `PyCal.Rule.C54_exact_partial`
* `PyCal.Rule.C54_ends_partial`
* `PyCal.Rule.C55_max`
* `PyCal.C56_accepts`
* `PyCal.C56_values_partial`
* `PyCal.C56_fails_setpos`
* `PyCal.C56_fails_repeated`
* `PyCal.C56_days`
* `PyCal.RecurrenceSet.C57_rdates_partial`
* `PyCal.C58_ends_partial`
* `PyCal.C58_ends_vcard_partial`
* `PyCal.C58_fails_vcard`
* `PyCal.Event.C59_instances_partial`
* `PyCal.Event.C59_single_partial`
* `PyCal.Event.C60_instances_partial`
* `PyCal.CompEq.C61_equal_partial`
* `PyCal.CompEq.C61_sets_partial`
* `PyCal.CompEq.C61_equivalence_partial`
* `PyCal.CompEq.C61_order`
* `PyCal.CompEq.C61_fails_twice`
* `PyCal.CompEq.C61_fails_floating`
* `PyCal.CompEq.C61_fails_transitive`
* `PyCal.CompEq.C61_fails_rule`
* `PyCal.C64_reread_partial`
* `PyCal.C64_settles`
* `PyCal.C64_dates`
* `PyCal.C65_text_partial`
* `PyCal.C65_other_partial`
* `PyCal.C65_asked_partial`
* `PyCal.C65_fails`
* `PyCal.C65_fails_break`
* `PyCal.C66_fails`
* `PyCal.C67_fails`
* `PyCal.C68_fix_partial`
* `PyCal.C68_fails`
* `PyCal.Zonal.C69_date_partial`
* `PyCal.Zonal.C69_fails_atMost`
* `PyCal.Zonal.C69_fails_midnight`
* `PyCal.Zonal.C69_fails_hours`
* `PyCal.Zonal.C69_fails_seconds`
* `PyCal.Zonal.C69_instant_partial`
* `PyCal.Zonal.C69_fails_letter`
* `PyCal.Zonal.C70_utcOffset`
* `PyCal.Zonal.C70_save_partial`
* `PyCal.Zonal.C70_fails_save`
* `PyCal.Zonal.C70_fails_save_seconds`
* `PyCal.Zonal.C70_numeric_partial`
* `PyCal.Zonal.C70_fails_numeric`
* `PyCal.Zonal.C71_expand_partial`
* `PyCal.Zonal.C71_fails_last`
* `PyCal.Zonal.C71_cache`
* `PyCal.Zonal.C71_fails_again`
* `PyCal.Zonal.C72_next_partial`
* `PyCal.Zonal.C72_last`
* `PyCal.Zonal.C72_last_before_partial`
* `PyCal.Zonal.C72_last_after_partial`
* `PyCal.Zonal.C72_day_partial`
* `PyCal.Zonal.C72_fails_february`
* `PyCal.Zonal.C72_fails_saturday`
* `PyCal.Zonal.C72_fails_january`
* `PyCal.Zonal.C72_fails_december`
* `PyCal.Zonal.C73_rules_partial`
* `PyCal.Zonal.C73_numeric`
* `PyCal.Zonal.C73_fails_none`
* `PyCal.Zonal.C73_fails_first`
* `PyCal.Zonal.C73_fails_letter`
* `PyCal.Zonal.C74_offsets_partial`
* `PyCal.Zonal.C74_follow`
* `PyCal.Zonal.C74_fails_close`
* `PyCal.Zonal.C74_fails_start`
* `PyCal.Zonal.C75_until_partial`
* `PyCal.Zonal.C75_open`
* `PyCal.Zonal.C75_fails_day`
* `PyCal.Zonal.C75_fails_hours`
* `PyCal.Zonal.C75_fails_seconds`
* `PyCal.TzComp.C76_fails_rdate`
* `PyCal.TzComp.C76_fails_nested`
* `PyCal.TzComp.C76_fails_default`
* `PyCal.TzComp.C77_left`
* `PyCal.TzComp.C77_changed`
* `PyCal.TzComp.C77_restored`
* `PyCal.TzComp.C77_stays`
* `PyCal.DComp.C78_instant_partial`
* `PyCal.DComp.C78_period`
* `PyCal.DComp.C78_length_partial`
* `PyCal.PeriodObj.C79_end`
* `PyCal.PeriodObj.C79_duration_partial`
* `PyCal.PeriodObj.C79_json_end`
* `PyCal.PeriodObj.C79_json_duration_partial`
* `PyCal.PeriodObj.C79_fails_plus`
* `PyCal.PeriodObj.C79_fails_reuse`
* `PyCal.PeriodObj.C80_written_partial`
* `PyCal.PeriodObj.C80_adjust_partial`
* `PyCal.C81_single`
* `PyCal.C81_list_partial`
* `PyCal.C81_json_partial`
* `PyCal.C81_periods_partial`
* `PyCal.C81_fails_list`
* `PyCal.C81_fails_period`
* `PyCal.C82_ical_partial`
* `PyCal.C82_vcard_partial`
* `PyCal.C82_fails_class`
* `PyCal.C82_fails_vcard`
* `PyCal.C83_accepts`
* `PyCal.C83_written`
* `PyCal.C83_roundtrip_partial`
* `PyCal.C83_fails_zone`
* `PyCal.C83_fails_lenient`
* `PyCal.C84_reports`
* `PyCal.C84_raises`
* `PyCal.C84_rfc_partial`
* `PyCal.C84_fixed`
* `PyCal.C84_fails_dtstart`
* `PyCal.C85_wholeNumber`
* `PyCal.C85_wholeGeo`
* `PyCal.C85_floatText`
* `PyCal.C85_params_iff`
* `PyCal.C85_ical_partial`
* `PyCal.C85_vcard_partial`
* `PyCal.C85_written`
* `PyCal.C85_fails_values`
* `PyCal.C85_fails_repeated`
* `PyCal.C85_fails_status`
* `PyCal.C85_integerText`
* `PyCal.C85_fails_geo`
* `PyCal.C85_fails_fraction`
* `PyCal.C85_fails_parts`
* `PyCal.C86_written`
* `PyCal.C86_roundtrip_partial`
* `PyCal.C86_cards_partial`
* `PyCal.C86_cards_all`
* `PyCal.C86_placed`
* `PyCal.C86_fails_container`
* `PyCal.C86_fails_case`
* `PyCal.FB87.C87_busy_partial`
* `PyCal.FB87.C87_found_partial`
* `PyCal.FB87.C87_queries`
* `PyCal.FB87.C87_fails_type`
* `PyCal.FB87.C87_fails_expand`
* `PyCal.FB87.C87_fails_duration`
* `PyCal.FB87.C87_fails_stale`
* `PyCal.FB87.C87_fails_stale_always`
* `PyCal.FB87.C87_added_partial`
* `PyCal.Zonal.C88_fails_start`
* `PyCal.Zonal.C88_fails_none`
* `PyCal.Zonal.C88_fails_until`
* `PyCal.Zonal.C88_fails_name`
* `PyCal.Zonal.C88_exact_partial`
* `PyCal.Zonal.C88_name`
* `PyCal.Zonal.C88_fails_format`
* `PyCal.C89_written_partial`
* `PyCal.C89_fails_raises`
* `PyCal.C89_fails_geo`
* `PyCal.C89_fails_offset`
* `PyCal.C89_fails_parameter`
* `PyCal.C90_written_partial`
* `PyCal.C90_all`
* `PyCal.C90_root`
* `PyCal.C90_fails_raises`
* `PyCal.C91_text_partial`
* `PyCal.C91_everything`
* `PyCal.C91_json_partial`
* `PyCal.C91_xml_partial`
* `PyCal.C91_fails_subs`
* `PyCal.C91_fails_nested`
* `PyCal.C91_subFilter`
* `PyCal.C91_testSub`
* `PyCal.C92_roundtrip_partial`
* `PyCal.C92_calendar_partial`
* `PyCal.C92_text`
* `PyCal.Attr.C93_edits_partial`
* `PyCal.Attr.C93_loaded`
* `PyCal.Attr.C93_status_partial`
* `PyCal.Attr.C93_set`
* `PyCal.Attr.C93_others`
* `PyCal.Attr.C93_fails_uid`
* `PyCal.Attr.C93_fails_summary`
* `PyCal.Attr.C93_fails_complete`
* `PyCal.Attr.C93_fails_none`
* `PyCal.Attr.C93_fails_case`
* `PyCal.Attr.C93_fails_floating`
* `PyCal.Attr.C93_fails_again`
* `PyCal.Attr.C93_fails_key`
* `PyCal.Attr.C94_state_partial`
* `PyCal.Attr.C94_fails_due`
* `PyCal.Attr.C94_fails_status`
* `PyCal.Zonal.C95_rule_write`
* `PyCal.Zonal.C95_rule_again`
* `PyCal.Zonal.C95_ruleset_write`
* `PyCal.Zonal.C95_zone_write`
* `PyCal.Zonal.C95_zone_again`
* `PyCal.Zonal.C96_links`
* `PyCal.Zonal.C96_fails_blank`
* `PyCal.Zonal.C96_read_partial`
* `PyCal.Zonal.C96_strange`
* `PyCal.Zonal.C96_fails_last`
* `PyCal.Zonal.C96_fails_short`
* `PyCal.Zonal.C96_fails_note`
* `PyCal.Zonal.C97_good`
* `PyCal.Zonal.C97_files`
* `PyCal.Zonal.C97_reach`
* `PyCal.Zonal.C97_list`
* `PyCal.Zonal.C97_text_partial`
* `PyCal.Zonal.C97_fails_text`
* `PyCal.Zonal.C97_fails_chain`
* `PyCal.Alm.C98_edits_partial`
* `PyCal.Alm.C98_set`
* `PyCal.Alm.C98_others`
* `PyCal.Alm.C98_loaded`
* `PyCal.Alm.C98_data`
* `PyCal.Alm.C98_trigger`
* `PyCal.Alm.C98_email`
* `PyCal.Alm.C98_fails_unknown`
* `PyCal.Alm.C98_fails_case`
* `PyCal.Alm.C98_fails_related`
* `PyCal.Alm.C98_fails_attendees`
* `PyCal.Alm.C98_fails_interval`
* `PyCal.Alm.C98_fails_speak`
* `PyCal.Alm.C98_fails_key`
* `PyCal.Alm.C98_fails_duplicate`
* `PyCal.C99_exact`
* `PyCal.C99_append`
* `PyCal.C99_blank`
* `PyCal.C99_version`
* `PyCal.C99_roundtrip_partial`
* `PyCal.C99_fails_truncated`
* `PyCal.C99_fails_version`
* `PyCal.C99_fails_hang`
* `PyCal.C100_complete`
* `PyCal.C100_keeps`
* `PyCal.C100_result`
* `PyCal.C100_fails_truncated`
* `PyCal.C100_fails_unclosed`
* `PyCal.C100_fails_exception`
* `PyCal.C100_file`
* `PyCal.C100_noCalendar`
* `PyCal.C100_agrees`
* `PyCal.BusyTiming.C101_startEnd_iff`
* `PyCal.BusyTiming.C101_fails_stale`
* `PyCal.C102_asked_partial`
* `PyCal.C102_ends_partial`
* `PyCal.C102_same`
* `PyCal.C102_text`
* `PyCal.C102_fixed`
* `PyCal.C102_element_partial`
* `PyCal.C102_history_partial`
* `PyCal.C102_date_partial`
* `PyCal.C102_agrees_partial`
* `PyCal.C102_meets`
* `PyCal.C102_fails_thisYear`
* `PyCal.C102_fails_seconds`
* `PyCal.DateTime.C103_date`
* `PyCal.DateTime.C103_weekday_partial`
* `PyCal.DateTime.C103_year`
* `PyCal.DateTime.C103_noYear`
* `PyCal.DateTime.C103_clock`
* `PyCal.DateTime.C103_time`
* `PyCal.DateTime.C103_order`
* `PyCal.DateTime.C103_whole`
* `PyCal.DateTime.C103_zone`
* `PyCal.DateTime.C103_fails_weekday`
* `PyCal.DateTime.C103_fails_date`
* `PyCal.C104_duration_partial`
* `PyCal.C104_length_partial`
* `PyCal.C105_rules_partial`
* `PyCal.C105_copy_partial`
* `PyCal.C105_copySet_partial`
* `PyCal.C105_fails_copy`
* `PyCal.C105_fails_dates`
* `PyCal.C105_advanced`
* `PyCal.C105_fails_dialog`
* `PyCal.C106_second_partial`
* `PyCal.C106_first_partial`
* `PyCal.C106_start_partial`
* `PyCal.C106_matched_partial`
* `PyCal.C106_refl`
* `PyCal.C106_zones`
* `PyCal.C106_fails_start`
* `PyCal.C106_fails_data`
* `PyCal.C106_data_partial`
* `PyCal.C106_fails_zones`
* `PyCal.C107_utc`
* `PyCal.C107_utc_tzid`
* `PyCal.C107_number`
* `PyCal.C107_text`
* `PyCal.C107_others`
* `PyCal.C107_kind`
* `PyCal.C107_fails_type`
* `PyCal.C107_control`
* `PyCal.C107_control_order`
* `PyCal.C108_exact`
* `PyCal.C108_rfc`
* `PyCal.C109_same`
* `PyCal.C109_layout`
* `PyCal.C109_calendar_partial`
* `PyCal.C109_fails_geo`
* `PyCal.C110_exact`
* `PyCal.C110_vcard_partial`
* `PyCal.C110_symmetric`
* `PyCal.C110_transitive_partial`
* `PyCal.C110_hash_partial`
* `PyCal.C110_fails_group`
* `PyCal.C110_fails_case`
* `PyCal.C110_fails_text`
* `PyCal.C110_fails_rule`
* `PyCal.C110_fails_ne`
* `PyCal.C111_unfold`
* `PyCal.C111_read`
* `PyCal.C111_roundtrip_partial`
* `PyCal.C111_fails_long`
* `PyCal.C111_fails_novalue`
* `PyCal.C112_fails_new`
* `PyCal.C112_fails_text`
* `PyCal.C112_fails_duplicate`
* `PyCal.C112_empty_partial`
* `PyCal.C112_duplicate_partial`
* `PyCal.C113_read`
* `PyCal.C113_written`
* `PyCal.C113_raise`
* `PyCal.C113_fails_ignore`
* `PyCal.C114_float_partial`
* `PyCal.C114_again`
* `PyCal.C114_text`
* `PyCal.C114_fails_digits`
* `PyCal.C114_fails_exponent`
* `PyCal.C114_fails_nan`
* `PyCal.C114_integer`
* `PyCal.C114_geo_partial`
* `PyCal.C114_geo_backslash`
* `PyCal.C114_fails_index`
* `PyCal.C115_fails_type`
* `PyCal.C115_read_partial`
* `PyCal.C115_fails_several`
* `PyCal.C115_fails_org`
* `PyCal.C115_org_partial`
* `PyCal.C116_fails_short`
* `PyCal.C117_unpack`
* `PyCal.C117_restored_partial`
* `PyCal.C117_order`
* `PyCal.C117_injective`
* `PyCal.C117_fails_year`
* `PyCal.C118_id`
* `PyCal.C118_new`
* `PyCal.C118_first`
* `PyCal.C118_name_partial`
* `PyCal.C118_fails_utc`
* `PyCal.C118_floating_partial`
* `PyCal.C118_fails_number`
* `PyCal.C118_fails_new`
* `PyCal.C118_duplicate`
* `PyCal.C119_sorted`
* `PyCal.C119_order`
* `PyCal.C119_offsets_partial`
* `PyCal.C119_copy_partial`
* `PyCal.C119_fails_name`
* `PyCal.C120_range_partial`
* `PyCal.C120_exact_partial`
* `PyCal.C120_ends_partial`
* `PyCal.C121_found`
* `PyCal.C121_all`
* `PyCal.C121_raises`
* `PyCal.C121_named`
* `PyCal.C121_private`
* `PyCal.C122_ask`
* `PyCal.C122_calendar_partial`
* `PyCal.C122_fails_stale`
* `PyCal.C122_fails_raises`
* `PyCal.C123_exact_partial`
* `PyCal.C123_recurring`
* `PyCal.C123_fails_period`
* `PyCal.C123_fails_attribute`
* `PyCal.C124_text_partial`
* `PyCal.C124_same`
* `PyCal.C124_fails_text`
* `PyCal.C124_fails_duration`
* `PyCal.C124_fails_geo`
* `PyCal.C124_fails_date`
* `PyCal.C124_fails_uri`
* `PyCal.C125_control`
* `PyCal.C125_clean`
* `PyCal.C125_card`
* `PyCal.Rule.C126_set_partial`
* `PyCal.Rule.C126_simple_partial`
* `PyCal.Rule.C126_complex_partial`
* `PyCal.Copy.C127_content`
* `PyCal.Copy.C127_independent_partial`
* `PyCal.Copy.C127_fails_shared`
* `PyCal.Copy.C127_raises_exact`
* `PyCal.Copy.C127_key_partial`
* `PyCal.Copy.C127_fails_text`
* `PyCal.Query.C128_fails_freebusy`
* `PyCal.C129_type`
* `PyCal.C129_kinds`
* `PyCal.C130_ical_partial`
* `PyCal.C130_vcard_partial`
* `PyCal.C130_ical_written`
* `PyCal.C130_vcard_written_partial`
* `PyCal.C130_fails_offset`
* `PyCal.C130_registered`
* `PyCal.C130_fails_other`
* `PyCal.C130_fails_agent`
* `PyCal.C131_exact`
* `PyCal.C131_read_partial`
* `PyCal.C131_fails_space`
* `PyCal.C131_fails_backslash`
* `PyCal.C132_read_partial`
* `PyCal.C132_fails_utc`
* `PyCal.C132_lists`
* `PyCal.Rule.C133_count_partial`
* `PyCal.Rule.C133_rule_partial`
* `PyCal.Rule.C133_setpos_partial`
* `PyCal.Rule.C133_setpos_count_partial`
* `PyCal.C134_dates_partial`
* `PyCal.C134_limit_partial`
* `PyCal.C135_number`
* `PyCal.C135_dateTime`
* `PyCal.C135_utcOffset`
* `PyCal.C135_bounds`
* `PyCal.C135_fails_range`
* `PyCal.C135_fails_short`
* `PyCal.C135_fails_sign`
* `PyCal.C135_fails_separator`
* `PyCal.C136_dates_partial`
* `PyCal.C136_limit_partial`
* `PyCal.C137_instances_partial`
* `PyCal.C137_fails_case`
* `PyCal.C137_fails_todo`
* `PyCal.C137_fails_period`
* `PyCal.C137_fails_range`
* `PyCal.C137_fails_ranges`
* `PyCal.C137_fails_types`
* `PyCal.C137_fails_length`
* `PyCal.C138_offset_partial`
* `PyCal.C138_utc_partial`
* `PyCal.C139_offset_partial`
* `PyCal.C139_utc_partial`
* `PyCal.C139_instants_partial`
* `PyCal.C139_fails_known`
* `PyCal.C139_fails_cached`
* `PyCal.C140_shown_partial`
* `PyCal.C140_fails_twice`
* `PyCal.C141_time`
* `PyCal.C141_fails_offset`
* `PyCal.C141_offset`
* `PyCal.C141_rule_partial`
* `PyCal.C141_fails_missing`
* `PyCal.C141_line_partial`
* `PyCal.C141_fails_control`
* `PyCal.C141_fails_no_value`
* `PyCal.C142_offset_partial`
* `PyCal.C142_utc_partial`
* `PyCal.C142_zone_partial`
* `PyCal.C143_shown_partial`
* `PyCal.C143_asked_partial`
* `PyCal.C143_fails_thisYear`
* `PyCal.C144_lines_partial`
* `PyCal.C144_instances_partial`
* `PyCal.C144_fails_zones`
* `PyCal.C144_fails_space`
* `PyCal.C144_fails_date`
* `PyCal.C145_valid_partial`
* `PyCal.C145_fails_case`
* `PyCal.C146_alarm_partial`
* `PyCal.C146_fails_attach`
* `PyCal.C147_busy_partial`
* `PyCal.C148_alarms_partial`
* `PyCal.C148_fails_related`
* `PyCal.C148_same_partial`
* `PyCal.C148_busy_partial`
* `PyCal.C148_fails_types`
* `PyCal.C148_fails_extra`
* `PyCal.C148_zones_partial`
* `PyCal.C149_attributes_partial`
* `PyCal.C149_again_partial`
* `PyCal.C149_fails_case`
* `PyCal.C150_description_partial`
* `PyCal.C150_edits_partial`
* `PyCal.C151_startEnd_partial`
* `PyCal.C151_startDuration_partial`
* `PyCal.C151_oneDay_partial`
* `PyCal.C151_due_partial`
* `PyCal.C152_alarms_partial`
* `PyCal.C152_new_partial`
* `PyCal.C153_added_partial`
* `PyCal.C153_removed_partial`
* `PyCal.C154_changed_partial`
