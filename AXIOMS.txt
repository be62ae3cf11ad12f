Ocb.Ascii.C100_columns_partial: [propext, Classical.choice, Quot.sound]
Ocb.Ascii.C100_one_row_refuted: [propext, Classical.choice, Quot.sound]
Ocb.Ascii.C100_repeated_refuted: [propext, Classical.choice, Quot.sound]
Ocb.Ascii.C100_succeeds: [propext, Classical.choice, Quot.sound]
Ocb.Ascii.C101_date_only_partial: [propext, Classical.choice, Quot.sound]
Ocb.Ascii.C101_date_sod: [propext, Classical.choice, Quot.sound]
Ocb.Ascii.C101_default_format: [propext, Classical.choice, Quot.sound]
Ocb.Ascii.C101_order_refuted: [propext, Classical.choice, Quot.sound]
Ocb.Ascii.C101_time_partial: [propext, Classical.choice, Quot.sound]
Ocb.Ascii.C101_year_soy: [propext, Classical.choice, Quot.sound]
Ocb.Ascii.C101_yyddd_sod: [propext, Classical.choice, Quot.sound]
Ocb.Ascii.C102_as_asked_partial: [propext, Classical.choice, Quot.sound]
Ocb.Ascii.C102_first_columns_partial: [propext, Classical.choice, Quot.sound]
Ocb.Ascii.C102_position_refuted: [propext, Classical.choice, Quot.sound]
Ocb.Ascii.C103_fresh_partial: [propext, Classical.choice, Quot.sound]
Ocb.Ascii.C103_header: [propext, Classical.choice, Quot.sound]
Ocb.Ascii.C103_second_call_refuted: [propext, Classical.choice, Quot.sound]
Ocb.Ascii.C104_all_taken_refuted: [propext, Classical.choice, Quot.sound]
Ocb.Ascii.C104_comment_refuted: [propext, Classical.choice, Quot.sound]
Ocb.Ascii.C104_names_partial: [propext, Classical.choice, Quot.sound]
Ocb.Ascii.C104_separator_partial: [propext, Classical.choice, Quot.sound]
Ocb.Ascii.C104_time_name: [propext, Classical.choice, Quot.sound]
Ocb.Ascii.C105_no_rows_refuted: [propext, Classical.choice, Quot.sound]
Ocb.Ascii.C58_line_words: [propext]
Ocb.Coord.C176_larger: [propext, Classical.choice, Quot.sound]
Ocb.Coord.C176_latitude: [propext, Classical.choice, Quot.sound]
Ocb.Coord.C176_similarity: [propext, Classical.choice, Quot.sound]
Ocb.Coord.C180_call: [propext, Classical.choice, Quot.sound]
Ocb.Coord.C180_lats: [propext, Classical.choice, Quot.sound]
Ocb.Coord.C180_missing_refuted: [propext, Classical.choice, Quot.sound]
Ocb.Coord.C180_raise_refuted: [propext, Classical.choice, Quot.sound]
Ocb.Coord.C180_session_partial: [propext, Classical.choice, Quot.sound]
Ocb.Coord.C180_stale_refuted: [propext, Classical.choice, Quot.sound]
Ocb.Coord.C181_auroral_refuted: [propext, Classical.choice, Quot.sound]
Ocb.Coord.C181_column: [propext, Classical.choice, Quot.sound]
Ocb.Coord.C181_outer_refuted: [propext, Classical.choice, Quot.sound]
Ocb.Coord.C181_uniform_partial: [propext, Classical.choice, Quot.sound]
Ocb.Coord.C181_wrong_refuted: [propext, Classical.choice, Quot.sound]
Ocb.Coord.C182_column: [propext, Classical.choice, Quot.sound]
Ocb.Coord.C182_count_refuted: [propext, Classical.choice, Quot.sound]
Ocb.Coord.C182_nomlt_refuted: [propext, Classical.choice, Quot.sound]
Ocb.Coord.C182_uniform_partial: [propext, Classical.choice, Quot.sound]
Ocb.Coord.C183_column: [propext, Classical.choice, Quot.sound]
Ocb.Coord.C183_outer_refuted: [propext, Classical.choice, Quot.sound]
Ocb.Coord.C183_uniform_partial: [propext, Classical.choice, Quot.sound]
Ocb.Coord.C24_boundary_circle: [propext, Classical.choice, Quot.sound]
Ocb.Coord.C24_colatitude: [propext, Classical.choice, Quot.sound]
Ocb.Coord.C25_array_round_trip: [propext, Classical.choice, Quot.sound]
Ocb.Coord.C25_revert_normal: [propext, Classical.choice, Quot.sound]
Ocb.Coord.C26_normal_revert: [propext, Classical.choice, Quot.sound]
Ocb.Coord.C26_single_round_trip: [propext, Classical.choice, Quot.sound]
Ocb.Coord.C27_latitude_range_refuted: [propext, Classical.choice, Quot.sound]
Ocb.Coord.C27_normal_entries: [propext, Classical.choice, Quot.sound]
Ocb.Coord.C27_normal_no_record: [propext, Classical.choice, Quot.sound]
Ocb.Coord.C27_revert_entries_partial: [propext, Classical.choice, Quot.sound]
Ocb.Coord.C27_revert_mixed_refuted: [propext, Classical.choice, Quot.sound]
Ocb.Coord.C27_revert_no_record: [propext, Classical.choice, Quot.sound]
Ocb.Coord.C27_revert_single: [propext, Classical.choice, Quot.sound]
Ocb.Coord.C28_mirror: [propext, Classical.choice, Quot.sound]
Ocb.Coord.C28_rotate: [propext, Classical.choice, Quot.sound]
Ocb.Coord.C28_whole_days: [propext, Classical.choice, Quot.sound]
Ocb.Coord.C29_greatest_crossing: [propext, Classical.choice, Quot.sound]
Ocb.Coord.C29_on_boundary: [propext, Classical.choice, Quot.sound]
Ocb.Coord.C29_pole_inside: [propext, Classical.choice, Quot.sound]
Ocb.Coord.C30_call: [propext, Classical.choice, Quot.sound]
Ocb.Coord.C30_history_consistent: [propext, Classical.choice, Quot.sound]
Ocb.Coord.C30_history_kept: [propext, Classical.choice, Quot.sound]
Ocb.Coord.C30_history_slots: [propext, Classical.choice, Quot.sound]
Ocb.Coord.C31_boundary_mutates_refuted: [propext, Classical.choice, Quot.sound]
Ocb.Coord.C31_boundary_unchanged_iff: [propext, Classical.choice, Quot.sound]
Ocb.Coord.C31_normal_mutates_refuted: [propext, Classical.choice, Quot.sound]
Ocb.Coord.C31_normal_unchanged_iff: [propext, Classical.choice, Quot.sound]
Ocb.Coord.C32_polar_centre: [propext, Classical.choice, Quot.sound]
Ocb.Coord.C33_load_window_partial: [propext, Classical.choice, Quot.sound]
Ocb.Coord.C33_nested_windows: [propext, Classical.choice, Quot.sound]
Ocb.Coord.C33_one_row_refuted: [propext]
Ocb.Coord.C35_boundaries: [propext, Classical.choice, Quot.sound]
Ocb.Coord.C35_order_continuous: [propext, Classical.choice, Quot.sound]
Ocb.Coord.C35_piecewise: [propext, Classical.choice, Quot.sound]
Ocb.Coord.C35_regions: [propext, Classical.choice, Quot.sound]
Ocb.Coord.C36_round_trip: [propext, Classical.choice, Quot.sound]
Ocb.Coord.C37_exactly_one: [propext, Classical.choice, Quot.sound]
Ocb.Coord.C37_no_undefined: [propext, Classical.choice, Quot.sound]
Ocb.Coord.C38_call: [propext, Classical.choice, Quot.sound]
Ocb.Coord.C38_history: [propext, Classical.choice, Quot.sound]
Ocb.Coord.C39_radii: [propext, Classical.choice, Quot.sound]
Ocb.Coord.C39_scaled_radius: [propext, Classical.choice, Quot.sound]
Ocb.Coord.C63_stored_mlt_aliased_refuted: [propext, Classical.choice, Quot.sound]
Ocb.Coord.C64_any_geometry_partial: [propext, Classical.choice, Quot.sound]
Ocb.Coord.C64_good_partial: [propext, Classical.choice, Quot.sound]
Ocb.Coord.C64_other_location_refuted: [propext, Classical.choice, Quot.sound]
Ocb.Coord.C64_r_corr_refuted: [propext, Classical.choice, Quot.sound]
Ocb.Coord.C64_wrong_hemisphere: [propext, Classical.choice, Quot.sound]
Ocb.Coord.C65_normal_calc_partial: [propext, Classical.choice, Quot.sound]
Ocb.Coord.C65_revert_end_refuted: [propext, Classical.choice, Quot.sound]
Ocb.Coord.C65_revert_number_refuted: [propext, Classical.choice, Quot.sound]
Ocb.Corr.C52_circular: [propext, Classical.choice, Quot.sound]
Ocb.Corr.C52_defined: [propext, Classical.choice, Quot.sound]
Ocb.Corr.C52_elliptical: [propext, Classical.choice, Quot.sound]
Ocb.Corr.C52_harmonic: [propext, Classical.choice, Quot.sound]
Ocb.Corr.C52_harmonic_published: [propext, Classical.choice, Quot.sound]
Ocb.Corr.C52_harmonic_table: [propext, Classical.choice, Quot.sound]
Ocb.Corr.C52_periodic: [propext, Classical.choice, Quot.sound]
Ocb.Cycle.C11_next_good: [propext, Classical.choice, Quot.sound]
Ocb.Cycle.C11_next_good_first: [propext, Classical.choice, Quot.sound]
Ocb.Cycle.C11_next_good_none: [propext, Classical.choice, Quot.sound]
Ocb.Cycle.C12_retrieve_all: [propext, Classical.choice, Quot.sound]
Ocb.Cycle.C13_criteria_meaning_partial: [propext, Classical.choice, Quot.sound]
Ocb.Cycle.C13_nan_attribute_refuted: [propext, Classical.choice, Quot.sound]
Ocb.Cycle.C13_nan_merit_never: [propext, Classical.choice, Quot.sound]
Ocb.Cycle.C13_nan_never_equal: [propext, Classical.choice, Quot.sound]
Ocb.Cycle.C13_order_irrelevant: [propext, Classical.choice, Quot.sound]
Ocb.Cycle.C13_unknown_ignored: [propext, Classical.choice, Quot.sound]
Ocb.Cycle.C14_match_good: [propext, Classical.choice, Quot.sound]
Ocb.Cycle.C14_match_within_tolerance: [propext, Classical.choice, Quot.sound]
Ocb.Cycle.C15_match_skips_nothing: [propext, Classical.choice, Quot.sound]
Ocb.Cycle.C15_match_total_monotone: [propext, Classical.choice, Quot.sound]
Ocb.Cycle.C16_match_closest: [propext, Classical.choice, Quot.sound]
Ocb.Cycle.C16_match_plateau_refuted: [propext, Classical.choice, Quot.sound]
Ocb.Cycle.C171_convert_refuted: [propext, Classical.choice, Quot.sound]
Ocb.Cycle.C171_first_partial: [propext, Classical.choice, Quot.sound]
Ocb.Cycle.C171_found_partial: [propext, Quot.sound]
Ocb.Cycle.C171_gap_refuted: [propext, Classical.choice, Quot.sound]
Ocb.Cycle.C172_leak_refuted: [propext, Classical.choice, Quot.sound]
Ocb.Cycle.C172_limits_refuted: [propext, Classical.choice, Quot.sound]
Ocb.Cycle.C172_pairs_partial: [propext, Classical.choice, Quot.sound]
Ocb.Cycle.C172_repeat_partial: [propext, Classical.choice, Quot.sound]
Ocb.Cycle.C175_float_refuted: [propext, Classical.choice, Quot.sound]
Ocb.Cycle.C175_int: [propext, Classical.choice, Quot.sound]
Ocb.Cycle.C175_same_partial: [propext, Classical.choice, Quot.sound]
Ocb.Cycle.C17_documented_none_refuted: [propext, Classical.choice, Quot.sound]
Ocb.Cycle.C17_exhausted_means_no_match: [propext, Classical.choice, Quot.sound]
Ocb.Cycle.C17_match_found: [propext, Classical.choice, Quot.sound]
Ocb.Cycle.C17_none_means_no_match: [propext, Classical.choice, Quot.sound]
Ocb.Cycle.C18_drive_complete: [propext, Classical.choice, Quot.sound]
Ocb.Cycle.C18_drive_nearest: [propext, Classical.choice, Quot.sound]
Ocb.Cycle.C18_drive_pairs: [propext, Classical.choice, Quot.sound]
Ocb.Cycle.C19_pairs_valid: [propext, Classical.choice, Quot.sound]
Ocb.Cycle.C20_pairs_monotone: [propext, Classical.choice, Quot.sound]
Ocb.Cycle.C21_pair_exists_iff: [propext, Classical.choice, Quot.sound]
Ocb.Cycle.C22_beyond_end_refuted: [propext]
Ocb.Cycle.C22_history_in_step_partial: [propext, Classical.choice, Quot.sound]
Ocb.Cycle.C22_next_step: [propext, Classical.choice, Quot.sound]
Ocb.Cycle.C22_set_in_step: [propext, Classical.choice, Quot.sound]
Ocb.Cycle.C23_dual_init_built_members: [propext, Classical.choice, Quot.sound]
Ocb.Cycle.C23_dual_init_built_partial: [propext, Classical.choice, Quot.sound]
Ocb.Cycle.C23_dual_init_sound: [propext, Classical.choice, Quot.sound]
Ocb.Cycle.C23_nan_refuted: [propext, Classical.choice, Quot.sound]
Ocb.Cycle.C23_ready_made_refuted: [propext, Classical.choice, Quot.sound]
Ocb.Cycle.C34_bad_hemisphere: [propext, Classical.choice, Quot.sound]
Ocb.Cycle.C34_lat_in_hemisphere_partial: [propext, Classical.choice, Quot.sound]
Ocb.Cycle.C34_none_refuted: [propext, Classical.choice, Quot.sound]
Ocb.Cycle.C34_zero_kept: [propext, Classical.choice, Quot.sound]
Ocb.Cycle.C60_drive_error_iff_partial: [propext, Classical.choice, Quot.sound]
Ocb.Cycle.C60_no_overlap_refuted: [propext, Classical.choice, Quot.sound]
Ocb.Dbl.C143_exact: [propext, Classical.choice, Quot.sound]
Ocb.Dbl.C143_rounded_once: [propext, Classical.choice, Quot.sound]
Ocb.Dbl.C144_closed_partial: [propext, Classical.choice, Quot.sound]
Ocb.Dbl.C144_day_refuted: [propext, Classical.choice, Quot.sound]
Ocb.Dbl.C144_twice: [propext, Classical.choice, Quot.sound]
Ocb.Dbl.C145_day: [propext, Classical.choice, Quot.sound]
Ocb.Dbl.C145_degrees: [propext, Classical.choice, Quot.sound]
Ocb.Dbl.C145_large_refuted: [propext, Classical.choice, Quot.sound]
Ocb.Dbl.C145_returns_partial: [propext, Classical.choice, Quot.sound]
Ocb.Dbl.C146_deg2hr_partial: [propext, Classical.choice, Quot.sound]
Ocb.Dbl.C146_deg2hr_refuted: [propext, Classical.choice, Quot.sound]
Ocb.Dbl.C146_hr2deg_range: [propext, Classical.choice, Quot.sound]
Ocb.Dbl.C146_rad2hr_partial: [propext, Classical.choice, Quot.sound]
Ocb.Dbl.C146_roundtrip: [propext, Classical.choice, Quot.sound]
Ocb.Dbl.C146_roundtrip_exact_refuted: [propext, Classical.choice, Quot.sound]
Ocb.Dbl.C147_accuracy: [propext, Classical.choice, Quot.sound]
Ocb.Dbl.C147_range: [propext, Classical.choice, Quot.sound]
Ocb.Dbl.C147_strictMono: [propext, Classical.choice, Quot.sound]
Ocb.Dbl.C148_glon2slt: [propext, Classical.choice, Quot.sound]
Ocb.Dbl.C148_roundtrip: [propext, Classical.choice, Quot.sound]
Ocb.Dbl.C148_slt2glon: [propext, Classical.choice, Quot.sound]
Ocb.Dbl.C149_exact: [propext, Classical.choice, Quot.sound]
Ocb.Dbl.C150_close_partial: [propext, Classical.choice, Quot.sound]
Ocb.Dbl.C150_never_less_refuted: [propext, Classical.choice, Quot.sound]
Ocb.Dbl.C151_decimal_partial: [propext, Classical.choice, Quot.sound]
Ocb.Dbl.C151_decimal_refuted: [propext, Classical.choice, Quot.sound]
Ocb.Dbl.C151_representable: [propext, Classical.choice, Quot.sound]
Ocb.Dbl.C152_far_refuted: [propext, Classical.choice, Quot.sound]
Ocb.Dbl.C152_tests_partial: [propext, Classical.choice, Quot.sound]
Ocb.Dbl.C153_full: [propext, Classical.choice, Quot.sound]
Ocb.Dbl.C153_half: [propext, Classical.choice, Quot.sound]
Ocb.Dbl.C153_half_open_refuted: [propext, Classical.choice, Quot.sound]
Ocb.Dbl.C153_special: [propext, Classical.choice, Quot.sound]
Ocb.Dbl.C184_curl: [propext, Classical.choice, Quot.sound]
Ocb.Dbl.C184_evar: [propext, Classical.choice, Quot.sound]
Ocb.Dbl.C184_mono: [propext, Classical.choice, Quot.sound]
Ocb.Dbl.C184_sign: [propext, Classical.choice, Quot.sound]
Ocb.Dbl.C185_back: [propext, Classical.choice, Quot.sound]
Ocb.Dbl.C185_back_refuted: [propext, Classical.choice, Quot.sound]
Ocb.Dbl.C185_curl_same: [propext, Classical.choice, Quot.sound]
Ocb.Dbl.C185_same_partial: [propext, Classical.choice, Quot.sound]
Ocb.Dbl.C185_same_refuted: [propext, Classical.choice, Quot.sound]
Ocb.Dbl.C186_normal_coord: [propext, Classical.choice, Quot.sound]
Ocb.Dbl.C187_revert_coord: [propext, Classical.choice, Quot.sound]
Ocb.Dbl.C188_round_trip: [propext, Classical.choice, Quot.sound]
Ocb.Dbl.C189_half_turn_refuted: [propext, Classical.choice, Quot.sound]
Ocb.Dbl.C189_number: [propext, Classical.choice, Quot.sound]
Ocb.Dbl.C189_quarter_partial: [propext, Classical.choice, Quot.sound]
Ocb.Dbl.C190_pole_angle: [propext, Classical.choice, Quot.sound]
Ocb.Dbl.C190_quadrant: [propext, Classical.choice, Quot.sound]
Ocb.Dbl.C191_direction_refuted: [propext, Classical.choice, Quot.sound]
Ocb.Dbl.C191_tiny_refuted: [propext, Classical.choice, Quot.sound]
Ocb.Dbl.C191_turn_partial: [propext, Classical.choice, Quot.sound]
Ocb.Dbl.C192_meridian_refuted: [propext, Classical.choice, Quot.sound]
Ocb.Dbl.C192_quadrant_partial: [propext, Classical.choice, Quot.sound]
Ocb.Dbl.C193_turned: [propext, Classical.choice, Quot.sound]
Ocb.Dbl.C198_elliptical: [propext, Classical.choice, Quot.sound]
Ocb.Dbl.C198_harmonic: [propext, Classical.choice, Quot.sound]
Ocb.Dbl.C199_accurate: [propext, Classical.choice, Quot.sound]
Ocb.Dbl.C199_around_pole: [propext, Classical.choice, Quot.sound]
Ocb.Dbl.C199_nan: [propext, Classical.choice, Quot.sound]
Ocb.Dbl.C199_on_boundary: [propext, Classical.choice, Quot.sound]
Ocb.Dbl.C199_wrap: [propext, Classical.choice, Quot.sound]
Ocb.Dbl.C200_reference: [propext, Classical.choice, Quot.sound]
Ocb.Dbl.C201_auroral_partial: [propext, Classical.choice, Quot.sound]
Ocb.Dbl.C201_boundary_refuted: [propext, Classical.choice, Quot.sound]
Ocb.Dbl.C201_equatorward_partial: [propext, Classical.choice, Quot.sound]
Ocb.Dbl.C201_poleward_partial: [propext, Classical.choice, Quot.sound]
Ocb.Dbl.C202_auroral: [propext, Classical.choice, Quot.sound]
Ocb.Dbl.C202_equatorward: [propext, Classical.choice, Quot.sound]
Ocb.Dbl.C202_poleward: [propext, Classical.choice, Quot.sound]
Ocb.Dbl.C203_auroral: [propext, Classical.choice, Quot.sound]
Ocb.Dbl.C203_equatorward: [propext, Classical.choice, Quot.sound]
Ocb.Dbl.C203_poleward: [propext, Classical.choice, Quot.sound]
Ocb.Dmsp.C55_circle: [propext, Classical.choice, Quot.sound]
Ocb.Dmsp.C55_normalise: [propext, Classical.choice, Quot.sound]
Ocb.Dmsp.C55_rounded: [propext, Classical.choice, Quot.sound]
Ocb.Dmsp.C56_fetch: [propext, Classical.choice, Quot.sound]
Ocb.Dmsp.C56_half_open: [propext, Classical.choice, Quot.sound]
Ocb.Dmsp.C56_open: [propext, Classical.choice, Quot.sound]
Ocb.Dmsp.C56_windows: [propext, Classical.choice, Quot.sound]
Ocb.Dmsp.C80_boundary_lat_partial: [propext, Classical.choice, Quot.sound]
Ocb.Dmsp.C80_opposite_partial: [propext, Classical.choice, Quot.sound]
Ocb.Dmsp.C80_same_side_refuted: [propext, Classical.choice, Quot.sound]
Ocb.Dmsp.C81_midday_refuted: [propext, Classical.choice, Quot.sound]
Ocb.Dmsp.C81_midnight_partial: [propext, Classical.choice, Quot.sound]
Ocb.Dmsp.C82_all_passes_partial: [propext, Classical.choice, Quot.sound]
Ocb.Dmsp.C82_single_pass_refuted: [propext, Classical.choice, Quot.sound]
Ocb.Dmsp.C83_sorted_partial: [propext, Classical.choice, Quot.sound]
Ocb.Dmsp.C83_unsorted_refuted: [propext, Classical.choice, Quot.sound]
Ocb.DmspCsv.C209_format: [propext, Classical.choice, Quot.sound]
Ocb.DmspCsv.C209_marked_refuted: [propext, Classical.choice, Quot.sound]
Ocb.DmspCsv.C209_missing: [propext, Classical.choice, Quot.sound]
Ocb.DmspCsv.C209_order: [propext, Classical.choice, Quot.sound]
Ocb.DmspCsv.C209_read: [propext, Classical.choice, Quot.sound]
Ocb.DmspCsv.C209_short: [propext, Classical.choice, Quot.sound]
Ocb.DmspCsv.C209_stops: [propext, Classical.choice, Quot.sound]
Ocb.DmspCsv.C209_text: [propext, Classical.choice, Quot.sound]
Ocb.DmspCsv.C209_width: [propext, Classical.choice, Quot.sound]
Ocb.DmspText.C208_crossings: [propext, Classical.choice, Quot.sound]
Ocb.DmspText.C208_header: [propext, Classical.choice, Quot.sound]
Ocb.DmspText.C208_loaded_partial: [propext, Classical.choice, Quot.sound]
Ocb.DmspText.C208_one_pass_refuted: [propext, Classical.choice, Quot.sound]
Ocb.Fetch.C129_archive: [propext, Classical.choice, Quot.sound]
Ocb.Fetch.C129_endless: [propext, Classical.choice, Quot.sound]
Ocb.Fetch.C129_identify_refuted: [propext, Classical.choice, Quot.sound]
Ocb.Fetch.C129_loop: [propext, Classical.choice, Quot.sound]
Ocb.Fetch.C130_captured: [propext, Classical.choice, Quot.sound]
Ocb.Fetch.C130_failure_refuted: [propext, Classical.choice, Quot.sound]
Ocb.Fetch.C130_redirected_refuted: [propext, Classical.choice, Quot.sound]
Ocb.Fetch.C130_refused: [propext, Classical.choice, Quot.sound]
Ocb.Fetch.C130_streams_partial: [propext, Classical.choice, Quot.sound]
Ocb.Fetch.C131_available: [propext, Classical.choice, Quot.sound]
Ocb.Fetch.C131_existing_refuted: [propext, Classical.choice, Quot.sound]
Ocb.Fetch.C131_left: [propext, Classical.choice, Quot.sound]
Ocb.Fetch.C131_only: [propext, Classical.choice, Quot.sound]
Ocb.Fetch.C131_returns: [propext, Classical.choice, Quot.sound]
Ocb.Fetch.C131_temporary_refuted: [propext, Classical.choice, Quot.sound]
Ocb.Fetch.C132_boundary: [propext, Classical.choice, Quot.sound]
Ocb.Fetch.C132_directory_refuted: [propext, Classical.choice, Quot.sound]
Ocb.Fetch.C132_error_refuted: [propext, Classical.choice, Quot.sound]
Ocb.Fetch.C132_failure: [propext, Classical.choice, Quot.sound]
Ocb.Fetch.C132_nothing: [propext, Classical.choice, Quot.sound]
Ocb.Fetch.C132_returns: [propext, Classical.choice, Quot.sound]
Ocb.Fetch.C132_temporary_refuted: [propext, Classical.choice, Quot.sound]
Ocb.Fetch.C133_directory_refuted: [propext, Classical.choice, Quot.sound]
Ocb.Fetch.C133_distinct: [propext, Classical.choice, Quot.sound]
Ocb.Fetch.C133_names_partial: [propext, Classical.choice, Quot.sound]
Ocb.Fetch.C133_recognised: [propext, Classical.choice, Quot.sound]
Ocb.Fetch.C133_span_refuted: [propext, Classical.choice, Quot.sound]
Ocb.FileBack.C204_kinds_partial: [propext, Classical.choice, Quot.sound]
Ocb.FileBack.C207_smag: [propext, Classical.choice, Quot.sound]
Ocb.FileBack.C207_vort: [propext, Classical.choice, Quot.sound]
Ocb.Files.C53_default_file: [propext, Classical.choice, Quot.sound]
Ocb.Files.C54_order: [propext, Classical.choice, Quot.sound]
Ocb.Files.C54_unknown: [propext, Classical.choice, Quot.sound]
Ocb.Files.C78_dates_partial: [propext, Classical.choice, Quot.sound]
Ocb.Files.C78_instrument_refuted: [propext, Classical.choice, Quot.sound]
Ocb.Files.C78_stray_refuted: [propext, Classical.choice, Quot.sound]
Ocb.Files.C79_override_refuted: [propext, Classical.choice, Quot.sound]
Ocb.Geo.C166_names: [propext, Classical.choice, Quot.sound]
Ocb.Geo.C166_normal: [propext, Classical.choice, Quot.sound]
Ocb.Geo.C166_revert: [propext, Classical.choice, Quot.sound]
Ocb.Geo.C166_round_trip: [propext, Classical.choice, Quot.sound]
Ocb.Geo.C167_heights_refuted: [propext, Classical.choice, Quot.sound]
Ocb.Geo.C167_heights_swapped: [propext, Classical.choice, Quot.sound]
Ocb.Geo.C167_mixed_refuted: [propext, Classical.choice, Quot.sound]
Ocb.Geo.C167_normal: [propext, Classical.choice, Quot.sound]
Ocb.Geo.C167_outside_partial: [propext, Classical.choice, Quot.sound]
Ocb.Geo.C167_poleward_partial: [propext, Classical.choice, Quot.sound]
Ocb.Geo.C167_round_trip_partial: [propext, Classical.choice, Quot.sound]
Ocb.Grid.C92_pad_partial: [propext, Classical.choice, Quot.sound]
Ocb.Grid.C92_pad_refuted: [propext, Classical.choice, Quot.sound]
Ocb.Grid.C92_profile: [propext, Classical.choice, Quot.sound]
Ocb.Grid.C92_same_partial: [propext, Classical.choice, Quot.sound]
Ocb.Grid.C92_same_refuted: [propext, Classical.choice, Quot.sound]
Ocb.Grid.C93_height_partial: [propext, Classical.choice, Quot.sound]
Ocb.Grid.C93_height_refuted: [propext, Classical.choice, Quot.sound]
Ocb.Grid.C93_lat_lt: [propext, Classical.choice, Quot.sound]
Ocb.Grid.C93_shared_refuted: [propext, Quot.sound]
Ocb.Init.C122_ampere: [propext, Classical.choice, Quot.sound]
Ocb.Init.C122_default: [propext, Classical.choice, Quot.sound]
Ocb.Init.C122_dmsp: [propext, Classical.choice, Quot.sound]
Ocb.Init.C122_eab: [propext, Classical.choice, Quot.sound]
Ocb.Init.C122_image: [propext, Classical.choice, Quot.sound]
Ocb.Init.C122_limits: [propext, Classical.choice, Quot.sound]
Ocb.Init.C122_named: [propext, Classical.choice, Quot.sound]
Ocb.Init.C122_one_line_refuted: [propext, Classical.choice, Quot.sound]
Ocb.Init.C122_other: [propext, Classical.choice, Quot.sound]
Ocb.Init.C122_succeeds: [propext, Classical.choice, Quot.sound]
Ocb.Init.C123_accepted_partial: [propext, Classical.choice, Quot.sound]
Ocb.Init.C123_as_ocb: [propext, Classical.choice, Quot.sound]
Ocb.Init.C123_capital_default_refuted: [propext, Classical.choice, Quot.sound]
Ocb.Init.C123_capital_refuted: [propext, Classical.choice, Quot.sound]
Ocb.Init.C123_circular: [propext, Classical.choice, Quot.sound]
Ocb.Init.C123_documented_refuted: [propext, Classical.choice, Quot.sound]
Ocb.Init.C124_eab_partial: [propext, Classical.choice, Quot.sound]
Ocb.Init.C124_eab_refuted: [propext, Classical.choice, Quot.sound]
Ocb.Init.C124_empty_refuted: [propext, Classical.choice, Quot.sound]
Ocb.Init.C124_no_file: [propext, Classical.choice, Quot.sound]
Ocb.Init.C124_no_file_refuted: [propext, Classical.choice, Quot.sound]
Ocb.Init.C124_roundtrip_partial: [propext, Classical.choice, Quot.sound]
Ocb.Init.C124_unsorted_refuted: [propext, Classical.choice, Quot.sound]
Ocb.Init.C125_listed: [propext, Classical.choice, Quot.sound]
Ocb.Init.C125_once: [propext, Quot.sound]
Ocb.Init.C125_only_partial: [propext, Classical.choice, Quot.sound]
Ocb.Init.C125_only_refuted: [propext, Classical.choice, Quot.sound]
Ocb.Init.C125_shown: [propext, Classical.choice, Quot.sound]
Ocb.Init.C126_no_data: [propext, Classical.choice, Quot.sound]
Ocb.Init.C126_states: [propext, Classical.choice, Quot.sound]
Ocb.Init.C134_eab: [propext, Classical.choice, Quot.sound]
Ocb.Init.C134_shows: [propext, Classical.choice, Quot.sound]
Ocb.Init.C135_accepted: [propext, Classical.choice, Quot.sound]
Ocb.Init.C135_given_refuted: [propext, Classical.choice, Quot.sound]
Ocb.Init.C135_has_pair: [propext, Classical.choice, Quot.sound]
Ocb.Init.C135_members: [propext, Classical.choice, Quot.sound]
Ocb.Init.C135_no_data: [propext, Classical.choice, Quot.sound]
Ocb.Init.C135_no_data_refuted: [propext, Classical.choice, Quot.sound]
Ocb.Init.C135_pairs: [propext, Classical.choice, Quot.sound]
Ocb.Init.C136_no_file_refuted: [propext, Classical.choice, Quot.sound]
Ocb.Init.C136_roundtrip_partial: [propext, Classical.choice, Quot.sound]
Ocb.Init.C136_selection_refuted: [propext, Classical.choice, Quot.sound]
Ocb.Init.C136_shows: [propext, Classical.choice, Quot.sound]
Ocb.Init.C34_constructor: [propext, Classical.choice, Quot.sound]
Ocb.Meta.C115_described_partial: [propext, Classical.choice, Quot.sound]
Ocb.Meta.C115_kept: [propext, Classical.choice, Quot.sound]
Ocb.Meta.C115_no_components_refuted: [propext, Classical.choice, Quot.sound]
Ocb.Meta.C115_old_refuted: [propext, Classical.choice, Quot.sound]
Ocb.Meta.C115_succeeds: [propext, Classical.choice, Quot.sound]
Ocb.Meta.C116_boundary_refuted: [propext, Classical.choice, Quot.sound]
Ocb.Meta.C116_inherit_partial: [propext, Classical.choice, Quot.sound]
Ocb.Meta.C116_source_refuted: [propext, Classical.choice, Quot.sound]
Ocb.Meta.C116_unknown_partial: [propext, Classical.choice, Quot.sound]
Ocb.Meta.C117_components_partial: [propext, Classical.choice, Quot.sound]
Ocb.Meta.C117_radius_refuted: [propext, Classical.choice, Quot.sound]
Ocb.Meta.C117_units_refuted: [propext, Classical.choice, Quot.sound]
Ocb.Mix.C137_latitudes_partial: [propext, Classical.choice, Quot.sound]
Ocb.Mix.C137_local_times: [propext, Classical.choice, Quot.sound]
Ocb.Mix.C137_meridian_refuted: [propext, Classical.choice, Quot.sound]
Ocb.Mix.C138_angles_refuted: [propext, Classical.choice, Quot.sound]
Ocb.Mix.C138_poles: [propext, Classical.choice, Quot.sound]
Ocb.Mix.C138_single: [propext, Classical.choice, Quot.sound]
Ocb.Mix.C138_vectors: [propext, Classical.choice, Quot.sound]
Ocb.Mix.C139_aligned_refuted: [propext, Classical.choice, Quot.sound]
Ocb.Mix.C139_arrays_partial: [propext, Classical.choice, Quot.sound]
Ocb.Mix.C139_axis_refuted: [propext, Classical.choice, Quot.sound]
Ocb.Mix.C139_quadrants_refuted: [propext, Classical.choice, Quot.sound]
Ocb.Mix.C139_rotation_partial: [propext, Classical.choice, Quot.sound]
Ocb.Mix.C139_single_vector_partial: [propext, Classical.choice, Quot.sound]
Ocb.Mix.C139_vertical_refuted: [propext, Classical.choice, Quot.sound]
Ocb.OutFile.C157_path_hemisphere_refuted: [propext, Classical.choice, Quot.sound]
Ocb.OutFile.C157_path_partial: [propext, Quot.sound]
Ocb.OutFile.C157_path_refuted: [propext, Classical.choice, Quot.sound]
Ocb.OutFile.C157_read: [propext, Classical.choice, Quot.sound]
Ocb.OutFile.C157_refused: [propext, Classical.choice, Quot.sound]
Ocb.OutFile.C157_test: [propext, Classical.choice, Quot.sound]
Ocb.OutFile.C158_smag_keeps_partial: [propext, Classical.choice, Quot.sound]
Ocb.OutFile.C158_smag_lost_refuted: [propext, Classical.choice, Quot.sound]
Ocb.OutFile.C158_smag_returns: [propext, Classical.choice, Quot.sound]
Ocb.OutFile.C158_vort_keeps_partial: [propext, Classical.choice, Quot.sound]
Ocb.OutFile.C158_vort_lost_refuted: [propext, Classical.choice, Quot.sound]
Ocb.OutFile.C158_vort_returns: [propext, Classical.choice, Quot.sound]
Ocb.OutText.C194_again: [propext, Classical.choice, Quot.sound]
Ocb.OutText.C194_numbers: [propext, Classical.choice, Quot.sound]
Ocb.OutText.C195_between_partial: [propext, Classical.choice, Quot.sound]
Ocb.OutText.C195_limit_refuted: [propext, Classical.choice, Quot.sound]
Ocb.OutText.C195_magnitude: [propext, Classical.choice, Quot.sound]
Ocb.OutText.C195_zero_refuted: [propext, Classical.choice, Quot.sound]
Ocb.OutText.C196_aligned: [propext, Classical.choice, Quot.sound]
Ocb.OutText.C196_one_row_refuted: [propext, Classical.choice, Quot.sound]
Ocb.OutText.C196_vort_partial: [propext, Classical.choice, Quot.sound]
Ocb.OutText.C197_one_row_refuted: [propext, Classical.choice, Quot.sound]
Ocb.OutText.C197_smag_partial: [propext, Classical.choice, Quot.sound]
Ocb.Pysat.C174_criteria_refuted: [propext, Classical.choice, Quot.sound]
Ocb.Pysat.C174_dual: [propext, Classical.choice, Quot.sound]
Ocb.Pysat.C174_once: [propext, Classical.choice, Quot.sound]
Ocb.Pysat.C174_plain: [propext, Classical.choice, Quot.sound]
Ocb.Pysat.C213_rows: [propext, Classical.choice, Quot.sound]
Ocb.Pysat.C214_rows: [propext, Classical.choice, Quot.sound]
Ocb.Pysat.C214_succeeds: [propext, Classical.choice, Quot.sound]
Ocb.Pysat.C215_rows: [propext, Classical.choice, Quot.sound]
Ocb.Pysat.C216_polar_partial: [propext, Classical.choice, Quot.sound]
Ocb.Pysat.C216_refuted: [propext, Classical.choice, Quot.sound]
Ocb.Pysat.C217_rows: [propext, Classical.choice, Quot.sound]
Ocb.Pysat.C217_succeeds: [propext, Classical.choice, Quot.sound]
Ocb.Pysat.C218_centred_partial: [propext, Classical.choice, Quot.sound]
Ocb.Pysat.C218_rest_partial: [propext, Classical.choice, Quot.sound]
Ocb.Pysat.C218_south_refuted: [propext, Classical.choice, Quot.sound]
Ocb.Pysat.C219_exact_partial: [propext, Classical.choice, Quot.sound]
Ocb.Pysat.C219_record_partial: [propext, Classical.choice, Quot.sound]
Ocb.Pysat.C219_refuted: [propext, Classical.choice, Quot.sound]
Ocb.Pysat.C220_exact_partial: [propext, Classical.choice, Quot.sound]
Ocb.Pysat.C220_record_partial: [propext, Classical.choice, Quot.sound]
Ocb.Pysat.C220_refuted: [propext, Classical.choice, Quot.sound]
Ocb.Pysat.C61_documented_refuted: [propext, Classical.choice, Quot.sound]
Ocb.Pysat.C61_extension_partial: [propext, Classical.choice, Quot.sound]
Ocb.Pysat.C61_kind: [propext, Classical.choice, Quot.sound]
Ocb.Pysat.C89_finite_refuted: [propext, Classical.choice, Quot.sound]
Ocb.Pysat.C89_rows_partial: [propext, Classical.choice, Quot.sound]
Ocb.Pysat.C90_leak_refuted: [propext, Classical.choice, Quot.sound]
Ocb.Pysat.C90_own_partial: [propext, Classical.choice, Quot.sound]
Ocb.Pysat.C91_clash_refuted: [propext, Classical.choice, Quot.sound]
Ocb.Pysat.C91_columns_partial: [propext, Classical.choice, Quot.sound]
Ocb.Pysat.C91_missing_refuted: [propext, Classical.choice, Quot.sound]
Ocb.Pysat.C94_columns: [propext, Classical.choice, Quot.sound]
Ocb.Pysat.C94_rows: [propext, Classical.choice, Quot.sound]
Ocb.Pysat.C94_succeeds: [propext, Classical.choice, Quot.sound]
Ocb.Pysat.C95_north_partial: [propext, Classical.choice, Quot.sound]
Ocb.Pysat.C95_south_refuted: [propext, Classical.choice, Quot.sound]
Ocb.Pysat.C96_arguments_partial: [propext, Classical.choice, Quot.sound]
Ocb.Pysat.C96_arguments_refuted: [propext, Classical.choice, Quot.sound]
Ocb.Pysat.C96_twice_partial: [propext, Classical.choice, Quot.sound]
Ocb.Pysat.C96_twice_refuted: [propext, Classical.choice, Quot.sound]
Ocb.Pysat.C97_equator_refuted: [propext, Classical.choice, Quot.sound]
Ocb.Pysat.C97_hemisphere: [propext, Classical.choice, Quot.sound]
Ocb.Pysat.C98_default_height_refuted: [propext, Classical.choice, Quot.sound]
Ocb.Pysat.C99_numbers: [propext, Classical.choice, Quot.sound]
Ocb.Pysat.C99_refused: [propext, Classical.choice, Quot.sound]
Ocb.Pysat.C99_scale: [propext, Classical.choice, Quot.sound]
Ocb.Reselect.C163_criteria_forgotten_refuted: [propext, Classical.choice, Quot.sound]
Ocb.Reselect.C163_criteria_stay: [propext, Classical.choice, Quot.sound]
Ocb.Reselect.C163_cursor_back_refuted: [propext, Classical.choice, Quot.sound]
Ocb.Reselect.C163_history_free: [propext, Classical.choice, Quot.sound]
Ocb.Reselect.C163_match_valid: [propext, Classical.choice, Quot.sound]
Ocb.Reselect.C164_no_pairs_refuted: [propext, Classical.choice, Quot.sound]
Ocb.Reselect.C164_processed_partial: [propext, Classical.choice, Quot.sound]
Ocb.Reselect.C164_select_once_partial: [propext, Classical.choice, Quot.sound]
Ocb.Reselect.C164_unordered_refuted: [propext, Classical.choice, Quot.sound]
Ocb.SaveAll.C204_even_partial: [propext, Classical.choice, Quot.sound]
Ocb.SaveAll.C204_index_refuted: [propext, Classical.choice, Quot.sound]
Ocb.SaveAll.C204_smag: [propext, Classical.choice, Quot.sound]
Ocb.SaveAll.C204_vort: [propext, Classical.choice, Quot.sound]
Ocb.SaveAll.C205_back_partial: [propext, Classical.choice, Quot.sound]
Ocb.SaveAll.C205_one_row_refuted: [propext, Classical.choice, Quot.sound]
Ocb.SaveAll.C206_same: [propext, Classical.choice, Quot.sound]
Ocb.Scale.C118_meridian_refuted: [propext, Classical.choice, Quot.sound]
Ocb.Scale.C118_missing_refuted: [propext, Classical.choice, Quot.sound]
Ocb.Scale.C118_northern_partial: [propext, Classical.choice, Quot.sound]
Ocb.Scale.C118_southern_refuted: [propext, Classical.choice, Quot.sound]
Ocb.Scale.C119_pole_refuted: [propext, Classical.choice, Quot.sound]
Ocb.Scale.C119_unbound_refuted: [propext, Classical.choice, Quot.sound]
Ocb.Scale.C119_unknown_partial: [propext, Classical.choice, Quot.sound]
Ocb.Scale.C120_all_or_nothing: [propext, Classical.choice, Quot.sound]
Ocb.Scale.C120_location: [propext, Classical.choice, Quot.sound]
Ocb.Scale.C120_magnetic: [propext, Classical.choice, Quot.sound]
Ocb.Scale.C121_heights_refuted: [propext, Classical.choice, Quot.sound]
Ocb.Scale.C121_indices_refuted: [propext, Classical.choice, Quot.sound]
Ocb.Scale.C121_northern_partial: [propext, Classical.choice, Quot.sound]
Ocb.Scale.C121_steps: [propext, Classical.choice, Quot.sound]
Ocb.Scale.C127_digits_refuted: [propext, Classical.choice, Quot.sound]
Ocb.Scale.C127_kept_partial: [propext, Classical.choice, Quot.sound]
Ocb.Scale.C127_long_refuted: [propext, Classical.choice, Quot.sound]
Ocb.Scale.C127_name_refuted: [propext, Classical.choice, Quot.sound]
Ocb.Scale.C127_nan_name_refuted: [propext, Classical.choice, Quot.sound]
Ocb.Scale.C127_nan_refuted: [propext, Classical.choice, Quot.sound]
Ocb.Scale.C127_results_refuted: [propext, Classical.choice, Quot.sound]
Ocb.Scale.C127_roundtrip_partial: [propext, Classical.choice, Quot.sound]
Ocb.Scale.C128_bounds_places_partial: [propext, Classical.choice, Quot.sound]
Ocb.Scale.C128_components_refuted: [propext, Classical.choice, Quot.sound]
Ocb.Scale.C128_coordinate_refuted: [propext, Classical.choice, Quot.sound]
Ocb.Scale.C128_height_refuted: [propext, Classical.choice, Quot.sound]
Ocb.Scale.C128_listed_partial: [propext, Classical.choice, Quot.sound]
Ocb.Scale.C128_repeats_refuted: [propext, Classical.choice, Quot.sound]
Ocb.Scale.C128_single: [propext, Classical.choice, Quot.sound]
Ocb.Scale.C140_no_leak: [propext, Classical.choice, Quot.sound]
Ocb.Scale.C140_repeat: [propext, Classical.choice, Quot.sound]
Ocb.Scale.C141_location_refuted: [propext, Classical.choice, Quot.sound]
Ocb.Scale.C141_results_refuted: [propext, Classical.choice, Quot.sound]
Ocb.Scale.C141_unset_arrays_partial: [propext, Classical.choice, Quot.sound]
Ocb.Scale.C141_unset_partial: [propext, Classical.choice, Quot.sound]
Ocb.Scale.C142_first_partial: [propext, Classical.choice, Quot.sound]
Ocb.Scale.C142_given_refuted: [propext, Classical.choice, Quot.sound]
Ocb.Scale.C142_second_refuted: [propext, Classical.choice, Quot.sound]
Ocb.Scale.C165_assigned_refuted: [propext, Classical.choice, Quot.sound]
Ocb.Scale.C165_given_refuted: [propext, Classical.choice, Quot.sound]
Ocb.Scale.C165_recalculated: [propext, Classical.choice, Quot.sound]
Ocb.Scale.C165_results: [propext, Classical.choice, Quot.sound]
Ocb.Scale.C165_shape_refuted: [propext, Classical.choice, Quot.sound]
Ocb.Scale.C165_vector_partial: [propext, Classical.choice, Quot.sound]
Ocb.Scale.C168_array_refuted: [propext, Classical.choice, Quot.sound]
Ocb.Scale.C168_results_refuted: [propext, Classical.choice, Quot.sound]
Ocb.Scale.C168_same_refuted: [propext, Classical.choice, Quot.sound]
Ocb.Scale.C168_unconverted_refuted: [propext, Classical.choice, Quot.sound]
Ocb.Scale.C169_as_ocb_partial: [propext, Classical.choice, Quot.sound]
Ocb.Scale.C169_other_hemisphere_refuted: [propext, Classical.choice, Quot.sound]
Ocb.Scale.C170_outside_refuted: [propext, Classical.choice, Quot.sound]
Ocb.Scale.C170_poleward_partial: [propext, Classical.choice, Quot.sound]
Ocb.Scale.C177_corr_refuted: [propext, Classical.choice, Quot.sound]
Ocb.Scale.C177_height_refuted: [propext, Classical.choice, Quot.sound]
Ocb.Scale.C177_normal_partial: [propext, Classical.choice, Quot.sound]
Ocb.Scale.C177_revert_partial: [propext, Classical.choice, Quot.sound]
Ocb.Scale.C177_single: [propext, Classical.choice, Quot.sound]
Ocb.Scale.C178_corr_refuted: [propext, Classical.choice, Quot.sound]
Ocb.Scale.C178_mismatch: [propext, Classical.choice, Quot.sound]
Ocb.Scale.C178_mlt_refuted: [propext, Classical.choice, Quot.sound]
Ocb.Scale.C178_normal: [propext, Classical.choice, Quot.sound]
Ocb.Scale.C178_revert_partial: [propext, Classical.choice, Quot.sound]
Ocb.Scale.C178_revert_single: [propext, Classical.choice, Quot.sound]
Ocb.Scale.C178_single: [propext, Classical.choice, Quot.sound]
Ocb.Scale.C179_float_refuted: [propext, Classical.choice, Quot.sound]
Ocb.Scale.C179_mix_partial: [propext, Classical.choice, Quot.sound]
Ocb.Scale.C179_mlt_refuted: [propext, Classical.choice, Quot.sound]
Ocb.Scale.C179_nopair_refuted: [propext, Classical.choice, Quot.sound]
Ocb.Scale.C179_single: [propext, Classical.choice, Quot.sound]
Ocb.Scale.C22_members: [propext, Classical.choice, Quot.sound]
Ocb.Scale.C47_curl: [propext, Classical.choice, Quot.sound]
Ocb.Scale.C47_evar: [propext, Classical.choice, Quot.sound]
Ocb.Scale.C48_archav_hav: [propext, Classical.choice, Quot.sound]
Ocb.Scale.C48_hav: [propext, Classical.choice, Quot.sound]
Ocb.Scale.C48_hav_archav: [propext, Classical.choice, Quot.sound]
Ocb.Scale.C48_outside: [propext, Classical.choice, Quot.sound]
Ocb.Scale.C48_small: [propext, Classical.choice, Quot.sound]
Ocb.Scale.C49_array: [propext, Classical.choice, Quot.sound]
Ocb.Scale.C49_single_refuted: [propext, Classical.choice, Quot.sound]
Ocb.Scale.C49_unscaled_partial: [propext, Classical.choice, Quot.sound]
Ocb.Scale.C50_construct: [propext, Classical.choice, Quot.sound]
Ocb.Scale.C50_constructed: [propext, Classical.choice, Quot.sound]
Ocb.Scale.C50_test: [propext, Classical.choice, Quot.sound]
Ocb.Scale.C50_update_partial: [propext, Classical.choice, Quot.sound]
Ocb.Scale.C50_update_refuted: [propext, Classical.choice, Quot.sound]
Ocb.Scale.C51_coords_unset_partial: [propext, Classical.choice, Quot.sound]
Ocb.Scale.C51_dat_ind_partial: [propext, Classical.choice, Quot.sound]
Ocb.Scale.C51_ocb_ind_partial: [propext, Classical.choice, Quot.sound]
Ocb.Scale.C51_refused_refuted: [propext, Classical.choice, Quot.sound]
Ocb.Scale.C51_shape_refuted: [propext, Classical.choice, Quot.sound]
Ocb.Scale.C51_stale_refuted: [propext, Classical.choice, Quot.sound]
Ocb.Scale.C69_geometry: [propext, Classical.choice, Quot.sound]
Ocb.Scale.C69_scaled_arrays: [propext, Classical.choice, Quot.sound]
Ocb.Scale.C71_southern_refuted: [propext, Classical.choice, Quot.sound]
Ocb.Scale.C72_cursor_partial: [propext, Classical.choice, Quot.sound]
Ocb.Scale.C72_cursor_refuted: [propext, Classical.choice, Quot.sound]
Ocb.Scale.C72_geographic_refuted: [propext, Classical.choice, Quot.sound]
Ocb.Scale.C73_geographic_location_refuted: [propext, Classical.choice, Quot.sound]
Ocb.Scale.C74_arrays_partial: [propext, Classical.choice, Quot.sound]
Ocb.Scale.C74_dropped_refuted: [propext, Classical.choice, Quot.sound]
Ocb.Scale.C75_boundary_shape_refuted: [propext, Classical.choice, Quot.sound]
Ocb.Scale.C75_shapes_partial: [propext, Classical.choice, Quot.sound]
Ocb.Scale.C75_values_partial: [propext, Classical.choice, Quot.sound]
Ocb.Scale.C77_geographic_refuted: [propext, Classical.choice, Quot.sound]
Ocb.Scale.C77_place_partial: [propext, Classical.choice, Quot.sound]
Ocb.Smag.C58_bad_time: [propext, Classical.choice, Quot.sound]
Ocb.Smag.C58_blank_end_refuted: [propext, Classical.choice, Quot.sound]
Ocb.Smag.C58_no_header_end: [propext, Classical.choice, Quot.sound]
Ocb.Smag.C58_no_stations_refuted: [propext, Classical.choice, Quot.sound]
Ocb.Smag.C58_rows_partial: [propext, Classical.choice, Quot.sound]
Ocb.Smag.C59_complete: [propext, Classical.choice, Quot.sound]
Ocb.Smag.C59_error_iff: [propext, Classical.choice, Quot.sound]
Ocb.Smag.C59_groups: [propext, Classical.choice, Quot.sound]
Ocb.Smag.C59_nearest: [propext, Classical.choice, Quot.sound]
Ocb.Smag.C86_truncated_refuted: [propext, Classical.choice, Quot.sound]
Ocb.Smag.C87_fill_partial: [propext, Classical.choice, Quot.sound]
Ocb.Smag.C87_latitude_refuted: [propext, Classical.choice, Quot.sound]
Ocb.SmagOut.C110_rows: [propext, Classical.choice, Quot.sound]
Ocb.SmagOut.C111_empty_file: [propext, Classical.choice, Quot.sound]
Ocb.SmagOut.C111_fails_iff: [propext, Classical.choice, Quot.sound]
Ocb.SmagOut.C111_no_file: [propext, Classical.choice, Quot.sound]
Ocb.SmagOut.C112_coords_partial: [propext, Classical.choice, Quot.sound]
Ocb.SmagOut.C112_north: [propext, Classical.choice, Quot.sound]
Ocb.SmagOut.C112_south_refuted: [propext, Classical.choice, Quot.sound]
Ocb.SmagOut.C113_mismatch_refuted: [propext, Classical.choice, Quot.sound]
Ocb.SmagOut.C113_nan_rows: [propext, Classical.choice, Quot.sound]
Ocb.SmagOut.C113_own_partial: [propext, Classical.choice, Quot.sound]
Ocb.SmagOut.C114_fill_latitude_refuted: [propext, Classical.choice, Quot.sound]
Ocb.SmagOut.C114_from_file: [propext, Classical.choice, Quot.sound]
Ocb.SmagOut.C114_loaded: [propext, Classical.choice, Quot.sound]
Ocb.SmagOut.C114_no_header_end_refuted: [propext, Classical.choice, Quot.sound]
Ocb.SmagOut.C114_no_stations_refuted: [propext, Classical.choice, Quot.sound]
Ocb.SmagOut.C173_fails_iff: [propext, Classical.choice, Quot.sound]
Ocb.SmagOut.C173_rows: [propext, Classical.choice, Quot.sound]
Ocb.Text.C07_fraction_partial: [propext, Classical.choice, Quot.sound]
Ocb.Text.C07_fraction_refuted: [propext, Classical.choice, Quot.sound]
Ocb.Text.C07_outside: [propext, Classical.choice, Quot.sound]
Ocb.Text.C07_whole: [propext, Classical.choice, Quot.sound]
Ocb.Text.C08_bad_day: [propext, Classical.choice, Quot.sound]
Ocb.Text.C08_date: [propext, Classical.choice, Quot.sound]
Ocb.Text.C09_any_format_partial: [propext, Classical.choice, Quot.sound]
Ocb.Text.C09_date_partial: [propext, Classical.choice, Quot.sound]
Ocb.Text.C09_trailing_refuted: [propext, Classical.choice, Quot.sound]
Ocb.Text.C09_yyddd_partial: [propext, Classical.choice, Quot.sound]
Ocb.Text.C10_fits_partial: [propext, Classical.choice, Quot.sound]
Ocb.Text.C10_iso_year_refuted: [propext, Classical.choice, Quot.sound]
Ocb.Text.C10_offset_refuted: [propext, Classical.choice, Quot.sound]
Ocb.Text.C10_plain: [propext, Classical.choice, Quot.sound]
Ocb.Text.C10_repeat_refuted: [propext, Classical.choice, Quot.sound]
Ocb.Text.C84_default_format: [propext, Classical.choice, Quot.sound]
Ocb.Text.C85_bad_day_refuted: [propext, Classical.choice, Quot.sound]
Ocb.Text.C85_date_partial: [propext, Classical.choice, Quot.sound]
Ocb.Time.C01_fix_range_any_period: [propext, Classical.choice, Quot.sound]
Ocb.Time.C01_fix_range_error: [propext, Classical.choice, Quot.sound]
Ocb.Time.C01_fix_range_idempotent: [propext, Classical.choice, Quot.sound]
Ocb.Time.C01_fix_range_in_interval: [propext, Classical.choice, Quot.sound]
Ocb.Time.C01_fix_range_inside: [propext, Classical.choice, Quot.sound]
Ocb.Time.C01_fix_range_only_value_error: [propext, Classical.choice, Quot.sound]
Ocb.Time.C01_fix_range_unique: [propext, Classical.choice, Quot.sound]
Ocb.Time.C01_fix_range_wide_period_refuted: [propext, Classical.choice, Quot.sound]
Ocb.Time.C02_fix_range_array_error: [propext, Quot.sound]
Ocb.Time.C02_fix_range_array_partial: [propext, Classical.choice, Quot.sound]
Ocb.Time.C02_fix_range_infinite_diverges_refuted: [propext, Quot.sound]
Ocb.Time.C03_deg2hr_hr2deg: [propext, Classical.choice, Quot.sound]
Ocb.Time.C03_deg2hr_hr2deg_inside: [propext, Classical.choice, Quot.sound]
Ocb.Time.C03_hours_in_day: [propext, Classical.choice, Quot.sound]
Ocb.Time.C03_hr2deg_deg2hr: [propext, Classical.choice, Quot.sound]
Ocb.Time.C03_hr2rad_rad2hr: [propext, Classical.choice, Quot.sound]
Ocb.Time.C03_rad2hr_hr2rad: [propext, Classical.choice, Quot.sound]
Ocb.Time.C03_whole_turns: [propext, Classical.choice, Quot.sound]
Ocb.Time.C04_hr2deg_inside: [propext, Classical.choice, Quot.sound]
Ocb.Time.C04_hr2deg_range: [propext, Classical.choice, Quot.sound]
Ocb.Time.C05_glon2slt_slt2glon: [propext, Classical.choice, Quot.sound]
Ocb.Time.C05_glon2slt_value: [propext, Classical.choice, Quot.sound]
Ocb.Time.C05_slt2glon_glon2slt: [propext, Classical.choice, Quot.sound]
Ocb.Time.C06_datetime2hr_exact: [propext, Classical.choice, Quot.sound]
Ocb.Time.C06_datetime2hr_range: [propext, Classical.choice, Quot.sound]
Ocb.Time.C06_datetime2hr_strictMono: [propext, Classical.choice, Quot.sound]
Ocb.Track.C62_between_partial: [propext, Classical.choice, Quot.sound]
Ocb.Track.C62_between_refuted: [propext, Classical.choice, Quot.sound]
Ocb.Track.C62_errors: [propext, Classical.choice, Quot.sound]
Ocb.Track.C62_exact_partial: [propext, Classical.choice, Quot.sound]
Ocb.Track.C62_rising_refuted: [propext, Classical.choice, Quot.sound]
Ocb.Track.C62_sound: [propext, Classical.choice, Quot.sound]
Ocb.Track.C62_vertical_refuted: [propext, Classical.choice, Quot.sound]
Ocb.Track.C88_hemisphere_partial: [propext, Classical.choice, Quot.sound]
Ocb.Track.C88_hemisphere_refuted: [propext, Classical.choice, Quot.sound]
Ocb.Vec.C40_equator_refuted: [propext, Classical.choice, Quot.sound]
Ocb.Vec.C40_off_meridian: [propext, Classical.choice, Quot.sound]
Ocb.Vec.C40_opposite_meridian_partial: [propext, Classical.choice, Quot.sound]
Ocb.Vec.C40_opposite_meridian_refuted: [propext, Classical.choice, Quot.sound]
Ocb.Vec.C40_other_hemisphere_refuted: [propext, Classical.choice, Quot.sound]
Ocb.Vec.C40_range: [propext, Classical.choice, Quot.sound]
Ocb.Vec.C40_same_meridian: [propext, Classical.choice, Quot.sound]
Ocb.Vec.C41_pole_quadrant: [propext, Classical.choice, Quot.sound]
Ocb.Vec.C41_pole_quadrant_nan: [propext, Classical.choice, Quot.sound]
Ocb.Vec.C41_pole_quadrant_period: [propext, Classical.choice, Quot.sound]
Ocb.Vec.C41_vector_quadrant: [propext, Classical.choice, Quot.sound]
Ocb.Vec.C41_vector_quadrant_nan: [propext, Classical.choice, Quot.sound]
Ocb.Vec.C42_rotation_array: [propext, Classical.choice, Quot.sound]
Ocb.Vec.C42_rotation_given_quadrants: [propext, Classical.choice, Quot.sound]
Ocb.Vec.C42_rotation_single: [propext, Classical.choice, Quot.sound]
Ocb.Vec.C43_magnitude_array: [propext, Classical.choice, Quot.sound]
Ocb.Vec.C43_magnitude_single: [propext, Classical.choice, Quot.sound]
Ocb.Vec.C43_numbers: [propext, Classical.choice, Quot.sound]
Ocb.Vec.C44_vertical_array_partial: [propext, Classical.choice, Quot.sound]
Ocb.Vec.C44_vertical_lost_refuted: [propext, Classical.choice, Quot.sound]
Ocb.Vec.C44_vertical_partial: [propext, Classical.choice, Quot.sound]
Ocb.Vec.C45_aligned_partial: [propext, Classical.choice, Quot.sound]
Ocb.Vec.C45_opposite_refuted: [propext, Classical.choice, Quot.sound]
Ocb.Vec.C45_reversed_refuted: [propext, Classical.choice, Quot.sound]
Ocb.Vec.C46_is_difference: [propext, Classical.choice, Quot.sound]
Ocb.Vec.C46_raises: [propext, Classical.choice, Quot.sound]
Ocb.Vec.C46_range: [propext, Classical.choice, Quot.sound]
Ocb.Vec.C66_adjust: [propext, Classical.choice, Quot.sound]
Ocb.Vec.C66_nan_latitude_refuted: [propext, Classical.choice, Quot.sound]
Ocb.Vec.C66_pole_angle: [propext, Classical.choice, Quot.sound]
Ocb.Vec.C67_northern: [propext, Classical.choice, Quot.sound]
Ocb.Vec.C68_poleward_partial: [propext, Classical.choice, Quot.sound]
Ocb.Vec.C68_southern_refuted: [propext, Classical.choice, Quot.sound]
Ocb.Vort.C57_columns: [propext, Classical.choice, Quot.sound]
Ocb.Vort.C57_lost_block: [propext, Classical.choice, Quot.sound]
Ocb.Vort.C57_malformed: [propext, Classical.choice, Quot.sound]
Ocb.Vort.C57_rows: [propext, Classical.choice, Quot.sound]
Ocb.Vort.C57_truncated: [propext, Classical.choice, Quot.sound]
Ocb.VortOut.C106_equator_refuted: [propext, Classical.choice, Quot.sound]
Ocb.VortOut.C106_found_partial: [propext, Classical.choice, Quot.sound]
Ocb.VortOut.C106_loaded: [propext, Classical.choice, Quot.sound]
Ocb.VortOut.C106_north: [propext, Classical.choice, Quot.sound]
Ocb.VortOut.C106_refused: [propext, Classical.choice, Quot.sound]
Ocb.VortOut.C106_south: [propext, Classical.choice, Quot.sound]
Ocb.VortOut.C107_fails_iff: [propext, Classical.choice, Quot.sound]
Ocb.VortOut.C107_from_file: [propext, Classical.choice, Quot.sound]
Ocb.VortOut.C107_no_file: [propext, Classical.choice, Quot.sound]
Ocb.VortOut.C107_rows: [propext, Classical.choice, Quot.sound]
Ocb.VortOut.C108_dual_partial: [propext, Classical.choice, Quot.sound]
Ocb.VortOut.C108_dual_radius_refuted: [propext, Classical.choice, Quot.sound]
Ocb.VortOut.C108_values: [propext, Classical.choice, Quot.sound]
Ocb.VortOut.C109_mismatch_refuted: [propext, Classical.choice, Quot.sound]
Ocb.VortOut.C109_nan_rows: [propext, Classical.choice, Quot.sound]
Ocb.VortOut.C109_own_partial: [propext, Classical.choice, Quot.sound]
Ocb.Where.C154_archav: [propext, Classical.choice, Quot.sound]
Ocb.Where.C154_fix_range: [propext, Quot.sound]
Ocb.Where.C154_pole_angle: [propext, Classical.choice, Quot.sound]
Ocb.Where.C154_pole_quadrants: [propext, Classical.choice, Quot.sound]
Ocb.Where.C154_sign_mask: [propext, Classical.choice, Quot.sound]
Ocb.Where.C154_vect_quadrant: [propext, Classical.choice, Quot.sound]
Ocb.Where.C155_each: [propext, Classical.choice, Quot.sound]
Ocb.Where.C155_error: [propext, Classical.choice, Quot.sound]
Ocb.Where.C155_given_refuted: [propext, Classical.choice, Quot.sound]
Ocb.Where.C155_given_same: [propext, Classical.choice, Quot.sound]
Ocb.Where.C155_memory: [propext, Classical.choice, Quot.sound]
Ocb.Where.C155_unasked: [propext, Classical.choice, Quot.sound]
Ocb.Where.C155_undefined_refuted: [propext, Classical.choice, Quot.sound]
Ocb.Where.C156_not_missed: [propext, Classical.choice, Quot.sound]
Ocb.Where.C156_warns_partial: [propext, Classical.choice, Quot.sound]
Ocb.Where.C156_warns_refuted: [propext, Classical.choice, Quot.sound]
Ocb.Whole.C159_float_range_partial: [propext, Classical.choice, Quot.sound]
Ocb.Whole.C159_float_range_refuted: [propext, Classical.choice, Quot.sound]
Ocb.Whole.C159_integer_range: [propext, Classical.choice, Quot.sound]
Ocb.Whole.C159_integer_range_entries: [propext, Classical.choice, Quot.sound]
Ocb.Whole.C160_boundary_refuted: [propext, Classical.choice, Quot.sound]
Ocb.Whole.C160_dual_float_partial: [propext, Classical.choice, Quot.sound]
Ocb.Whole.C160_dual_refuted: [propext, Classical.choice, Quot.sound]
Ocb.Whole.C160_dual_returns_partial: [propext, Classical.choice, Quot.sound]
Ocb.Whole.C161_normal_mixed_refuted: [propext, Classical.choice, Quot.sound]
Ocb.Whole.C161_normal_same_partial: [propext, Classical.choice, Quot.sound]
Ocb.Whole.C162_quad_refuted: [propext, Classical.choice, Quot.sound]
Ocb.Whole.C162_quad_same_partial: [propext, Classical.choice, Quot.sound]
Ocb.XData.C210_both_refuted: [propext, Classical.choice, Quot.sound]
Ocb.XData.C210_cells_partial: [propext, Classical.choice, Quot.sound]
Ocb.XData.C210_coords_refuted: [propext, Classical.choice, Quot.sound]
Ocb.XData.C210_square_refuted: [propext, Classical.choice, Quot.sound]
Ocb.XData.C210_succeeds: [propext, Classical.choice, Quot.sound]
Ocb.XData.C211_order_refuted: [propext, Classical.choice, Quot.sound]
Ocb.XData.C211_scaled_partial: [propext, Classical.choice, Quot.sound]
Ocb.XData.C211_succeeds: [propext, Classical.choice, Quot.sound]
Ocb.XData.C212_names_refuted: [propext, Classical.choice, Quot.sound]
Ocb.XData.C212_order_refuted: [propext, Classical.choice, Quot.sound]
Ocb.XData.C212_succeeds: [propext, Classical.choice, Quot.sound]
Ocb.XData.C212_vectors_partial: [propext, Classical.choice, Quot.sound]
Ocb.XData.C213_cells: [propext, Classical.choice, Quot.sound]
Ocb.XData.C213_scaled: [propext, Classical.choice, Quot.sound]
Ocb.XData.C214_cells: [propext, Classical.choice, Quot.sound]
Ocb.XData.C215_cells: [propext, Classical.choice, Quot.sound]
Ocb.XData.C216_cells_partial: [propext, Classical.choice, Quot.sound]
Ocb.XData.C217_cells: [propext, Classical.choice, Quot.sound]
Ocb.XData.C219_cells_partial: [propext, Classical.choice, Quot.sound]
Ocb.XData.C219_scaled_partial: [propext, Classical.choice, Quot.sound]
Ocb.XData.C220_cells_partial: [propext, Classical.choice, Quot.sound]
