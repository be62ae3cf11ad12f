{
 "claims": [
  {
   "property": "C01",
   "status": "partial",
   "theorems": [
    "Ocb.Time.C01_fix_range_in_interval",
    "Ocb.Time.C01_fix_range_any_period",
    "Ocb.Time.C01_fix_range_inside",
    "Ocb.Time.C01_fix_range_unique",
    "Ocb.Time.C01_fix_range_error",
    "Ocb.Time.C01_fix_range_only_value_error",
    "Ocb.Time.C01_fix_range_idempotent",
    "Ocb.Time.C01_fix_range_wide_period_refuted"
   ],
   "note": "Exact arithmetic. The claim needs a period not longer than the interval; C01_fix_range_wide_period_refuted shows a longer period that leaves the value above the maximum. C01_fix_range_any_period holds for every period."
  },
  {
   "property": "C02",
   "status": "partial",
   "theorems": [
    "Ocb.Time.C02_fix_range_array_partial",
    "Ocb.Time.C02_fix_range_array_error",
    "Ocb.Time.C02_fix_range_infinite_diverges_refuted"
   ],
   "note": "Every array with finite or NaN entries is fixed entry by entry and the loops stop. The claim is false for an infinite entry: the loop never stops (C02_fix_range_infinite_diverges_refuted)."
  },
  {
   "property": "C03",
   "status": "proved",
   "theorems": [
    "Ocb.Time.C03_deg2hr_hr2deg",
    "Ocb.Time.C03_deg2hr_hr2deg_inside",
    "Ocb.Time.C03_hr2deg_deg2hr",
    "Ocb.Time.C03_rad2hr_hr2rad",
    "Ocb.Time.C03_hr2rad_rad2hr",
    "Ocb.Time.C03_whole_turns",
    "Ocb.Time.C03_hours_in_day"
   ],
   "note": ""
  },
  {
   "property": "C04",
   "status": "proved",
   "theorems": [
    "Ocb.Time.C04_hr2deg_range",
    "Ocb.Time.C04_hr2deg_inside"
   ],
   "note": ""
  },
  {
   "property": "C05",
   "status": "proved",
   "theorems": [
    "Ocb.Time.C05_glon2slt_slt2glon",
    "Ocb.Time.C05_slt2glon_glon2slt",
    "Ocb.Time.C05_glon2slt_value"
   ],
   "note": ""
  },
  {
   "property": "C06",
   "status": "proved",
   "theorems": [
    "Ocb.Time.C06_datetime2hr_exact",
    "Ocb.Time.C06_datetime2hr_range",
    "Ocb.Time.C06_datetime2hr_strictMono"
   ],
   "note": ""
  },
  {
   "property": "C07",
   "status": "partial",
   "theorems": [
    "Ocb.Text.C07_whole",
    "Ocb.Text.C07_fraction_partial",
    "Ocb.Text.C07_fraction_refuted",
    "Ocb.Text.C07_outside"
   ],
   "note": "Refuted as stated for fractions (C07_fraction_refuted gives exactly the refused intervals, the last half second of every minute); whole seconds and all other fractions proved.  In the year 9999 day 366 is out of the calendar (ValueError) and excluded."
  },
  {
   "property": "C08",
   "status": "proved",
   "theorems": [
    "Ocb.Text.C08_date",
    "Ocb.Text.C08_bad_day"
   ],
   "note": "for offsets giving a year of four digits; in 9999 day 366 is out of the calendar and excluded."
  },
  {
   "property": "C09",
   "status": "partial",
   "theorems": [
    "Ocb.Text.C09_any_format_partial",
    "Ocb.Text.C09_date_partial",
    "Ocb.Text.C09_yyddd_partial",
    "Ocb.Text.C09_trailing_refuted"
   ],
   "note": "Refuted for dates with trailing characters.  Proved for any format whose bare part reads the date, for YYYY-MM-DD dates and for yyddd dates, up to the end of the calendar."
  },
  {
   "property": "C10",
   "status": "partial",
   "theorems": [
    "Ocb.Text.C10_fits_partial",
    "Ocb.Text.C10_plain",
    "Ocb.Text.C10_repeat_refuted",
    "Ocb.Text.C10_iso_year_refuted",
    "Ocb.Text.C10_offset_refuted"
   ],
   "note": "Refuted for repeated directives (as the property says), and also for %G and for UTC offsets with seconds; proved for every other format."
  },
  {
   "property": "C11",
   "status": "proved",
   "theorems": [
    "Ocb.Cycle.C11_next_good",
    "Ocb.Cycle.C11_next_good_first",
    "Ocb.Cycle.C11_next_good_none"
   ],
   "note": ""
  },
  {
   "property": "C12",
   "status": "proved",
   "theorems": [
    "Ocb.Cycle.C12_retrieve_all"
   ],
   "note": ""
  },
  {
   "property": "C13",
   "status": "partial",
   "theorems": [
    "Ocb.Cycle.C13_criteria_meaning_partial",
    "Ocb.Cycle.C13_order_irrelevant",
    "Ocb.Cycle.C13_unknown_ignored",
    "Ocb.Cycle.C13_nan_merit_never",
    "Ocb.Cycle.C13_nan_never_equal",
    "Ocb.Cycle.C13_nan_attribute_refuted"
   ],
   "note": "Holds for attributes that are numbers. NaN attributes pass the four inequality criteria (C13_nan_attribute_refuted)."
  },
  {
   "property": "C14",
   "status": "proved",
   "theorems": [
    "Ocb.Cycle.C14_match_within_tolerance",
    "Ocb.Cycle.C14_match_good"
   ],
   "note": ""
  },
  {
   "property": "C15",
   "status": "proved",
   "theorems": [
    "Ocb.Cycle.C15_match_total_monotone",
    "Ocb.Cycle.C15_match_skips_nothing"
   ],
   "note": ""
  },
  {
   "property": "C16",
   "status": "proved",
   "theorems": [
    "Ocb.Cycle.C16_match_closest",
    "Ocb.Cycle.C16_match_plateau_refuted"
   ],
   "note": "Holds for strictly increasing times of the usable records. Fails on a plateau of equal times (C16_match_plateau_refuted), as the property says."
  },
  {
   "property": "C17",
   "status": "proved",
   "theorems": [
    "Ocb.Cycle.C17_none_means_no_match",
    "Ocb.Cycle.C17_exhausted_means_no_match",
    "Ocb.Cycle.C17_match_found",
    "Ocb.Cycle.C17_documented_none_refuted"
   ],
   "note": "All four parts proved; the documented return value None is refuted (C17_documented_none_refuted)."
  },
  {
   "property": "C18",
   "status": "proved",
   "theorems": [
    "Ocb.Cycle.C18_drive_pairs",
    "Ocb.Cycle.C18_drive_complete",
    "Ocb.Cycle.C18_drive_nearest"
   ],
   "note": ""
  },
  {
   "property": "C19",
   "status": "proved",
   "theorems": [
    "Ocb.Cycle.C19_pairs_valid"
   ],
   "note": ""
  },
  {
   "property": "C20",
   "status": "proved",
   "theorems": [
    "Ocb.Cycle.C20_pairs_monotone"
   ],
   "note": ""
  },
  {
   "property": "C21",
   "status": "proved",
   "theorems": [
    "Ocb.Cycle.C21_pair_exists_iff"
   ],
   "note": ""
  },
  {
   "property": "C22",
   "status": "partial",
   "theorems": [
    "Ocb.Cycle.C22_set_in_step",
    "Ocb.Cycle.C22_next_step",
    "Ocb.Cycle.C22_history_in_step_partial",
    "Ocb.Cycle.C22_beyond_end_refuted",
    "Ocb.Scale.C22_members"
   ],
   "note": "PARTIAL: The cursor, the pair lists and the two member cursors stay in step for every history inside the range (C22_set_in_step, C22_next_step, C22_history_in_step_partial). Beyond the end the members are not moved: C22_beyond_end_refuted."
  },
  {
   "property": "C23",
   "status": "partial",
   "theorems": [
    "Ocb.Cycle.C23_dual_init_built_partial",
    "Ocb.Cycle.C23_dual_init_built_members",
    "Ocb.Cycle.C23_dual_init_sound",
    "Ocb.Cycle.C23_ready_made_refuted",
    "Ocb.Cycle.C23_nan_refuted"
   ],
   "note": "PARTIAL: Holds for members that the constructor builds; ready-made members and NaN arguments are not checked (C23_ready_made_refuted, C23_nan_refuted)."
  },
  {
   "property": "C24",
   "status": "proved",
   "theorems": [
    "Ocb.Coord.C24_colatitude",
    "Ocb.Coord.C24_boundary_circle"
   ],
   "note": "Exact arithmetic, magnetic coordinates."
  },
  {
   "property": "C25",
   "status": "proved",
   "theorems": [
    "Ocb.Coord.C25_revert_normal",
    "Ocb.Coord.C25_array_round_trip"
   ],
   "note": "For one location and for whole arrays (C25_array_round_trip); the corrected radius must not be zero."
  },
  {
   "property": "C26",
   "status": "proved",
   "theorems": [
    "Ocb.Coord.C26_normal_revert",
    "Ocb.Coord.C26_single_round_trip"
   ],
   "note": "For one location and through the interface; the radius correction passed must be the one at the reverted local time, as the property says."
  },
  {
   "property": "C27",
   "status": "partial",
   "theorems": [
    "Ocb.Coord.C27_normal_no_record",
    "Ocb.Coord.C27_revert_no_record",
    "Ocb.Coord.C27_normal_entries",
    "Ocb.Coord.C27_revert_entries_partial",
    "Ocb.Coord.C27_revert_single",
    "Ocb.Coord.C27_revert_mixed_refuted",
    "Ocb.Coord.C27_latitude_range_refuted"
   ],
   "note": "normal_coord: proved for all arrays. revert_coord: exact for a single location and for arrays of one hemisphere; false for mixed arrays (C27_revert_mixed_refuted). The bound |latitude| <= 90 holds on the pole side only (C27_latitude_range_refuted)."
  },
  {
   "property": "C28",
   "status": "proved",
   "theorems": [
    "Ocb.Coord.C28_whole_days",
    "Ocb.Coord.C28_mirror",
    "Ocb.Coord.C28_rotate"
   ],
   "note": ""
  },
  {
   "property": "C29",
   "status": "proved",
   "theorems": [
    "Ocb.Coord.C29_greatest_crossing",
    "Ocb.Coord.C29_on_boundary",
    "Ocb.Coord.C29_pole_inside"
   ],
   "note": ""
  },
  {
   "property": "C30",
   "status": "proved",
   "theorems": [
    "Ocb.Coord.C30_call",
    "Ocb.Coord.C30_history_slots",
    "Ocb.Coord.C30_history_kept",
    "Ocb.Coord.C30_history_consistent"
   ],
   "note": ""
  },
  {
   "property": "C31",
   "status": "partial",
   "theorems": [
    "Ocb.Coord.C31_normal_unchanged_iff",
    "Ocb.Coord.C31_normal_mutates_refuted",
    "Ocb.Coord.C31_boundary_unchanged_iff",
    "Ocb.Coord.C31_boundary_mutates_refuted"
   ],
   "note": "False as stated, as the property says; the exact set of inputs that are left alone is proved (C31_normal_unchanged_iff, C31_boundary_unchanged_iff)."
  },
  {
   "property": "C32",
   "status": "proved",
   "theorems": [
    "Ocb.Coord.C32_polar_centre"
   ],
   "note": ""
  },
  {
   "property": "C33",
   "status": "partial",
   "theorems": [
    "Ocb.Coord.C33_load_window_partial",
    "Ocb.Coord.C33_nested_windows",
    "Ocb.Coord.C33_one_row_refuted"
   ],
   "note": "Every file except those of one row, which make load raise IndexError (C33_one_row_refuted)."
  },
  {
   "property": "C34",
   "status": "partial",
   "theorems": [
    "Ocb.Init.C34_constructor",
    "Ocb.Cycle.C34_lat_in_hemisphere_partial",
    "Ocb.Cycle.C34_bad_hemisphere",
    "Ocb.Cycle.C34_none_refuted",
    "Ocb.Cycle.C34_zero_kept"
   ],
   "note": "PARTIAL: Holds for numbers; boundary_lat=None raises TypeError (C34_none_refuted) as the property says."
  },
  {
   "property": "C35",
   "status": "proved",
   "theorems": [
    "Ocb.Coord.C35_piecewise",
    "Ocb.Coord.C35_boundaries",
    "Ocb.Coord.C35_order_continuous",
    "Ocb.Coord.C35_regions"
   ],
   "note": "For every array: an entry with the magnetic pole inside both circles and the EAB nowhere poleward of the OCB on its meridian gets the piecewise linear value. Latitude exactly 0 belongs to no hemisphere and is NaN."
  },
  {
   "property": "C36",
   "status": "proved",
   "theorems": [
    "Ocb.Coord.C36_round_trip"
   ],
   "note": "Whole arrays, all three regions mixed, any stores and overwrite flags; local time up to whole days."
  },
  {
   "property": "C37",
   "status": "proved",
   "theorems": [
    "Ocb.Coord.C37_exactly_one",
    "Ocb.Coord.C37_no_undefined"
   ],
   "note": "The three geometric tests agree for every good location. The masks of the code can overlap for OCB latitudes below minus the reference; the consequence is C64."
  },
  {
   "property": "C38",
   "status": "proved",
   "theorems": [
    "Ocb.Coord.C38_call",
    "Ocb.Coord.C38_history"
   ],
   "note": "Histories of all three methods with arbitrary cursor moves among valid pairs."
  },
  {
   "property": "C39",
   "status": "proved",
   "theorems": [
    "Ocb.Coord.C39_radii",
    "Ocb.Coord.C39_scaled_radius"
   ],
   "note": ""
  },
  {
   "property": "C40",
   "status": "partial",
   "theorems": [
    "Ocb.Vec.C40_off_meridian",
    "Ocb.Vec.C40_range",
    "Ocb.Vec.C40_same_meridian",
    "Ocb.Vec.C40_opposite_meridian_partial",
    "Ocb.Vec.C40_opposite_meridian_refuted",
    "Ocb.Vec.C40_other_hemisphere_refuted",
    "Ocb.Vec.C40_equator_refuted"
   ],
   "note": "Holds off the meridian of the pole for every non-equatorial pole, on the meridian within a hemisphere, and on the opposite meridian when the data is not nearer to the base pole. Refuted for the other cases on the meridians and for a pole on the equator (NaN)."
  },
  {
   "property": "C41",
   "status": "proved",
   "theorems": [
    "Ocb.Vec.C41_pole_quadrant",
    "Ocb.Vec.C41_pole_quadrant_nan",
    "Ocb.Vec.C41_pole_quadrant_period",
    "Ocb.Vec.C41_vector_quadrant",
    "Ocb.Vec.C41_vector_quadrant_nan"
   ],
   "note": ""
  },
  {
   "property": "C42",
   "status": "proved",
   "theorems": [
    "Ocb.Vec.C42_rotation_single",
    "Ocb.Vec.C42_rotation_given_quadrants",
    "Ocb.Vec.C42_rotation_array"
   ],
   "note": ""
  },
  {
   "property": "C43",
   "status": "proved",
   "theorems": [
    "Ocb.Vec.C43_magnitude_single",
    "Ocb.Vec.C43_magnitude_array",
    "Ocb.Vec.C43_numbers"
   ],
   "note": ""
  },
  {
   "property": "C44",
   "status": "partial",
   "theorems": [
    "Ocb.Vec.C44_vertical_partial",
    "Ocb.Vec.C44_vertical_array_partial",
    "Ocb.Vec.C44_vertical_lost_refuted"
   ],
   "note": "Holds with a horizontal part or on the aligned meridian; a purely vertical vector loses its vertical component."
  },
  {
   "property": "C45",
   "status": "partial",
   "theorems": [
    "Ocb.Vec.C45_aligned_partial",
    "Ocb.Vec.C45_opposite_refuted",
    "Ocb.Vec.C45_reversed_refuted"
   ],
   "note": "Holds at angle 0 below the pole latitude; refuted at 180 (unchanged) and at 0 at or above the pole latitude (reversed)."
  },
  {
   "property": "C46",
   "status": "proved",
   "theorems": [
    "Ocb.Vec.C46_range",
    "Ocb.Vec.C46_raises",
    "Ocb.Vec.C46_is_difference"
   ],
   "note": ""
  },
  {
   "property": "C47",
   "status": "proved",
   "theorems": [
    "Ocb.Scale.C47_evar",
    "Ocb.Scale.C47_curl"
   ],
   "note": ""
  },
  {
   "property": "C48",
   "status": "proved",
   "theorems": [
    "Ocb.Scale.C48_hav",
    "Ocb.Scale.C48_archav_hav",
    "Ocb.Scale.C48_hav_archav",
    "Ocb.Scale.C48_outside",
    "Ocb.Scale.C48_small"
   ],
   "note": ""
  },
  {
   "property": "C49",
   "status": "partial",
   "theorems": [
    "Ocb.Scale.C49_array",
    "Ocb.Scale.C49_single_refuted",
    "Ocb.Scale.C49_unscaled_partial"
   ],
   "note": "Holds for arrays (C49_array) and without a scale function (C49_unscaled_partial); for a single vector the scale function gets the unrotated components (C49_single_refuted)."
  },
  {
   "property": "C50",
   "status": "partial",
   "theorems": [
    "Ocb.Scale.C50_test",
    "Ocb.Scale.C50_construct",
    "Ocb.Scale.C50_constructed",
    "Ocb.Scale.C50_update_partial",
    "Ocb.Scale.C50_update_refuted"
   ],
   "note": "Proved for the check and for construction (C50_test, C50_construct); update_loc_coords and update_vect_coords_to_mag can leave a refused pair behind (C50_update_refuted)."
  },
  {
   "property": "C51",
   "status": "partial",
   "theorems": [
    "Ocb.Scale.C51_ocb_ind_partial",
    "Ocb.Scale.C51_coords_unset_partial",
    "Ocb.Scale.C51_stale_refuted",
    "Ocb.Scale.C51_shape_refuted",
    "Ocb.Scale.C51_refused_refuted",
    "Ocb.Scale.C51_dat_ind_partial"
   ],
   "note": "Assigning ocb_ind discards everything that came from the boundary when the coordinates are unset or the shapes agree; refuted for stored coordinates, shapes and refused assignments (C51_stale_refuted, C51_shape_refuted, C51_refused_refuted)."
  },
  {
   "property": "C52",
   "status": "proved",
   "theorems": [
    "Ocb.Corr.C52_circular",
    "Ocb.Corr.C52_periodic",
    "Ocb.Corr.C52_elliptical",
    "Ocb.Corr.C52_defined",
    "Ocb.Corr.C52_harmonic",
    "Ocb.Corr.C52_harmonic_table",
    "Ocb.Corr.C52_harmonic_published"
   ],
   "note": ""
  },
  {
   "property": "C53",
   "status": "proved",
   "theorems": [
    "Ocb.Files.C53_default_file"
   ],
   "note": "Stated for the documented instruments and for listings in which every boundary file names its hemisphere; the directory scan itself is a parameter."
  },
  {
   "property": "C54",
   "status": "proved",
   "theorems": [
    "Ocb.Files.C54_order",
    "Ocb.Files.C54_unknown"
   ],
   "note": ""
  },
  {
   "property": "C55",
   "status": "proved",
   "theorems": [
    "Ocb.Dmsp.C55_circle",
    "Ocb.Dmsp.C55_normalise",
    "Ocb.Dmsp.C55_rounded"
   ],
   "note": "The magnetic coordinates come from an arbitrary function in place of aacgmv2. Coincident crossings (radius zero) are excluded from the normalisation. C55_rounded covers the rounding to three decimals."
  },
  {
   "property": "C56",
   "status": "proved",
   "theorems": [
    "Ocb.Dmsp.C56_half_open",
    "Ocb.Dmsp.C56_open",
    "Ocb.Dmsp.C56_windows",
    "Ocb.Dmsp.C56_fetch"
   ],
   "note": "int() and strptime are parameters."
  },
  {
   "property": "C57",
   "status": "proved",
   "theorems": [
    "Ocb.Vort.C57_rows",
    "Ocb.Vort.C57_columns",
    "Ocb.Vort.C57_malformed",
    "Ocb.Vort.C57_truncated",
    "Ocb.Vort.C57_lost_block"
   ],
   "note": "C57_rows: one row per entry of well formed blocks, in order, with the block's date and time and the numbers at their places in the format, None when no entry. C57_malformed: a line with a wrong number of texts raises IOError at any point. C57_truncated: a file ending inside the entries raises IOError. C57_lost_block: a file ending after the date line or the number of entries is read as though the block were not there. Texts within a line are split before the model begins; the conversion of a text to float is a parameter."
  },
  {
   "property": "C58",
   "status": "partial",
   "theorems": [
    "Ocb.Ascii.C58_line_words",
    "Ocb.Smag.C58_rows_partial",
    "Ocb.Smag.C58_no_header_end",
    "Ocb.Smag.C58_no_stations_refuted",
    "Ocb.Smag.C58_blank_end_refuted",
    "Ocb.Smag.C58_bad_time"
   ],
   "note": "C58_rows_partial: for files of header and blocks with at least one station, one row per station in file order with the block's time, station count and indices, and the texts of the line at their places. C58_no_header_end: a file without the rule line gives the empty dictionary. C58_bad_time: a time that does not exist raises ValueError. C58_no_stations_refuted: a block without stations followed by another block makes the reader fail. C58_blank_end_refuted: a blank line at the end raises IndexError."
  },
  {
   "property": "C59",
   "status": "proved",
   "theorems": [
    "Ocb.Smag.C59_groups",
    "Ocb.Smag.C59_complete",
    "Ocb.Smag.C59_nearest",
    "Ocb.Smag.C59_error_iff"
   ],
   "note": "C59_groups, C59_complete, C59_nearest and C59_error_iff over the model of the loop (driveGroups), for OCBoundary and DualBoundary records. The numbers written are those of VectorData, see C69 to C75; the number format is not modelled."
  },
  {
   "property": "C60",
   "status": "partial",
   "theorems": [
    "Ocb.Cycle.C60_drive_error_iff_partial",
    "Ocb.Cycle.C60_no_overlap_refuted"
   ],
   "note": "False as stated. The exact set of failing inputs is proved (C60_drive_error_iff_partial) with a concrete witness (C60_no_overlap_refuted)."
  },
  {
   "property": "C61",
   "status": "partial",
   "theorems": [
    "Ocb.Pysat.C61_kind",
    "Ocb.Pysat.C61_documented_refuted",
    "Ocb.Pysat.C61_extension_partial"
   ],
   "note": "False as stated (C61_documented_refuted). C61_kind gives the exact decision for every name; C61_extension_partial gives the names for which it is the documented one."
  },
  {
   "property": "C62",
   "status": "partial",
   "theorems": [
    "Ocb.Track.C62_errors",
    "Ocb.Track.C62_sound",
    "Ocb.Track.C62_exact_partial",
    "Ocb.Track.C62_between_partial",
    "Ocb.Track.C62_rising_refuted",
    "Ocb.Track.C62_vertical_refuted",
    "Ocb.Track.C62_between_refuted"
   ],
   "note": "Soundness (every marked point is near the line and high enough) and the error conditions hold in full. Completeness holds for tracks that do not rise (exact) and, between the crossings, for slopes up to del_y/del_x and crossings of similar colatitude. Refuted otherwise: a steeper rising track and a track with equal x give an all-False mask, and points between the crossings are dropped when the nearest crossing is much closer to the pole. Crossings are numpy floats; with Python floats equal x raise ZeroDivisionError instead. Zero-dimensional arrays and NaN points are not modelled."
  },
  {
   "property": "C63",
   "status": "partial",
   "theorems": [
    "Ocb.Coord.C63_stored_mlt_aliased_refuted"
   ],
   "note": "False: concrete session in C63_stored_mlt_aliased_refuted. Without caller writes the claim holds for every history of calls (C30_history_consistent)."
  },
  {
   "property": "C64",
   "status": "partial",
   "theorems": [
    "Ocb.Coord.C64_good_partial",
    "Ocb.Coord.C64_other_location_refuted",
    "Ocb.Coord.C64_any_geometry_partial",
    "Ocb.Coord.C64_wrong_hemisphere",
    "Ocb.Coord.C64_r_corr_refuted"
   ],
   "note": "False: C64_other_location_refuted gives two calls that differ in the dual latitude, C64_r_corr_refuted two that differ in the radius correction of a location of the other hemisphere. For any geometry (C64_any_geometry_partial) the results for a location of the hemisphere can only differ in the dual latitude, only if the location is in none of the three regions of the code, and then only between NaN and the OCB latitude; coordinates of other locations are NaN in every call."
  },
  {
   "property": "C65",
   "status": "partial",
   "theorems": [
    "Ocb.Coord.C65_normal_calc_partial",
    "Ocb.Coord.C65_revert_number_refuted",
    "Ocb.Coord.C65_revert_end_refuted"
   ],
   "note": "normal_coord and calc_r satisfy it; revert_coord does not: it uses the last pair (C65_revert_number_refuted) or raises IndexError (C65_revert_end_refuted)."
  },
  {
   "property": "C66",
   "status": "partial",
   "theorems": [
    "Ocb.Vec.C66_pole_angle",
    "Ocb.Vec.C66_adjust",
    "Ocb.Vec.C66_nan_latitude_refuted"
   ],
   "note": "Proved for numbers; refuted for a NaN latitude on the meridian of the pole."
  },
  {
   "property": "C67",
   "status": "proved",
   "theorems": [
    "Ocb.Vec.C67_northern"
   ],
   "note": ""
  },
  {
   "property": "C68",
   "status": "partial",
   "theorems": [
    "Ocb.Vec.C68_poleward_partial",
    "Ocb.Vec.C68_southern_refuted"
   ],
   "note": "Refuted for every southern pole and every vector with an east component; right if the north component is measured poleward."
  },
  {
   "property": "C69",
   "status": "proved",
   "theorems": [
    "Ocb.Scale.C69_geometry",
    "Ocb.Scale.C69_scaled_arrays"
   ],
   "note": ""
  },
  {
   "property": "C71",
   "status": "partial",
   "theorems": [
    "Ocb.Scale.C71_southern_refuted"
   ],
   "note": "Refuted for every southern boundary and every vector with an east component."
  },
  {
   "property": "C72",
   "status": "partial",
   "theorems": [
    "Ocb.Scale.C72_geographic_refuted",
    "Ocb.Scale.C72_cursor_refuted",
    "Ocb.Scale.C72_cursor_partial"
   ],
   "note": "Refuted for a cursor past the last record (IndexError for a single index that exists); proved for magnetic vectors and a cursor on any record; refuted for geographic vectors (C72_geographic_refuted)"
  },
  {
   "property": "C73",
   "status": "partial",
   "theorems": [
    "Ocb.Scale.C73_geographic_location_refuted"
   ],
   "note": "Refuted: for a magnetic vector at a geographic location nothing is calculated."
  },
  {
   "property": "C74",
   "status": "partial",
   "theorems": [
    "Ocb.Scale.C74_dropped_refuted",
    "Ocb.Scale.C74_arrays_partial"
   ],
   "note": "Refuted for single vectors with a boundary array; proved for component arrays."
  },
  {
   "property": "C75",
   "status": "partial",
   "theorems": [
    "Ocb.Scale.C75_boundary_shape_refuted",
    "Ocb.Scale.C75_shapes_partial",
    "Ocb.Scale.C75_values_partial"
   ],
   "note": "Refuted for a single boundary index; proved for component shapes and for boundary index arrays."
  },
  {
   "property": "C77",
   "status": "partial",
   "theorems": [
    "Ocb.Scale.C77_geographic_refuted",
    "Ocb.Scale.C77_place_partial"
   ],
   "note": "Refuted between geodetic and geocentric; proved when one of the systems is magnetic."
  },
  {
   "property": "C78",
   "status": "partial",
   "theorems": [
    "Ocb.Files.C78_stray_refuted",
    "Ocb.Files.C78_dates_partial",
    "Ocb.Files.C78_instrument_refuted"
   ],
   "note": "Refuted with a concrete listing; the partial theorem covers unparsable dates; refuted for requests of its own instrument (C78_instrument_refuted)"
  },
  {
   "property": "C79",
   "status": "partial",
   "theorems": [
    "Ocb.Files.C79_override_refuted"
   ],
   "note": "Refuted with a concrete listing."
  },
  {
   "property": "C80",
   "status": "partial",
   "theorems": [
    "Ocb.Dmsp.C80_boundary_lat_partial",
    "Ocb.Dmsp.C80_same_side_refuted",
    "Ocb.Dmsp.C80_opposite_partial"
   ],
   "note": "Exact characterisation plus refutation."
  },
  {
   "property": "C81",
   "status": "partial",
   "theorems": [
    "Ocb.Dmsp.C81_midday_refuted",
    "Ocb.Dmsp.C81_midnight_partial"
   ],
   "note": "Refuted; proved for windows starting at midnight."
  },
  {
   "property": "C82",
   "status": "partial",
   "theorems": [
    "Ocb.Dmsp.C82_all_passes_partial",
    "Ocb.Dmsp.C82_single_pass_refuted"
   ],
   "note": "Refuted for single-pass files; proved otherwise."
  },
  {
   "property": "C83",
   "status": "partial",
   "theorems": [
    "Ocb.Dmsp.C83_unsorted_refuted",
    "Ocb.Dmsp.C83_sorted_partial"
   ],
   "note": "Refuted; proved for time-ordered input."
  },
  {
   "property": "C84",
   "status": "proved",
   "theorems": [
    "Ocb.Text.C84_default_format"
   ],
   "note": ""
  },
  {
   "property": "C85",
   "status": "partial",
   "theorems": [
    "Ocb.Text.C85_bad_day_refuted",
    "Ocb.Text.C85_date_partial"
   ],
   "note": "Refuted: UnboundLocalError for yyddd days 367 to 999."
  },
  {
   "property": "C86",
   "status": "partial",
   "theorems": [
    "Ocb.Smag.C86_truncated_refuted"
   ],
   "note": "C86_truncated_refuted: false for every file cut after some but not all stations of its last block."
  },
  {
   "property": "C87",
   "status": "partial",
   "theorems": [
    "Ocb.Smag.C87_fill_partial",
    "Ocb.Smag.C87_latitude_refuted"
   ],
   "note": "C87_fill_partial: for every file, no fill value is left in the six replaced columns. C87_latitude_refuted: a fill latitude stays."
  },
  {
   "property": "C88",
   "status": "partial",
   "theorems": [
    "Ocb.Track.C88_hemisphere_partial",
    "Ocb.Track.C88_hemisphere_refuted"
   ],
   "note": "Holds for points with hemisphere*lat >= 0; refuted for the other hemisphere."
  },
  {
   "property": "C89",
   "status": "partial",
   "theorems": [
    "Ocb.Pysat.C89_rows_partial",
    "Ocb.Pysat.C89_finite_refuted"
   ],
   "note": "False as stated (C89_finite_refuted); the exact set of rows used is proved for latitudes that are not infinite."
  },
  {
   "property": "C90",
   "status": "partial",
   "theorems": [
    "Ocb.Pysat.C90_own_partial",
    "Ocb.Pysat.C90_leak_refuted"
   ],
   "note": "Holds for vectors that name every key named before them; false otherwise (C90_leak_refuted, for every such pair)."
  },
  {
   "property": "C91",
   "status": "partial",
   "theorems": [
    "Ocb.Pysat.C91_columns_partial",
    "Ocb.Pysat.C91_missing_refuted",
    "Ocb.Pysat.C91_clash_refuted"
   ],
   "note": "Holds for names without 'ocb'; C91_missing_refuted and C91_clash_refuted are concrete names that contain it."
  },
  {
   "property": "C94",
   "status": "proved",
   "theorems": [
    "Ocb.Pysat.C94_rows",
    "Ocb.Pysat.C94_columns",
    "Ocb.Pysat.C94_succeeds"
   ],
   "note": "Pandas data. The package functions called in the loop are parameters. The columns written must have different names; C94_succeeds gives sufficient conditions for success."
  },
  {
   "property": "C95",
   "status": "partial",
   "theorems": [
    "Ocb.Pysat.C95_north_partial",
    "Ocb.Pysat.C95_south_refuted"
   ],
   "note": "Holds for the northern hemisphere; for the southern one every latitude is kept."
  },
  {
   "property": "C96",
   "status": "partial",
   "theorems": [
    "Ocb.Pysat.C96_arguments_partial",
    "Ocb.Pysat.C96_arguments_refuted",
    "Ocb.Pysat.C96_twice_partial",
    "Ocb.Pysat.C96_twice_refuted"
   ],
   "note": "False as stated; holds when no vector is named in the two lists."
  },
  {
   "property": "C97",
   "status": "partial",
   "theorems": [
    "Ocb.Pysat.C97_hemisphere",
    "Ocb.Pysat.C97_equator_refuted"
   ],
   "note": "The decision is proved exactly for every list; the equator is treated differently in the two hemispheres (C97_equator_refuted)."
  },
  {
   "property": "C98",
   "status": "partial",
   "theorems": [
    "Ocb.Pysat.C98_default_height_refuted"
   ],
   "note": "False: the failure is proved for every table and boundary with at least one match, in time order."
  },
  {
   "property": "C99",
   "status": "proved",
   "theorems": [
    "Ocb.Pysat.C99_refused",
    "Ocb.Pysat.C99_scale",
    "Ocb.Pysat.C99_numbers"
   ],
   "note": "The keys of the dictionary of vectors are distinct, as in every dictionary."
  },
  {
   "property": "C92",
   "status": "partial",
   "theorems": [
    "Ocb.Grid.C92_same_partial",
    "Ocb.Grid.C92_profile",
    "Ocb.Grid.C92_same_refuted",
    "Ocb.Grid.C92_pad_partial",
    "Ocb.Grid.C92_pad_refuted"
   ],
   "note": "The numpy and xarray operations are modelled by their documentation. Equal dimensions: correct exactly for rectangular sets of true cells; always for a time and one more dimension (C92_profile). Different dimensions: correct when the dimensions of the data come first in the mask."
  },
  {
   "property": "C93",
   "status": "partial",
   "theorems": [
    "Ocb.Grid.C93_lat_lt",
    "Ocb.Grid.C93_shared_refuted",
    "Ocb.Grid.C93_height_partial",
    "Ocb.Grid.C93_height_refuted"
   ],
   "note": "Flat row-major positions. The failure is proved for all numbers of locations and heights of at least two."
  },
  {
   "property": "C100",
   "status": "partial",
   "theorems": [
    "Ocb.Ascii.C100_columns_partial",
    "Ocb.Ascii.C100_one_row_refuted",
    "Ocb.Ascii.C100_repeated_refuted",
    "Ocb.Ascii.C100_succeeds"
   ],
   "note": "Files with at least two rows and two columns and distinct names are loaded exactly (C100_columns_partial, C100_succeeds). Fails for a single row, where every name gets all cells (C100_one_row_refuted), and for repeated names (C100_repeated_refuted). Text to float conversion is a parameter."
  },
  {
   "property": "C101",
   "status": "partial",
   "theorems": [
    "Ocb.Ascii.C101_time_partial",
    "Ocb.Ascii.C101_date_only_partial",
    "Ocb.Ascii.C101_order_refuted",
    "Ocb.Ascii.C101_default_format",
    "Ocb.Ascii.C101_year_soy",
    "Ocb.Ascii.C101_yyddd_sod",
    "Ocb.Ascii.C101_date_sod"
   ],
   "note": "Holds for formats of percent parts with the date before the time of day, exactly for the default format (C101_default_format, through the model of strptime), exactly for the words YEAR and SOY in any letters and order (C101_year_soy), and to the microsecond for YYDDD SOD and a date with SOD (C101_yyddd_sod, C101_date_sod). Fails when the time of day comes first (C101_order_refuted)."
  },
  {
   "property": "C102",
   "status": "partial",
   "theorems": [
    "Ocb.Ascii.C102_as_asked_partial",
    "Ocb.Ascii.C102_first_columns_partial",
    "Ocb.Ascii.C102_position_refuted"
   ],
   "note": "Holds without YEAR and SOY, and when they are the first two columns; C102_position_refuted shows a first column read as integers though year and seconds are elsewhere."
  },
  {
   "property": "C103",
   "status": "partial",
   "theorems": [
    "Ocb.Ascii.C103_header",
    "Ocb.Ascii.C103_second_call_refuted",
    "Ocb.Ascii.C103_fresh_partial"
   ],
   "note": "C103_header and, for a fresh list, C103_fresh_partial hold; C103_second_call_refuted: with a list that is used again the second file gets the names of the first."
  },
  {
   "property": "C104",
   "status": "partial",
   "theorems": [
    "Ocb.Ascii.C104_names_partial",
    "Ocb.Ascii.C104_comment_refuted",
    "Ocb.Ascii.C104_time_name",
    "Ocb.Ascii.C104_all_taken_refuted",
    "Ocb.Ascii.C104_separator_partial"
   ],
   "note": "C104_names_partial, C104_separator_partial (names between separators, empty places dropped) and C104_time_name hold; false with the comments option for a header line that starts with the mark (C104_comment_refuted) and when all four time names are taken (C104_all_taken_refuted)."
  },
  {
   "property": "C105",
   "status": "partial",
   "theorems": [
    "Ocb.Ascii.C105_no_rows_refuted"
   ],
   "note": "False: no file with names and without rows is loaded (IndexError in the code)."
  },
  {
   "property": "C106",
   "status": "partial",
   "theorems": [
    "Ocb.VortOut.C106_north",
    "Ocb.VortOut.C106_south",
    "Ocb.VortOut.C106_found_partial",
    "Ocb.VortOut.C106_equator_refuted",
    "Ocb.VortOut.C106_refused",
    "Ocb.VortOut.C106_loaded"
   ],
   "note": "False on the equator: np.nanmax gives the sign first, and a zero next to northern data is then taken as the other hemisphere (ValueError), whereas a zero next to southern data is accepted (C106_equator_refuted). Proved: the exact conditions for the answers 1 and -1, the refusal of mixed data and of data without numbers, and what is loaded."
  },
  {
   "property": "C107",
   "status": "proved",
   "theorems": [
    "Ocb.VortOut.C107_rows",
    "Ocb.VortOut.C107_no_file",
    "Ocb.VortOut.C107_fails_iff",
    "Ocb.VortOut.C107_from_file"
   ],
   "note": "Proved for every boundary object, with the exact conditions for no file and for the TypeError of C60, and connected to the text of the file."
  },
  {
   "property": "C108",
   "status": "partial",
   "theorems": [
    "Ocb.VortOut.C108_values",
    "Ocb.VortOut.C108_dual_partial",
    "Ocb.VortOut.C108_dual_radius_refuted"
   ],
   "note": "Proved for OCBoundary. False for DualBoundary: the code takes ocb.ocb.r[ocb.rec_ind], the radius of the OCB record with the number of the pair, instead of the OCB record in the pair (C108_dual_radius_refuted); the partial theorem covers pairs where the two numbers agree."
  },
  {
   "property": "C109",
   "status": "partial",
   "theorems": [
    "Ocb.VortOut.C109_own_partial",
    "Ocb.VortOut.C109_nan_rows",
    "Ocb.VortOut.C109_mismatch_refuted"
   ],
   "note": "False: with a hemisphere argument that is not the one of the boundary object, rows are written with NaN coordinates (C109_mismatch_refuted, and C109_nan_rows for all such calls). Without the argument the hemisphere of the object is used."
  },
  {
   "property": "C110",
   "status": "proved",
   "theorems": [
    "Ocb.SmagOut.C110_rows"
   ],
   "note": "Proved for every boundary object and every table with columns of one length (which C114_from_file gives for files)."
  },
  {
   "property": "C111",
   "status": "proved",
   "theorems": [
    "Ocb.SmagOut.C111_no_file",
    "Ocb.SmagOut.C111_empty_file",
    "Ocb.SmagOut.C111_fails_iff"
   ],
   "note": "The failure condition is for OCBoundary objects of the hemisphere with valid records, stations off the pole, and stations and records in time order."
  },
  {
   "property": "C112",
   "status": "partial",
   "theorems": [
    "Ocb.SmagOut.C112_north",
    "Ocb.SmagOut.C112_coords_partial",
    "Ocb.SmagOut.C112_south_refuted"
   ],
   "note": "C112_north: all rows for a northern OCBoundary. C112_coords_partial: coordinates and magnitude for both hemispheres. C112_south_refuted: in the south the components are wrong because the centre of the circle is placed in the northern hemisphere (see C71). Missing: stations on the meridian of the centre. DualBoundary objects: C173."
  },
  {
   "property": "C113",
   "status": "partial",
   "theorems": [
    "Ocb.SmagOut.C113_own_partial",
    "Ocb.SmagOut.C113_nan_rows",
    "Ocb.SmagOut.C113_mismatch_refuted"
   ],
   "note": "False: with a hemisphere argument that is not the one of the boundary object, rows are written with NaN in all boundary columns (C113_mismatch_refuted, and C113_nan_rows for all such calls). Without the argument the hemisphere of the object is used."
  },
  {
   "property": "C114",
   "status": "partial",
   "theorems": [
    "Ocb.SmagOut.C114_from_file",
    "Ocb.SmagOut.C114_loaded",
    "Ocb.SmagOut.C114_no_header_end_refuted",
    "Ocb.SmagOut.C114_no_stations_refuted",
    "Ocb.SmagOut.C114_fill_latitude_refuted"
   ],
   "note": "C114_from_file and C114_loaded: proved. False: a file without the line that ends the header raises KeyError, one without stations IndexError (IOError is documented); a missing latitude (999999) counts as northern, so that southern files with one are refused and northern stations with one are written (C114_fill_latitude_refuted)."
  },
  {
   "property": "C115",
   "status": "partial",
   "theorems": [
    "Ocb.Meta.C115_described_partial",
    "Ocb.Meta.C115_kept",
    "Ocb.Meta.C115_old_refuted",
    "Ocb.Meta.C115_succeeds",
    "Ocb.Meta.C115_no_components_refuted"
   ],
   "note": "Proved for columns that had no metadata (C115_described_partial) and success for vectors with components (C115_succeeds). Refuted: stale metadata of an earlier call, and KeyError for a vector without components."
  },
  {
   "property": "C116",
   "status": "partial",
   "theorems": [
    "Ocb.Meta.C116_inherit_partial",
    "Ocb.Meta.C116_unknown_partial",
    "Ocb.Meta.C116_source_refuted",
    "Ocb.Meta.C116_boundary_refuted"
   ],
   "note": "Proved for names without boundary parts, with and without metadata of the source. Refuted for names with '_ocb' inside and for names with another boundary as a part."
  },
  {
   "property": "C117",
   "status": "partial",
   "theorems": [
    "Ocb.Meta.C117_components_partial",
    "Ocb.Meta.C117_units_refuted",
    "Ocb.Meta.C117_radius_refuted"
   ],
   "note": "Proved for components and magnitude. Refuted for the radius columns (units of the vector; described by the first part of the vector name)."
  },
  {
   "property": "C118",
   "status": "partial",
   "theorems": [
    "Ocb.Scale.C118_northern_partial",
    "Ocb.Scale.C118_southern_refuted",
    "Ocb.Scale.C118_meridian_refuted",
    "Ocb.Scale.C118_missing_refuted"
   ],
   "note": "PARTIAL: Holds for northern magnetic poles off the meridian of the vectors, single vectors and arrays, both location systems (C118_northern_partial). Refuted for southern poles, on the meridian, and for arrays with a missing place."
  },
  {
   "property": "C119",
   "status": "partial",
   "theorems": [
    "Ocb.Scale.C119_unbound_refuted",
    "Ocb.Scale.C119_pole_refuted",
    "Ocb.Scale.C119_unknown_partial"
   ],
   "note": "PARTIAL: Holds if no magnetic place is known (C119_unknown_partial). Refuted for unknown geographic places (C119_unbound_refuted) and at the geographic pole (C119_pole_refuted)."
  },
  {
   "property": "C120",
   "status": "proved",
   "theorems": [
    "Ocb.Scale.C120_magnetic",
    "Ocb.Scale.C120_location",
    "Ocb.Scale.C120_all_or_nothing"
   ],
   "note": "For every returned object. Updates of the object made before an exception are not described."
  },
  {
   "property": "C121",
   "status": "partial",
   "theorems": [
    "Ocb.Scale.C121_steps",
    "Ocb.Scale.C121_northern_partial",
    "Ocb.Scale.C121_indices_refuted",
    "Ocb.Scale.C121_heights_refuted"
   ],
   "note": "PARTIAL: C121_steps holds for all inputs; the geometry for northern boundaries and poles (C121_northern_partial). Refuted for one place with several indices (C121_indices_refuted) and several vectors with one index (C121_heights_refuted, which rests on the library taking a single height)."
  },
  {
   "property": "C122",
   "status": "partial",
   "theorems": [
    "Ocb.Init.C122_image",
    "Ocb.Init.C122_other",
    "Ocb.Init.C122_ampere",
    "Ocb.Init.C122_dmsp",
    "Ocb.Init.C122_named",
    "Ocb.Init.C122_default",
    "Ocb.Init.C122_limits",
    "Ocb.Init.C122_eab",
    "Ocb.Init.C122_succeeds",
    "Ocb.Init.C122_one_line_refuted"
   ],
   "note": "PARTIAL: C122_image, C122_ampere, C122_dmsp, C122_other: times and values of the lines of the window; C122_named, C122_default: the file and the instrument; C122_limits; C122_succeeds: files of the documented form are loaded; C122_eab: the same for EABoundary. Holds for all files but those with one line: refuted for them (C122_one_line_refuted)."
  },
  {
   "property": "C123",
   "status": "partial",
   "theorems": [
    "Ocb.Init.C123_documented_refuted",
    "Ocb.Init.C123_capital_refuted",
    "Ocb.Init.C123_capital_default_refuted",
    "Ocb.Init.C123_accepted_partial",
    "Ocb.Init.C123_as_ocb",
    "Ocb.Init.C123_circular"
   ],
   "note": "PARTIAL: Five names are accepted (C123_accepted_partial), with circles (C123_circular); with a correction and a file the object is that of OCBoundary (C123_as_ocb). Refuted for si12, si13, wic (C123_documented_refuted) and capital letters (C123_capital_refuted, C123_capital_default_refuted)."
  },
  {
   "property": "C124",
   "status": "partial",
   "theorems": [
    "Ocb.Init.C124_roundtrip_partial",
    "Ocb.Init.C124_eab_partial",
    "Ocb.Init.C124_no_file",
    "Ocb.Init.C124_unsorted_refuted",
    "Ocb.Init.C124_empty_refuted",
    "Ocb.Init.C124_no_file_refuted",
    "Ocb.Init.C124_eab_refuted"
   ],
   "note": "PARTIAL: Holds for files with records in the order of time (C124_roundtrip_partial, C124_eab_partial) and for objects without file and correction (C124_no_file). Refuted for records out of order, no records in the window, and objects without a file but with a correction (C124_unsorted_refuted, C124_empty_refuted, C124_no_file_refuted, C124_eab_refuted)."
  },
  {
   "property": "C125",
   "status": "partial",
   "theorems": [
    "Ocb.Init.C125_shown",
    "Ocb.Init.C125_listed",
    "Ocb.Init.C125_only_partial",
    "Ocb.Init.C125_once",
    "Ocb.Init.C125_only_refuted"
   ],
   "note": "PARTIAL: C125_shown, C125_listed, C125_once hold always; nothing else is listed if names are unique (C125_only_partial). Refuted for functions with the same name in different modules (C125_only_refuted)."
  },
  {
   "property": "C126",
   "status": "proved",
   "theorems": [
    "Ocb.Init.C126_no_data",
    "Ocb.Init.C126_states"
   ],
   "note": "C126_no_data: the bad arguments; C126_states: the two states of every constructed object."
  },
  {
   "property": "C127",
   "status": "partial",
   "theorems": [
    "Ocb.Scale.C127_roundtrip_partial",
    "Ocb.Scale.C127_kept_partial",
    "Ocb.Scale.C127_results_refuted",
    "Ocb.Scale.C127_name_refuted",
    "Ocb.Scale.C127_long_refuted",
    "Ocb.Scale.C127_nan_name_refuted",
    "Ocb.Scale.C127_nan_refuted",
    "Ocb.Scale.C127_digits_refuted"
   ],
   "note": "PARTIAL: C127_roundtrip_partial for objects as constructed, C127_kept_partial for objects with results, which are lost. Refuted for results, texts with 'array', long or empty arrays, undefined nan, a NaN magnitude of several vectors and lost digits (C127_*_refuted)."
  },
  {
   "property": "C128",
   "status": "partial",
   "theorems": [
    "Ocb.Scale.C128_listed_partial",
    "Ocb.Scale.C128_single",
    "Ocb.Scale.C128_bounds_places_partial",
    "Ocb.Scale.C128_repeats_refuted",
    "Ocb.Scale.C128_coordinate_refuted",
    "Ocb.Scale.C128_components_refuted",
    "Ocb.Scale.C128_height_refuted"
   ],
   "note": "PARTIAL: C128_single, C128_listed_partial (several vectors, complete arrays), C128_bounds_places_partial. Refuted: C128_repeats_refuted (exact text for one vector with several boundaries), C128_coordinate_refuted, C128_components_refuted, C128_height_refuted."
  },
  {
   "property": "C129",
   "status": "partial",
   "theorems": [
    "Ocb.Fetch.C129_archive",
    "Ocb.Fetch.C129_loop",
    "Ocb.Fetch.C129_endless",
    "Ocb.Fetch.C129_identify_refuted"
   ],
   "note": "PARTIAL: C129_archive and C129_loop hold for all links; C129_endless, C129_identify_refuted: without an archive in the link the call never ends."
  },
  {
   "property": "C130",
   "status": "partial",
   "theorems": [
    "Ocb.Fetch.C130_refused",
    "Ocb.Fetch.C130_streams_partial",
    "Ocb.Fetch.C130_captured",
    "Ocb.Fetch.C130_failure_refuted",
    "Ocb.Fetch.C130_redirected_refuted"
   ],
   "note": "PARTIAL: C130_refused, C130_streams_partial (download does not raise), C130_captured. Refuted: C130_failure_refuted, C130_redirected_refuted."
  },
  {
   "property": "C131",
   "status": "partial",
   "theorems": [
    "Ocb.Fetch.C131_returns",
    "Ocb.Fetch.C131_only",
    "Ocb.Fetch.C131_available",
    "Ocb.Fetch.C131_left",
    "Ocb.Fetch.C131_temporary_refuted",
    "Ocb.Fetch.C131_existing_refuted"
   ],
   "note": "PARTIAL: C131_returns with C131_only is an equivalence; C131_available, C131_left. Refuted: C131_temporary_refuted, C131_existing_refuted."
  },
  {
   "property": "C132",
   "status": "partial",
   "theorems": [
    "Ocb.Fetch.C132_returns",
    "Ocb.Fetch.C132_nothing",
    "Ocb.Fetch.C132_failure",
    "Ocb.Fetch.C132_temporary_refuted",
    "Ocb.Fetch.C132_directory_refuted",
    "Ocb.Fetch.C132_error_refuted",
    "Ocb.Fetch.C132_boundary"
   ],
   "note": "PARTIAL: C132_returns, C132_boundary, C132_nothing, C132_failure. Refuted: C132_temporary_refuted, C132_directory_refuted, C132_error_refuted."
  },
  {
   "property": "C133",
   "status": "partial",
   "theorems": [
    "Ocb.Fetch.C133_names_partial",
    "Ocb.Fetch.C133_distinct",
    "Ocb.Fetch.C133_recognised",
    "Ocb.Fetch.C133_directory_refuted",
    "Ocb.Fetch.C133_span_refuted"
   ],
   "note": "PARTIAL: C133_names_partial (no '-f' in the path), C133_distinct, C133_recognised. Refuted: C133_directory_refuted, C133_span_refuted."
  },
  {
   "property": "C134",
   "status": "proved",
   "theorems": [
    "Ocb.Init.C134_shows",
    "Ocb.Init.C134_eab"
   ],
   "note": "C134_shows, C134_eab. Numbers are rounded when written; their spelling is not modelled. Which corrections are listed is C125."
  },
  {
   "property": "C135",
   "status": "partial",
   "theorems": [
    "Ocb.Init.C135_accepted",
    "Ocb.Init.C135_members",
    "Ocb.Init.C135_pairs",
    "Ocb.Init.C135_no_data",
    "Ocb.Init.C135_no_data_refuted",
    "Ocb.Init.C135_has_pair",
    "Ocb.Init.C135_given_refuted"
   ],
   "note": "PARTIAL: C135_accepted (exactly when it succeeds), C135_members, C135_pairs, C135_has_pair, C135_no_data. Refuted: C135_no_data_refuted (no cursor without data), C135_given_refuted (a member that is handed over is moved past its end)."
  },
  {
   "property": "C136",
   "status": "partial",
   "theorems": [
    "Ocb.Init.C136_roundtrip_partial",
    "Ocb.Init.C136_selection_refuted",
    "Ocb.Init.C136_no_file_refuted",
    "Ocb.Init.C136_shows"
   ],
   "note": "PARTIAL: C136_roundtrip_partial, C136_shows. Refuted: C136_selection_refuted, C136_no_file_refuted."
  },
  {
   "property": "C137",
   "status": "partial",
   "theorems": [
    "Ocb.Mix.C137_local_times",
    "Ocb.Mix.C137_latitudes_partial",
    "Ocb.Mix.C137_meridian_refuted"
   ],
   "note": "one angle per entry for arrays of local times with any latitudes that are numbers, and for single local times off the meridian; refuted on the meridian"
  },
  {
   "property": "C138",
   "status": "partial",
   "theorems": [
    "Ocb.Mix.C138_vectors",
    "Ocb.Mix.C138_poles",
    "Ocb.Mix.C138_single",
    "Ocb.Mix.C138_angles_refuted"
   ],
   "note": "documented quadrants for vectors, and for poles with an array of local times; refuted for single local times and an array of angles"
  },
  {
   "property": "C139",
   "status": "partial",
   "theorems": [
    "Ocb.Mix.C139_rotation_partial",
    "Ocb.Mix.C139_arrays_partial",
    "Ocb.Mix.C139_quadrants_refuted",
    "Ocb.Mix.C139_single_vector_partial",
    "Ocb.Mix.C139_axis_refuted",
    "Ocb.Mix.C139_aligned_refuted",
    "Ocb.Mix.C139_vertical_refuted"
   ],
   "note": "rotation at every general entry and equality with the all-array call if a horizontal component is an array; single vectors with single quadrants; refuted for the four mixes named in the statement"
  },
  {
   "property": "C140",
   "status": "proved",
   "theorems": [
    "Ocb.Scale.C140_no_leak",
    "Ocb.Scale.C140_repeat"
   ],
   "note": "for magnetic vectors; both parts for every boundary, shape and history"
  },
  {
   "property": "C141",
   "status": "partial",
   "theorems": [
    "Ocb.Scale.C141_location_refuted",
    "Ocb.Scale.C141_unset_partial",
    "Ocb.Scale.C141_unset_arrays_partial",
    "Ocb.Scale.C141_results_refuted"
   ],
   "note": "coordinates of the new place after NaN was assigned to ocb_lat, for a single index and for as many indices as vectors; refuted otherwise, and for the components if nothing is found at the new place"
  },
  {
   "property": "C142",
   "status": "partial",
   "theorems": [
    "Ocb.Scale.C142_given_refuted",
    "Ocb.Scale.C142_first_partial",
    "Ocb.Scale.C142_second_refuted"
   ],
   "note": "holds for objects without a scale function whose pole angle is found; refuted for objects that have one"
  },
  {
   "property": "C143",
   "status": "proved",
   "theorems": [
    "Ocb.Dbl.C143_rounded_once",
    "Ocb.Dbl.C143_exact"
   ],
   "note": "Stated against the exact model of C01, for every function that rounds to a nearest double; rounding with ties to even is proved to be one."
  },
  {
   "property": "C144",
   "status": "partial",
   "theorems": [
    "Ocb.Dbl.C144_closed_partial",
    "Ocb.Dbl.C144_twice",
    "Ocb.Dbl.C144_day_refuted"
   ],
   "note": "Refuted: a negative number of hours above -2^-49 becomes 24. Proved: the closed interval, below the upper limit unless the value was below the lower one, and that a second call (as normal_coord and revert_coord make) puts it right."
  },
  {
   "property": "C145",
   "status": "partial",
   "theorems": [
    "Ocb.Dbl.C145_large_refuted",
    "Ocb.Dbl.C145_returns_partial",
    "Ocb.Dbl.C145_day",
    "Ocb.Dbl.C145_degrees"
   ],
   "note": "Refuted: hours beyond 2^58 (degrees beyond 2^62) loop forever. Proved: exactly the doubles up to that size return; in general whenever the period is more than half a unit in the last place."
  },
  {
   "property": "C146",
   "status": "partial",
   "theorems": [
    "Ocb.Dbl.C146_deg2hr_partial",
    "Ocb.Dbl.C146_rad2hr_partial",
    "Ocb.Dbl.C146_deg2hr_refuted",
    "Ocb.Dbl.C146_hr2deg_range",
    "Ocb.Dbl.C146_roundtrip",
    "Ocb.Dbl.C146_roundtrip_exact_refuted"
   ],
   "note": "Refuted: longitudes just below zero give 24 hours, and some hour does not come back exactly. Proved: the closed interval, below 24 for non-negative input, the half-open interval of hr2deg, and the way back within 3*2^-49 hours without crossing midnight."
  },
  {
   "property": "C147",
   "status": "proved",
   "theorems": [
    "Ocb.Dbl.C147_accuracy",
    "Ocb.Dbl.C147_range",
    "Ocb.Dbl.C147_strictMono"
   ],
   "note": ""
  },
  {
   "property": "C148",
   "status": "proved",
   "theorems": [
    "Ocb.Dbl.C148_glon2slt",
    "Ocb.Dbl.C148_slt2glon",
    "Ocb.Dbl.C148_roundtrip"
   ],
   "note": ""
  },
  {
   "property": "C149",
   "status": "proved",
   "theorems": [
    "Ocb.Dbl.C149_exact"
   ],
   "note": "Transfers C07 from exact arithmetic to doubles."
  },
  {
   "property": "C150",
   "status": "partial",
   "theorems": [
    "Ocb.Dbl.C150_close_partial",
    "Ocb.Dbl.C150_never_less_refuted"
   ],
   "note": "Refuted: one double loses a fraction of a microsecond for every rounding to nearest. Proved: within 2^-33 microseconds."
  },
  {
   "property": "C151",
   "status": "partial",
   "theorems": [
    "Ocb.Dbl.C151_decimal_partial",
    "Ocb.Dbl.C151_representable",
    "Ocb.Dbl.C151_decimal_refuted"
   ],
   "note": "Refuted: 1.1 seconds give 1.100001 seconds. Proved: that microsecond or the next, and the right one when the decimal number is a double."
  },
  {
   "property": "C152",
   "status": "partial",
   "theorems": [
    "Ocb.Dbl.C152_tests_partial",
    "Ocb.Dbl.C152_far_refuted"
   ],
   "note": "Proved up to 2^33 seconds (272 years); refuted for differences just beyond 2^33 seconds."
  },
  {
   "property": "C153",
   "status": "partial",
   "theorems": [
    "Ocb.Dbl.C153_full",
    "Ocb.Dbl.C153_half",
    "Ocb.Dbl.C153_special",
    "Ocb.Dbl.C153_half_open_refuted"
   ],
   "note": "Range, accuracy and the special angles are proved for every rounding to nearest; the range is closed, not half-open, for the default range: hours just below zero give 2 pi (refuted)."
  },
  {
   "property": "C154",
   "status": "proved",
   "theorems": [
    "Ocb.Where.C154_fix_range",
    "Ocb.Where.C154_archav",
    "Ocb.Where.C154_pole_angle",
    "Ocb.Where.C154_vect_quadrant",
    "Ocb.Where.C154_pole_quadrants",
    "Ocb.Where.C154_sign_mask"
   ],
   "note": "Proved for every content of memory; for fix_range and define_pole_quadrants also through the loops."
  },
  {
   "property": "C155",
   "status": "partial",
   "theorems": [
    "Ocb.Where.C155_error",
    "Ocb.Where.C155_unasked",
    "Ocb.Where.C155_each",
    "Ocb.Where.C155_memory",
    "Ocb.Where.C155_given_same",
    "Ocb.Where.C155_undefined_refuted",
    "Ocb.Where.C155_given_refuted"
   ],
   "note": "Proved except: where an angle is NaN or a quadrant undefined the sign is -1 (refuted), and with quadrants given by the caller the sign of a NaN entry depends on memory (refuted)."
  },
  {
   "property": "C156",
   "status": "partial",
   "theorems": [
    "Ocb.Where.C156_not_missed",
    "Ocb.Where.C156_warns_partial",
    "Ocb.Where.C156_warns_refuted"
   ],
   "note": "An inconsistency is never missed; no false alarm if all or none of the given magnitudes are NaN; refuted for arrays with some NaN, where the warning depends on uninitialised memory."
  },
  {
   "property": "C157",
   "status": "partial",
   "theorems": [
    "Ocb.OutFile.C157_test",
    "Ocb.OutFile.C157_refused",
    "Ocb.OutFile.C157_read",
    "Ocb.OutFile.C157_path_refuted",
    "Ocb.OutFile.C157_path_partial",
    "Ocb.OutFile.C157_path_hemisphere_refuted"
   ],
   "note": "Proved for text names. Refuted for path objects: TypeError from the messages instead of False, IOError or a plain return."
  },
  {
   "property": "C158",
   "status": "partial",
   "theorems": [
    "Ocb.OutFile.C158_vort_returns",
    "Ocb.OutFile.C158_vort_keeps_partial",
    "Ocb.OutFile.C158_vort_lost_refuted",
    "Ocb.OutFile.C158_smag_returns",
    "Ocb.OutFile.C158_smag_keeps_partial",
    "Ocb.OutFile.C158_smag_lost_refuted"
   ],
   "note": "Returning calls: proved that writing row by row gives exactly the rows of C107/C110. Raising calls: proved that nothing is changed before the output file is opened; refuted when data and records do not overlap: TypeError and a file with the header only, exactly in this case for input in order."
  },
  {
   "property": "C159",
   "status": "partial",
   "theorems": [
    "Ocb.Whole.C159_integer_range",
    "Ocb.Whole.C159_integer_range_entries",
    "Ocb.Whole.C159_float_range_partial",
    "Ocb.Whole.C159_float_range_refuted"
   ],
   "note": "Proved for an integer period (integer val_range, or none and two integer limits). With a float period: proved for values within the limits, refuted for every other integer: TypeError instead of the shifted value."
  },
  {
   "property": "C160",
   "status": "partial",
   "theorems": [
    "Ocb.Whole.C160_boundary_refuted",
    "Ocb.Whole.C160_dual_float_partial",
    "Ocb.Whole.C160_dual_refuted",
    "Ocb.Whole.C160_dual_returns_partial"
   ],
   "note": "Refuted: every integer input of get_aacgm_boundary_lat raises TypeError and stores nothing; DualBoundary.normal_coord raises TypeError for integer local times exactly if one location is of the hemisphere. Proved for float local times, with float or integer latitudes of one hemisphere."
  },
  {
   "property": "C161",
   "status": "partial",
   "theorems": [
    "Ocb.Whole.C161_normal_same_partial",
    "Ocb.Whole.C161_normal_mixed_refuted"
   ],
   "note": "Proved unless the integer latitudes mix hemispheres. Refuted for these: ValueError instead of NaN for the others."
  },
  {
   "property": "C162",
   "status": "partial",
   "theorems": [
    "Ocb.Whole.C162_quad_same_partial",
    "Ocb.Whole.C162_quad_refuted"
   ],
   "note": "Proved if one of the arrays is of floats, or all differences are from 0 to below 24. Refuted for all other integer arrays: TypeError."
  },
  {
   "property": "C163",
   "status": "partial",
   "theorems": [
    "Ocb.Reselect.C163_match_valid",
    "Ocb.Reselect.C163_criteria_stay",
    "Ocb.Reselect.C163_history_free",
    "Ocb.Reselect.C163_cursor_back_refuted",
    "Ocb.Reselect.C163_criteria_forgotten_refuted"
   ],
   "note": "Proved: validity of the reported records, independence from earlier pairs and cursor, and that the criteria stay in force for later calls. False: the cursor moves back, because set_good_ind sets it to 0 in every call (C163_cursor_back_refuted), and a later call without criteria still uses the pairs of the criteria (C163_criteria_forgotten_refuted)."
  },
  {
   "property": "C164",
   "status": "partial",
   "theorems": [
    "Ocb.Reselect.C164_select_once_partial",
    "Ocb.Reselect.C164_processed_partial",
    "Ocb.Reselect.C164_no_pairs_refuted",
    "Ocb.Reselect.C164_unordered_refuted"
   ],
   "note": "Proved for time-ordered OCB records and data and an object with a pair left before the first call. False for an object that has no pairs (or whose cursor is past them) under its standing selection: the criteria are never looked at (C164_no_pairs_refuted); and for data out of order (C164_unordered_refuted)."
  },
  {
   "property": "C165",
   "status": "partial",
   "theorems": [
    "Ocb.Scale.C165_vector_partial",
    "Ocb.Scale.C165_results",
    "Ocb.Scale.C165_recalculated",
    "Ocb.Scale.C165_assigned_refuted",
    "Ocb.Scale.C165_given_refuted",
    "Ocb.Scale.C165_shape_refuted"
   ],
   "note": "PARTIAL. The magnitude of the scaled vector is its length after every program; the magnitude of the vector is its length after every program that assigns neither components nor magnitude. Refuted: assigned components leave the old magnitude, which setting the boundary does not mend; a given magnitude is stored whatever it is; single components are spread over the indices while their magnitude keeps the shape of a single value."
  },
  {
   "property": "C166",
   "status": "proved",
   "theorems": [
    "Ocb.Geo.C166_normal",
    "Ocb.Geo.C166_revert",
    "Ocb.Geo.C166_round_trip",
    "Ocb.Geo.C166_names"
   ],
   "note": "The library is any collection of functions; the round trip assumes that its conversions undo each other at the heights used, that it puts the places into the hemisphere of the boundary off the magnetic pole, and, as in C25, that some location stays in the hemisphere after scaling."
  },
  {
   "property": "C167",
   "status": "partial",
   "theorems": [
    "Ocb.Geo.C167_normal",
    "Ocb.Geo.C167_outside_partial",
    "Ocb.Geo.C167_poleward_partial",
    "Ocb.Geo.C167_mixed_refuted",
    "Ocb.Geo.C167_heights_swapped",
    "Ocb.Geo.C167_heights_refuted",
    "Ocb.Geo.C167_round_trip_partial"
   ],
   "note": "PARTIAL. normal_coord for every call; revert_coord for calls with all locations poleward of the OCB (own heights) or all equatorward of it (one height), and the round trip for the latter. Refuted: locations on both sides of the OCB in one call raise ValueError because the full array of heights is passed with some of the locations (proved for every such call); locations equatorward of both boundaries and between them get each other's heights."
  },
  {
   "property": "C168",
   "status": "partial",
   "theorems": [
    "Ocb.Scale.C168_same_refuted",
    "Ocb.Scale.C168_results_refuted",
    "Ocb.Scale.C168_array_refuted",
    "Ocb.Scale.C168_unconverted_refuted"
   ],
   "note": "Refuted: geographic vectors and magnetic locations give identical results for every method (C168_same_refuted), the scaled vector never depends on the method in any call that returns (C168_results_refuted), with one record per datum the method is not handed on (C168_array_refuted), and a vector that the requested method converts stays unconverted (C168_unconverted_refuted)."
  },
  {
   "property": "C169",
   "status": "partial",
   "theorems": [
    "Ocb.Scale.C169_as_ocb_partial",
    "Ocb.Scale.C169_other_hemisphere_refuted"
   ],
   "note": "Proved for vectors at locations of the boundary's hemisphere and for any scale function (same object except index and boundary latitude). Refuted for arrays that mix hemispheres: a vector at a place of the other hemisphere has NaN boundary coordinates but gets numbers as components, turned towards the OCB's pole, since DualBoundary.normal_coord works on copies of the latitudes."
  },
  {
   "property": "C170",
   "status": "partial",
   "theorems": [
    "Ocb.Scale.C170_poleward_partial",
    "Ocb.Scale.C170_outside_refuted"
   ],
   "note": "Proved poleward of the OCB. Refuted everywhere equatorward of it: set_ocb always uses the radii of the polar cap, calc_r those of the region between the boundaries or equatorward of the EAB."
  },
  {
   "property": "C171",
   "status": "partial",
   "theorems": [
    "Ocb.Cycle.C171_found_partial",
    "Ocb.Cycle.C171_first_partial",
    "Ocb.Cycle.C171_gap_refuted",
    "Ocb.Cycle.C171_convert_refuted"
   ],
   "note": "With the cursor on a record, a float gives the result of an int exactly when that is the datum asked for (iff); with the cursor before the records the same for the first datum not long before the first record. Otherwise refuted: the messages format the tolerance with {:d}, a ValueError; a conversion fails as soon as a datum is passed over."
  },
  {
   "property": "C172",
   "status": "partial",
   "theorems": [
    "Ocb.Cycle.C172_pairs_partial",
    "Ocb.Cycle.C172_repeat_partial",
    "Ocb.Cycle.C172_leak_refuted",
    "Ocb.Cycle.C172_limits_refuted"
   ],
   "note": "Pairs proved to be those of the criteria and limits in the arguments for any sharing of objects, and to be independent of earlier calls. Refuted: the call enters the limits into the caller's dictionary, where a later get_next_good_ocb_ind finds them; limits that the dictionary itself contains are lost."
  },
  {
   "property": "C173",
   "status": "proved",
   "theorems": [
    "Ocb.SmagOut.C173_rows",
    "Ocb.SmagOut.C173_fails_iff"
   ],
   "note": "Proved for stations off the pole, sound pairs of circles with the centre at most 90 degrees from the pole; the components off the meridian of the centre and for horizontal vectors that are not zero, as in C112 (and in the south relative to the misplaced centre, see C112_south_refuted). The latitude is stated where the boundaries are well placed (GoodPt, see C64)."
  },
  {
   "property": "C174",
   "status": "partial",
   "theorems": [
    "Ocb.Pysat.C174_dual",
    "Ocb.Pysat.C174_once",
    "Ocb.Pysat.C174_plain",
    "Ocb.Pysat.C174_criteria_refuted"
   ],
   "note": "Proved for every dictionary with distinct keys: the content of both dictionaries is given key by key, and no argument is lost, duplicated or changed. Refuted outside the dual case: with a boundary object or a single boundary file, constructor arguments are passed to the matching as selection criteria without an error."
  },
  {
   "property": "C175",
   "status": "partial",
   "theorems": [
    "Ocb.Cycle.C175_int",
    "Ocb.Cycle.C175_same_partial",
    "Ocb.Cycle.C175_float_refuted"
   ],
   "note": "False: C175_float_refuted shows for all boundaries that a float raises a ValueError whenever an int gives pairs with two different OCB records, because a log message formats the number with {:d}. What holds: a float gives the pairs of the int or a ValueError (C175_same_partial). Times are whole microseconds."
  },
  {
   "property": "C176",
   "status": "proved",
   "theorems": [
    "Ocb.Coord.C176_similarity",
    "Ocb.Coord.C176_latitude",
    "Ocb.Coord.C176_larger"
   ],
   "note": "Over the reals (no rounding). The correction must agree at the two local times; with a correction that varies with local time the factor is different at each local time."
  },
  {
   "property": "C177",
   "status": "partial",
   "theorems": [
    "Ocb.Scale.C177_normal_partial",
    "Ocb.Scale.C177_single",
    "Ocb.Scale.C177_revert_partial",
    "Ocb.Scale.C177_corr_refuted",
    "Ocb.Scale.C177_height_refuted"
   ],
   "note": "Magnetic coordinates. Holds if at least one of latitude, local time (and correction for revert_coord) is an array, except that the radius correction returned by normal_coord has the shape of the local times. With an array of heights only, the result is single inside the hemisphere and an array of NaN outside."
  },
  {
   "property": "C178",
   "status": "partial",
   "theorems": [
    "Ocb.Scale.C178_normal",
    "Ocb.Scale.C178_single",
    "Ocb.Scale.C178_mismatch",
    "Ocb.Scale.C178_revert_partial",
    "Ocb.Scale.C178_revert_single",
    "Ocb.Scale.C178_corr_refuted",
    "Ocb.Scale.C178_mlt_refuted"
   ],
   "note": "Magnetic coordinates. normal_coord fully; revert_coord ignores the shapes of r_corr and aacgm_mlt when the location is single and uses their first entry only."
  },
  {
   "property": "C179",
   "status": "partial",
   "theorems": [
    "Ocb.Scale.C179_mix_partial",
    "Ocb.Scale.C179_single",
    "Ocb.Scale.C179_float_refuted",
    "Ocb.Scale.C179_mlt_refuted",
    "Ocb.Scale.C179_nopair_refuted"
   ],
   "note": "Holds with a current pair for an array of latitudes with an array of magnetic local times, or a single latitude with an array of corrections or normalised local times. A single aacgm_mlt with an array of latitudes raises TypeError; without a current pair single values come back as arrays."
  },
  {
   "property": "C180",
   "status": "partial",
   "theorems": [
    "Ocb.Coord.C180_call",
    "Ocb.Coord.C180_lats",
    "Ocb.Coord.C180_session_partial",
    "Ocb.Coord.C180_stale_refuted",
    "Ocb.Coord.C180_missing_refuted",
    "Ocb.Coord.C180_raise_refuted"
   ],
   "note": "Exact effect of one call on all three attributes, including raised conversions (C180_call); set_lon does not change latitudes and local times (C180_lats); sessions that always set the longitudes keep them consistent (C180_session_partial). Refuted: overwriting with set_lon=False, as the DualBoundary methods do, leaves stale longitudes (C180_stale_refuted); a record first stored with set_lon=False never gets longitudes without overwrite (C180_missing_refuted); a conversion that raises leaves stale longitudes (C180_raise_refuted)."
  },
  {
   "property": "C181",
   "status": "partial",
   "theorems": [
    "Ocb.Coord.C181_column",
    "Ocb.Coord.C181_uniform_partial",
    "Ocb.Coord.C181_outer_refuted",
    "Ocb.Coord.C181_auroral_refuted",
    "Ocb.Coord.C181_wrong_refuted"
   ],
   "note": "Arrays of any number of dimensions as lists with the number of entries for each first index. Equal to the one-dimensional model if that number is one (C181_column) or if each row lies in one region or in the other hemisphere (C181_uniform_partial). Refuted: np.where(...)[0] keeps the first index only, so one location equatorward of the EAB (C181_outer_refuted) or in the auroral region (C181_auroral_refuted) changes all the good locations of its row; a location on the OCB no longer gets the reference latitude (C181_wrong_refuted)."
  },
  {
   "property": "C182",
   "status": "partial",
   "theorems": [
    "Ocb.Coord.C182_column",
    "Ocb.Coord.C182_uniform_partial",
    "Ocb.Coord.C182_nomlt_refuted",
    "Ocb.Coord.C182_count_refuted"
   ],
   "note": "Equal to the one-dimensional model for one entry per row (C182_column) and for rows in one region if the number of polar latitudes is not by chance that of the rows (C182_uniform_partial). Refuted: locations that are all inside the OCB need local times (C182_nomlt_refuted); as many polar latitudes as rows make all the locations revert as if inside the OCB (C182_count_refuted)."
  },
  {
   "property": "C183",
   "status": "partial",
   "theorems": [
    "Ocb.Coord.C183_column",
    "Ocb.Coord.C183_uniform_partial",
    "Ocb.Coord.C183_outer_refuted"
   ],
   "note": "Equal to the one-dimensional model for one entry per row (C183_column) and rows in one region (C183_uniform_partial). Refuted: a latitude equatorward of the EAB gives all of its row the radii of that region (C183_outer_refuted)."
  },
  {
   "property": "C184",
   "status": "proved",
   "theorems": [
    "Ocb.Dbl.C184_evar",
    "Ocb.Dbl.C184_curl",
    "Ocb.Dbl.C184_sign",
    "Ocb.Dbl.C184_mono"
   ],
   "note": "Error of normal_evar for all numbers (C184_evar) and of normal_curl_evar away from the subnormal numbers (C184_curl), sign (C184_sign), monotone (C184_mono). Overflow is not modelled."
  },
  {
   "property": "C185",
   "status": "partial",
   "theorems": [
    "Ocb.Dbl.C185_curl_same",
    "Ocb.Dbl.C185_same_partial",
    "Ocb.Dbl.C185_same_refuted",
    "Ocb.Dbl.C185_back",
    "Ocb.Dbl.C185_back_refuted"
   ],
   "note": "normal_curl_evar with equal radii is exact (C185_curl_same), normal_evar for radii that are powers of two (C185_same_partial); scaling and scaling back is exact up to four roundings (C185_back). Refuted: with a radius of 11 degrees a value changes (C185_same_refuted); scaling and scaling back changes 1 (C185_back_refuted)."
  },
  {
   "property": "C186",
   "status": "proved",
   "theorems": [
    "Ocb.Dbl.C186_normal_coord"
   ],
   "note": "C186_normal_coord, against the model over the reals (normalPt). Assumes of numpy only Lib.Ok (sine and cosine within 2^-52, square root correctly rounded, radians within 2^-49, degrees within 2^-44, arctan2 within 2^-51 up to a turn); numpy_radians and numpy_degrees show the bounds for multiplication with the rounded constant. The radius correction is taken as given (its own rounding is not modelled), as are overflow and NaN."
  },
  {
   "property": "C187",
   "status": "proved",
   "theorems": [
    "Ocb.Dbl.C187_revert_coord"
   ],
   "note": "C187_revert_coord, against revertPt; the assumptions are those of C186."
  },
  {
   "property": "C188",
   "status": "proved",
   "theorems": [
    "Ocb.Dbl.C188_round_trip"
   ],
   "note": "C188_round_trip; an example with the outcome within 10^-11 degrees stands beside it."
  },
  {
   "property": "C189",
   "status": "partial",
   "theorems": [
    "Ocb.Dbl.C189_number",
    "Ocb.Dbl.C189_quarter_partial",
    "Ocb.Dbl.C189_half_turn_refuted"
   ],
   "note": "PARTIAL: C189_number (never NaN; error at most 2^-22 for all angles up to pi), C189_quarter_partial (error at most 2^-47 from 2^-24 to a quarter of a turn), C189_half_turn_refuted (at pi - 2^-26 the error is at least 2^-27). Assumes Lib.Ok, sines that are doubles, and inverse sines within 2^-52."
  },
  {
   "property": "C190",
   "status": "proved",
   "theorems": [
    "Ocb.Dbl.C190_pole_angle",
    "Ocb.Dbl.C190_quadrant"
   ],
   "note": "C190_pole_angle, C190_quadrant, against the spherical triangle of C40. Assumes of numpy Lib.Ok, arctan2 within 2^-51 for a non-negative first argument, arccos within 2^-52 on [0, 1]. Nearer to the meridian than V = 2^-19 nothing is claimed (NaN is then possible as far as the assumptions go)."
  },
  {
   "property": "C191",
   "status": "partial",
   "theorems": [
    "Ocb.Dbl.C191_turn_partial",
    "Ocb.Dbl.C191_tiny_refuted",
    "Ocb.Dbl.C191_direction_refuted"
   ],
   "note": "C191_turn_partial: numbers, components to 2^-23, magnitude to 2^-49, against the exact rotation of C42. C191_tiny_refuted: (2^-600, 0) turns into NaN. C191_direction_refuted: an east component of 2^-28 beside a north component of 1 has no effect on the result. Assumes of numpy Lib.Ok and arccos within 2^-51 on [-1, 1]. Overflow above 2^500 is not modelled."
  },
  {
   "property": "C192",
   "status": "partial",
   "theorems": [
    "Ocb.Dbl.C192_quadrant_partial",
    "Ocb.Dbl.C192_meridian_refuted"
   ],
   "note": "C192_quadrant_partial: ends, one quadrant, right side of 90 degrees, and the documented quadrant if the difference of local time is further than 2^-46 hours from all multiples of 12. C192_meridian_refuted: a pole 2^-60 hours to the west is put in the east."
  },
  {
   "property": "C193",
   "status": "proved",
   "theorems": [
    "Ocb.Dbl.C193_turned"
   ],
   "note": "C193_turned, composed of C190, C192 and C191, against the bearing on the sphere. Same assumptions on numpy as C190 and C191. Overflow above 2^500 is not modelled."
  },
  {
   "property": "C194",
   "status": "proved",
   "theorems": [
    "Ocb.OutText.C194_numbers",
    "Ocb.OutText.C194_again"
   ],
   "note": "C194_numbers, C194_again. The formatting is library behaviour; the real number zero has no sign in the model."
  },
  {
   "property": "C195",
   "status": "partial",
   "theorems": [
    "Ocb.OutText.C195_between_partial",
    "Ocb.OutText.C195_limit_refuted",
    "Ocb.OutText.C195_zero_refuted",
    "Ocb.OutText.C195_magnitude"
   ],
   "note": "C195_between_partial: whole limits are kept including the limit itself. C195_limit_refuted: the last half unit before 24 hours is written as 24, and below the boundary as the boundary. C195_zero_refuted: up to half a unit is written as zero. C195_magnitude: the lengths fit to 2.8 half units."
  },
  {
   "property": "C196",
   "status": "partial",
   "theorems": [
    "Ocb.OutText.C196_aligned",
    "Ocb.OutText.C196_vort_partial",
    "Ocb.OutText.C196_one_row_refuted"
   ],
   "note": "C196_aligned, C196_vort_partial for at least two rows; C196_one_row_refuted: a file with one row or none is not read. The texts of the columns that save_all adds are given."
  },
  {
   "property": "C197",
   "status": "partial",
   "theorems": [
    "Ocb.OutText.C197_smag_partial",
    "Ocb.OutText.C197_one_row_refuted"
   ],
   "note": "C197_smag_partial for at least two rows; C197_one_row_refuted: a file with one row or none is not read."
  },
  {
   "property": "C198",
   "status": "proved",
   "theorems": [
    "Ocb.Dbl.C198_harmonic",
    "Ocb.Dbl.C198_elliptical"
   ],
   "note": "C198_harmonic, C198_elliptical. Cosine and sine are assumed to be within two units of the last place up to 32 (Lib.Wide)."
  },
  {
   "property": "C199",
   "status": "proved",
   "theorems": [
    "Ocb.Dbl.C199_on_boundary",
    "Ocb.Dbl.C199_accurate",
    "Ocb.Dbl.C199_nan",
    "Ocb.Dbl.C199_around_pole",
    "Ocb.Dbl.C199_wrap"
   ],
   "note": "C199_on_boundary, C199_accurate, C199_nan, C199_around_pole, C199_wrap. Next to tangents neither NaN nor a number is claimed; a number is on the circle there too."
  },
  {
   "property": "C200",
   "status": "proved",
   "theorems": [
    "Ocb.Dbl.C200_reference"
   ],
   "note": "C200_reference, from C199_on_boundary and C186."
  },
  {
   "property": "C201",
   "status": "partial",
   "theorems": [
    "Ocb.Dbl.C201_poleward_partial",
    "Ocb.Dbl.C201_auroral_partial",
    "Ocb.Dbl.C201_equatorward_partial",
    "Ocb.Dbl.C201_boundary_refuted"
   ],
   "note": "Proved: C201_poleward_partial, C201_auroral_partial, C201_equatorward_partial, away from the boundaries. Refuted on them: C201_boundary_refuted, the computed OCB latitude of a circle of 10 + 21 / 2^49 degrees around the pole, given back to normal_coord, belongs to no region and becomes NaN, for every rounding to the nearest and every library with cos 0 = 1 and sin 0 = 0."
  },
  {
   "property": "C202",
   "status": "proved",
   "theorems": [
    "Ocb.Dbl.C202_poleward",
    "Ocb.Dbl.C202_auroral",
    "Ocb.Dbl.C202_equatorward"
   ],
   "note": "C202_poleward, C202_auroral, C202_equatorward."
  },
  {
   "property": "C203",
   "status": "proved",
   "theorems": [
    "Ocb.Dbl.C203_poleward",
    "Ocb.Dbl.C203_auroral",
    "Ocb.Dbl.C203_equatorward"
   ],
   "note": "C203_poleward (with C188), C203_auroral, C203_equatorward."
  },
  {
   "property": "C204",
   "status": "partial",
   "theorems": [
    "Ocb.FileBack.C204_kinds_partial",
    "Ocb.SaveAll.C204_vort",
    "Ocb.SaveAll.C204_smag",
    "Ocb.SaveAll.C204_even_partial",
    "Ocb.SaveAll.C204_index_refuted"
   ],
   "note": "C204_vort and C204_smag hold for all lines. C204_even_partial and C204_kinds_partial: SuperMAG columns have one length and hold values of their kind if lines of two words after the header begin with SMU or SML. C204_index_refuted: an index line that is named like a column of the stations gives that column two values for one station."
  },
  {
   "property": "C205",
   "status": "partial",
   "theorems": [
    "Ocb.SaveAll.C205_back_partial",
    "Ocb.SaveAll.C205_one_row_refuted"
   ],
   "note": "C205_back_partial needs two rows or more; C205_one_row_refuted: a file of one row cannot be read back. The text of a float by str.format is a parameter that the conversion reads back."
  },
  {
   "property": "C206",
   "status": "proved",
   "theorems": [
    "Ocb.SaveAll.C206_same"
   ],
   "note": "For files of two or more rows. The example follows a file of one block from its lines to the columns that are read back."
  },
  {
   "property": "C207",
   "status": "proved",
   "theorems": [
    "Ocb.FileBack.C207_vort",
    "Ocb.FileBack.C207_smag"
   ],
   "note": "For files of two or more rows (C196, C197 and C205 show that one row cannot be read back)."
  },
  {
   "property": "C208",
   "status": "partial",
   "theorems": [
    "Ocb.DmspText.C208_loaded_partial",
    "Ocb.DmspText.C208_header",
    "Ocb.DmspText.C208_one_pass_refuted",
    "Ocb.DmspText.C208_crossings"
   ],
   "note": "C208_loaded_partial holds for files with no or at least two passes of the hemisphere; C208_one_pass_refuted: a file with one pass cannot be loaded. C208_crossings holds for all loaded records with a positive radius."
  },
  {
   "property": "C209",
   "status": "partial",
   "theorems": [
    "Ocb.DmspCsv.C209_read",
    "Ocb.DmspCsv.C209_order",
    "Ocb.DmspCsv.C209_short",
    "Ocb.DmspCsv.C209_width",
    "Ocb.DmspCsv.C209_missing",
    "Ocb.DmspCsv.C209_text",
    "Ocb.DmspCsv.C209_marked_refuted",
    "Ocb.DmspCsv.C209_format",
    "Ocb.DmspCsv.C209_stops"
   ],
   "note": "PARTIAL. C209_read gives the satellite, date and every value of every pass for each file of at least two rows; C209_order says that files which agree under the fourteen names are read alike; C209_short, C209_missing, C209_text give the files left out and the ValueErrors; C209_format and C209_stops carry this to the whole run. C209_marked_refuted: the first line that does not start with the comment mark is taken for the header, so a header with the mark in front makes the first row of numbers the header and the run stops with a ValueError."
  },
  {
   "property": "C210",
   "status": "partial",
   "theorems": [
    "Ocb.XData.C210_cells_partial",
    "Ocb.XData.C210_square_refuted",
    "Ocb.XData.C210_both_refuted",
    "Ocb.XData.C210_coords_refuted",
    "Ocb.XData.C210_succeeds"
   ],
   "note": "PARTIAL. C210_cells_partial: for a time series of locations or latitudes along their own dimension, with any further dimensions, each cell by its labels. C210_succeeds: when a call gives a result. C210_square_refuted, C210_both_refuted, C210_coords_refuted: the layouts that fail."
  },
  {
   "property": "C211",
   "status": "partial",
   "theorems": [
    "Ocb.XData.C211_scaled_partial",
    "Ocb.XData.C211_succeeds",
    "Ocb.XData.C211_order_refuted"
   ],
   "note": "PARTIAL. C211_scaled_partial: each cell of a scaled variable by its labels, for dimensions in order. C211_succeeds: when a call with scaled variables gives a result. C211_order_refuted: a concrete set with exchanged dimensions, for every library and boundary."
  },
  {
   "property": "C212",
   "status": "partial",
   "theorems": [
    "Ocb.XData.C212_vectors_partial",
    "Ocb.XData.C212_names_refuted",
    "Ocb.XData.C212_succeeds",
    "Ocb.XData.C212_order_refuted"
   ],
   "note": "PARTIAL. C212_vectors_partial: each cell of the attributes of a vector by its labels, for dimensions in order. C212_succeeds: when a call with vectors gives a result. C212_order_refuted: a concrete set with exchanged dimensions, for every library and boundary. C212_names_refuted: names that are written but not made."
  },
  {
   "property": "C213",
   "status": "proved",
   "theorems": [
    "Ocb.Pysat.C213_rows",
    "Ocb.XData.C213_cells",
    "Ocb.XData.C213_scaled"
   ],
   "note": "C213_rows is for tables, C213_cells and C213_scaled for xarray sets in the layouts of C210 and C211. The boundary is an OCBoundary and the coordinates are magnetic; geographic coordinates need the external aacgmv2 and are not part of the claim. Values are real numbers; infinities in the location are not covered."
  },
  {
   "property": "C214",
   "status": "proved",
   "theorems": [
    "Ocb.Pysat.C214_rows",
    "Ocb.Pysat.C214_succeeds",
    "Ocb.XData.C214_cells"
   ],
   "note": "General position: location not at a pole and off the meridian of the centre, vector with a horizontal part, centre less than 90 degrees from the magnetic pole; what happens elsewhere and in the southern hemisphere is in C67, C68 and C71. The vectors name columns for their components and a scale function of the package, and every key that a vector before them names (C90 says what happens otherwise). Location and vector are magnetic; geographic ones need the external aacgmv2. The default components and magnitude, single numbers in the code, are arrays of one in the model. C214_succeeds gives conditions under which the call returns. C214_cells is for xarray sets in the layouts of C212; there the cells of one time, an array in the code, are computed one by one, and the example uses a library with values in the place of exceptions."
  },
  {
   "property": "C215",
   "status": "proved",
   "theorems": [
    "Ocb.Pysat.C215_rows",
    "Ocb.XData.C215_cells"
   ],
   "note": "Locations are magnetic. What is stored in the two boundary objects when a row is reached is an arbitrary function of pair and location. For rows whose meridian does not cross both boundaries in order nothing is claimed here (C64 and C37 treat these). In sets with several locations at one time a location that is not placed may get other values than the model says."
  },
  {
   "property": "C216",
   "status": "partial",
   "theorems": [
    "Ocb.Pysat.C216_polar_partial",
    "Ocb.Pysat.C216_refuted",
    "Ocb.XData.C216_cells_partial"
   ],
   "note": "C216_refuted: a row at 30 degrees with circles of 16 and 26 degrees, references 74 and 64. The vectors of the same call use the polar cap radii too (ocb_scaling.py 690-695). The rows of C216_polar_partial and the cells of C216_cells_partial have the EAB strictly equatorward of the OCB on their meridian."
  },
  {
   "property": "C217",
   "status": "proved",
   "theorems": [
    "Ocb.Pysat.C217_rows",
    "Ocb.Pysat.C217_succeeds",
    "Ocb.XData.C217_cells"
   ],
   "note": "Locations and vectors are magnetic, the hemisphere is northern as in C214. A vector is in general position if it is not zero horizontally and its location is neither the pole nor on the meridian through the centre of the circle. What is stored in the two boundary objects when a row is reached is an arbitrary function of pair and location. Rows whose meridian does not cross both boundaries in order are not covered. For sets, nearness of the pair is C215_cells and success of the call is C212_succeeds."
  },
  {
   "property": "C218",
   "status": "partial",
   "theorems": [
    "Ocb.Pysat.C218_rest_partial",
    "Ocb.Pysat.C218_centred_partial",
    "Ocb.Pysat.C218_south_refuted"
   ],
   "note": "C218_south_refuted is for every southern boundary and table, not only for a witness; the example beside it has a circle 5 degrees from the pole. C71 is the same fault in set_ocb alone. General position as in C214. If the row is blank, C218_rest_partial says when."
  },
  {
   "property": "C219",
   "status": "partial",
   "theorems": [
    "Ocb.Pysat.C219_record_partial",
    "Ocb.Pysat.C219_exact_partial",
    "Ocb.Pysat.C219_refuted",
    "Ocb.XData.C219_cells_partial",
    "Ocb.XData.C219_scaled_partial"
   ],
   "note": "C219_record_partial says where the rows are placed: at the location at the time of the record. C219_exact_partial is the claim for tolerance zero. C219_refuted is a witness with a library whose magnetic latitude depends on the longitude. C219_cells_partial and C219_scaled_partial are the same for sets with named dimensions. The vector computation is a parameter."
  },
  {
   "property": "C220",
   "status": "partial",
   "theorems": [
    "Ocb.Pysat.C220_record_partial",
    "Ocb.Pysat.C220_exact_partial",
    "Ocb.Pysat.C220_refuted",
    "Ocb.XData.C220_cells_partial"
   ],
   "note": "C220_record_partial says where the rows are placed: at the location at the time of the pair. C220_exact_partial is the claim for tolerance zero. C220_refuted is a witness with a library whose magnetic latitude depends on the longitude. C220_cells_partial is the same for sets with named dimensions. The scaled variables are in C216."
  }
 ]
}
