{
 "C01": "Exact arithmetic. The claim needs a period not longer than the interval; C01_fix_range_wide_period_refuted shows a longer period that leaves the value above the maximum. C01_fix_range_any_period holds for every period.",
 "C02": "Every array with finite or NaN entries is fixed entry by entry and the loops stop. The claim is false for an infinite entry: the loop never stops (C02_fix_range_infinite_diverges_refuted).",
 "C13": "Holds for attributes that are numbers. NaN attributes pass the four inequality criteria (C13_nan_attribute_refuted).",
 "C16": "PROVED: Holds for strictly increasing times of the usable records. Fails on a plateau of equal times (C16_match_plateau_refuted), as the property says.",
 "C17": "PROVED: All four parts proved; the documented return value None is refuted (C17_documented_none_refuted).",
 "C60": "False as stated. The exact set of failing inputs is proved (C60_drive_error_iff_partial) with a concrete witness (C60_no_overlap_refuted).",
 "C22": "PARTIAL: The cursor, the pair lists and the two member cursors stay in step for every history inside the range (C22_set_in_step, C22_next_step, C22_history_in_step_partial). Beyond the end the members are not moved: C22_beyond_end_refuted.",
 "C23": "PARTIAL: Holds for members that the constructor builds; ready-made members and NaN arguments are not checked (C23_ready_made_refuted, C23_nan_refuted).",
 "C34": "PARTIAL: Holds for numbers; boundary_lat=None raises TypeError (C34_none_refuted) as the property says.",
 "C24": "Exact arithmetic, magnetic coordinates.",
 "C25": "For one location and for whole arrays (C25_array_round_trip); the corrected radius must not be zero.",
 "C26": "For one location and through the interface; the radius correction passed must be the one at the reverted local time, as the property says.",
 "C27": "normal_coord: proved for all arrays. revert_coord: exact for a single location and for arrays of one hemisphere; false for mixed arrays (C27_revert_mixed_refuted). The bound |latitude| <= 90 holds on the pole side only (C27_latitude_range_refuted).",
 "C31": "False as stated, as the property says; the exact set of inputs that are left alone is proved (C31_normal_unchanged_iff, C31_boundary_unchanged_iff).",
 "C33": "Every file except those of one row, which make load raise IndexError (C33_one_row_refuted).",
 "C63": "False: concrete session in C63_stored_mlt_aliased_refuted. Without caller writes the claim holds for every history of calls (C30_history_consistent).",
 "C35": "For every array: an entry with the magnetic pole inside both circles and the EAB nowhere poleward of the OCB on its meridian gets the piecewise linear value. Latitude exactly 0 belongs to no hemisphere and is NaN.",
 "C36": "Whole arrays, all three regions mixed, any stores and overwrite flags; local time up to whole days.",
 "C37": "The three geometric tests agree for every good location. The masks of the code can overlap for OCB latitudes below minus the reference; the consequence is C64.",
 "C38": "Histories of all three methods with arbitrary cursor moves among valid pairs.",
 "C64": "False: C64_other_location_refuted gives two calls that differ in the dual latitude, C64_r_corr_refuted two that differ in the radius correction of a location of the other hemisphere. For any geometry (C64_any_geometry_partial) the results for a location of the hemisphere can only differ in the dual latitude, only if the location is in none of the three regions of the code, and then only between NaN and the OCB latitude; coordinates of other locations are NaN in every call.",
 "C65": "normal_coord and calc_r satisfy it; revert_coord does not: it uses the last pair (C65_revert_number_refuted) or raises IndexError (C65_revert_end_refuted).",
 "C40": "Holds off the meridian of the pole for every non-equatorial pole, on the meridian within a hemisphere, and on the opposite meridian when the data is not nearer to the base pole. Refuted for the other cases on the meridians and for a pole on the equator (NaN).",
 "C44": "Holds with a horizontal part or on the aligned meridian; a purely vertical vector loses its vertical component.",
 "C45": "Holds at angle 0 below the pole latitude; refuted at 180 (unchanged) and at 0 at or above the pole latitude (reversed).",
 "C66": "Proved for numbers; refuted for a NaN latitude on the meridian of the pole.",
 "C68": "Refuted for every southern pole and every vector with an east component; right if the north component is measured poleward.",
 "C49": "Holds for arrays (C49_array) and without a scale function (C49_unscaled_partial); for a single vector the scale function gets the unrotated components (C49_single_refuted).",
 "C50": "Proved for the check and for construction (C50_test, C50_construct); update_loc_coords and update_vect_coords_to_mag can leave a refused pair behind (C50_update_refuted).",
 "C51": "Assigning ocb_ind discards everything that came from the boundary when the coordinates are unset or the shapes agree; refuted for stored coordinates, shapes and refused assignments (C51_stale_refuted, C51_shape_refuted, C51_refused_refuted).",
 "C69": "",
 "C71": "Refuted for every southern boundary and every vector with an east component.",
 "C72": "Refuted for a cursor past the last record (IndexError for a single index that exists); proved for magnetic vectors and a cursor on any record; refuted for geographic vectors (C72_geographic_refuted)",
 "C73": "Refuted: for a magnetic vector at a geographic location nothing is calculated.",
 "C74": "Refuted for single vectors with a boundary array; proved for component arrays.",
 "C75": "Refuted for a single boundary index; proved for component shapes and for boundary index arrays.",
 "C77": "Refuted between geodetic and geocentric; proved when one of the systems is magnetic.",
 "C52": "",
 "C53": "Stated for the documented instruments and for listings in which every boundary file names its hemisphere; the directory scan itself is a parameter.",
 "C54": "",
 "C78": "Refuted with a concrete listing; the partial theorem covers unparsable dates; refuted for requests of its own instrument (C78_instrument_refuted)",
 "C79": "Refuted with a concrete listing.",
 "C55": "The magnetic coordinates come from an arbitrary function in place of aacgmv2. Coincident crossings (radius zero) are excluded from the normalisation. C55_rounded covers the rounding to three decimals.",
 "C56": "int() and strptime are parameters.",
 "C80": "Exact characterisation plus refutation.",
 "C81": "Refuted; proved for windows starting at midnight.",
 "C82": "Refuted for single-pass files; proved otherwise.",
 "C83": "Refuted; proved for time-ordered input.",
 "C07": "Refuted as stated for fractions (C07_fraction_refuted gives exactly the refused intervals, the last half second of every minute); whole seconds and all other fractions proved.  In the year 9999 day 366 is out of the calendar (ValueError) and excluded.",
 "C08": "PROVED: for offsets giving a year of four digits; in 9999 day 366 is out of the calendar and excluded.",
 "C09": "Refuted for dates with trailing characters.  Proved for any format whose bare part reads the date, for YYYY-MM-DD dates and for yyddd dates, up to the end of the calendar.",
 "C10": "Refuted for repeated directives (as the property says), and also for %G and for UTC offsets with seconds; proved for every other format.",
 "C84": "",
 "C85": "Refuted: UnboundLocalError for yyddd days 367 to 999.",
 "C57": "PROVED: C57_rows: one row per entry of well formed blocks, in order, with the block's date and time and the numbers at their places in the format, None when no entry. C57_malformed: a line with a wrong number of texts raises IOError at any point. C57_truncated: a file ending inside the entries raises IOError. C57_lost_block: a file ending after the date line or the number of entries is read as though the block were not there. Texts within a line are split before the model begins; the conversion of a text to float is a parameter.",
 "C58": "C58_rows_partial: for files of header and blocks with at least one station, one row per station in file order with the block's time, station count and indices, and the texts of the line at their places. C58_no_header_end: a file without the rule line gives the empty dictionary. C58_bad_time: a time that does not exist raises ValueError. C58_no_stations_refuted: a block without stations followed by another block makes the reader fail. C58_blank_end_refuted: a blank line at the end raises IndexError.",
 "C59": "PROVED: C59_groups, C59_complete, C59_nearest and C59_error_iff over the model of the loop (driveGroups), for OCBoundary and DualBoundary records. The numbers written are those of VectorData, see C69 to C75; the number format is not modelled.",
 "C86": "C86_truncated_refuted: false for every file cut after some but not all stations of its last block.",
 "C87": "C87_fill_partial: for every file, no fill value is left in the six replaced columns. C87_latitude_refuted: a fill latitude stays.",
 "C62": "Soundness (every marked point is near the line and high enough) and the error conditions hold in full. Completeness holds for tracks that do not rise (exact) and, between the crossings, for slopes up to del_y/del_x and crossings of similar colatitude. Refuted otherwise: a steeper rising track and a track with equal x give an all-False mask, and points between the crossings are dropped when the nearest crossing is much closer to the pole. Crossings are numpy floats; with Python floats equal x raise ZeroDivisionError instead. Zero-dimensional arrays and NaN points are not modelled.",
 "C88": "Holds for points with hemisphere*lat >= 0; refuted for the other hemisphere.",
 "C61": "False as stated (C61_documented_refuted). C61_kind gives the exact decision for every name; C61_extension_partial gives the names for which it is the documented one.",
 "C89": "False as stated (C89_finite_refuted); the exact set of rows used is proved for latitudes that are not infinite.",
 "C90": "Holds for vectors that name every key named before them; false otherwise (C90_leak_refuted, for every such pair).",
 "C91": "Holds for names without 'ocb'; C91_missing_refuted and C91_clash_refuted are concrete names that contain it.",
 "C94": "Pandas data. The package functions called in the loop are parameters. The columns written must have different names; C94_succeeds gives sufficient conditions for success.",
 "C95": "Holds for the northern hemisphere; for the southern one every latitude is kept.",
 "C96": "False as stated; holds when no vector is named in the two lists.",
 "C97": "The decision is proved exactly for every list; the equator is treated differently in the two hemispheres (C97_equator_refuted).",
 "C98": "False: the failure is proved for every table and boundary with at least one match, in time order.",
 "C99": "The keys of the dictionary of vectors are distinct, as in every dictionary.",
 "C92": "The numpy and xarray operations are modelled by their documentation. Equal dimensions: correct exactly for rectangular sets of true cells; always for a time and one more dimension (C92_profile). Different dimensions: correct when the dimensions of the data come first in the mask.",
 "C93": "Flat row-major positions. The failure is proved for all numbers of locations and heights of at least two.",
 "C100": "Files with at least two rows and two columns and distinct names are loaded exactly (C100_columns_partial, C100_succeeds). Fails for a single row, where every name gets all cells (C100_one_row_refuted), and for repeated names (C100_repeated_refuted). Text to float conversion is a parameter.",
 "C101": "Holds for formats of percent parts with the date before the time of day, exactly for the default format (C101_default_format, through the model of strptime), exactly for the words YEAR and SOY in any letters and order (C101_year_soy), and to the microsecond for YYDDD SOD and a date with SOD (C101_yyddd_sod, C101_date_sod). Fails when the time of day comes first (C101_order_refuted).",
 "C102": "Holds without YEAR and SOY, and when they are the first two columns; C102_position_refuted shows a first column read as integers though year and seconds are elsewhere.",
 "C103": "C103_header and, for a fresh list, C103_fresh_partial hold; C103_second_call_refuted: with a list that is used again the second file gets the names of the first.",
 "C104": "C104_names_partial, C104_separator_partial (names between separators, empty places dropped) and C104_time_name hold; false with the comments option for a header line that starts with the mark (C104_comment_refuted) and when all four time names are taken (C104_all_taken_refuted).",
 "C105": "False: no file with names and without rows is loaded (IndexError in the code).",
 "C106": "False on the equator: np.nanmax gives the sign first, and a zero next to northern data is then taken as the other hemisphere (ValueError), whereas a zero next to southern data is accepted (C106_equator_refuted). Proved: the exact conditions for the answers 1 and -1, the refusal of mixed data and of data without numbers, and what is loaded.",
 "C107": "Proved for every boundary object, with the exact conditions for no file and for the TypeError of C60, and connected to the text of the file.",
 "C108": "Proved for OCBoundary. False for DualBoundary: the code takes ocb.ocb.r[ocb.rec_ind], the radius of the OCB record with the number of the pair, instead of the OCB record in the pair (C108_dual_radius_refuted); the partial theorem covers pairs where the two numbers agree.",
 "C109": "False: with a hemisphere argument that is not the one of the boundary object, rows are written with NaN coordinates (C109_mismatch_refuted, and C109_nan_rows for all such calls). Without the argument the hemisphere of the object is used.",
 "C110": "Proved for every boundary object and every table with columns of one length (which C114_from_file gives for files).",
 "C111": "The failure condition is for OCBoundary objects of the hemisphere with valid records, stations off the pole, and stations and records in time order.",
 "C112": "C112_north: all rows for a northern OCBoundary. C112_coords_partial: coordinates and magnitude for both hemispheres. C112_south_refuted: in the south the components are wrong because the centre of the circle is placed in the northern hemisphere (see C71). Missing: stations on the meridian of the centre. DualBoundary objects: C173.",
 "C113": "False: with a hemisphere argument that is not the one of the boundary object, rows are written with NaN in all boundary columns (C113_mismatch_refuted, and C113_nan_rows for all such calls). Without the argument the hemisphere of the object is used.",
 "C114": "C114_from_file and C114_loaded: proved. False: a file without the line that ends the header raises KeyError, one without stations IndexError (IOError is documented); a missing latitude (999999) counts as northern, so that southern files with one are refused and northern stations with one are written (C114_fill_latitude_refuted).",
 "C115": "Proved for columns that had no metadata (C115_described_partial) and success for vectors with components (C115_succeeds). Refuted: stale metadata of an earlier call, and KeyError for a vector without components.",
 "C116": "Proved for names without boundary parts, with and without metadata of the source. Refuted for names with '_ocb' inside and for names with another boundary as a part.",
 "C117": "Proved for components and magnitude. Refuted for the radius columns (units of the vector; described by the first part of the vector name).",
 "C118": "PARTIAL: Holds for northern magnetic poles off the meridian of the vectors, single vectors and arrays, both location systems (C118_northern_partial). Refuted for southern poles, on the meridian, and for arrays with a missing place.",
 "C119": "PARTIAL: Holds if no magnetic place is known (C119_unknown_partial). Refuted for unknown geographic places (C119_unbound_refuted) and at the geographic pole (C119_pole_refuted).",
 "C120": "PROVED: For every returned object. Updates of the object made before an exception are not described.",
 "C121": "PARTIAL: C121_steps holds for all inputs; the geometry for northern boundaries and poles (C121_northern_partial). Refuted for one place with several indices (C121_indices_refuted) and several vectors with one index (C121_heights_refuted, which rests on the library taking a single height).",
 "C122": "PARTIAL: C122_image, C122_ampere, C122_dmsp, C122_other: times and values of the lines of the window; C122_named, C122_default: the file and the instrument; C122_limits; C122_succeeds: files of the documented form are loaded; C122_eab: the same for EABoundary. Holds for all files but those with one line: refuted for them (C122_one_line_refuted).",
 "C123": "PARTIAL: Five names are accepted (C123_accepted_partial), with circles (C123_circular); with a correction and a file the object is that of OCBoundary (C123_as_ocb). Refuted for si12, si13, wic (C123_documented_refuted) and capital letters (C123_capital_refuted, C123_capital_default_refuted).",
 "C124": "PARTIAL: Holds for files with records in the order of time (C124_roundtrip_partial, C124_eab_partial) and for objects without file and correction (C124_no_file). Refuted for records out of order, no records in the window, and objects without a file but with a correction (C124_unsorted_refuted, C124_empty_refuted, C124_no_file_refuted, C124_eab_refuted).",
 "C125": "PARTIAL: C125_shown, C125_listed, C125_once hold always; nothing else is listed if names are unique (C125_only_partial). Refuted for functions with the same name in different modules (C125_only_refuted).",
 "C126": "C126_no_data: the bad arguments; C126_states: the two states of every constructed object.",
 "C127": "PARTIAL: C127_roundtrip_partial for objects as constructed, C127_kept_partial for objects with results, which are lost. Refuted for results, texts with 'array', long or empty arrays, undefined nan, a NaN magnitude of several vectors and lost digits (C127_*_refuted).",
 "C128": "PARTIAL: C128_single, C128_listed_partial (several vectors, complete arrays), C128_bounds_places_partial. Refuted: C128_repeats_refuted (exact text for one vector with several boundaries), C128_coordinate_refuted, C128_components_refuted, C128_height_refuted.",
 "C129": "PARTIAL: C129_archive and C129_loop hold for all links; C129_endless, C129_identify_refuted: without an archive in the link the call never ends.",
 "C130": "PARTIAL: C130_refused, C130_streams_partial (download does not raise), C130_captured. Refuted: C130_failure_refuted, C130_redirected_refuted.",
 "C131": "PARTIAL: C131_returns with C131_only is an equivalence; C131_available, C131_left. Refuted: C131_temporary_refuted, C131_existing_refuted.",
 "C132": "PARTIAL: C132_returns, C132_boundary, C132_nothing, C132_failure. Refuted: C132_temporary_refuted, C132_directory_refuted, C132_error_refuted.",
 "C133": "PARTIAL: C133_names_partial (no '-f' in the path), C133_distinct, C133_recognised. Refuted: C133_directory_refuted, C133_span_refuted.",
 "C134": "C134_shows, C134_eab. Numbers are rounded when written; their spelling is not modelled. Which corrections are listed is C125.",
 "C135": "PARTIAL: C135_accepted (exactly when it succeeds), C135_members, C135_pairs, C135_has_pair, C135_no_data. Refuted: C135_no_data_refuted (no cursor without data), C135_given_refuted (a member that is handed over is moved past its end).",
 "C136": "PARTIAL: C136_roundtrip_partial, C136_shows. Refuted: C136_selection_refuted, C136_no_file_refuted.",
 "C137": "one angle per entry for arrays of local times with any latitudes that are numbers, and for single local times off the meridian; refuted on the meridian",
 "C138": "documented quadrants for vectors, and for poles with an array of local times; refuted for single local times and an array of angles",
 "C139": "rotation at every general entry and equality with the all-array call if a horizontal component is an array; single vectors with single quadrants; refuted for the four mixes named in the statement",
 "C140": "for magnetic vectors; both parts for every boundary, shape and history",
 "C141": "coordinates of the new place after NaN was assigned to ocb_lat, for a single index and for as many indices as vectors; refuted otherwise, and for the components if nothing is found at the new place",
 "C142": "holds for objects without a scale function whose pole angle is found; refuted for objects that have one",
 "C143": "Stated against the exact model of C01, for every function that rounds to a nearest double; rounding with ties to even is proved to be one.",
 "C144": "Refuted: a negative number of hours above -2^-49 becomes 24. Proved: the closed interval, below the upper limit unless the value was below the lower one, and that a second call (as normal_coord and revert_coord make) puts it right.",
 "C145": "Refuted: hours beyond 2^58 (degrees beyond 2^62) loop forever. Proved: exactly the doubles up to that size return; in general whenever the period is more than half a unit in the last place.",
 "C146": "Refuted: longitudes just below zero give 24 hours, and some hour does not come back exactly. Proved: the closed interval, below 24 for non-negative input, the half-open interval of hr2deg, and the way back within 3*2^-49 hours without crossing midnight.",
 "C147": "",
 "C148": "",
 "C149": "Transfers C07 from exact arithmetic to doubles.",
 "C150": "Refuted: one double loses a fraction of a microsecond for every rounding to nearest. Proved: within 2^-33 microseconds.",
 "C151": "Refuted: 1.1 seconds give 1.100001 seconds. Proved: that microsecond or the next, and the right one when the decimal number is a double.",
 "C152": "Proved up to 2^33 seconds (272 years); refuted for differences just beyond 2^33 seconds.",
 "C153": "Range, accuracy and the special angles are proved for every rounding to nearest; the range is closed, not half-open, for the default range: hours just below zero give 2 pi (refuted).",
 "C154": "Proved for every content of memory; for fix_range and define_pole_quadrants also through the loops.",
 "C155": "Proved except: where an angle is NaN or a quadrant undefined the sign is -1 (refuted), and with quadrants given by the caller the sign of a NaN entry depends on memory (refuted).",
 "C156": "An inconsistency is never missed; no false alarm if all or none of the given magnitudes are NaN; refuted for arrays with some NaN, where the warning depends on uninitialised memory.",
 "C157": "Proved for text names. Refuted for path objects: TypeError from the messages instead of False, IOError or a plain return.",
 "C158": "Returning calls: proved that writing row by row gives exactly the rows of C107/C110. Raising calls: proved that nothing is changed before the output file is opened; refuted when data and records do not overlap: TypeError and a file with the header only, exactly in this case for input in order.",
 "C159": "Proved for an integer period (integer val_range, or none and two integer limits). With a float period: proved for values within the limits, refuted for every other integer: TypeError instead of the shifted value.",
 "C160": "Refuted: every integer input of get_aacgm_boundary_lat raises TypeError and stores nothing; DualBoundary.normal_coord raises TypeError for integer local times exactly if one location is of the hemisphere. Proved for float local times, with float or integer latitudes of one hemisphere.",
 "C161": "Proved unless the integer latitudes mix hemispheres. Refuted for these: ValueError instead of NaN for the others.",
 "C162": "Proved if one of the arrays is of floats, or all differences are from 0 to below 24. Refuted for all other integer arrays: TypeError.",
 "C163": "Proved: validity of the reported records, independence from earlier pairs and cursor, and that the criteria stay in force for later calls. False: the cursor moves back, because set_good_ind sets it to 0 in every call (C163_cursor_back_refuted), and a later call without criteria still uses the pairs of the criteria (C163_criteria_forgotten_refuted).",
 "C164": "Proved for time-ordered OCB records and data and an object with a pair left before the first call. False for an object that has no pairs (or whose cursor is past them) under its standing selection: the criteria are never looked at (C164_no_pairs_refuted); and for data out of order (C164_unordered_refuted).",
 "C165": "PARTIAL. The magnitude of the scaled vector is its length after every program; the magnitude of the vector is its length after every program that assigns neither components nor magnitude. Refuted: assigned components leave the old magnitude, which setting the boundary does not mend; a given magnitude is stored whatever it is; single components are spread over the indices while their magnitude keeps the shape of a single value.",
 "C166": "The library is any collection of functions; the round trip assumes that its conversions undo each other at the heights used, that it puts the places into the hemisphere of the boundary off the magnetic pole, and, as in C25, that some location stays in the hemisphere after scaling.",
 "C167": "PARTIAL. normal_coord for every call; revert_coord for calls with all locations poleward of the OCB (own heights) or all equatorward of it (one height), and the round trip for the latter. Refuted: locations on both sides of the OCB in one call raise ValueError because the full array of heights is passed with some of the locations (proved for every such call); locations equatorward of both boundaries and between them get each other's heights.",
 "C168": "Refuted: geographic vectors and magnetic locations give identical results for every method (C168_same_refuted), the scaled vector never depends on the method in any call that returns (C168_results_refuted), with one record per datum the method is not handed on (C168_array_refuted), and a vector that the requested method converts stays unconverted (C168_unconverted_refuted).",
 "C169": "Proved for vectors at locations of the boundary's hemisphere and for any scale function (same object except index and boundary latitude). Refuted for arrays that mix hemispheres: a vector at a place of the other hemisphere has NaN boundary coordinates but gets numbers as components, turned towards the OCB's pole, since DualBoundary.normal_coord works on copies of the latitudes.",
 "C170": "Proved poleward of the OCB. Refuted everywhere equatorward of it: set_ocb always uses the radii of the polar cap, calc_r those of the region between the boundaries or equatorward of the EAB.",
 "C171": "With the cursor on a record, a float gives the result of an int exactly when that is the datum asked for (iff); with the cursor before the records the same for the first datum not long before the first record. Otherwise refuted: the messages format the tolerance with {:d}, a ValueError; a conversion fails as soon as a datum is passed over.",
 "C172": "Pairs proved to be those of the criteria and limits in the arguments for any sharing of objects, and to be independent of earlier calls. Refuted: the call enters the limits into the caller's dictionary, where a later get_next_good_ocb_ind finds them; limits that the dictionary itself contains are lost.",
 "C173": "Proved for stations off the pole, sound pairs of circles with the centre at most 90 degrees from the pole; the components off the meridian of the centre and for horizontal vectors that are not zero, as in C112 (and in the south relative to the misplaced centre, see C112_south_refuted). The latitude is stated where the boundaries are well placed (GoodPt, see C64).",
 "C174": "Proved for every dictionary with distinct keys: the content of both dictionaries is given key by key, and no argument is lost, duplicated or changed. Refuted outside the dual case: with a boundary object or a single boundary file, constructor arguments are passed to the matching as selection criteria without an error.",
 "C175": "False: C175_float_refuted shows for all boundaries that a float raises a ValueError whenever an int gives pairs with two different OCB records, because a log message formats the number with {:d}. What holds: a float gives the pairs of the int or a ValueError (C175_same_partial). Times are whole microseconds.",
 "C176": "Over the reals (no rounding). The correction must agree at the two local times; with a correction that varies with local time the factor is different at each local time.",
 "C177": "Magnetic coordinates. Holds if at least one of latitude, local time (and correction for revert_coord) is an array, except that the radius correction returned by normal_coord has the shape of the local times. With an array of heights only, the result is single inside the hemisphere and an array of NaN outside.",
 "C178": "Magnetic coordinates. normal_coord fully; revert_coord ignores the shapes of r_corr and aacgm_mlt when the location is single and uses their first entry only.",
 "C179": "Holds with a current pair for an array of latitudes with an array of magnetic local times, or a single latitude with an array of corrections or normalised local times. A single aacgm_mlt with an array of latitudes raises TypeError; without a current pair single values come back as arrays.",
 "C180": "Exact effect of one call on all three attributes, including raised conversions (C180_call); set_lon does not change latitudes and local times (C180_lats); sessions that always set the longitudes keep them consistent (C180_session_partial). Refuted: overwriting with set_lon=False, as the DualBoundary methods do, leaves stale longitudes (C180_stale_refuted); a record first stored with set_lon=False never gets longitudes without overwrite (C180_missing_refuted); a conversion that raises leaves stale longitudes (C180_raise_refuted).",
 "C181": "Arrays of any number of dimensions as lists with the number of entries for each first index. Equal to the one-dimensional model if that number is one (C181_column) or if each row lies in one region or in the other hemisphere (C181_uniform_partial). Refuted: np.where(...)[0] keeps the first index only, so one location equatorward of the EAB (C181_outer_refuted) or in the auroral region (C181_auroral_refuted) changes all the good locations of its row; a location on the OCB no longer gets the reference latitude (C181_wrong_refuted).",
 "C182": "Equal to the one-dimensional model for one entry per row (C182_column) and for rows in one region if the number of polar latitudes is not by chance that of the rows (C182_uniform_partial). Refuted: locations that are all inside the OCB need local times (C182_nomlt_refuted); as many polar latitudes as rows make all the locations revert as if inside the OCB (C182_count_refuted).",
 "C183": "Equal to the one-dimensional model for one entry per row (C183_column) and rows in one region (C183_uniform_partial). Refuted: a latitude equatorward of the EAB gives all of its row the radii of that region (C183_outer_refuted).",
 "C184": "Error of normal_evar for all numbers (C184_evar) and of normal_curl_evar away from the subnormal numbers (C184_curl), sign (C184_sign), monotone (C184_mono). Overflow is not modelled.",
 "C185": "normal_curl_evar with equal radii is exact (C185_curl_same), normal_evar for radii that are powers of two (C185_same_partial); scaling and scaling back is exact up to four roundings (C185_back). Refuted: with a radius of 11 degrees a value changes (C185_same_refuted); scaling and scaling back changes 1 (C185_back_refuted).",
 "C186": "C186_normal_coord, against the model over the reals (normalPt). Assumes of numpy only Lib.Ok (sine and cosine within 2^-52, square root correctly rounded, radians within 2^-49, degrees within 2^-44, arctan2 within 2^-51 up to a turn); numpy_radians and numpy_degrees show the bounds for multiplication with the rounded constant. The radius correction is taken as given (its own rounding is not modelled), as are overflow and NaN.",
 "C187": "C187_revert_coord, against revertPt; the assumptions are those of C186.",
 "C188": "C188_round_trip; an example with the outcome within 10^-11 degrees stands beside it.",
 "C189": "PARTIAL: C189_number (never NaN; error at most 2^-22 for all angles up to pi), C189_quarter_partial (error at most 2^-47 from 2^-24 to a quarter of a turn), C189_half_turn_refuted (at pi - 2^-26 the error is at least 2^-27). Assumes Lib.Ok, sines that are doubles, and inverse sines within 2^-52.",
 "C190": "C190_pole_angle, C190_quadrant, against the spherical triangle of C40. Assumes of numpy Lib.Ok, arctan2 within 2^-51 for a non-negative first argument, arccos within 2^-52 on [0, 1]. Nearer to the meridian than V = 2^-19 nothing is claimed (NaN is then possible as far as the assumptions go).",
 "C191": "C191_turn_partial: numbers, components to 2^-23, magnitude to 2^-49, against the exact rotation of C42. C191_tiny_refuted: (2^-600, 0) turns into NaN. C191_direction_refuted: an east component of 2^-28 beside a north component of 1 has no effect on the result. Assumes of numpy Lib.Ok and arccos within 2^-51 on [-1, 1]. Overflow above 2^500 is not modelled.",
 "C192": "C192_quadrant_partial: ends, one quadrant, right side of 90 degrees, and the documented quadrant if the difference of local time is further than 2^-46 hours from all multiples of 12. C192_meridian_refuted: a pole 2^-60 hours to the west is put in the east.",
 "C193": "C193_turned, composed of C190, C192 and C191, against the bearing on the sphere. Same assumptions on numpy as C190 and C191. Overflow above 2^500 is not modelled.",
 "C194": "C194_numbers, C194_again. The formatting is library behaviour; the real number zero has no sign in the model.",
 "C195": "C195_between_partial: whole limits are kept including the limit itself. C195_limit_refuted: the last half unit before 24 hours is written as 24, and below the boundary as the boundary. C195_zero_refuted: up to half a unit is written as zero. C195_magnitude: the lengths fit to 2.8 half units.",
 "C196": "C196_aligned, C196_vort_partial for at least two rows; C196_one_row_refuted: a file with one row or none is not read. The texts of the columns that save_all adds are given.",
 "C197": "C197_smag_partial for at least two rows; C197_one_row_refuted: a file with one row or none is not read.",
 "C198": "C198_harmonic, C198_elliptical. Cosine and sine are assumed to be within two units of the last place up to 32 (Lib.Wide).",
 "C199": "C199_on_boundary, C199_accurate, C199_nan, C199_around_pole, C199_wrap. Next to tangents neither NaN nor a number is claimed; a number is on the circle there too.",
 "C200": "C200_reference, from C199_on_boundary and C186.",
 "C201": "Proved: C201_poleward_partial, C201_auroral_partial, C201_equatorward_partial, away from the boundaries. Refuted on them: C201_boundary_refuted, the computed OCB latitude of a circle of 10 + 21 / 2^49 degrees around the pole, given back to normal_coord, belongs to no region and becomes NaN, for every rounding to the nearest and every library with cos 0 = 1 and sin 0 = 0.",
 "C202": "C202_poleward, C202_auroral, C202_equatorward.",
 "C203": "C203_poleward (with C188), C203_auroral, C203_equatorward.",
 "C204": "C204_vort and C204_smag hold for all lines. C204_even_partial and C204_kinds_partial: SuperMAG columns have one length and hold values of their kind if lines of two words after the header begin with SMU or SML. C204_index_refuted: an index line that is named like a column of the stations gives that column two values for one station.",
 "C205": "C205_back_partial needs two rows or more; C205_one_row_refuted: a file of one row cannot be read back. The text of a float by str.format is a parameter that the conversion reads back.",
 "C206": "For files of two or more rows. The example follows a file of one block from its lines to the columns that are read back.",
 "C207": "For files of two or more rows (C196, C197 and C205 show that one row cannot be read back).",
 "C208": "C208_loaded_partial holds for files with no or at least two passes of the hemisphere; C208_one_pass_refuted: a file with one pass cannot be loaded. C208_crossings holds for all loaded records with a positive radius.",
 "C209": "PARTIAL. C209_read gives the satellite, date and every value of every pass for each file of at least two rows; C209_order says that files which agree under the fourteen names are read alike; C209_short, C209_missing, C209_text give the files left out and the ValueErrors; C209_format and C209_stops carry this to the whole run. C209_marked_refuted: the first line that does not start with the comment mark is taken for the header, so a header with the mark in front makes the first row of numbers the header and the run stops with a ValueError.",
 "C210": "PARTIAL. C210_cells_partial: for a time series of locations or latitudes along their own dimension, with any further dimensions, each cell by its labels. C210_succeeds: when a call gives a result. C210_square_refuted, C210_both_refuted, C210_coords_refuted: the layouts that fail.",
 "C211": "PARTIAL. C211_scaled_partial: each cell of a scaled variable by its labels, for dimensions in order. C211_succeeds: when a call with scaled variables gives a result. C211_order_refuted: a concrete set with exchanged dimensions, for every library and boundary.",
 "C212": "PARTIAL. C212_vectors_partial: each cell of the attributes of a vector by its labels, for dimensions in order. C212_succeeds: when a call with vectors gives a result. C212_order_refuted: a concrete set with exchanged dimensions, for every library and boundary. C212_names_refuted: names that are written but not made.",
 "C213": "C213_rows is for tables, C213_cells and C213_scaled for xarray sets in the layouts of C210 and C211. The boundary is an OCBoundary and the coordinates are magnetic; geographic coordinates need the external aacgmv2 and are not part of the claim. Values are real numbers; infinities in the location are not covered.",
 "C214": "General position: location not at a pole and off the meridian of the centre, vector with a horizontal part, centre less than 90 degrees from the magnetic pole; what happens elsewhere and in the southern hemisphere is in C67, C68 and C71. The vectors name columns for their components and a scale function of the package, and every key that a vector before them names (C90 says what happens otherwise). Location and vector are magnetic; geographic ones need the external aacgmv2. The default components and magnitude, single numbers in the code, are arrays of one in the model. C214_succeeds gives conditions under which the call returns. C214_cells is for xarray sets in the layouts of C212; there the cells of one time, an array in the code, are computed one by one, and the example uses a library with values in the place of exceptions.",
 "C215": "Locations are magnetic. What is stored in the two boundary objects when a row is reached is an arbitrary function of pair and location. For rows whose meridian does not cross both boundaries in order nothing is claimed here (C64 and C37 treat these). In sets with several locations at one time a location that is not placed may get other values than the model says.",
 "C216": "C216_refuted: a row at 30 degrees with circles of 16 and 26 degrees, references 74 and 64. The vectors of the same call use the polar cap radii too (ocb_scaling.py 690-695). The rows of C216_polar_partial and the cells of C216_cells_partial have the EAB strictly equatorward of the OCB on their meridian.",
 "C217": "Locations and vectors are magnetic, the hemisphere is northern as in C214. A vector is in general position if it is not zero horizontally and its location is neither the pole nor on the meridian through the centre of the circle. What is stored in the two boundary objects when a row is reached is an arbitrary function of pair and location. Rows whose meridian does not cross both boundaries in order are not covered. For sets, nearness of the pair is C215_cells and success of the call is C212_succeeds.",
 "C218": "C218_south_refuted is for every southern boundary and table, not only for a witness; the example beside it has a circle 5 degrees from the pole. C71 is the same fault in set_ocb alone. General position as in C214. If the row is blank, C218_rest_partial says when.",
 "C219": "C219_record_partial says where the rows are placed: at the location at the time of the record. C219_exact_partial is the claim for tolerance zero. C219_refuted is a witness with a library whose magnetic latitude depends on the longitude. C219_cells_partial and C219_scaled_partial are the same for sets with named dimensions. The vector computation is a parameter.",
 "C220": "C220_record_partial says where the rows are placed: at the location at the time of the pair. C220_exact_partial is the claim for tolerance zero. C220_refuted is a witness with a library whose magnetic latitude depends on the longitude. C220_cells_partial is the same for sets with named dimensions. The scaled variables are in C216."
}