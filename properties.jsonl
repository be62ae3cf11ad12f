{"id": "C01", "title": "fix_range returns the representative of the value inside the requested interval", "statement": "For every finite value v and every min < max with a period no larger than max - min, fix_range(v, min, max, period) returns a number w with min <= w < max that differs from v by a whole number of periods; a value already inside is returned unchanged; when period = max - min the answer is the unique such number; ValueError is raised exactly when min >= max or period <= 0.", "quantifier": "all finite values, all interval ends, all periods", "why_tests_cant": "the loops subtract and add an unbounded number of times; a test sees only finitely many starting values", "anchors": ["ocbpy/ocb_time.py:fix_range"]}
{"id": "C02", "title": "fix_range terminates, works element by element and propagates NaN", "statement": "For every array, fix_range returns after finitely many loop passes, every finite entry is treated exactly as it would be on its own, and NaN entries stay NaN and never influence other entries or the loop exit test. (The claim fails for arrays containing +inf or -inf: the loop never exits.)", "quantifier": "all arrays of finite, NaN and infinite entries, all lengths", "why_tests_cant": "termination of a data-dependent loop over arbitrary arrays", "anchors": ["ocbpy/ocb_time.py:fix_range"]}
{"id": "C03", "title": "Hour, degree and radian conversions are inverse to each other modulo one day", "statement": "For all x: deg2hr(hr2deg(x)) and rad2hr(hr2rad(x)) equal x reduced to [0, 24); hr2deg(deg2hr(lon)) differs from lon by a multiple of 360; hr2rad(rad2hr(a)) differs from a by a multiple of 2 pi; adding a whole day (24 h, 360 deg, 2 pi) to the input never changes deg2hr or rad2hr; all hour results lie in [0, 24).", "quantifier": "all real inputs and all whole numbers of turns", "why_tests_cant": "infinitely many inputs and windings", "anchors": ["ocbpy/ocb_time.py:deg2hr", "ocbpy/ocb_time.py:hr2deg", "ocbpy/ocb_time.py:hr2rad", "ocbpy/ocb_time.py:rad2hr"]}
{"id": "C04", "title": "hr2deg always honours the requested degree range", "statement": "For every hour value and every pair min_deg, max_deg (even inverted or too narrow), hr2deg never raises and its result is below max_deg and at or above min_deg, or at or above max_deg - 360 when the requested range is narrower than 360; the result is congruent to 15*lt modulo 360.", "quantifier": "all hour values and all range ends", "why_tests_cant": "the requested range is caller-controlled and unbounded", "anchors": ["ocbpy/ocb_time.py:hr2deg"]}
{"id": "C05", "title": "Solar local time and geographic longitude conversions invert each other at every time", "statement": "For every universal time, glon2slt(slt2glon(slt)) equals slt for every slt in [0, 24), slt2glon(glon2slt(glon)) differs from glon by a multiple of 360, the local time is in [0, 24) and the longitude is in [-180, 360).", "quantifier": "all local times, all longitudes, all times of day", "why_tests_cant": "product of two continua", "anchors": ["ocbpy/ocb_time.py:slt2glon", "ocbpy/ocb_time.py:glon2slt", "ocbpy/ocb_time.py:datetime2hr"]}
{"id": "C06", "title": "datetime2hr is in [0, 24) and strictly increasing within the day", "statement": "For every valid datetime the hours of day lie in [0, 24); for two datetimes, the later time of day always has the strictly larger value, and equal values mean equal times of day.", "quantifier": "all valid hour, minute, second, microsecond combinations", "why_tests_cant": "86.4 billion times of day", "anchors": ["ocbpy/ocb_time.py:datetime2hr"]}
{"id": "C07", "title": "year_soy_to_datetime adds the seconds of year to 1 January", "statement": "For every four digit year and every whole number of seconds 0 <= soy < 366 days the result is exactly 1 January of that year plus soy seconds, and every other whole soy raises ValueError. For fractional soy the result should be within half a second of that instant; this fails: any soy whose seconds-of-minute part is at least 59.5 raises ValueError.", "quantifier": "all years and all seconds of year, whole and fractional", "why_tests_cant": "31 million seconds per year, and the failing fractions are a thin set of inputs", "anchors": ["ocbpy/ocb_time.py:year_soy_to_datetime"]}
{"id": "C08", "title": "yyddd_to_date counts days from 1 January 1900+YY", "statement": "For every digit string made of a year offset and a three digit day of year between 001 and 366, optionally followed by a decimal part, the result is 1 January of 1900 + offset plus (day - 1) days; day 000 and days above 366 raise ValueError.", "quantifier": "all year offsets giving a four digit year, all day strings, all decimal tails", "why_tests_cant": "unbounded set of strings", "anchors": ["ocbpy/ocb_time.py:yyddd_to_date"]}
{"id": "C09", "title": "convert_time adds seconds of day without ever losing time", "statement": "For every date and every non-negative seconds of day, the datetime returned by convert_time is not earlier than date + sod and is less than one microsecond later. (The claim fails when the date string carries trailing characters: the fallback parse returns the bare date and silently drops sod.)", "quantifier": "all dates, all non-negative real seconds of day", "why_tests_cant": "continuum of fractional seconds; fallback path is exercised by malformed strings", "anchors": ["ocbpy/ocb_time.py:convert_time"]}
{"id": "C10", "title": "get_datetime_fmt_len bounds the rendered length", "statement": "For every format string in which no directive is repeated, any string rendered from the format with the documented field widths fits in get_datetime_fmt_len(format) characters. (Fails as soon as a directive such as %Y occurs twice.)", "quantifier": "all format strings and all rendered times", "why_tests_cant": "unbounded set of formats", "anchors": ["ocbpy/ocb_time.py:get_datetime_fmt_len"]}
{"id": "C11", "title": "get_next_good_ocb_ind stops at the next good record and skips nothing", "statement": "From any cursor position at or after -1, get_next_good_ocb_ind advances the cursor to the smallest later index whose record meets every criterion, or to a value at or above the number of records when no later record does; every record stepped over fails at least one criterion.", "quantifier": "all record sets, all cursor positions, all merit limits, all sets of keyword criteria", "why_tests_cant": "arbitrary histories of good and bad records", "anchors": ["ocbpy/_boundary.py:OCBoundary.get_next_good_ocb_ind"]}
{"id": "C12", "title": "retrieve_all_good_indices returns exactly the good records", "statement": "For every boundary object and every set of criteria, retrieve_all_good_indices returns, in increasing order and without repetition, exactly the indices of the records that satisfy the criteria, and leaves the cursor where it was.", "quantifier": "all record sets, all criteria, all cursor positions", "why_tests_cant": "must hold for every pattern of good and bad records", "anchors": ["ocbpy/cycle_boundary.py:retrieve_all_good_indices"]}
{"id": "C13", "title": "Merit limits are inclusive and keyword criteria mean what they say", "statement": "A record is selected only if min_merit <= merit <= max_merit, its value is > / >= / == / <= / < the given number for 'min' / 'mineq' / 'equal' / 'maxeq' / 'max', for every keyword; the result does not depend on the order of the keywords and unknown attributes do not matter. A NaN merit is never selected. (The claim fails for NaN values of an optional attribute: they pass 'min', 'mineq', 'max' and 'maxeq'.)", "quantifier": "all criteria lists in any order, all attribute values including NaN", "why_tests_cant": "arbitrary combinations of criteria and special values", "anchors": ["ocbpy/_boundary.py:OCBoundary.get_next_good_ocb_ind"]}
{"id": "C14", "title": "match_data_ocb only reports pairs inside the time tolerance", "statement": "For every data time list, boundary, start position and tolerance >= 0: whenever match_data_ocb returns a data index inside the data and the boundary cursor is inside the records, the two times differ by at most max_tol seconds, and the boundary record satisfies the selection criteria (if the search started before the first record or at a good record).", "quantifier": "all time series (sorted or not), all tolerances, all start positions", "why_tests_cant": "two-pointer search over arbitrary pairs of series", "anchors": ["ocbpy/cycle_boundary.py:match_data_ocb"]}
{"id": "C15", "title": "match_data_ocb always terminates, never moves backwards and never skips a matchable datum", "statement": "For every input the search ends; the returned data index is not smaller than the start index; the cursor never moves backwards; and for time-ordered data and records every datum that was skipped has no good record, at or after the starting cursor, within the tolerance.", "quantifier": "all pairs of series, all start positions, all tolerances", "why_tests_cant": "termination and no-lost-data hold over all executions", "anchors": ["ocbpy/cycle_boundary.py:match_data_ocb"]}
{"id": "C16", "title": "match_data_ocb picks the closest good record", "statement": "For strictly increasing record times, the record chosen for the returned datum is at least as close in time as every other good record at or after the starting cursor. (Fails when two good records share a time, as the paired records of a DualBoundary can: the search stops on the plateau.)", "quantifier": "all strictly increasing record times, all data", "why_tests_cant": "optimality over all alternatives", "anchors": ["ocbpy/cycle_boundary.py:match_data_ocb"]}
{"id": "C17", "title": "match_data_ocb reports exhaustion unambiguously", "statement": "match_data_ocb returns None only if no datum can be matched at or after the start index (time-ordered inputs); when it returns an index past the end of the data, or leaves the cursor past the end of the records, no further match exists. (The documented 'None when all data have been searched' is not what is returned: index = number of data, or a valid index with an exhausted cursor, is returned unless the index is zero.)", "quantifier": "all pairs of series", "why_tests_cant": "negative outcome over all executions", "anchors": ["ocbpy/cycle_boundary.py:match_data_ocb"]}
{"id": "C18", "title": "Repeated matching processes each datum once and pairs it with its nearest good record", "statement": "The loop 'match, process, step to the next datum' used by the instrument drivers handles data indices in strictly increasing order, and for time-ordered data and strictly increasing record times the processed data are exactly those with a good record within the tolerance, each paired with a good record nearest to it.", "quantifier": "all series, all tolerances, whole runs of the loop", "why_tests_cant": "whole-run property of a stateful cursor", "anchors": ["ocbpy/cycle_boundary.py:match_data_ocb", "ocbpy/instruments/vort.py:vort2ascii_ocb"]}
{"id": "C19", "title": "DualBoundary pairs are good, within tolerance and time-stamped by the OCB", "statement": "After set_good_ind every pair consists of an OCB record and an EAB record that each satisfy their criteria and whose times differ by at most max_delta; the index lists and the time list have the same length, equal to records; the time of a pair is the time of its OCB record.", "quantifier": "all OCB and EAB series, all criteria, all max_delta", "why_tests_cant": "pairing of two arbitrary irregular series", "anchors": ["ocbpy/_boundary.py:DualBoundary.set_good_ind"]}
{"id": "C20", "title": "DualBoundary pairing is monotone and uses each EAB at most once", "statement": "The EAB indices of the pairs strictly increase and the OCB indices never decrease; pairing always terminates.", "quantifier": "all OCB and EAB series", "why_tests_cant": "loop over arbitrary series", "anchors": ["ocbpy/_boundary.py:DualBoundary.set_good_ind"]}
{"id": "C21", "title": "DualBoundary finds a pair whenever one exists", "statement": "For time-ordered OCB and EAB records, set_good_ind yields at least one pair if and only if some good OCB record and some good EAB record lie within max_delta of each other.", "quantifier": "all time-ordered series, all max_delta", "why_tests_cant": "completeness over all pairs", "anchors": ["ocbpy/_boundary.py:DualBoundary.set_good_ind"]}
{"id": "C22", "title": "DualBoundary cursor keeps the two boundaries in step", "statement": "Setting rec_ind to any pair index puts the OCB and EAB cursors on the two members of that pair; a negative value puts both before their first record; get_next_good_ind moves forward by one and never beyond the end. An index at the end puts both cursors out of range. (Fails for indices strictly beyond the end: the members' cursors can land on valid records.)", "quantifier": "all pair lists and all integers assigned to rec_ind, any sequence of steps", "why_tests_cant": "stateful cursor under arbitrary assignment histories", "anchors": ["ocbpy/_boundary.py:DualBoundary.rec_ind", "ocbpy/_boundary.py:DualBoundary.get_next_good_ind"]}
{"id": "C23", "title": "DualBoundary rejects inconsistent boundary definitions", "statement": "Construction succeeds only if max_delta > 0, both boundaries are in the same hemisphere and the EAB reference latitude is strictly equatorward of the OCB reference latitude in absolute value.", "quantifier": "all latitude pairs, hemispheres and tolerances", "why_tests_cant": "continuum of configurations", "anchors": ["ocbpy/_boundary.py:DualBoundary.__init__"]}
{"id": "C24", "title": "normal_coord maps the boundary circle to the reference latitude", "statement": "For every record with positive corrected radius, a magnetic point whose distance from the boundary centre equals the corrected radius gets OCB latitude exactly equal to boundary_lat; points strictly inside get a strictly more poleward latitude, points outside a strictly more equatorward one; the centre itself maps to the pole.", "quantifier": "all centres, radii, corrections, reference latitudes, points and both hemispheres", "why_tests_cant": "continuum of geometries", "anchors": ["ocbpy/_boundary.py:OCBoundary.normal_coord"]}
{"id": "C25", "title": "revert_coord undoes normal_coord", "statement": "For every magnetic location in the boundary's hemisphere whose OCB latitude lies in that hemisphere, revert_coord(*normal_coord(lat, mlt)) returns the original latitude and the original local time reduced to [0, 24) (at the magnetic pole itself only the latitude is determined).", "quantifier": "all records with non-zero corrected radius, all locations, both hemispheres", "why_tests_cant": "round trip over a continuum", "anchors": ["ocbpy/_boundary.py:OCBoundary.normal_coord", "ocbpy/_boundary.py:OCBoundary.revert_coord"]}
{"id": "C26", "title": "normal_coord undoes revert_coord", "statement": "For every OCB location in the boundary's hemisphere whose magnetic location is in that hemisphere, normal_coord(*revert_coord(lat, mlt)) with the same radius correction returns the original OCB latitude and the local time reduced to [0, 24) (at the OCB pole only the latitude is determined).", "quantifier": "all records, all OCB locations, both hemispheres", "why_tests_cant": "round trip over a continuum", "anchors": ["ocbpy/_boundary.py:OCBoundary.normal_coord", "ocbpy/_boundary.py:OCBoundary.revert_coord"]}
{"id": "C27", "title": "OCB coordinates are NaN exactly outside the boundary's domain", "statement": "normal_coord and revert_coord return NaN coordinates when no record is selected or the location's latitude does not have the sign of the boundary's hemisphere (latitude 0 included); otherwise they return numbers, with local time in [0, 24) and absolute latitude at most 90.", "quantifier": "all cursor values, all locations", "why_tests_cant": "error branch must coincide exactly with the domain complement", "anchors": ["ocbpy/_boundary.py:OCBoundary.normal_coord", "ocbpy/_boundary.py:OCBoundary.revert_coord"]}
{"id": "C28", "title": "OCB coordinates respect the symmetries of the sphere", "statement": "Adding whole days to the local time does not change the normalised location; mirroring latitude, hemisphere and reference latitude mirrors the OCB latitude and keeps the OCB local time; rotating the boundary centre and the point by the same angle rotates the OCB local time by that angle.", "quantifier": "all records, points, shifts and rotation angles", "why_tests_cant": "group action over a continuum", "anchors": ["ocbpy/_boundary.py:OCBoundary.normal_coord"]}
{"id": "C29", "title": "get_aacgm_boundary_lat returns points on the boundary", "statement": "For every local time at which it returns a latitude, the point (latitude, local time) normalises to exactly boundary_lat; when the magnetic pole is inside the circle a latitude is returned at every local time.", "quantifier": "all records, all local times", "why_tests_cant": "consistency of two independent formulas over a continuum", "anchors": ["ocbpy/_boundary.py:OCBoundary.get_aacgm_boundary_lat", "ocbpy/_boundary.py:OCBoundary.normal_coord"]}
{"id": "C30", "title": "Boundary-location cache: only the requested record changes, and only when allowed", "statement": "For every sequence of get_aacgm_boundary_lat calls, a call for one record never changes the stored latitudes of another record, a stored entry is replaced only if overwrite is set or it was empty, and the stored list always has one slot per record.", "quantifier": "all call histories", "why_tests_cant": "history property", "anchors": ["ocbpy/_boundary.py:OCBoundary.get_aacgm_boundary_lat"]}
{"id": "C31", "title": "Coordinate transforms leave the caller's arrays alone", "statement": "Calling normal_coord with magnetic coordinates or get_aacgm_boundary_lat should not modify the arrays passed in. (False: wrong-hemisphere latitudes are overwritten by NaN in the caller's array and out-of-range local times are wrapped in place.)", "quantifier": "all input arrays", "why_tests_cant": "aliasing effect visible only on special values", "anchors": ["ocbpy/_boundary.py:OCBoundary.normal_coord", "ocbpy/_boundary.py:OCBoundary.get_aacgm_boundary_lat"]}
{"id": "C32", "title": "Loaded Cartesian centres become the matching polar centres", "statement": "For every record given by (x, y) with x towards dawn and y towards noon, load stores r_cent = distance of the centre from the pole and phi_cent in [0, 360) measured from midnight through dawn, so that (r_cent, phi_cent) denotes the same point as (x, y).", "quantifier": "all centres including the axes and the origin", "why_tests_cant": "quadrant-dependent formula over the plane", "anchors": ["ocbpy/_boundary.py:OCBoundary.load"]}
{"id": "C33", "title": "load keeps exactly the records in the closed time interval", "statement": "After load, the records are those file rows whose time t satisfies stime <= t <= etime (either end optional), in file order, all per-record arrays have length records, and the cursor is before the first record; loading with two nested windows equals loading with the inner one.", "quantifier": "all files, all time windows", "why_tests_cant": "all data sets and windows", "anchors": ["ocbpy/_boundary.py:OCBoundary.load"]}
{"id": "C34", "title": "The reference latitude is always in the boundary's hemisphere", "statement": "For hemisphere +1 or -1 and every non-zero boundary_lat, the constructed object's boundary_lat has the sign of the hemisphere and the given magnitude; any other hemisphere raises ValueError. (Passing boundary_lat=None should fall back to a default but raises TypeError.)", "quantifier": "all latitudes and hemispheres", "why_tests_cant": "continuum plus the error branch", "anchors": ["ocbpy/_boundary.py:OCBoundary.__init__"]}
{"id": "C35", "title": "Dual normalisation is piecewise linear, continuous and order preserving between the boundaries", "statement": "At fixed local time, DualBoundary.normal_coord maps the EAB latitude to the EAB reference latitude and the OCB latitude to the OCB reference latitude, tends to 0 at the equator, maps values between the boundaries to between the references, values equatorward of the EAB to below the EAB reference, and is continuous and strictly increasing in absolute latitude there.", "quantifier": "all boundary latitudes, references and points in both hemispheres", "why_tests_cant": "continuum with branch boundaries", "anchors": ["ocbpy/_boundary.py:DualBoundary.normal_coord"]}
{"id": "C36", "title": "Dual revert undoes dual normalise", "statement": "For points between the boundaries or equatorward of the EAB, DualBoundary.revert_coord applied with the original magnetic local time returns the original magnetic latitude; for points poleward of the OCB it agrees with the single-boundary round trip.", "quantifier": "all boundary latitudes, references and points in both hemispheres", "why_tests_cant": "round trip over three regions", "anchors": ["ocbpy/_boundary.py:DualBoundary.normal_coord", "ocbpy/_boundary.py:DualBoundary.revert_coord"]}
{"id": "C37", "title": "Every point belongs to exactly one dual region", "statement": "When the magnetic pole lies inside both boundary circles and the EAB is equatorward of the OCB at that local time, every point of the hemisphere is in exactly one of: poleward of the OCB, between the boundaries, equatorward of the EAB; so no location is reported as undefined.", "quantifier": "all geometries with the pole inside, all points", "why_tests_cant": "two independent tests must agree everywhere", "anchors": ["ocbpy/_boundary.py:DualBoundary.normal_coord"]}
{"id": "C38", "title": "Dual coordinate calls preserve previously stored boundary locations", "statement": "While a pair is selected, DualBoundary.normal_coord, revert_coord and calc_r leave every previously stored OCB and EAB boundary location unchanged unless overwrite is set, for every history of calls and cursor moves; each member is kept even if its partner had nothing stored.", "quantifier": "all histories", "why_tests_cant": "history property", "anchors": ["ocbpy/_boundary.py:DualBoundary.normal_coord", "ocbpy/_boundary.py:DualBoundary.revert_coord"]}
{"id": "C39", "title": "Scaled radius agrees with the region of the point", "statement": "calc_r gives the OCB colatitude poleward of the OCB, the OCB-EAB distance between the boundaries, and the EAB distance to the equator otherwise, both in magnetic and in OCB coordinates, and is positive when the EAB is strictly between the equator and the OCB.", "quantifier": "all boundaries and points", "why_tests_cant": "continuum with branch boundaries", "anchors": ["ocbpy/_boundary.py:DualBoundary.calc_r"]}
{"id": "C40", "title": "calc_vec_pole_angle solves the spherical triangle", "statement": "For every data point and destination pole not on the same meridian, the returned angle is in [0, 180] and is the angle at the data point of the spherical triangle with the two poles (spherical law of cosines). On the same meridian it is 0 or 180 as geometry requires. (Fails on the opposite meridian with the data poleward of the destination pole: 180 is returned where geometry gives 0.)", "quantifier": "all pairs of locations on the sphere", "why_tests_cant": "continuum with degenerate cases", "anchors": ["ocbpy/vectors.py:calc_vec_pole_angle"]}
{"id": "C41", "title": "Quadrants partition all directions", "statement": "For every number pole angle and local times, exactly one pole quadrant 1-4 is returned and 0 exactly for NaN input; it depends on the local-time difference only modulo 24 h; for every vector exactly one vector quadrant 1-4 is returned, according to the signs of its components.", "quantifier": "all angles, local times and vectors", "why_tests_cant": "case split over continua", "anchors": ["ocbpy/vectors.py:define_pole_quadrants", "ocbpy/vectors.py:define_vect_quadrants"]}
{"id": "C42", "title": "adjust_vector is the rotation that aligns the vector with the new pole", "statement": "For every vector with non-zero horizontal part, every pole angle strictly between 0 and 180 and matching quadrants, the adjusted north and east components are those of the same horizontal vector expressed in the frame whose north points to the destination pole.", "quantifier": "all vectors, all pole angles, all sixteen quadrant combinations", "why_tests_cant": "sixteen branches over continua must all agree with one formula", "anchors": ["ocbpy/vectors.py:adjust_vector", "ocbpy/vectors.py:calc_dest_polar_angle", "ocbpy/vectors.py:calc_dest_vec_sign"]}
{"id": "C43", "title": "adjust_vector preserves magnitude", "statement": "For every vector and every pole configuration accepted by adjust_vector, the horizontal magnitude of the adjusted vector equals that of the original.", "quantifier": "all vectors and pole configurations", "why_tests_cant": "invariant over all branches", "anchors": ["ocbpy/vectors.py:adjust_vector"]}
{"id": "C44", "title": "adjust_vector preserves the vertical component", "statement": "The vertical component returned by adjust_vector equals the input vertical component. (Fails for purely vertical vectors away from the aligned meridian: the vertical component is replaced by 0.)", "quantifier": "all vectors", "why_tests_cant": "the failing inputs are a measure-zero set", "anchors": ["ocbpy/vectors.py:adjust_vector"]}
{"id": "C45", "title": "adjust_vector on the aligned meridian agrees with the rotation", "statement": "When the pole angle is 0 the vector is unchanged and when it is 180 both horizontal components change sign. (Fails: at 180 the vector is returned unchanged, and at 0 it is flipped whenever the data latitude is at or above the pole latitude.)", "quantifier": "all vectors with pole angle exactly 0 or 180", "why_tests_cant": "exact-equality branch", "anchors": ["ocbpy/vectors.py:adjust_vector"]}
{"id": "C46", "title": "The destination polar angle is a polar angle", "statement": "For quadrants consistent with the angles, calc_dest_polar_angle returns a value in [0, 180] for each of the sixteen quadrant pairs, and raises for quadrant 0.", "quantifier": "all angles and quadrant pairs", "why_tests_cant": "sixteen branches over continua", "anchors": ["ocbpy/vectors.py:calc_dest_polar_angle"]}
{"id": "C47", "title": "normal_evar conserves potential and normal_curl_evar conserves the curl invariant", "statement": "For all values and non-zero radii: normal_evar(v, u, s) * s = v * u and normal_curl_evar(v, u, s) * s^2 = v * u^2; both are linear in v, the identity for equal radii, compose along a chain of radii and are inverted by exchanging the radii.", "quantifier": "all values and radii", "why_tests_cant": "algebraic laws over reals", "anchors": ["ocbpy/ocb_scaling.py:normal_evar", "ocbpy/ocb_scaling.py:normal_curl_evar"]}
{"id": "C48", "title": "hav and archav are mutually inverse", "statement": "archav(hav(a)) = |a| for |a| <= pi whenever hav(a) is at least 1e-16 (and 0 below that), hav(archav(x)) = x for 1e-16 <= x <= 1, hav is even and 2 pi periodic with values in [0, 1], archav is NaN below -1e-16 and above 1, and is within 2.1e-8 of the exact inverse for tiny x.", "quantifier": "all angles and all arguments", "why_tests_cant": "continuum with a tolerance branch", "anchors": ["ocbpy/ocb_scaling.py:hav", "ocbpy/ocb_scaling.py:archav"]}
{"id": "C49", "title": "scale_vector scales the rotated vector, for single values and arrays alike", "statement": "For every scale function, the OCB components returned for a single vector equal those returned for a one-element array holding the same vector, namely the scale function applied to the rotated components. (False for single values: the scale function is applied to the unrotated components.)", "quantifier": "all vectors, pole angles and scale functions", "why_tests_cant": "agreement of two code paths over all inputs", "anchors": ["ocbpy/ocb_scaling.py:VectorData.scale_vector"]}
{"id": "C50", "title": "VectorData accepts exactly the consistent coordinate combinations", "statement": "A VectorData location/vector coordinate pair is accepted if and only if both names are among magnetic, geocentric, geodetic and they are equal or one of them is magnetic, for every pair of strings, at construction and after any update.", "quantifier": "all pairs of strings", "why_tests_cant": "unbounded strings", "anchors": ["ocbpy/ocb_scaling.py:VectorData._test_coords"]}
{"id": "C51", "title": "Changing an index discards stale results", "statement": "For every VectorData object, assigning ocb_ind or dat_ind leaves no previously calculated OCB coordinate, pole angle, quadrant or scaled component readable: all are reset to their undefined values with shapes matching the current data.", "quantifier": "all states and assignment histories", "why_tests_cant": "history property", "anchors": ["ocbpy/ocb_scaling.py:VectorData.ocb_ind", "ocbpy/ocb_scaling.py:VectorData.dat_ind", "ocbpy/ocb_scaling.py:VectorData.clear_data"]}
{"id": "C52", "title": "Radius corrections are daily-periodic, bounded and defined only for documented cases", "statement": "circular is constant; elliptical is 24 h periodic, always strictly negative and between -a(1+e) and -a(1-e) for its method's parameters; harmonic is 24 h periodic and bounded by the sum of its amplitudes; unknown methods or instruments raise ValueError.", "quantifier": "all local times, all method and instrument strings", "why_tests_cant": "continuum of local times", "anchors": ["ocbpy/ocb_correction.py:circular", "ocbpy/ocb_correction.py:elliptical", "ocbpy/ocb_correction.py:harmonic"]}
{"id": "C53", "title": "get_default_file only returns a file that fits the request", "statement": "For every directory listing, the file returned is in the listing, is for the requested hemisphere and boundary type, comes from an instrument acceptable for the request and overlaps the requested time span (inclusive ends, open when a limit is None); a file is returned whenever at least one listed file fits (known instruments).", "quantifier": "all listings, all requests", "why_tests_cant": "arbitrary directory contents", "anchors": ["ocbpy/boundaries/files.py:get_default_file", "ocbpy/boundaries/files.py:get_boundary_files"]}
{"id": "C54", "title": "get_default_file prefers instruments in the documented order", "statement": "When several listed files fit, the one returned belongs to the instrument that comes first in the order image, amp, si13, si12, wic, dmsp-ssj; when two fitting files come from an instrument outside this list the call fails with ValueError.", "quantifier": "all listings", "why_tests_cant": "arbitrary directory contents", "anchors": ["ocbpy/boundaries/files.py:get_default_file"]}
{"id": "C55", "title": "DMSP passes yield a boundary circle through both crossings", "statement": "For every pair of boundary crossings, the circle written by format_ssj_boundary_files (before decimal rounding) passes through both crossings, and after loading, both crossings normalise to the reference latitude.", "quantifier": "all pairs of crossings, both hemispheres", "why_tests_cant": "end-to-end geometry over a continuum", "anchors": ["ocbpy/boundaries/dmsp_ssj_files.py:format_ssj_boundary_files", "ocbpy/_boundary.py:OCBoundary.load", "ocbpy/_boundary.py:OCBoundary.normal_coord"]}
{"id": "C56", "title": "DMSP boundary files are selected on a half-open interval", "statement": "A file is accepted if and only if its satellite is requested and its time t satisfies stime <= t < etime, so consecutive request windows never duplicate or drop a file.", "quantifier": "all file names and windows", "why_tests_cant": "all times and windows", "anchors": ["ocbpy/boundaries/dmsp_ssj_files.py:evaluate_dmsp_boundary_file"]}
{"id": "C57", "title": "Vorticity files are read back record for record", "statement": "For every sequence of blocks (date, count, count entries of three lines), loading the file that lists them gives one output row per entry in file order with the block's date and time, all columns equally long; a malformed line in a block raises IOError. A file truncated inside an entry raises; truncation right after a block header loses that block silently.", "quantifier": "all block sequences and truncation points", "why_tests_cant": "unbounded files, every crash point", "anchors": ["ocbpy/instruments/vort.py:load_vorticity_ascii_data"]}
{"id": "C58", "title": "SuperMAG files are read back record for record", "statement": "For every sequence of blocks with at least one station, loading gives one row per station in file order carrying its block's time and station count and the block's SML/SMU (999999 when absent), all columns equally long. (Fails for blocks with zero stations: the following date line is taken for a station line.)", "quantifier": "all block sequences", "why_tests_cant": "unbounded files", "anchors": ["ocbpy/instruments/supermag.py:load_supermag_ascii_data"]}
{"id": "C59", "title": "SuperMAG output covers each time group at most once", "statement": "For time-ordered data supermag2ascii_ocb writes all rows of a matched time together, once, in increasing row order, and never writes a row of an unmatched time.", "quantifier": "all data series and boundary series", "why_tests_cant": "whole-run property", "anchors": ["ocbpy/instruments/supermag.py:supermag2ascii_ocb"]}
{"id": "C60", "title": "The instrument drivers finish without error whatever the time coverage", "statement": "vort2ascii_ocb, supermag2ascii_ocb and add_ocb_to_data should finish normally for every pair of data and boundary series. (False: when the first search finds nothing, the matcher returns None and the comparison None < int raises TypeError.)", "quantifier": "all data and boundary series", "why_tests_cant": "depends on relative coverage of two series", "anchors": ["ocbpy/instruments/vort.py:vort2ascii_ocb", "ocbpy/instruments/supermag.py:supermag2ascii_ocb", "ocbpy/instruments/pysat_instruments.py:add_ocb_to_data"]}
{"id": "C61", "title": "The boundary kind is derived from the file name given", "statement": "add_ocb_to_data decides between OCB, EAB and dual from the ocbfile argument: the documented names 'ocb' (the default), 'eab' and 'dual' should be accepted. (False for 'ocb' and 'eab': the substring test requires a position above zero and the call raises ValueError.)", "quantifier": "all file name strings", "why_tests_cant": "unbounded strings", "anchors": ["ocbpy/instruments/pysat_instruments.py:add_ocb_to_data"]}
{"id": "C62", "title": "Satellite track mask keeps points on the line between the crossings", "statement": "satellite_track marks a point only if it lies within the tolerance band around the line through the two boundary crossings, and marks every point exactly on that line (between the boundaries). (The second half fails when slope * del_x exceeds del_y: the band is empty.)", "quantifier": "all crossings, tolerances and points", "why_tests_cant": "continuum of slopes", "anchors": ["ocbpy/cycle_boundary.py:satellite_track"]}
{"id": "C63", "title": "Stored boundary local times belong to the stored latitudes whatever the caller does later", "statement": "After get_aacgm_boundary_lat(mlt_array, ...), aacgm_boundary_lat[i] are the boundary latitudes at aacgm_boundary_mlt[i], and stay so when the caller later reuses the array it passed. (False: the object keeps a reference to the caller's array.)", "quantifier": "all sessions of calls and caller writes", "why_tests_cant": "aliasing, visible only in histories that reuse an array", "anchors": ["ocbpy/_boundary.py:OCBoundary.get_aacgm_boundary_lat"]}
{"id": "C64", "title": "A dual coordinate does not depend on the other locations in the call", "statement": "DualBoundary.normal_coord gives a location the same result whichever other locations are passed along in the same arrays.", "quantifier": "all boundaries, all arrays", "why_tests_cant": "needs pairs of calls over all arrays; the failure needs a rare combination of two locations", "anchors": ["ocbpy/_boundary.py:DualBoundary.normal_coord"]}
{"id": "C65", "title": "Without a selected pair the dual coordinate methods return NaN", "statement": "When rec_ind is before the first or past the last pair, DualBoundary.normal_coord, revert_coord and calc_r return NaN for every location, raise nothing and leave stored boundary locations alone.", "quantifier": "all pair lists, all cursors out of range, all arrays", "why_tests_cant": "needs all cursor states and stored-location states", "anchors": ["ocbpy/_boundary.py:DualBoundary.normal_coord", "ocbpy/_boundary.py:DualBoundary.revert_coord", "ocbpy/_boundary.py:DualBoundary.calc_r"]}
{"id": "C66", "title": "Single values and arrays agree in vectors.py", "statement": "calc_vec_pole_angle and adjust_vector give, for a single set of values, what they give for one-element arrays holding them. (False for a NaN latitude on the meridian of the pole: 0 for single values, NaN in an array.)", "quantifier": "all inputs, all quadrants", "why_tests_cant": "the two code paths are separate; tests compare chosen values", "anchors": ["ocbpy/vectors.py:48-142", "ocbpy/vectors.py:517-710"]}
{"id": "C67", "title": "Pole angle, quadrants and rotation together give the components towards the destination pole", "statement": "For every location, every northern destination pole off its meridian and every vector with a horizontal part, calc_vec_pole_angle followed by adjust_vector returns the components of the vector along the great circle towards the destination pole and 90 degrees to the right of it, and the vertical component.", "quantifier": "all locations, northern poles off the meridian, vectors", "why_tests_cant": "composition over all four functions and a continuum of positions; tests check a handful", "anchors": ["ocbpy/vectors.py:48-710"]}
{"id": "C68", "title": "The rotation is right in the southern hemisphere too", "statement": "For every southern destination pole the adjusted components are those in the frame whose north points away from the destination pole. (False: the pole angle is measured from the southern base pole while the vector azimuth is measured from north, so the rotation goes the wrong way; it is right only if the north component is measured poleward.)", "quantifier": "all southern poles off the meridian, all vectors", "why_tests_cant": "tests use northern boundaries or regression values", "anchors": ["ocbpy/vectors.py:48-710"]}
{"id": "C69", "title": "set_ocb gives the components towards the pole of the boundary", "statement": "For every northern boundary record, every location off the meridian of its circle and every vector with a horizontal part, VectorData.set_ocb fills in the boundary coordinates and returns the components of the vector towards the centre of the boundary circle and 90 degrees to the right of it; magnitudes are those of the original vectors and the unscaled radius is the record's radius plus correction. The same holds with arrays of indices and with DualBoundary pairs, and a scale function gets the rotated components of arrays.", "quantifier": "all northern boundaries, locations off the meridian, vectors, arrays of any length", "why_tests_cant": "composition over six methods and a continuum of positions; tests check regression values", "anchors": ["ocbpy/ocb_scaling.py:629-723", "ocbpy/ocb_scaling.py:725-868", "ocbpy/vectors.py:48-710"]}
{"id": "C71", "title": "set_ocb is right in the southern hemisphere", "statement": "For every southern boundary the components set_ocb stores are those in the frame of the boundary's pole, as in the northern hemisphere. (False: the east component and the rotation have the wrong sign.)", "quantifier": "all southern boundaries, locations off the meridian, vectors", "why_tests_cant": "tests use regression values", "anchors": ["ocbpy/ocb_scaling.py:629-723"]}
{"id": "C72", "title": "set_ocb depends on ocb_ind only", "statement": "The result of set_ocb depends on ocb_ind and the boundary data but not on the record the boundary object happens to point to. (False: for a single index the time is read at the current record, so a cursor past the last record, where a loop over the good records leaves it, raises IndexError, and geographic vectors are converted with the magnetic pole at that record's time; for magnetic vectors and a cursor on any record it holds.)", "quantifier": "all boundary objects, records and vectors", "why_tests_cant": "tests call set_ocb once with the record set to the same index", "anchors": ["ocbpy/ocb_scaling.py:629-723"]}
{"id": "C73", "title": "Every accepted pair of coordinate systems can be scaled", "statement": "Whenever VectorData accepts a pair of location and vector coordinates, set_ocb scales the vector. (False: for a magnetic vector at a geographic location set_ocb raises or returns without having calculated anything.)", "quantifier": "all accepted coordinate pairs", "why_tests_cant": "tests use chosen pairs", "anchors": ["ocbpy/ocb_scaling.py:332-358", "ocbpy/ocb_scaling.py:629-723"]}
{"id": "C74", "title": "One result per index", "statement": "If ocb_ind or dat_ind is an array, the arrays of rotated components have one entry per index. (False: for a single vector and several boundaries the entries whose circle lies on the meridian of the vector are dropped; holds for component arrays.)", "quantifier": "all index arrays, boundaries and vectors", "why_tests_cant": "needs a circle exactly on the meridian of the vector", "anchors": ["ocbpy/ocb_scaling.py:768-821", "ocbpy/vectors.py:517-710"]}
{"id": "C75", "title": "Construction accepts only consistent shapes", "statement": "VectorData raises ValueError unless components have the shape of dat_ind and boundary coordinates that of ocb_ind. (False: with a single ocb_ind boundary coordinates of any length are accepted.)", "quantifier": "all argument shapes", "why_tests_cant": "tests try a few shapes", "anchors": ["ocbpy/ocb_scaling.py:360-435"]}
{"id": "C77", "title": "update_loc_coords keeps the place", "statement": "If the AACGM conversions are right, update_loc_coords leaves every location at the same place. (False between the geodetic and geocentric systems, where the present coordinates are read as magnetic ones.)", "quantifier": "all coordinate systems, locations and times", "why_tests_cant": "tests convert to and from magnetic coordinates at chosen places", "anchors": ["ocbpy/ocb_scaling.py:870-992"]}
{"id": "C78", "title": "Files outside the naming convention never affect the default boundary file", "statement": "Adding to the boundary directory a file whose name does not follow the <instrument>_<hemisphere>_<start>_<end> convention never changes which file get_default_file returns. (False: a '.ocb' or '.eab' file without 'north' or 'south' as its second part makes every request fail with KeyError or IndexError. It does hold for files whose dates cannot be parsed, when they are for another instrument or hemisphere; requests for their own instrument fail with KeyError.)", "quantifier": "all listings, all stray file names, all requests", "why_tests_cant": "arbitrary directory contents", "anchors": ["ocbpy/boundaries/files.py:get_boundary_files", "ocbpy/boundaries/files.py:get_default_file"]}
{"id": "C79", "title": "Naming an instrument overrides the requested times, as documented", "statement": "The docstring of get_default_file says that naming an instrument overrides the start and end times, so with a named instrument the file returned should not depend on the times. (False: the time filter is still applied.)", "quantifier": "all listings, all requests", "why_tests_cant": "arbitrary directory contents and times", "anchors": ["ocbpy/boundaries/files.py:get_default_file"]}
{"id": "C80", "title": "The boundary latitude at the local time of a DMSP crossing is the latitude of that crossing", "statement": "For a boundary made from a DMSP pass, get_aacgm_boundary_lat at the local time of either crossing returns the latitude of that crossing. (False when both crossings are on the same side of the pole: it holds exactly when the other crossing is not further out along the meridian, in particular for crossings at least 6 h of local time apart.)", "quantifier": "all pairs of crossings", "why_tests_cant": "continuum of crossing geometries", "anchors": ["ocbpy/boundaries/dmsp_ssj_files.py:format_ssj_boundary_files", "ocbpy/_boundary.py:OCBoundary.get_aacgm_boundary_lat"]}
{"id": "C81", "title": "A request window selects every DMSP file with data inside it", "statement": "A daily file of a requested satellite is selected whenever some moment of its day lies in the request window. (False when the window starts after midnight: the file of that day is dropped. It holds for windows that start at midnight.)", "quantifier": "all file dates and windows", "why_tests_cant": "all times and windows", "anchors": ["ocbpy/boundaries/dmsp_ssj_files.py:evaluate_dmsp_boundary_file"]}
{"id": "C82", "title": "Every DMSP pass is written to the files of its hemisphere", "statement": "format_ssj_boundary_files writes every pass of every input file once to the .ocb and once to the .eab file of its hemisphere, in input order, and nothing else. (False for an input file with a single pass, which is read as a one-dimensional array and skipped.)", "quantifier": "all lists of input files", "why_tests_cant": "unbounded inputs", "anchors": ["ocbpy/boundaries/dmsp_ssj_files.py:format_ssj_boundary_files"]}
{"id": "C83", "title": "DMSP boundary files are in order of time", "statement": "The boundary classes require files sorted by time; the files written by format_ssj_boundary_files should be. (False as soon as two spacecraft are combined over more than one day: lines follow the order of the input files.)", "quantifier": "all lists of input files", "why_tests_cant": "unbounded inputs", "anchors": ["ocbpy/boundaries/dmsp_ssj_files.py:format_ssj_boundary_files", "ocbpy/_boundary.py:OCBoundary"]}
{"id": "C84", "title": "convert_time reads back every date and time written in the default format", "statement": "For every calendar date and every time of day in whole seconds, convert_time given the date as YYYY-MM-DD (years before 1000 with leading zeros), the time as HH:MM:SS and the default format returns exactly that instant, whether or not a year is given as well.", "quantifier": "all dates of the years 1 to 9999, all times of day in whole seconds", "why_tests_cant": "there are more than 2e11 such instants; leap years and month lengths enter the date arithmetic", "anchors": ["ocbpy/ocb_time.py:convert_time"]}
{"id": "C85", "title": "convert_time reports unreadable input as ValueError", "statement": "Whatever the texts given, if convert_time cannot make a time of them it raises ValueError. (Fails: a day of year above 366 in yyddd makes the parser report remaining text, and the handler of that report uses the variable str_time before it is set, so UnboundLocalError is raised. With a date and without yyddd the claim holds, apart from OverflowError for seconds of day that lead out of the calendar.)", "quantifier": "all texts, formats and seconds", "why_tests_cant": "the texts are unbounded; the wrong exception comes from an error path", "anchors": ["ocbpy/ocb_time.py:convert_time", "ocbpy/ocb_time.py:yyddd_to_date"]}
{"id": "C86", "title": "Truncated SuperMAG files are refused", "statement": "load_supermag_ascii_data should not accept a file that ends before the number of stations announced by the last date line is reached. (False: a file cut after any station line is read without an error, and the rows of the last block carry a station count larger than the number of its rows.)", "quantifier": "all files cut at a line end", "why_tests_cant": "every truncation point of unbounded files", "anchors": ["ocbpy/instruments/supermag.py:load_supermag_ascii_data"]}
{"id": "C87", "title": "SuperMAG fill values become NaN", "statement": "After loading, no value of a measured column (BN, BE, BZ, MLT, MLAT, DEC, SZA) is the fill value 999999; other values are unchanged. (False for MLAT, which is not in the list of replaced columns: a fill latitude stays a finite northern latitude and passes the driver's finite and hemisphere tests.)", "quantifier": "all files", "why_tests_cant": "unbounded files, all positions of fill values", "anchors": ["ocbpy/instruments/supermag.py:load_supermag_ascii_data"]}
{"id": "C88", "title": "Satellite track mask stays in the hemisphere asked for", "statement": "Every point that satellite_track marks lies in the hemisphere given and at most past_bound degrees equatorward of the boundary crossing nearest to it. (Fails for points of the other hemisphere: their colatitude from the given pole is used for the band but the absolute value of the latitude for the limit, so points near the opposite pole along the continued line are marked.)", "quantifier": "all crossings, tolerances, hemispheres and points", "why_tests_cant": "the tests use points of one hemisphere only", "anchors": ["ocbpy/cycle_boundary.py:satellite_track"]}
{"id": "C89", "title": "Only rows with finite data are processed", "statement": "add_ocb_to_data processes a pandas row only if its latitude is in the hemisphere asked for and all values that the calculation needs are finite. (False: the row maximum skips NaN, so a row with a NaN or minus infinite local time or measurement is processed if one other value is finite.)", "quantifier": "all tables, all rows", "why_tests_cant": "unbounded tables with all placements of NaN and infinities; the tests set whole rows to NaN", "anchors": ["ocbpy/instruments/pysat_instruments.py:add_ocb_to_data"]}
{"id": "C90", "title": "Each vector is built from its own names", "statement": "The VectorData object of a vector gets the default values replaced by the entries that the caller gave for this vector, whatever other vectors are processed in the same call. (False: the dictionary of initial values is made once per row and shared; an entry that an earlier vector sets and a later one leaves out keeps the earlier value.)", "quantifier": "all dictionaries of vectors, all rows", "why_tests_cant": "needs all combinations of vectors with different sets of entries; the tests use vectors with the same entries", "anchors": ["ocbpy/instruments/pysat_instruments.py:add_ocb_to_data"]}
{"id": "C91", "title": "The columns written are the columns made and are different for different quantities", "statement": "For each vector the six result columns exist, have the documented names, and are not shared with another vector. (False for names that contain 'ocb': the name is rewritten by text replacement, which gives a KeyError for EAB and dual boundaries and shared columns for two vectors.)", "quantifier": "all names, all three kinds of boundary", "why_tests_cant": "unbounded strings", "anchors": ["ocbpy/instruments/pysat_instruments.py:add_ocb_to_data"]}
{"id": "C94", "title": "Rows of the pandas table are filled from a matching record or stay NaN", "statement": "After add_ocb_to_data, each row of the table either holds, in every new column, the value computed from its own data with a usable boundary record within the time tolerance, or holds NaN in every new column. For time-ordered rows and records a selected row stays NaN only if no usable record is within the tolerance, and the record used is a nearest one. The call succeeds when its inputs are usable.", "quantifier": "all tables, all boundary objects, all names, all tolerances", "why_tests_cant": "unbounded tables and histories of the matching cursor; the tests look at the shapes of the columns and at one or two values", "anchors": ["ocbpy/instruments/pysat_instruments.py:add_ocb_to_data", "ocbpy/cycle_boundary.py:match_data_ocb"]}
{"id": "C95", "title": "Only data of the hemisphere asked for are processed in xarray sets", "statement": "For xarray data, add_ocb_to_data masks out the latitudes of the other hemisphere. (False for the southern hemisphere: the test sign(latitude) >= -1 keeps everything.)", "quantifier": "all latitudes, both hemispheres", "why_tests_cant": "the tests use northern data", "anchors": ["ocbpy/instruments/pysat_instruments.py:add_ocb_to_data"]}
{"id": "C96", "title": "The caller's lists and dictionaries are not changed", "statement": "add_ocb_to_data leaves evar_names, curl_evar_names and vector_names as the caller passed them, and a second call with the same objects does the same. (False: names of vectors are removed from the lists and the scaling function is added to the dictionaries; a vector named in both lists is scaled differently by the second call.)", "quantifier": "all lists and dictionaries of names", "why_tests_cant": "needs sequences of calls with shared arguments", "anchors": ["ocbpy/instruments/pysat_instruments.py:add_ocb_to_data"]}
{"id": "C97", "title": "The hemisphere is chosen from the data or refused", "statement": "When no hemisphere is given, it is the one of the latitudes if all of them are in one hemisphere, and the call raises ValueError if they are not. (Data on the equator are accepted with southern data and refused with northern data.)", "quantifier": "all lists of latitudes with NaN at any places", "why_tests_cant": "unbounded lists of real numbers", "anchors": ["ocbpy/instruments/pysat_instruments.py:add_ocb_to_data", "ocbpy/instruments/vort.py:vort2ascii_ocb", "ocbpy/instruments/supermag.py:supermag2ascii_ocb"]}
{"id": "C98", "title": "The default height works", "statement": "add_ocb_to_data can be called without the name of a height variable: the height argument (by default 350 km) is used for all rows. (False for pandas data: the scalar height is indexed by row and the call raises IndexError as soon as one row matches a record.)", "quantifier": "all tables, all boundary objects", "why_tests_cant": "the tests always name a height variable; the failing set is all inputs with a match", "anchors": ["ocbpy/instruments/pysat_instruments.py:add_ocb_to_data"]}
{"id": "C99", "title": "Unusable names are refused and each vector is scaled as the lists say", "statement": "add_ocb_to_data raises ValueError exactly if the latitude or local time name is not a variable, a scaled name is neither a variable nor a vector, a vector has no scaling function, or a component is not a variable. A vector in the evar list is scaled as E-field related, one in the curl list as curl related, any other with the function given; vectors are not scaled again as numbers.", "quantifier": "all lists of names and dictionaries of vectors", "why_tests_cant": "unbounded lists and dictionaries, all combinations of membership", "anchors": ["ocbpy/instruments/pysat_instruments.py:add_ocb_to_data"]}
{"id": "C92", "title": "Masked xarray data belong to the cells of the mask", "statement": "reshape_pad_mask_flatten(data, mask) returns, for each true cell of the mask in row-major order, the value of the data at the labels of this cell; or it raises an exception. (False: for equal dimensions false cells inside the rectangle spanned by the true cells give NaN values in between, so the list is longer than the number of true cells; data that lack the first dimensions of the mask are silently read along the wrong dimension if the sizes happen to be equal.)", "quantifier": "all numbers of dimensions, all sizes, all masks", "why_tests_cant": "unbounded shapes and masks; the tests use masks that are true everywhere", "anchors": ["ocbpy/instruments/pysat_instruments.py:reshape_pad_mask_flatten"]}
{"id": "C93", "title": "Latitude, local time and height are put on a common grid without being mixed up", "statement": "When latitude, local time and height have different dimensions, add_ocb_to_data puts them on a common grid in which each cell holds the latitude, local time and height of its own labels. (True for latitude and local time without a common dimension. False for heights along a dimension of their own: with at least two locations and two heights the cells are interchanged. Latitudes that share a dimension with the local times raise ValueError.)", "quantifier": "all shapes and values", "why_tests_cant": "unbounded shapes; the tests only compare shapes", "anchors": ["ocbpy/instruments/pysat_instruments.py:add_ocb_to_data"]}
{"id": "C100", "title": "Columns of a text file end up under their own names", "statement": "For every text file with a header line of column names and rows of cells, load_ascii_data gives each name exactly the values of its own column, one per row, in row order and in the requested type (float unless the column is declared integer or string).", "quantifier": "all argument values, files, rows, cells and float conversions", "why_tests_cant": "The shape the numpy reader returns depends on the numbers of rows and columns and the names come from free text; tests use a few fixed files with many rows and distinct names.", "anchors": ["ocbpy/instruments/general.py:163-173", "ocbpy/instruments/general.py:193-248"]}
{"id": "C101", "title": "Row times are read from the declared date columns", "statement": "When datetime columns and a format are given, the time stored for each row is the time that the texts of those columns, in the order of the format, denote under the format.", "quantifier": "all formats of percent parts, column choices, files and rows", "why_tests_cant": "The parts are sorted into date and time-of-day by a letter test and re-joined; tests use one or two formats.", "anchors": ["ocbpy/instruments/general.py:205-242"]}
{"id": "C102", "title": "Only the requested columns are read as integers", "statement": "A column is read as integers exactly if it was declared in int_cols or it is the column of the year or of the seconds of year.", "quantifier": "all argument values and files", "why_tests_cant": "The code uses the position inside the format as a column number, right only when the date columns are the first ones, as in the test files.", "anchors": ["ocbpy/instruments/general.py:132-139", "ocbpy/instruments/general.py:166-167"]}
{"id": "C103", "title": "Loading one file does not influence loading the next", "statement": "The header that is returned is the given one followed by the header lines of the file, and a later call takes its names from its own file.", "quantifier": "all arguments and pairs of files", "why_tests_cant": "The caller's list is changed in place; the effect shows only over two calls.", "anchors": ["ocbpy/instruments/general.py:109-119", "ocbpy/instruments/general.py:142-154"]}
{"id": "C104", "title": "Keys are the names in the header, with a free name for the times", "statement": "The keys of the result are the names in the last header line, with or without a comment mark, followed by a free name out of datetime, DATETIME, DT, dt if times are requested.", "quantifier": "all header lines, options and names", "why_tests_cant": "The names come from free text and interact with the comments option; tests use fixed header lines.", "anchors": ["ocbpy/instruments/general.py:154-161", "ocbpy/instruments/general.py:174-192"]}
{"id": "C105", "title": "A file without rows gives empty columns", "statement": "For a file with a header but no rows load_ascii_data returns empty columns.", "quantifier": "all headers and arguments", "why_tests_cant": "Absence of rows is a boundary case that no test file has.", "anchors": ["ocbpy/instruments/general.py:193-196", "ocbpy/instruments/general.py:250-258"]}
{"id": "C106", "title": "The hemisphere taken from the data is the one all data are in", "statement": "When neither a boundary object nor a hemisphere is given, vort2ascii_ocb works in the hemisphere that contains all the data and refuses data of both hemispheres; the boundary it loads is for this hemisphere and covers the period of the data with the tolerance on both sides.", "quantifier": "all lists of latitudes (with NaN and zero) and all times and tolerances", "why_tests_cant": "The tests run two files with data of one hemisphere; latitude zero, NaN and mixed data in every position are not tried.", "anchors": ["ocbpy/instruments/vort.py:vort2ascii_ocb", "ocbpy/instruments/supermag.py:supermag2ascii_ocb"]}
{"id": "C107", "title": "The vorticity output has one row for exactly the data with a boundary", "statement": "vort2ascii_ocb writes one row for each datum of the hemisphere for which a usable boundary record is within the tolerance, in order, with the time and the saved columns of this datum and a nearest record, and no other rows.", "quantifier": "all tables of data, boundary objects, cursors, tolerances and scaling functions", "why_tests_cant": "The tests compare the output for one file with a stored one; the claim is about the pairing of all data after the selection of the hemisphere.", "anchors": ["ocbpy/instruments/vort.py:vort2ascii_ocb"]}
{"id": "C108", "title": "The rows of the vorticity output hold the values for their boundary record", "statement": "The coordinates of a row are those of normal_coord at the record paired with the datum, and the vorticity is scaled with the radius of the same record at the local time of the datum and the reference radius.", "quantifier": "all tables, boundary records and scaling functions, for OCBoundary and DualBoundary objects", "why_tests_cant": "The test data have few records and the DualBoundary case is not compared with the records it uses.", "anchors": ["ocbpy/instruments/vort.py:vort2ascii_ocb"]}
{"id": "C109", "title": "Data are only written relative to a boundary of their hemisphere", "statement": "vort2ascii_ocb does not write rows for data whose hemisphere is not the one of the boundary object.", "quantifier": "all hemisphere arguments and boundary objects", "why_tests_cant": "The tests never combine a hemisphere argument with a boundary object of the other hemisphere.", "anchors": ["ocbpy/instruments/vort.py:vort2ascii_ocb"]}
{"id": "C110", "title": "The SuperMAG output has one row for exactly the complete stations with a boundary", "statement": "supermag2ascii_ocb writes one row for each complete station of the hemisphere for which a usable boundary record is within the tolerance, stations of one time together and with one record, a nearest one, and no other rows; time, identifier, indices, local time and field of a row are those of the station, and NST is the number of complete stations of the hemisphere at that time.", "quantifier": "all tables, boundary objects, cursors, tolerances and scaling functions", "why_tests_cant": "The tests compare the output for one file with a stored one; the claim is about the selection, grouping and pairing of all stations.", "anchors": ["ocbpy/instruments/supermag.py:supermag2ascii_ocb"]}
{"id": "C111", "title": "When the SuperMAG conversion writes no file or fails", "statement": "supermag2ascii_ocb writes no file exactly when the boundary object has no records; with records and no complete station of the hemisphere the file has a header only; otherwise the call fails exactly when the stations do not overlap with the records.", "quantifier": "all tables and boundary objects", "why_tests_cant": "Absence of any other failure is a claim about all inputs.", "anchors": ["ocbpy/instruments/supermag.py:supermag2ascii_ocb"]}
{"id": "C112", "title": "The rows of the SuperMAG output hold the values for their boundary record", "statement": "The boundary coordinates of a row are those of normal_coord at the paired record, the field components in boundary coordinates are those relative to the centre of the circle of that record, scaled with its corrected radius and the reference radius, and the magnitude is the one of these components.", "quantifier": "all tables, boundary records of either hemisphere and scaling functions", "why_tests_cant": "The test compares a file with a stored one made by the same code, for one hemisphere.", "anchors": ["ocbpy/instruments/supermag.py:supermag2ascii_ocb", "ocbpy/ocb_scaling.py:VectorData.set_ocb"]}
{"id": "C113", "title": "Stations are only written relative to a boundary of their hemisphere", "statement": "supermag2ascii_ocb does not write rows for stations whose hemisphere is not the one of the boundary object.", "quantifier": "all hemisphere arguments and boundary objects", "why_tests_cant": "The tests never combine a hemisphere argument with a boundary object of the other hemisphere.", "anchors": ["ocbpy/instruments/supermag.py:supermag2ascii_ocb"]}
{"id": "C114", "title": "The SuperMAG conversion works on the stations of the file and reports only documented errors", "statement": "For a well-formed file the conversion works on one row for each station line, loads a boundary that covers the data and the tolerance and is of the hemisphere of the data, ignores stations with missing values, and a file that cannot be used raises IOError.", "quantifier": "all texts of files and hemisphere arguments", "why_tests_cant": "The tests use one complete file.", "anchors": ["ocbpy/instruments/supermag.py:supermag2ascii_ocb", "ocbpy/instruments/supermag.py:load_supermag_ascii_data"]}
{"id": "C115", "title": "New pysat columns are described by the call that makes them", "statement": "After add_ocb_to_data every new column has metadata with NaN as fill value and notes that name the boundary of this call; the metadata of other variables do not change, and a call whose names are accepted does not fail at this stage. (False: columns that exist already keep the metadata of the earlier call although their values are replaced, and a vector given without components ends in a KeyError after all values were computed.)", "quantifier": "for all instruments, variable names, metadata and boundaries", "why_tests_cant": "the result depends on arbitrary names and on metadata left by earlier calls; tests look at single calls on fresh instruments", "anchors": ["ocbpy/instruments/pysat_instruments.py:540-585", "ocbpy/instruments/pysat_instruments.py:630-716"]}
{"id": "C116", "title": "A scaled pysat column inherits the metadata of its variable", "statement": "The column made from a variable has the units, range and other labels of this variable, and its name and description are those of the variable after the name of the boundary used. (False for names that contain an underscore followed by the name of the boundary, which get the metadata of another variable, and for names with another boundary as a part, which are described as relative to that boundary.)", "quantifier": "for all variable names, metadata and kinds of boundary", "why_tests_cant": "the source is found by splitting the name as a text; only a statement for all names shows which names are safe", "anchors": ["ocbpy/instruments/pysat_instruments.py:551", "ocbpy/instruments/pysat_instruments.py:659-709"]}
{"id": "C117", "title": "The columns of a pysat vector are described", "statement": "The columns of a vector are described as relative to the boundary used; the components and the magnitude have the units of the vector and the radii are described as radii. (False for the radii: with an open-closed boundary they are described by the first part of the name of the vector alone, with the other boundaries they have the units, name and description of a component.)", "quantifier": "for all vector names, components, metadata and kinds of boundary", "why_tests_cant": "six columns per vector and arbitrary names; the tests check that metadata exist, not what they say", "anchors": ["ocbpy/instruments/pysat_instruments.py:413-424", "ocbpy/instruments/pysat_instruments.py:569-585", "ocbpy/instruments/pysat_instruments.py:684-698"]}
{"id": "C118", "title": "Geographic vectors are turned into the magnetic frame", "statement": "For every geographic vector, update_vect_coords_to_mag replaces the components by the one towards the magnetic pole (away from it in the southern hemisphere) and the one 90 degrees to the right of it, and keeps the vertical component and the magnitude; each vector of an array is treated as if it were alone. (False for southern poles, for vectors on the meridian of the pole close to it, and for arrays in which the place of another vector is missing.)", "quantifier": "all vectors, places, poles, times, array lengths, both locations systems", "why_tests_cant": "a continuum of positions of vector and pole; tests compare regression values of one location", "anchors": ["ocbpy/ocb_scaling.py:990-1109", "ocbpy/vectors.py:48-710"]}
{"id": "C119", "title": "Places that cannot be converted do not stop update_vect_coords_to_mag", "statement": "When the library cannot convert a place, update_vect_coords_to_mag raises nothing and leaves the vectors as they are. (False: with a known magnetic location and an unknown geographic place, or a place at the geographic pole, names are used before assignment.)", "quantifier": "all places and libraries", "why_tests_cant": "needs locations at the edge of the library's domain and every array length", "anchors": ["ocbpy/ocb_scaling.py:1036-1039", "ocbpy/ocb_scaling.py:1089-1100"]}
{"id": "C120", "title": "update_vect_coords_to_mag changes the vector and its location together and nothing else", "statement": "Whenever update_vect_coords_to_mag returns: magnetic vectors are untouched; otherwise the location is magnetic (the old one if it was magnetic, that of update_loc_coords if not), the vector is magnetic with the magnitude that belongs to its components or is entirely unchanged with no magnetic location known, and all attributes other than location, height and vector keep their values.", "quantifier": "all objects, times, hemispheres, libraries", "why_tests_cant": "a frame condition over all attributes and inputs", "anchors": ["ocbpy/ocb_scaling.py:990-1109", "ocbpy/ocb_scaling.py:870-988"]}
{"id": "C121", "title": "set_ocb handles geographic vectors like magnetic ones", "statement": "For geographic vectors set_ocb gives the components towards the centre of the boundary circle and to the right of it of the vector that update_vect_coords_to_mag yields at the magnetic location, for single vectors, arrays of vectors, single indices and arrays of indices. (False: a single place with several indices, and several vectors with a single index, raise ValueError.)", "quantifier": "all vectors, boundaries, times, shapes", "why_tests_cant": "composition over eight methods and a continuum of positions", "anchors": ["ocbpy/ocb_scaling.py:629-723", "ocbpy/ocb_scaling.py:990-1109"]}
{"id": "C122", "title": "An OCBoundary holds the records of its file", "statement": "OCBoundary(filename, instrument, ...) takes a usable named file, or the default file that answers the request, and its records are, in the order of the file, the lines of the time window: for IMAGE, AMPERE and DMSP SSJ each record has the time written in the line and the values of the documented columns, with the centre converted from x (towards dawn) and y (towards noon) to radius and angle from midnight where the file has x and y; the cursor is before the first record, and the limits of the quality are the published ones of the instrument. Files of the documented form are loaded. (False: a file with one line is never loaded.)", "quantifier": "all files, instruments, windows, corrections, directory listings", "why_tests_cant": "the files in the tests are a handful of the package's own; the claim is about every file, time and window, and the composition of lookup, parsing, windowing and conversion", "anchors": ["ocbpy/_boundary.py:124-193", "ocbpy/_boundary.py:288-326", "ocbpy/_boundary.py:328-451", "ocbpy/boundaries/files.py:110-206"]}
{"id": "C123", "title": "EABoundary accepts the documented instruments and otherwise acts like OCBoundary", "statement": "EABoundary accepts every instrument its documentation names (image, dmsp-ssj, si12, si13, wic and the empty name), in any case of letters as OCBoundary does, and uses circles without a given correction; with a correction and the name of a file it makes the same object as OCBoundary. (False: si12, si13, wic and names in capital letters raise ValueError; with a correction, capital letters find no default file.)", "quantifier": "all instruments, files, corrections", "why_tests_cant": "the tests use the accepted names only; the claim is about all names and files", "anchors": ["ocbpy/_boundary.py:880-971"]}
{"id": "C124", "title": "The repr of a boundary evaluates to the boundary", "statement": "Evaluating repr(b) for an OCBoundary or EABoundary gives an object with the same file, instrument, hemisphere, records, times, values and corrections, and a reference latitude equal to six decimals. (False: records out of time order are lost, an object with a file but no records raises IndexError, and objects without a file but with a correction, in particular every EABoundary without a file, raise TypeError.)", "quantifier": "all boundaries and positions of the cursor", "why_tests_cant": "the tests evaluate the repr of a few objects; the claim is about every file, window and correction", "anchors": ["ocbpy/_boundary.py:195-235"]}
{"id": "C125", "title": "The str of a boundary shows its ends and its corrections", "statement": "For an object with records str(b) shows exactly the first two and the last two records, each once and in order, and lists every correction in use with each set of arguments it is used with, nothing twice and nothing that is not in use. (False: functions with the same name in different modules are listed with each other's arguments.)", "quantifier": "all numbers of records, all assignments of corrections and arguments to records", "why_tests_cant": "a claim about all record counts and all combinations of corrections", "anchors": ["ocbpy/_boundary.py:237-286"]}
{"id": "C126", "title": "Unusable files and instruments give an object without data", "statement": "For a file name that is missing or no text, a file that cannot be used, or an instrument that is no text, the constructor returns an object without file, records and times instead of raising; every constructed object is either such an object or has a usable file, the cursor before the first record, and as many times and rows as records.", "quantifier": "all arguments and files", "why_tests_cant": "a claim about every combination of bad arguments and about every state a constructor can return", "anchors": ["ocbpy/_boundary.py:124-193", "ocbpy/_boundary.py:328-451"]}
{"id": "C127", "title": "The repr of a vector object evaluates to the object", "statement": "For every VectorData object v, eval(repr(v)) is an object with the same indices, locations, components, magnitude, boundary coordinates, coordinate names, name, units, scale function and results. (False: results of set_ocb, numbers beyond the written digits, more than 1000 or no entries, texts containing 'array', one NaN magnitude of several vectors, and evaluation where nan is not defined; true for objects as constructed otherwise.)", "quantifier": "all constructor arguments, all states of a vector object, all texts", "why_tests_cant": "the tests evaluate the text of one single-valued object with nan imported and compare it with its own text, which hides every loss", "anchors": ["ocbpy/ocb_scaling.py:106-180", "ocbpy/ocb_scaling.py:274-294"]}
{"id": "C128", "title": "The str of a vector object lists every vector once", "statement": "For every VectorData object str(v) writes the location, the boundary coordinates and the vector of every index once and in order, each with its own numbers and index, and the result wherever there is one. (False: it repeats the vector and earlier results for one vector with several boundaries, and raises for several vectors with one magnitude, one known boundary latitude or too few heights.)", "quantifier": "all vector objects, any number of vectors and boundaries", "why_tests_cant": "a claim about every combination of single values and arrays of any length", "anchors": ["ocbpy/ocb_scaling.py:182-272"]}
{"id": "C129", "title": "The archive is identified from any download message", "statement": "For every link in the message of zenodo_get, fetch_ssj_boundary_files opens the last part of the link whose name contains '.zip' after its first letter, and raises IOError when there is no such part. (The first half is true; false in the second half: the loop over os.path.split never ends.)", "quantifier": "all links, all messages", "why_tests_cant": "a test sees one message; non-termination cannot be observed by a finite run", "anchors": ["ocbpy/boundaries/dmsp_ssj_files.py:133-147"]}
{"id": "C130", "title": "A download restores the output streams", "statement": "After every call of fetch_ssj_boundary_files, returned or raised, sys.stdout and sys.stderr are what they were before. (False: they stay captured when zenodo_get raises, and streams redirected before are replaced by the interpreter's; true otherwise. Arguments refused before the download change nothing.)", "quantifier": "all arguments, all behaviours of the download, all streams", "why_tests_cant": "the tests need a network and never see a failing download or a redirected stream", "anchors": ["ocbpy/boundaries/dmsp_ssj_files.py:86-120"]}
{"id": "C131", "title": "A download leaves exactly the requested files", "statement": "A call of fetch_ssj_boundary_files returns exactly when the arguments are accepted, the download is good and every name can be read; it then returns the selected files, all of which exist, and the directory holds what was downloaded without the checksums, the selected files, and not the archive if rm_temp. (Two documented claims are false: rm_temp leaves the archive when a name cannot be read, and existing files do not spare the download.)", "quantifier": "all arguments, file systems, archives and download results", "why_tests_cant": "a claim about every content of the archive and of the directory", "anchors": ["ocbpy/boundaries/dmsp_ssj_files.py:44-172"]}
{"id": "C132", "title": "Download and conversion leave exactly the boundary files", "statement": "When the fetched CSV files are distinct files and are converted, fetch_format_ssj_boundary_files returns the four boundary files, which exist afterwards, and with rm_temp removes the CSV files and nothing else; without data it raises ValueError. (False: the CSV files stay when the conversion fails, an archive with a directory entry makes the call raise after writing, and failed downloads raise other errors than documented.)", "quantifier": "all arguments, file systems, archives and conversion results", "why_tests_cant": "a claim about every content of the archive and every failure", "anchors": ["ocbpy/boundaries/dmsp_ssj_files.py:434-489"]}
{"id": "C133", "title": "DMSP boundary files get distinct names that are found again", "statement": "For daily files with documented names in one directory, the four boundary files lie in that directory, have distinct documented names with first date, last date and version, and the search for boundary files recognises instrument, hemisphere and boundary in them. (False if the path of the directory contains '-f'; and the dates need not span the data of all satellites.)", "quantifier": "all directories and lists of daily files", "why_tests_cant": "the tests convert one file in one directory", "anchors": ["ocbpy/boundaries/dmsp_ssj_files.py:279-334", "ocbpy/boundaries/dmsp_ssj_files.py:427-431", "ocbpy/boundaries/files.py:82-107"]}
{"id": "C134", "title": "The printed text of a boundary shows the boundary", "statement": "For every OCBoundary or EABoundary that can be constructed, at any cursor position, str() succeeds: without a file it says so; without records it says so after file, instrument and latitude; otherwise it gives the number of records, the first and last time, and the first two and last two records, each once, in order, with their own time, centre and radius, followed by the corrections.", "quantifier": "all constructor arguments, boundary files and cursor positions", "why_tests_cant": "the tests compare pieces of the text for three files", "anchors": ["ocbpy/_boundary.py:237-286"]}
{"id": "C135", "title": "A DualBoundary is built from its members with pairs near in time, or has no pairs", "statement": "Construction succeeds exactly for an EAB latitude equatorward of the OCB latitude, positive max_delta, members that can be made, and equal hemispheres. The members are those of the arguments up to their cursors. With data in both, the pairs consist of records at most max_delta apart and the cursors are on the first pair; with a member without data there are no pairs, cycling does nothing and asking for the current pair gives none. (The last part is false: the cursor does not exist and AttributeError is raised. Members that are handed over are moved, past their end if there is no pair.)", "quantifier": "all arguments, files, and ready-made members", "why_tests_cant": "arbitrary combinations of files, times and ready-made objects", "anchors": ["ocbpy/_boundary.py:1084-1129", "ocbpy/_boundary.py:1188-1319", "ocbpy/_boundary.py:1400", "ocbpy/_boundary.py:1778"]}
{"id": "C136", "title": "The texts of a DualBoundary tell what it is", "statement": "The repr of a DualBoundary evaluates to an object with the same members, time difference, pairs and cursors as it had when constructed; str() always succeeds and shows the number of pairs, the times of the first and last pair, the time difference and both members. (False for repr after set_good_ind with criteria, for members for which repr of a single boundary fails, in particular for an EAB without file.)", "quantifier": "all constructible objects with sorted non-empty records; all cursor positions and pairings", "why_tests_cant": "round trip over all objects and histories", "anchors": ["ocbpy/_boundary.py:1131-1150"]}
{"id": "C137", "title": "calc_vec_pole_angle accepts any mix of single values and arrays", "statement": "For every choice of single values and arrays of one length among local times and latitudes of data and pole, an array of angles is returned that holds at each position the angle of a call with the single values there. (False for single local times on the meridian of the pole with an array of latitudes: ValueError, or a single value for one entry; holds in all other cases.)", "quantifier": "all lengths, shapes and values", "why_tests_cant": "the mix of shapes times the exact meridian", "anchors": ["ocbpy/vectors.py:48-142"]}
{"id": "C138", "title": "One quadrant per entry", "statement": "define_pole_quadrants and define_vect_quadrants return one quadrant per entry of the broadcast arguments, the documented one. (False for single local times and an array of angles: a single quadrant is returned, 0 as soon as the angles lie on both sides of 90 degrees.)", "quantifier": "all lengths, shapes and values", "why_tests_cant": "the mix of shapes over continua", "anchors": ["ocbpy/vectors.py:145-286"]}
{"id": "C139", "title": "adjust_vector accepts any mix of single values and arrays", "statement": "For every choice of single values and arrays of one length among its ten arguments, adjust_vector returns arrays of that length holding what ten arrays with the same values give; in particular every vector of the general case is rotated to the destination pole. (False for: quadrants left to the code with single local times and angles on both sides of 90 degrees; a single horizontal vector with an array of quadrants or of local times, shape (1, k); a single horizontal vector with an aligned entry, too short; a single vertical component beside NaN. Holds for arrays of horizontal components otherwise.)", "quantifier": "all lengths, shapes and values", "why_tests_cant": "2^10 mixes of shapes, each over continua with exact-equality branches", "anchors": ["ocbpy/vectors.py:517-710"]}
{"id": "C140", "title": "set_ocb can be called again", "statement": "For magnetic vectors, a call of set_ocb that found the boundary coordinates can be repeated and ends in the same object; and the result of a call that gets as far as a pole angle does not depend on the results an earlier call left in the object (components, magnitudes, angles, quadrants, pole, radii).", "quantifier": "all boundaries, vectors, shapes, scale functions and earlier results", "why_tests_cant": "all histories of the object over continua", "anchors": ["ocbpy/ocb_scaling.py:629-723"]}
{"id": "C141", "title": "The results of set_ocb belong to the current place", "statement": "After lat, lt or height were assigned, set_ocb reports the boundary coordinates and components of the new place. (False: coordinates once found are kept, so those of the old place are reported; they are found anew if NaN is assigned to ocb_lat. If nothing is found for the new place, the components of the old place stay.)", "quantifier": "all boundaries, vectors, shapes and assigned values", "why_tests_cant": "all places and all earlier states", "anchors": ["ocbpy/ocb_scaling.py:584-610", "ocbpy/ocb_scaling.py:649-684"]}
{"id": "C142", "title": "The scale function given to set_ocb is the one used", "statement": "set_ocb scales with the function it is given. (False if the object has one, given to the constructor or to an earlier call: the new one is ignored without a word. Holds for objects without.)", "quantifier": "all functions, boundaries and vectors", "why_tests_cant": "functions as arguments, all states", "anchors": ["ocbpy/ocb_scaling.py:710-717"]}
{"id": "C143", "title": "fix_range in double precision is the exact representative, rounded at most once", "statement": "For a double value of size at most 2^53 times the largest power of two dividing the period, fix_range in double precision returns the exact representative of the value rounded once; it returns the exact representative without any rounding when the value is not below the lower limit, or when the lower limit is at least half a period below zero (as for -180 to 360 degrees).", "quantifier": "every double value, all double limits with mn <= period/2 <= mx, every period, every rounding to nearest", "why_tests_cant": "Errors could pile up over the passes of the loops; tests see a few values.", "anchors": ["ocbpy/ocb_time.py:399-452"]}
{"id": "C144", "title": "fix_range in double precision stays below the upper limit", "statement": "The result of fix_range in double precision is at or above the lower limit and strictly below the upper limit.", "quantifier": "every double value and limits, every rounding to nearest", "why_tests_cant": "It fails only for values within a rounding error below the lower limit, which random or hand-picked test values do not hit.", "anchors": ["ocbpy/ocb_time.py:399-452", "ocbpy/_boundary.py:633-634", "ocbpy/_boundary.py:716-717"]}
{"id": "C145", "title": "fix_range returns for every finite double", "statement": "fix_range returns for every finite double value.", "quantifier": "every double value, every rounding to nearest", "why_tests_cant": "Not returning cannot be observed by a test, and the values concerned are far from the usual ones.", "anchors": ["ocbpy/ocb_time.py:433-450"]}
{"id": "C146", "title": "Hours and degrees convert into each other in double precision", "statement": "deg2hr and rad2hr return hours in [0, 24), hr2deg returns degrees in [-180, 360), and converting an hour of the day to degrees and back returns the hour.", "quantifier": "every double, every rounding to nearest", "why_tests_cant": "Tests compare a few values with a tolerance.", "anchors": ["ocbpy/ocb_time.py:205-226", "ocbpy/ocb_time.py:229-268", "ocbpy/ocb_time.py:298-319"]}
{"id": "C147", "title": "datetime2hr in double precision is accurate, within the day and strictly increasing", "statement": "For every valid time of day the hour computed in double precision is within 2^-47 hours of the exact hour, in [0, 24), and later times of day have greater hours.", "quantifier": "every valid time of day, every rounding to nearest", "why_tests_cant": "There are 86.4 billion times of day.", "anchors": ["ocbpy/ocb_time.py:322-340"]}
{"id": "C148", "title": "Solar local time and longitude in double precision are accurate and in their half-open intervals", "statement": "glon2slt returns a solar local time in [0, 24) within 2^-45 hours of the exact one up to whole days; slt2glon returns a longitude in [-180, 360) within 2^-41 degrees of the exact one up to whole turns; one after the other returns the local time within 2^-43 hours up to whole days.", "quantifier": "every longitude within two turns, every local time within two days, every valid time of day, every rounding to nearest", "why_tests_cant": "Tests cover a few longitudes and times with a tolerance.", "anchors": ["ocbpy/ocb_time.py:343-370", "ocbpy/ocb_time.py:373-396"]}
{"id": "C149", "title": "year_soy_to_datetime has no rounding errors", "statement": "For every double number of seconds of the year from 0 to 2^51, year_soy_to_datetime in double precision gives exactly what it gives in exact arithmetic: no rounded quotient reaches the next whole day, hour or minute, and no difference is rounded.", "quantifier": "every year, every double number of seconds from 0 to 2^51, every rounding to nearest", "why_tests_cant": "A rounded quotient could reach the next whole number only for values a rounding error below it.", "anchors": ["ocbpy/ocb_time.py:52-88"]}
{"id": "C150", "title": "convert_time adds seconds of day in double precision without losing time", "statement": "The time added for the seconds of the day in double precision is never less than the seconds given, and less than a microsecond more.", "quantifier": "every double number of seconds, every time, every rounding to nearest", "why_tests_cant": "It fails only for doubles whose product with a million lies a rounding error above a whole number.", "anchors": ["ocbpy/ocb_time.py:183-191"]}
{"id": "C151", "title": "Seconds of day with microsecond decimals give that microsecond", "statement": "A number of microseconds of the day, written as decimal seconds and read as a double, gives the time of that microsecond.", "quantifier": "every number of microseconds of the day, every rounding to nearest", "why_tests_cant": "Whether the double lies above or below the decimal number varies from microsecond to microsecond.", "anchors": ["ocbpy/ocb_time.py:183-191"]}
{"id": "C152", "title": "Time differences are compared as in exact arithmetic", "statement": "The tests of match_data_ocb on time differences (earlier or later than the tolerance, closer than the last) have the outcome they have for whole microseconds, although total_seconds rounds to a double.", "quantifier": "all time differences and tolerances in whole seconds, every rounding to nearest that treats both signs alike", "why_tests_cant": "Tests use differences of whole seconds, which are exact.", "anchors": ["ocbpy/cycle_boundary.py:176-182", "ocbpy/cycle_boundary.py:195-204", "ocbpy/cycle_boundary.py:215"]}
{"id": "C153", "title": "hr2rad in double precision stays in range, is accurate and hits the special angles exactly", "statement": "For local-time-like values up to two days either side, hr2rad with its default range returns an angle in [0, 2 pi) within 2^-46 of the exact angle up to whole turns; with max_range pi the result is in [-pi, pi); and the differences of 0, 12 and 24 hours, for which calc_vec_pole_angle tests equality with 0 and pi, give exactly those doubles.", "quantifier": "all finite doubles (indeed reals) up to 48 hours in size, every rounding to nearest", "why_tests_cant": "Tests use hours whose angles are compared with a tolerance; the special cases compare doubles for equality.", "anchors": ["ocbpy/ocb_time.py:271-295", "ocbpy/vectors.py:80-81", "ocbpy/vectors.py:91-106"]}
{"id": "C154", "title": "Uninitialised memory never reaches a result of fix_range, archav or the vector functions", "statement": "Comparisons with where= leave the entries outside the mask uninitialised. Whatever is found there, and whatever it changes to between the passes of a loop, fix_range, archav, calc_vec_pole_angle, define_pole_quadrants, define_vect_quadrants and the sign mask of adjust_vector give the result they would give with exact comparisons that are false for NaN; the loops of define_pole_quadrants end and treat every entry as on its own.", "quantifier": "all inputs including NaN, every content of memory at every evaluation of a mask", "why_tests_cant": "Uninitialised memory usually holds zeros in a test run; a dependence on it shows up at random in production.", "anchors": ["ocbpy/ocb_time.py:435-450", "ocbpy/ocb_scaling.py:1223-1240", "ocbpy/vectors.py:99-107", "ocbpy/vectors.py:178-226", "ocbpy/vectors.py:256-284", "ocbpy/vectors.py:620-621"]}
{"id": "C155", "title": "calc_dest_vec_sign called on its own", "statement": "A direct call is refused exactly if no quadrant is defined, gives 0 for signs not asked for, gives the signs of the components along and across the new pole direction wherever quadrants and angles fit, marks entries whose sign is not known, and does not depend on uninitialised memory, also for quadrants given by the caller.", "quantifier": "all mixes of single values and arrays, all angles including NaN, all quadrants, every content of memory", "why_tests_cant": "Tests pass consistent quadrants without NaN and never a quads dictionary.", "anchors": ["ocbpy/vectors.py:402-514"]}
{"id": "C156", "title": "The warning about inconsistent magnitudes is given exactly when one is inconsistent", "statement": "Setting vect_mag warns if and only if some magnitude that was given differs from the calculated one by more than 0.001.", "quantifier": "all arrays of magnitudes and components including NaN, every content of memory", "why_tests_cant": "The spurious warning depends on uninitialised memory and shows up at random.", "anchors": ["ocbpy/ocb_scaling.py:467-481"]}
{"id": "C157", "title": "Which input files are read", "statement": "test_file never raises and is True exactly for existing files with at least one byte and at most 2 GB; for all others the loaders give their empty result, and vort2ascii_ocb and supermag2ascii_ocb raise IOError; names may be texts or path objects.", "quantifier": "all names, all states of the disk", "why_tests_cant": "Tests use a missing and an empty file with text names; sizes of gigabytes and path objects are not tried.", "anchors": ["ocbpy/instruments/general.py:18-51", "ocbpy/instruments/supermag.py:83-87", "ocbpy/instruments/supermag.py:234-235", "ocbpy/instruments/vort.py:91-97", "ocbpy/instruments/vort.py:239-240", "ocbpy/instruments/vort.py:138-147"]}
{"id": "C158", "title": "What the drivers leave in the output file", "statement": "vort2ascii_ocb and supermag2ascii_ocb write one row after the other while matching. If the call returns, the output file has all rows of the result, or is as before if there is nothing to write; if the call raises, the output file is as before.", "quantifier": "all files, boundaries, hemispheres, tolerances, scaling functions and states of the disk", "why_tests_cant": "Depends on where among all inputs an exception comes up while the file is open.", "anchors": ["ocbpy/instruments/vort.py:132-213", "ocbpy/instruments/supermag.py:119-204"]}
{"id": "C159", "title": "fix_range with whole numbers", "statement": "fix_range (documented for int, float or array-like values and int or float limits) treats integers as the same numbers given as floats: the same results, the same errors.", "quantifier": "all integer values and arrays, all integer or float limits and ranges", "why_tests_cant": "The result depends on the types of values, limits and range together with the values; tests use float arrays.", "anchors": ["ocbpy/ocb_time.py:399-452"]}
{"id": "C160", "title": "Integer local times for boundary latitudes and dual coordinates", "statement": "get_aacgm_boundary_lat (documented for int, float or array-like local times) and DualBoundary.normal_coord give for integer local times what they give for the same local times as floats.", "quantifier": "all boundaries, locations, integer local times, stored locations", "why_tests_cant": "Tests use float local times; a whole hour written without decimal point is a different type.", "anchors": ["ocbpy/_boundary.py:786-788", "ocbpy/_boundary.py:1368-1492", "ocbpy/_boundary.py:1717-1730"]}
{"id": "C161", "title": "Integer coordinates in normal_coord", "statement": "OCBoundary.normal_coord in magnetic coordinates gives for integer latitudes and local times what it gives for the same numbers as floats.", "quantifier": "all records, all integer or float arrays of latitudes and local times", "why_tests_cant": "Only arrays of integers that mix hemispheres behave differently.", "anchors": ["ocbpy/_boundary.py:577-636"]}
{"id": "C162", "title": "Integer local times in define_pole_quadrants", "statement": "define_pole_quadrants gives for arrays of integer local times the quadrants of the same local times as floats.", "quantifier": "all integer or float arrays of local times of data and poles, all angles", "why_tests_cant": "Depends on the types of both arrays and on the differences of their entries; tests use floats.", "anchors": ["ocbpy/vectors.py:145-228"]}
{"id": "C163", "title": "match_data_ocb with a DualBoundary and selection criteria", "statement": "When match_data_ocb is called with selection criteria and a DualBoundary and reports a datum, the two records shown afterwards meet the criteria of that call, are within max_delta of each other, and the OCB record is within max_tol of the datum; the outcome depends only on the arguments and the members, the pair cursor never moves back, and the criteria hold for that call only.", "quantifier": "all dual boundaries, selections in force, cursors, criteria, data and tolerances", "why_tests_cant": "Depends on every earlier selection and cursor position as well as on all records of both members.", "anchors": ["ocbpy/cycle_boundary.py:68-221", "ocbpy/_boundary.py:1211-1319"]}
{"id": "C164", "title": "Drivers with a DualBoundary and selection criteria", "statement": "A driver loop that hands the same criteria to match_data_ocb for every datum processes the data that have a pair under the criteria within the tolerance, with the records one gets by selecting the pairs once and matching with a cursor that goes on from datum to datum.", "quantifier": "all dual boundaries, criteria, data series and tolerances", "why_tests_cant": "Every call selects all pairs anew and starts from the first one, so the claim is about the whole sequence of calls for arbitrary series.", "anchors": ["ocbpy/instruments/vort.py:170-185", "ocbpy/instruments/pysat_instruments.py:380-470", "ocbpy/cycle_boundary.py:68-221", "ocbpy/_boundary.py:1211-1319"]}
{"id": "C165", "title": "Magnitudes belong to the vectors", "statement": "After any program of operations on a VectorData object (assignments to its attributes, clearing, setting or scaling with a boundary, changes of coordinates) the stored magnitude of the vector is the length of the stored components, and the stored magnitude of the scaled vector is the length of the scaled components.", "quantifier": "all objects, all libraries for magnetic coordinates and all finite sequences of operations on the object, in any order", "why_tests_cant": "the magnitude is stored beside the components and is kept in step (or not) by each operation separately; a test runs a few operations, the claim is about every sequence of them", "anchors": ["ocbpy/ocb_scaling.py:112-151", "ocbpy/ocb_scaling.py:286-294", "ocbpy/ocb_scaling.py:463-481", "ocbpy/ocb_scaling.py:488-507", "ocbpy/ocb_scaling.py:817-819", "ocbpy/ocb_scaling.py:1100-1107"]}
{"id": "C166", "title": "Geographic coordinates of a single boundary", "statement": "For geographic input, normal_coord gives the boundary coordinates of the magnetic locations that the aacgmv2 library finds for the given places at the time of the selected record, and revert_coord gives the places that the library finds for the magnetic locations, each at its own height. If the library's conversions undo each other, revert_coord after normal_coord leads back to latitude and solar local time. The coordinate system depends on the given name only, height and library play no part for magnetic coordinates, and the caller's latitudes are not changed by geographic calls.", "quantifier": "all libraries, records, times, names of coordinate systems, heights and arrays of locations of any length, NaN entries included", "why_tests_cant": "tests compare a few locations at one time with stored numbers from one version of the library; the relation to the magnetic call for every library, time, height and mixture of entries is not something samples can settle", "anchors": ["ocbpy/_boundary.py:573-636", "ocbpy/_boundary.py:679-741", "ocbpy/ocb_time.py"]}
{"id": "C167", "title": "Geographic coordinates of dual boundaries", "statement": "For geographic input, DualBoundary.normal_coord gives the dual coordinates of the magnetic locations that the library finds for the given places, and revert_coord gives the places that the library finds for the reverted magnetic locations, each at its own height, whatever regions the locations of a call are in; if the library's conversions undo each other, revert_coord after normal_coord leads back to the places.", "quantifier": "all libraries, pairs of boundaries, times, heights, stores and arrays of locations of any length", "why_tests_cant": "the error appears only for particular mixtures of regions and heights in one call, of which there are infinitely many; the tests revert locations of one region at one height", "anchors": ["ocbpy/_boundary.py:1372-1492", "ocbpy/_boundary.py:1550-1689"]}
{"id": "C168", "title": "The tracing method of set_ocb", "statement": "The trace_method given to VectorData.set_ocb is the method with which geographic locations and vectors are converted to magnetic coordinates, so the outcome is that of a conversion with the method asked for.", "quantifier": "all objects, boundaries, tracing methods and all libraries for magnetic coordinates (as functions of the method)", "why_tests_cant": "whether the method has any influence is a statement about pairs of calls for every object and library; tests call set_ocb with the default only, where nothing can be seen", "anchors": ["ocbpy/ocb_scaling.py:629-680", "ocbpy/ocb_scaling.py:994-1109"]}
{"id": "C169", "title": "set_ocb with a DualBoundary rotates and scales like set_ocb with its OCB alone", "statement": "VectorData.set_ocb given a DualBoundary and the index k of a pair gives the same scaled vector components, pole angle, quadrants, boundary local time, radius correction and radii as set_ocb given the OCB of that pair alone with the paired record's index; only the index and the boundary latitude may differ. Vectors at locations for which no boundary coordinates exist stay NaN.", "quantifier": "for all dual boundaries, pairs, single locations and arrays of any length, vector components, scale functions and stored boundary locations", "why_tests_cant": "a test fixes one file and a few locations; the claim ranges over all boundaries, all locations and all vectors", "anchors": ["ocbpy/ocb_scaling.py:629-723", "ocbpy/_boundary.py:1188-1207", "ocbpy/_boundary.py:1372-1492"]}
{"id": "C170", "title": "set_ocb scales with the radii that DualBoundary.calc_r gives for the location", "statement": "The unscaled and scaled radii that VectorData.set_ocb stores and hands to the scale function with a DualBoundary are, entry by entry, the radii that DualBoundary.calc_r (\"calculate the scaled and unscaled radius at the normalised coordinates\") returns for the same boundary latitude, local time and radius correction.", "quantifier": "for all dual boundaries, pairs, arrays of vectors at any location, and stored boundary locations", "why_tests_cant": "the region of a location depends on continuous coordinates and on both circles; tests compare a few recorded numbers", "anchors": ["ocbpy/ocb_scaling.py:687-694", "ocbpy/_boundary.py:1732-1828"]}
{"id": "C171", "title": "the type of the time tolerance does not matter", "statement": "match_data_ocb, and the conversion of a data file by its repeated calls, give for a float tolerance the same matches as for an int tolerance of the same value.", "quantifier": "for all boundaries with their selection criteria, cursors, data times, start indices and tolerances", "why_tests_cant": "whether a message with the tolerance is formatted depends on the gaps between all data and boundary times; tests use a few recorded files with int tolerances", "anchors": ["ocbpy/cycle_boundary.py:68-221", "ocbpy/instruments/vort.py:160-205"]}
{"id": "C172", "title": "set_good_ind uses the criteria in its dictionaries and leaves them alone", "statement": "DualBoundary.set_good_ind pairs the records that satisfy the criteria and the limits given in its arguments, also if one dictionary object is passed for both boundaries and in any sequence of calls, and does not change the dictionaries of the caller.", "quantifier": "for all boundaries, dictionaries, sharing of dictionary objects, limits and pairs of successive calls", "why_tests_cant": "aliasing of mutable arguments across calls; tests pass fresh dictionaries", "anchors": ["ocbpy/_boundary.py:1211-1310", "ocbpy/cycle_boundary.py:18-66"]}
{"id": "C173", "title": "SuperMAG files written with a dual boundary hold the dual coordinates and the vectors of the open-closed boundary", "statement": "Every row that supermag2ascii_ocb writes with a DualBoundary belongs to a station and a pair of boundaries matched like single boundaries; its local time is the one relative to the open-closed boundary, its latitude is linear between pole, open-closed boundary, equatorward boundary and equator, and whenever there is a latitude the components and magnitude are those that the open-closed boundary alone gives, scaled with its corrected radius.  The call fails only when no complete station overlaps with the pairs, with TypeError.", "quantifier": "all tables, lists of paired boundaries of either hemisphere, tolerances and scaling functions", "why_tests_cant": "The test with a dual boundary compares one file with a stored one made by the same code.", "anchors": ["ocbpy/instruments/supermag.py:supermag2ascii_ocb", "ocbpy/ocb_scaling.py:VectorData.set_ocb", "ocbpy/_boundary.py:DualBoundary.normal_coord"]}
{"id": "C174", "title": "Each additional keyword argument of add_ocb_to_data is used in exactly one place, unchanged", "statement": "With ocb=None and ocbfile='dual', add_ocb_to_data passes to the DualBoundary constructor exactly those additional keyword arguments that the constructor takes, with the caller's values, and passes exactly the others to the matching as selection criteria; the hemisphere and the time span of the data and the instrument (for both boundaries) are used only where the caller gives nothing. With a boundary object or a single boundary file the documentation reserves constructor arguments for the dual case.", "quantifier": "all dictionaries of additional keyword arguments with values of any type, and all hemispheres, time spans and instruments", "why_tests_cant": "The set of keyword arguments and the order in which they are given are unbounded; tests give one or two keywords and look at the resulting data, not at which call received which argument.", "anchors": ["ocbpy/instruments/pysat_instruments.py:205-235", "ocbpy/instruments/pysat_instruments.py:437-439", "ocbpy/_boundary.py:1084-1088"]}
{"id": "C175", "title": "The type of max_delta does not change which boundaries a DualBoundary pairs", "statement": "A DualBoundary constructed with max_delta=60.0 has the same pairs as one constructed with max_delta=60: the constructor only asks for a positive number and the text of the object shows it with one decimal.", "quantifier": "all pairs of boundary series with any figures of merit, all selection criteria, all non-negative time differences", "why_tests_cant": "The failure depends on the relation of two whole series of times; a float works on data in which only one OCB record is paired, and tests use the default.", "anchors": ["ocbpy/_boundary.py:1094", "ocbpy/_boundary.py:1144", "ocbpy/_boundary.py:1274-1293", "ocbpy/cycle_boundary.py:184-186", "ocbpy/cycle_boundary.py:214-221"]}
{"id": "C176", "title": "normal_coord magnifies distances uniformly, and larger boundaries give higher OCB latitudes", "statement": "For a record with hemisphere ±1 and a reference latitude of that hemisphere off the pole, and two locations with the same radius correction: the distance in the polar plane between the two OCB locations is (90 - |boundary_lat|) / (r + correction) times the distance between the two magnetic locations. So the OCB latitudes differ by at most this factor times (difference of latitude + colatitude times the difference of the local times as an angle). Of two boundaries with the same centre and reference latitude, the one with the larger radius gives every location the same OCB local time and an OCB latitude nearer to the pole of its hemisphere, with equality exactly at the centre of the circle.", "quantifier": "all records, all real latitudes and local times, all corrections, all pairs of radii", "why_tests_cant": "the tests convert a few fixed locations and compare numbers; an error bound for all pairs of locations and monotonicity in the radius concern infinitely many pairs", "anchors": ["ocbpy/_boundary.py:OCBoundary.normal_coord"]}
{"id": "C177", "title": "OCBoundary.normal_coord and revert_coord treat a single value like an array filled with it", "statement": "Every location argument of OCBoundary.normal_coord and revert_coord is documented as 'float or array-like'. For any mix of single values and arrays of one length n (latitudes, local times, corrections, heights), the outputs are arrays of length n holding what the call with every single value written out n times gives; with single values throughout the outputs are single values.", "quantifier": "all records (or none selected), all lengths, all mixes of single values and arrays, NaN included", "why_tests_cant": "the tests use a few fixed mixes on fixed data; which argument decides the shape of an output differs between the early NaN return and the computed result, and between outputs", "anchors": ["ocbpy/_boundary.py:OCBoundary.normal_coord", "ocbpy/_boundary.py:OCBoundary.revert_coord"]}
{"id": "C178", "title": "DualBoundary.normal_coord and revert_coord treat a single value like an array filled with it and refuse different lengths", "statement": "For any mix of single values and arrays of one length n, DualBoundary.normal_coord and revert_coord give arrays of length n holding what the call with every single value written out gives, also when the only array is the heights, the corrections or the magnetic local times. Arrays of different lengths among latitudes, local times and heights raise ValueError.", "quantifier": "all pairs of boundaries, stores, lengths and mixes of single values and arrays", "why_tests_cant": "the tests mix single values and arrays for a few arguments of fixed length; that entries are silently dropped is visible only for mixes nobody wrote down", "anchors": ["ocbpy/_boundary.py:DualBoundary.normal_coord", "ocbpy/_boundary.py:DualBoundary.revert_coord"]}
{"id": "C179", "title": "DualBoundary.calc_r treats a single value like an array filled with it", "statement": "Every argument of DualBoundary.calc_r is documented as 'array-like or float'. For any mix of single values and arrays of one length the radii are those of the call with every single value written out, and single values throughout give single radii.", "quantifier": "all pairs of boundaries or no current pair, all lengths and mixes of single values and arrays", "why_tests_cant": "the tests call calc_r with all single or all array arguments and a current pair; whether a mix works depends on which region the latitudes are in", "anchors": ["ocbpy/_boundary.py:DualBoundary.calc_r"]}
{"id": "C180", "title": "Stored boundary longitudes belong to the stored local times", "statement": "After any sequence of get_aacgm_boundary_lat calls, every record with stored boundary latitudes also has stored longitudes, and these are the conversion of the local times stored for that record at the time of that record.", "quantifier": "all boundaries, all conversions of local time to longitude, all arrays, all sequences of calls with any record indices, overwrite and set_lon", "why_tests_cant": "The attributes aacgm_boundary_lat, aacgm_boundary_mlt and aacgm_boundary_lon are written independently; whether they stay together depends on the whole history of calls, of which tests make only one or two.", "anchors": ["ocbpy/_boundary.py:743-849", "ocbpy/_boundary.py:1447", "ocbpy/_boundary.py:1623", "ocbpy/_boundary.py:1802"]}
{"id": "C181", "title": "Dual coordinates do not depend on how the locations are arranged", "statement": "DualBoundary.normal_coord gives an array of several dimensions the coordinates that it gives the same locations as a one-dimensional array.", "quantifier": "all current pairs of boundaries with a finite ordered outline, all arrays of any number of dimensions and any shape, all stored boundaries", "why_tests_cant": "The result of one location can depend on every other location of its row; tests use one-dimensional arrays of a few locations.", "anchors": ["ocbpy/_boundary.py:1451-1481"]}
{"id": "C182", "title": "Reverting dual coordinates does not depend on how the locations are arranged", "statement": "DualBoundary.revert_coord gives an array of several dimensions the locations that it gives the same coordinates as a one-dimensional array, and needs local times in the same cases.", "quantifier": "all current pairs of boundaries, all arrays of any number of dimensions and any shape, with and without local times", "why_tests_cant": "Whether all locations are taken to be inside the OCB depends on a comparison of the number of such locations with the length of the first dimension; coincidences of the two are not met by a few examples.", "anchors": ["ocbpy/_boundary.py:1590-1594", "ocbpy/_boundary.py:1633-1650"]}
{"id": "C183", "title": "The radii of calc_r do not depend on how the locations are arranged", "statement": "DualBoundary.calc_r gives an array of several dimensions the radii that it gives the same locations as a one-dimensional array.", "quantifier": "all current pairs of boundaries, all arrays of any number of dimensions and any shape, all stored boundaries", "why_tests_cant": "The result of one location can depend on every other location of its row.", "anchors": ["ocbpy/_boundary.py:1787-1815"]}
{"id": "C184", "title": "Scaled variables are accurate in double precision", "statement": "normal_evar and normal_curl_evar give, in double precision, the exact scaled value up to a few units in the last place, with the right sign, and keep the order of values.", "quantifier": "all values and radii, all roundings to the nearest double (ties left open), including subnormal results for normal_evar", "why_tests_cant": "Tests compare a few values with a tolerance; a bound on the rounding error for all doubles cannot be sampled.", "anchors": ["ocbpy/ocb_scaling.py:1112-1141", "ocbpy/ocb_scaling.py:1144-1173"]}
{"id": "C185", "title": "Scaling to the same radius, or to another and back, changes nothing", "statement": "In double precision, scaling from a radius to the same radius returns the value, and scaling to another radius and back returns the value.", "quantifier": "all doubles as values and radii", "why_tests_cant": "The equality holds for most doubles and fails for rare ones, whose bits a test does not hit.", "anchors": ["ocbpy/ocb_scaling.py:1139", "ocbpy/ocb_scaling.py:1171"]}
{"id": "C186", "title": "normal_coord is accurate in double precision", "statement": "The OCB latitude and local time that normal_coord computes with doubles are near the exact ones: the latitude within (260 S + 1) / 2^46 degrees, S the scaling from magnetic to OCB degrees, and the local time within (1920 / d + 1) / 2^46 hours up to whole days, d the distance of the location from the boundary centre in degrees; the local time is at least 0 and below 24.", "quantifier": "all records with moderate centre and radius (|phi_cent| up to 360, |r_cent| up to 90, corrected radius between 2^-20 and 2^20, reference latitude at least 2^-20 degrees from the pole), all latitudes of the hemisphere, all local times up to 48 hours, all roundings to the nearest double, all libraries whose elementary functions keep the stated error bounds", "why_tests_cant": "Tests compare a few locations with a tolerance; near the centre the angle is badly conditioned, and a bound for all doubles cannot be sampled.", "anchors": ["ocbpy/_boundary.py:612-634"]}
{"id": "C187", "title": "revert_coord is accurate in double precision", "statement": "The magnetic latitude and local time that revert_coord computes with doubles are near the exact ones: the latitude within (220 S + 42) / 2^46 degrees, S the scaling from OCB to magnetic degrees, and the local time within (16 (104 S + 15) / N + 1) / 2^46 hours up to whole days, N the exact magnetic colatitude; the local time is at least 0 and below 24.", "quantifier": "all records and libraries as in C186, all OCB latitudes of the hemisphere, all local times up to 48 hours, all radius corrections", "why_tests_cant": "As for C186: the local time is badly conditioned near the magnetic pole.", "anchors": ["ocbpy/_boundary.py:699-717"]}
{"id": "C188", "title": "Going to OCB coordinates and back in double precision returns the location", "statement": "When the OCB latitude that normal_coord computes is in the hemisphere of the boundary, revert_coord with the radius correction of normal_coord leads back to the magnetic latitude within (264 S + 278) / 2^46 degrees and to the local time within (16 (131 S + 135) / colatitude + 1) / 2^46 hours up to whole days, S the scaling from OCB to magnetic degrees; near the boundary centre too, where the OCB local time is arbitrary.", "quantifier": "all records, locations, roundings and libraries as in C186", "why_tests_cant": "The intermediate local time may be wrong by any amount near the centre, and the errors of the two directions could add up; no sample of locations bounds them.", "anchors": ["ocbpy/_boundary.py:612-634", "ocbpy/_boundary.py:699-717"]}
{"id": "C189", "title": "archav undoes hav in double precision", "statement": "For an angle of magnitude up to half a turn the haversine computed with doubles lies in [0, 1] and archav of it is a number, never NaN, and recovers the magnitude of the angle to the precision of doubles.", "quantifier": "all angles with |a| <= pi, all roundings to the nearest double, all libraries whose sine, square root and inverse sine keep the stated error bounds", "why_tests_cant": "Tests invert a few angles with a tolerance. A haversine one rounding above 1 would become NaN, and the loss of accuracy near half a turn is only visible at doubles that no test picks.", "anchors": ["ocbpy/ocb_scaling.py:1176-1242"]}
{"id": "C190", "title": "calc_vec_pole_angle is accurate in double precision", "statement": "Away from the meridian of the two poles calc_vec_pole_angle computed with doubles is a number, never NaN, and within 1/(2^32 V) degrees of the angle at the data of the spherical triangle with the two poles, V = cos(data_lat) cos(pole_lat) |sin(difference of local time)|. Whether it is below 90 degrees, which decides the quadrant of the pole, is exact unless the angle is that near 90.", "quantifier": "all local times up to 24 hours in magnitude, all latitudes below 90 degrees in magnitude with a pole off the equator, V at least 2^-19; all roundings to the nearest double, all libraries whose elementary functions keep the stated error bounds", "why_tests_cant": "The half-angle formula takes a square root and an arc cosine of rounded numbers that may leave [0, 1], which would give NaN; tests compare a few angles with a tolerance and cannot say where that starts.", "anchors": ["ocbpy/vectors.py:48-142"]}
{"id": "C191", "title": "adjust_vector in double precision gives numbers, keeps the magnitude and, to half the digits, the direction", "statement": "In the general case adjust_vector computed with doubles gives numbers, never NaN: the magnitude computed is never below the north component, so that the arc cosine is defined. The horizontal magnitude is kept to 2^-49 of itself; the north and east components are those of the exact rotation to 2^-23 of the magnitude, and not better in general, since the azimuth is an arc cosine. Vectors below about 1e-162 turn into NaN.", "quantifier": "all vectors of doubles with magnitude from 2^-500 to 2^500, all pole angles from 0 to 180 degrees, all sixteen combinations of quadrants that fit; all roundings to the nearest double, all libraries whose elementary functions keep the stated error bounds", "why_tests_cant": "Whether a quotient can be rounded above one, and how much an arc cosine near one amplifies a rounding, is a matter of single bits; tests compare a few vectors with a tolerance.", "anchors": ["ocbpy/vectors.py:289-514", "ocbpy/vectors.py:632-708"]}
{"id": "C192", "title": "define_pole_quadrants in double precision ends and finds the documented quadrant", "statement": "define_pole_quadrants computed with doubles ends with exactly one quadrant from 1 to 4, a northern one exactly for pole angles below 90 degrees, and it is the documented quadrant.", "quantifier": "all local times up to 24 hours in magnitude, all pole angles; all roundings to the nearest double", "why_tests_cant": "The loops add and subtract 24 hours with rounding until a comparison holds; whether they end, and which side of the meridian the rounded difference is on, is a question about all doubles.", "anchors": ["ocbpy/vectors.py:145-228"]}
{"id": "C193", "title": "The whole rotation of a vector is accurate in double precision", "statement": "The pole angle, the quadrants and the rotation of a vector computed one after the other with doubles end in numbers; the two components are those along the direction of the destination pole on the sphere and 90 degrees clockwise of it, to (2^-23 + 2^-37 / V) of the magnitude, V = cos(data_lat) cos(pole_lat) |sin(difference of local time)|, and the magnitude is kept to 2^-49.", "quantifier": "all local times up to 24 hours in magnitude, all latitudes below 90 degrees in magnitude with a pole off the equator, V at least 2^-18, all vectors of doubles with magnitude from 2^-500 to 2^500; all roundings to the nearest double, all libraries whose elementary functions keep the stated error bounds", "why_tests_cant": "Errors of several rounded steps with case distinctions on rounded numbers are composed; the tests compare a few vectors with a tolerance.", "anchors": ["ocbpy/vectors.py:48-710", "ocbpy/ocb_scaling.py:704-797"]}
{"id": "C194", "title": "Numbers in the output files", "statement": "A finite number written with k decimals is one word that reads, digit by digit, as a number with k decimals, at most half a unit of the last decimal away, on the same side of zero; greater numbers are not read as less; and writing again what was read, also after rounding to a double, changes nothing.", "quantifier": "all real numbers, all numbers of decimals from 1; for the reading as doubles up to fifteen digits", "why_tests_cant": "The tests compare output files with stored ones; that no number is off by more than half a unit or breaks a column is a statement about all numbers.", "anchors": ["ocbpy/instruments/vort.py:199-208", "ocbpy/instruments/supermag.py:177-199"]}
{"id": "C195", "title": "Limits in the output files", "statement": "Local times in the output files are below 24 hours, points equatorward of the boundary are read as equatorward of it, values other than zero are read as such, and the magnitude of a vector fits its components.", "quantifier": "all values of the rows", "why_tests_cant": "The violations are in small intervals below the limits, which sample data do not meet.", "anchors": ["ocbpy/instruments/vort.py:207", "ocbpy/instruments/supermag.py:189-198"]}
{"id": "C196", "title": "The vorticity output file can be read back", "statement": "Each line of the file of vort2ascii_ocb has as many words as the header has names, and load_ascii_data with the first two columns as date and time reads back the times exactly and the numbers to half a unit of the last decimal.", "quantifier": "all rows with times of whole seconds, NaN included", "why_tests_cant": "Two functions of different modules have to agree on the form of all lines; the tests compare texts of fixed files.", "anchors": ["ocbpy/instruments/vort.py:160-210", "ocbpy/instruments/general.py:54-259"]}
{"id": "C197", "title": "The SuperMAG output file can be read back", "statement": "load_ascii_data, with the first two columns as date and time and the station names as texts, reads the file of supermag2ascii_ocb: the times and names are the same and each number is in the column of its name, to half a hundredth.", "quantifier": "all rows with times of whole seconds and station names without blanks up to 50 letters, NaN included", "why_tests_cant": "Header and lines are put together in different orders in the code; that each of the nineteen columns is under its name for all rows is not settled by one compared file.", "anchors": ["ocbpy/instruments/supermag.py:134-204", "ocbpy/instruments/general.py:54-259"]}
{"id": "C198", "title": "The radius corrections are accurate in double precision", "statement": "The elliptical and harmonic corrections computed in double precision refuse exactly the instruments and methods refused in exact arithmetic, always return otherwise, and are within 41 / 2^46 and 32 / 2^46 degrees of the exact formulas.", "quantifier": "all local times up to 48 hours in absolute value, all instruments and methods", "why_tests_cant": "The tests compare a few local times with stored numbers; that no local time loses digits is a statement about all of them.", "anchors": ["ocbpy/ocb_correction.py:49-89", "ocbpy/ocb_correction.py:92-166"]}
{"id": "C199", "title": "Boundary latitudes are accurate in double precision", "statement": "A boundary latitude that is not NaN is that of a point whose distance from the boundary centre is the corrected radius up to 390 / 2^46 degrees. It is near the exact latitude if the meridian clearly cuts the circle, and NaN if it clearly does not. A boundary around the pole has a latitude at every local time, and wrapped local times are in the half-open day.", "quantifier": "all records with centres within 90 degrees and radii up to 128 degrees, all local times of a day", "why_tests_cant": "A difference of squares under a root loses digits near tangents; only an error analysis over all records shows that the point stays on the circle.", "anchors": ["ocbpy/_boundary.py:785-837"]}
{"id": "C200", "title": "Boundary locations have the reference latitude in double precision", "statement": "A location stored by get_aacgm_boundary_lat, put into normal_coord, has the reference latitude as OCB latitude, up to (650 S + 1) / 2^46 degrees, where S is the scaling of the record.", "quantifier": "all records with radii from 2^-20 to 128 degrees, all local times of a day", "why_tests_cant": "It joins two methods with different formulas, with rounding in both; tests compare each with stored numbers.", "anchors": ["ocbpy/_boundary.py:811-837", "ocbpy/_boundary.py:612-634"]}
{"id": "C201", "title": "Dual-boundary coordinates in double precision, by region", "statement": "In double precision every location belongs to exactly one of the regions of a DualBoundary and gets its latitude near the exact one. For records whose circles hold the magnetic pole with a degree to spare: a location at least 2^-29 degrees poleward of both boundaries keeps its OCB latitude, one between them is within (140000 S + 4) / 2^46 degrees and one equatorward of both within (35000 S + 2) / 2^46 degrees of the exact linear map, S its scaling. Full claim: this holds for all locations, also those on a boundary.", "quantifier": "for all records of that kind, locations, roundings to the nearest, and libraries of elementary functions with the stated errors", "why_tests_cant": "Which region a location next to a boundary gets depends on the last digit of two different computations; a few test locations cannot rule out that one falls between the regions", "anchors": ["ocbpy/_boundary.py:1425-1492", "ocbpy/_boundary.py:785-837"]}
{"id": "C202", "title": "Reverting dual-boundary coordinates in double precision", "statement": "In double precision revert_coord of a DualBoundary has one outcome for every dual location: at and poleward of the OCB reference latitude that of the OCB alone, otherwise a latitude within 103000 / 2^46 degrees of the exact linear map, at the magnetic local time that was given.", "quantifier": "for all records whose circles hold the magnetic pole with a degree to spare, all dual latitudes, roundings and libraries", "why_tests_cant": "The errors of differences of nearly equal boundary latitudes and of quotients can only be bounded by analysis", "anchors": ["ocbpy/_boundary.py:1553-1651"]}
{"id": "C203", "title": "Round trips of dual-boundary coordinates in double precision", "statement": "A location away from the boundaries (2^-29 degrees poleward of both, 2^-27 degrees otherwise) is led back by revert_coord from what normal_coord gave: within (264 S + 278) / 2^46 degrees poleward, (243000 + 4 S) / 2^46 degrees between the boundaries and (138000 + 2 S) / 2^46 degrees equatorward, S the scaling back to magnetic degrees; the local time of the last two is the one that was given.", "quantifier": "for all records whose circles hold the magnetic pole with a degree to spare, all locations, roundings and libraries", "why_tests_cant": "normal_coord chooses the region by magnetic latitude and revert_coord by dual latitude; that both choices agree for all locations needs the error bounds of both", "anchors": ["ocbpy/_boundary.py:1425-1492", "ocbpy/_boundary.py:1553-1651"]}
{"id": "C204", "title": "What the loaders of instrument files guarantee", "statement": "Whatever the lines of the file: a table loaded by load_vorticity_ascii_data is not empty, all of its columns have one length, its times are whole seconds in the years 1 to 9999, and each of its numbers is the conversion of a word of the file; the times loaded by load_supermag_ascii_data are whole seconds in those years, and all of its columns have one length.", "quantifier": "for all lists of lines, well formed or not, and all conversions of words to numbers", "why_tests_cant": "The guarantees hold for whatever a file contains, also for damaged files; tests load two good files", "anchors": ["ocbpy/instruments/vort.py:216-363", "ocbpy/instruments/supermag.py:207-308"]}
{"id": "C205", "title": "A vorticity file with all columns can be read back", "statement": "A file written by vort2ascii_ocb with save_all is read back by load_ascii_data: the names of the columns are those of the header, the times are those of the rows, the numbers of the input columns are the same doubles, and the OCB columns are within the error of their digits. Full claim: for any number of rows.", "quantifier": "for all lists of rows whose numbers are doubles or NaN and whose times have four-digit years, all correct conversions of texts to doubles and all spellings of doubles which that conversion reads back", "why_tests_cant": "The header and the values are written by separate pieces of code; that each value is under its name has to hold for all files, and the tests compare with one stored file", "anchors": ["ocbpy/instruments/vort.py:162-210", "ocbpy/instruments/general.py:54-259"]}
{"id": "C206", "title": "From a vorticity file to the output and back", "statement": "For any vorticity input file and boundary, if vort2ascii_ocb with save_all writes a file of two or more rows, then load_ascii_data reads it, and there is an increasing list of rows of the input such that the times and all input columns are those of these rows, unchanged.", "quantifier": "for all input lines, boundaries with their cursor at or above -1, tolerances, hemispheres and scaling functions", "why_tests_cant": "The rows are chosen by matching times, cut down by hemisphere and written by separate loops; an index used for a wrong list shifts columns against each other, only for some data", "anchors": ["ocbpy/instruments/vort.py:30-210", "ocbpy/instruments/vort.py:216-363", "ocbpy/instruments/general.py:54-259"]}
{"id": "C207", "title": "From an instrument file to the usual output and back", "statement": "For any vorticity or SuperMAG input file and boundary, if the conversion writes a file of two or more rows, then load_ascii_data reads it, and there are rows of the input, none used twice, such that times, station identifiers and indices are those of these rows and the other columns show, to their digits, the values of these rows, and for vorticity data the location that the boundary gives.", "quantifier": "for all input lines (for SuperMAG files: with index lines of the known names and identifiers of up to 50 letters), boundaries with their cursor at or above -1, tolerances, hemispheres and scaling functions", "why_tests_cant": "Reading, selecting, grouping by time, formatting and reading again are separate pieces of code; a shift between columns shows only for some selections, and the tests compare one stored file", "anchors": ["ocbpy/instruments/vort.py:30-363", "ocbpy/instruments/supermag.py:24-308", "ocbpy/instruments/general.py:54-259"]}
{"id": "C208", "title": "From satellite passes to loaded boundaries", "statement": "A boundary file that format_ssj_boundary_files writes is loaded by the class for its boundary with instrument 'dmsp-ssj': the records are the passes of the hemisphere whose time lies in the asked window, in the order of the files, each with the time halfway between the crossings cut to seconds, and with the spacecraft, the quality, the crossings and the smallest circle through them to half a thousandth of a degree; with such a record both crossings are converted to the reference latitude, up to (90 - |reference latitude|) * 0.00126 / radius.", "quantifier": "for all lists of CSV files with two or more passes each, hemispheres, boundaries, magnetic coordinates, windows and reference latitudes; times from the year 1000 on", "why_tests_cant": "Writing and loading are tested apart from each other with stored files; a change in the order of the columns, in the number of decimals or in the header shows only when every column of a file that was just written is compared with the pass it came from", "anchors": ["ocbpy/boundaries/dmsp_ssj_files.py:305-420", "ocbpy/_boundary.py:288-451", "ocbpy/_boundary.py:953-971"]}
{"id": "C209", "title": "Passes are read from the CSV files by the names of their columns", "statement": "For every daily CSV file of boundary passes whose name follows the archive's pattern, the satellite and date come from the name, and each pass gets exactly the values found in its own row under the fourteen named columns, wherever these columns stand. The order of the columns, further columns and comment lines do not change what is read. A file with fewer than two rows is left out. A missing column or a cell that is no number stops the conversion with a ValueError. Refuted: a header line that itself starts with the comment mark cannot be read.", "quantifier": "all file names of the archive's pattern, all header orders with any further columns, all numbers of rows, all cell texts, all comment lines", "why_tests_cant": "The tests read a few distributed files with one fixed header, so a lookup by position instead of by name, or a mix-up of two of the fourteen columns, shows in no other layout; whether reading depends on the names alone is a statement about all layouts.", "anchors": ["ocbpy/boundaries/dmsp_ssj_files.py:336-378", "ocbpy/boundaries/dmsp_ssj_files.py:227-431"]}
{"id": "C210", "title": "Boundary coordinates added to an xarray set belong to the labels of their cells", "statement": "When boundary coordinates are added to data with named dimensions, each cell of the new variables, found by its labels (time, latitude, altitude and so on), holds the coordinates that a usable boundary record within the tolerance gives for the location with these same labels, or NaN if the data there were not selected or no record is near. With times and records in order the record is a nearest one and no selected cell within the tolerance is left NaN. Refuted for three layouts: as many latitudes as times (the latitude of another cell is used), latitude and local time that both depend on the time and a further dimension (no call gives a result), and latitude and local time that are both coordinates with one scaled variable (nothing is ever filled).", "quantifier": "all numbers and sizes of dimensions, all values including NaN and infinities, all times and boundary records, all tolerances, both hemispheres, all boundary libraries", "why_tests_cant": "The tests run a few fixed model grids and compare counts of finite values and minima or maxima; a mix-up of two axes, or a location of a neighbouring cell, keeps all of these. Whether labels agree is a statement about every cell of every shape.", "anchors": ["ocbpy/instruments/pysat_instruments.py:131-552"]}
{"id": "C211", "title": "Scaled variables of an xarray set are scaled cell by cell", "statement": "When a variable of an xarray set is scaled, each cell of the new variable, found by its labels, holds the scaled value that the variable has at these same labels, with the radius of the record that gave the coordinates of this cell, and NaN where no record was used. With increasing times of which all or no cells are used, and records that overlap them, the call gives a result. Refuted for a variable whose dimensions come in another order than those of the coordinates: the values of latitudes and altitudes are exchanged without an error.", "quantifier": "all sets of the layouts of C210 with dimensions in order, all values, all boundary records, all scaling functions", "why_tests_cant": "The tests check that scaled variables exist and that extreme values stay in a range, which an exchange of axes does not change.", "anchors": ["ocbpy/instruments/pysat_instruments.py:441-552", "ocbpy/instruments/pysat_instruments.py:555-640"]}
{"id": "C212", "title": "Vectors of an xarray set are computed cell by cell from their own labels", "statement": "When a vector whose components are variables of an xarray set is rotated and scaled, each cell of its new attributes, found by its labels, holds what the vector computation gives for the location with these labels, the record that gave the coordinates of this cell, and the components that the set has at these same labels: the same as for a table that has these values as a row. Cells without a record are NaN. With increasing times of which all or no cells are used, records that overlap them and vector names without ocb, the call gives a result. Refuted for components whose dimensions come in another order than those of the coordinates: the computation for one cell gets the component of another one without an error. Refuted as well for vectors whose names contain ocb with another boundary than an OCBoundary: attributes are written under names that were not made, and no call fills any cell.", "quantifier": "all sets of the layouts of C210 with dimensions in order, all vectors and entries, all values, all boundary records, all vector computations", "why_tests_cant": "The tests compare attributes for one set with a single value per time, where any exchange of cells gives the same numbers.", "anchors": ["ocbpy/instruments/pysat_instruments.py:441-552", "ocbpy/instruments/pysat_instruments.py:269-299"]}
{"id": "C213", "title": "The added coordinates place each row relative to the nearest boundary and lead back to the row's own location", "statement": "When the columns of an OCBoundary are added to a table or an xarray set with magnetic coordinates, each row or cell with a finite location in the hemisphere either has only NaN in the new columns, or its new latitude and local time place it relative to the circle of a usable record within the tolerance: its colatitude is the distance from the centre of the circle in units of the corrected radius, it is poleward of the reference latitude exactly if the location is inside the circle, and converting the three new values back with this record gives the latitude and the local time that the row had. The scaled variables of the row are its values times the ratio of the corrected radius and the reference radius, squared for curls. For rows and records in order the record is a nearest one and no selected row within the tolerance is left out.", "quantifier": "all tables and all sets of the layouts of C210 and C211, all circles and corrections with positive radius, both hemispheres, all times, tolerances and cursor positions", "why_tests_cant": "The tests of the instrument module compare extreme values of new columns for one file; a row that gets the coordinates of its neighbour, or a record two places off, stays within these extremes. The claim joins the time matching, the masks and the geometry over all tables.", "anchors": ["ocbpy/instruments/pysat_instruments.py:131-552", "ocbpy/_boundary.py:536-740"]}
{"id": "C214", "title": "The vector columns added to a table or set hold the components towards the centre of the row's boundary and to the right of it", "statement": "When the columns of a northern OCBoundary are added to a table or an xarray set with magnetic locations and vectors, each row or cell with a finite northern location either has only NaN in the new columns, or there is a usable record within the tolerance such that the new columns of each vector hold the component of the row's own vector along the great circle towards the centre of this record's circle, the component to the right of it, and the vertical component, all times the ratio of the corrected radius and the reference radius (squared for a curl), the magnitude of the scaled vector, the corrected radius and the reference radius. For rows and records in order the record is a nearest one and no selected row within the tolerance is left out.", "quantifier": "all tables and all sets of the layouts of C212, all vectors given by columns of components with either scale function of the package, all northern circles and corrections with positive radius, all rows and cells in general position, all times, tolerances and cursor positions", "why_tests_cant": "The tests of the instrument module compare the extreme values of a few new columns for one file. A vector scaled by another row's radius, turned with another record's centre or with components exchanged in one quadrant stays within these extremes for other rows. The claim joins the time matching, the dictionary of the vector, the constructor, set_ocb and the copying of attributes for all tables.", "anchors": ["ocbpy/instruments/pysat_instruments.py:441-516", "ocbpy/ocb_scaling.py:106-240", "ocbpy/ocb_scaling.py:629-822"]}
{"id": "C215", "title": "The coordinates added with a dual boundary place each row relative to both boundaries of the nearest pair", "statement": "When the columns of a DualBoundary are added to a table or an xarray set with magnetic coordinates, each row or cell with a finite location either has only NaN in the new columns, or there is a usable pair of boundaries within the tolerance such that, if the meridian of the location crosses both boundaries of this pair in order, the new latitude is at or poleward of the OCB reference latitude exactly if the location is at or poleward of the OCB, between the reference latitudes exactly if it is between the boundaries, equatorward of the EAB reference latitude exactly if it is equatorward of the EAB, linear between the boundaries and from the EAB to the equator, and DualBoundary.revert_coord gives the location of the row back. The third of the four values of normal_coord, the OCB latitude, is not mistaken for the correction. For rows and pairs in order the pair is a nearest one and no selected row within the tolerance is left out.", "quantifier": "all tables and all sets in the layouts of C210, all pairs of circles and corrections, both hemispheres, all locations, all stored boundary locations, all times, tolerances and cursor positions", "why_tests_cant": "The tests of the instrument module with a dual boundary compare a few values of one file. A row placed with the boundary of another pair, in the wrong region, or with the OCB latitude written as correction shows only for other rows. The claim joins the time matching, the piecewise coordinates and the writing of the columns for all tables.", "anchors": ["ocbpy/instruments/pysat_instruments.py:435-474", "ocbpy/_boundary.py:1321-1492", "ocbpy/_boundary.py:1494-1689"]}
{"id": "C216", "title": "Variables are scaled with the radii of the region that they are in", "statement": "When a variable of a table or an xarray set is scaled with a DualBoundary, the factor is the ratio of the unscaled and the scaled radius that DualBoundary.calc_r gives for the new coordinates of the row or cell, squared for a curl. (True for rows and cells in the polar cap. False elsewhere: all rows are scaled with the radii of the open-closed boundary, though calc_r gives those of the auroral oval or of the region equatorward of it.)", "quantifier": "all tables and all sets in the layouts of C211, all pairs of circles and corrections, both hemispheres, all rows and cells in the polar cap, all times, tolerances and cursor positions; one witness for the negation", "why_tests_cant": "The tests only check that the scaled columns have the expected extremes as computed by the same code. Whether the radii used are those of the region needs a statement for all rows that relates two methods that never call each other.", "anchors": ["ocbpy/instruments/pysat_instruments.py:430-433", "ocbpy/instruments/pysat_instruments.py:518-539", "ocbpy/_boundary.py:1732-1830"]}
{"id": "C217", "title": "Vectors added with a dual boundary are turned and scaled by the open-closed boundary of the nearest pair", "statement": "When vectors of a table or an xarray set with magnetic coordinates are added with a northern DualBoundary, each row or cell with a finite location either has only NaN in the new columns, or there is a usable pair of boundaries within the tolerance such that, if the meridian of the location crosses both boundaries of this pair in order, the new columns of every vector in general position hold the components towards the centre of the open-closed boundary of this pair and to the right of it and the vertical one, times the ratio of its corrected radius and its reference radius (squared for curls), the magnitude of the result, and the two radii. This holds in the polar cap, in the auroral oval and equatorward of it; the equatorward boundary has no part in it, and the open-closed boundary is found through the list of pairs, not at the position of the pair. For rows and pairs in order the pair is a nearest one and no selected row within the tolerance is left out. If all rows of a table that are used meet these conditions for all pairs, the call returns the columns.", "quantifier": "all tables and all sets in the layouts of C212, plans and vectors in general position, all pairs of circles and corrections, all lists of pairs, all stored boundary locations, all locations, times, tolerances and cursor positions", "why_tests_cant": "The tests of the instrument module compare the extremes of a few columns of one file. An open-closed boundary taken at the position of the pair instead of through the list of pairs gives plausible vectors as long as the two lists of boundaries agree. The claim joins the time matching, the dual coordinates and the turning of vectors for all tables.", "anchors": ["ocbpy/instruments/pysat_instruments.py:435-516", "ocbpy/ocb_scaling.py:629-723", "ocbpy/_boundary.py:1321-1492"]}
{"id": "C218", "title": "Vectors added to southern tables are those in the frame of the southern boundary", "statement": "When vectors of a table with magnetic coordinates are added with a southern OCBoundary, the new columns of a row with a finite location hold the components away from the centre of the circle of a usable record within the tolerance (north) and to the right of that direction (east), and the vertical one, times the ratio of the corrected radius and the reference radius (squared for curls), the magnitude of the result, and the two radii. (True for circles centred at the magnetic pole, and for the vertical component, the magnitude and the radii of all circles. False for the horizontal components of all other circles: the centre is placed in the northern hemisphere, so that in every row that is filled a vector to the east in general position gets a north component of the wrong sign.)", "quantifier": "all tables, plans and vectors in general position, all southern circles and corrections, all locations, times, tolerances and cursor positions", "why_tests_cant": "The tests of the instrument module compare the extremes of columns with stored values, which came from the same code. That the sign is wrong for all southern circles off the pole needs the geometry for all locations.", "anchors": ["ocbpy/instruments/pysat_instruments.py:435-516", "ocbpy/ocb_scaling.py:687-720", "ocbpy/vectors.py:16-45"]}
{"id": "C219", "title": "Rows with geographic coordinates are placed at their magnetic location at their own time", "statement": "When add_ocb_to_data adds the columns of an OCBoundary to a table with geographic coordinates, a row with a finite location either is blank or its new coordinates and scaled variables are those of the magnetic location that aacgmv2 gives for its latitude, solar local time and height at the time of the row, relative to the circle of a usable record within the tolerance. (True with tolerance zero. In general the location is converted, from local time to longitude and from there to magnetic coordinates, at the time of the matched record; a row at midnight matched with a record one minute later is placed with a longitude that is a quarter of a degree off.)", "quantifier": "all tables and plans, all behaviours of aacgmv2, all circles and corrections, all locations and heights, times, tolerances and cursor positions", "why_tests_cant": "The tests of the instrument module never give loc_coord, so that all their coordinates are magnetic. The conversion depends on the library at every time and place.", "anchors": ["ocbpy/instruments/pysat_instruments.py:458-539", "ocbpy/_boundary.py:592-601"]}
{"id": "C220", "title": "Rows with geographic coordinates are placed between the boundaries of a dual object at their own time", "statement": "When add_ocb_to_data adds the columns of a DualBoundary to a table with geographic coordinates, a row with a finite location either is blank or, if the meridian of its magnetic location crosses both boundaries in order, its new coordinates place the magnetic location that aacgmv2 gives for its latitude, solar local time and height at the time of the row relative to both boundaries of a usable pair within the tolerance. (True with tolerance zero. In general the location is converted at the time of the matched pair, so that a row one minute away from its pair is placed elsewhere.)", "quantifier": "all tables and plans, all behaviours of aacgmv2, all pairs of circles and corrections, all locations and heights, times, tolerances and cursor positions, all stored boundary locations", "why_tests_cant": "The tests of the instrument module never give loc_coord, so that all their coordinates are magnetic. The conversion depends on the library at every time and place, and the coordinates on the region of the converted location.", "anchors": ["ocbpy/instruments/pysat_instruments.py:458-473", "ocbpy/_boundary.py:1411-1423"]}
