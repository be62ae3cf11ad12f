# Formal model of ocbpy: design

The code under study is `/repo/ocbpy` (pure Python on numpy and datetime). It is read as text and never run.
The model and the theorems are Lean 4 modules under `lean/Verif/`.

## Layout

* `Verif/Model/*.lean`: the model, function by function. Each definition cites the file and lines it models and lists its simplifications.
* `Verif/Lemmas/*.lean`: helper lemmas. Nothing here is a claim.
* `Verif/Props/*.lean`: small specifications that are independent of the model's helpers, the property theorems (named after the property ids) and the examples that show that each theorem's hypotheses can be met.
* `properties.jsonl`: the properties. `MANIFEST.json`: property to theorem table. `seeded/LOG.jsonl`: mutation experiments.

## Conventions of the model

* **Numbers.** Geometry and vector code is modelled over the real numbers (`ℝ`), with Mathlib's `Real.cos`, `Real.sin`, `Complex.arg` (for `arctan2`), `Real.arccos`, `Real.arcsin`, `Real.sqrt`. Rounding error is out of scope there. The number functions of `ocb_time.py`, the scaling functions and the coordinate transforms of `OCBoundary` are modelled a second time with every operation rounded to a double (`Model/Double`, `Model/ScaleDouble`, `Model/CoordDouble`), and so are `hav` and `archav` (`Model/HavDouble`), the radius corrections and boundary latitudes (`Model/BoundDouble`), the coordinates of `DualBoundary` (`Model/DualDouble`), `calc_vec_pole_angle` (`Model/PoleDouble`), `define_pole_quadrants` (`Model/QuadDouble`) and the general case of `adjust_vector` (`Model/TurnDouble`). Where a comparison against NaN matters, values are `Option ℝ` with `none` = NaN, and every comparison with `none` is false, as in IEEE 754. Infinities appear only where the code's behaviour on them is the subject (`fix_range`, merit limits).
* **Comparisons only.** Record selection and matching only compare numbers. There the model uses rationals extended by NaN and the two infinities. Every double is such a value and comparison is exact, so nothing is idealised.
* **Times** are integers (microseconds since an epoch); `timedelta.total_seconds()` comparisons are comparisons of microseconds (C152 shows that the rounding of `total_seconds` does not change them up to 272 years).
* **Exceptions** are values (`Except PyErr`).
* **Loops** are structural or well-founded recursions; for loops whose termination is a claim, a small-step version is modelled and related to the recursion.
* **Arrays** are lists; elementwise numpy code is modelled per element, and the array versions are modelled separately where the code has different array and scalar branches.
* **External code** is a parameter: `aacgmv2` conversions (`convert_latlon` takes a single height; an array of another length than one is refused with ValueError; the array functions return as many entries as they are given, a single value counting as one entry), the file system, `ssj_auroral_boundary`, logging. `datetime.strptime` is modelled for the directives the code uses.

## Trusted base

* Lean's kernel and the axioms `propext`, `Classical.choice`, `Quot.sound`. `AXIOMS.txt` lists the axioms of each theorem in the manifest, as printed by `#print axioms` (made by `tools/axioms.py`). No axiom is added; there is no `sorry`, `admit`, `native_decide` or `bv_decide`.
* The reading of the Python source: each definition's citation is the only link to the code.
* Real arithmetic instead of floating point for the geometry; in `Model/Double`, correct rounding of every operation by the hardware, no overflow, the error bounds `Lib.Ok` for numpy's elementary functions and `Lib.Wide` (hypotheses of C186 to C193 and C198 to C200, not axioms), and decimal literals read as the nearest double; Python's and numpy's documented semantics for the operations used (indexing with negative indices, NaN comparison, in-place update through `np.asarray`, dict ordering, `str.format` (in `OutText`: `{:.2f}` rounds the exact value, halves to even; `str` of a `datetime`), `float` of decimal texts, `strptime`).
* Library functions are models written from their documentation: `strptime` for the directives used (`Model/Strptime`), `numpy.genfromtxt` after it has split lines into cells (`Model/Ascii`, `Model/Init`), numpy's `full`, `meshgrid`, `reshape`, `transpose` and boolean indexing and xarray's `where(drop=True)` (`Model/Grid`), pandas `max(axis=1)` (`Model/Pysat`), pysat's assignment of metadata (`Model/Meta`), `str.split`, `str.replace`, `str.find`, `os.path.split`, `glob` (as a list of names).
* Not modelled: `aacgmv2` (a parameter), network and file access, the digits that `str.format` without a format gives for a float (a parameter which `float` reads back), plotting, the spelling of `repr` and `str` (what they show is modelled), logging, the network behind `zenodo_get` (a parameter of the model of the download), memory and performance.

## What is modelled

| code | model |
|------|-------|
| `ocb_time.py` | `Time`, `TimeText` (conversion of texts to times), `Strptime` (library), `Double` (the number functions in double precision, and the comparisons of time differences in `cycle_boundary.py`) |
| `_boundary.py` `OCBoundary`, `EABoundary` | `Init` (constructors 124-193 and 923-971, `inst_defaults` 288-326, `load` 328-451 from the lines of a file, what `__repr__` 195-235 and `__str__` 237-286 show), `BoundLon` (stored longitudes), `Load` (`load` after the file is read, stored locations), `Cycle` (cursor), `Coord` (coordinates, boundary locations), `Geo` (geographic coordinates 573-597, 720-738), `CoordDouble` (coordinates in double precision, with bounds on the errors of numpy's elementary functions as assumptions), `BoundDouble` (boundary latitudes 785-837 in double precision) |
| `_boundary.py` `DualBoundary` | `Pairs` (pairing, cursor), `Dual` (coordinates, stored locations), `DualDouble` (coordinates in double precision), `Geo` (geographic coordinates 1410-1424, 1665-1684), `DualInit` (constructor 1084-1129, `set_good_ind` and cycling on the whole object 1188-1319, what `__repr__` and `__str__` show 1131-1150; also the lines of `__str__` of the single boundaries 237-286), `FloatDelta` (`set_good_ind` with a float `max_delta`), `SelDict` (dictionaries of criteria as objects); coordinate methods of both classes with single values and arrays mixed: `CoordMix`, `DualGrid` (`normal_coord`, `revert_coord`, `calc_r` for arrays of several dimensions) |
| `cycle_boundary.py` | `Cycle` (matching), `Reselect` (matching with a `DualBoundary` and criteria), `FloatTol` (the messages that show the tolerance), `Track` (`satellite_track`) |
| `ocb_correction.py` | `Correction`, `BoundDouble` (in double precision) |
| `vectors.py` | `Vectors` (single values, and arrays throughout), `Mixed` (single values and arrays of one length in any mix), `Where` (`calc_dest_vec_sign` on its own; uninitialised entries of comparisons), `PoleDouble` (`calc_vec_pole_angle` in double precision), `TurnDouble` (general case of `adjust_vector` in double precision), `QuadDouble` (`define_pole_quadrants` in double precision, and all steps that turn one vector) |
| `ocb_scaling.py` | `Scaling` (constructor, setters, `set_ocb`, `scale_vector`, coordinate updates), `VectMag` (`update_vect_coords_to_mag`), `VectText` (what `__repr__` 152-180 and `__str__` 182-272 show), `VectSet` (assignments to attributes 274-330, 436-460, 546-610), `VectOps` (programs of operations on one object), `Trace` (`set_ocb` with the tracing method as an argument), `SetDual` (`set_ocb` with a `DualBoundary`, and with its OCB alone), `ScaleDouble` (the scaling functions 1112-1173 in double precision), `HavDouble` (`hav` and `archav` 1176-1242 in double precision) |
| `boundaries/files.py` | `Files` |
| `boundaries/dmsp_ssj_files.py` | `Dmsp` (file selection and boundary files; the boundary fit is a parameter), `DmspText` (the lines of the boundary files 306, 408-417), `DmspCsv` (reading of the CSV files 336-378; the conversion of a cell to a number is a parameter), `Fetch` (download, unpacking, output streams and the names of files, 44-172, 279-334, 434-489; `zenodo_get` and archives are parameters) |
| `instruments/general.py` | `Ascii`, `OutFile` (`test_file`) |
| `instruments/vort.py` | `Vort` (reading), `VortOut` (conversion), `OutFile` (names, output file), `OutText` (its lines), `SaveAll` (lines with `save_all`) |
| `instruments/supermag.py` | `Supermag` (reading, grouping), `SmagOut` (conversion, for `OCBoundary` objects), `SmagDual` (conversion with a `DualBoundary`), `OutFile` (names, output file), `OutText` (its lines) |
| `instruments/pysat_instruments.py` | `Pysat` (pandas data), `Grid` (xarray grids and masks), `XData` (xarray sets), `PysatOcb`, `PysatVect`, `PysatDual`, `PysatGeo`, `PysatGeoDual` (the package as the driver sees it, for both kinds of boundary and for geographic coordinates), `Meta` (metadata), `DualArgs` (keyword arguments) |

Calls with integers instead of floats, where this makes a difference: `Whole`.

## Plan per property

| id | modelled | proof |
|----|----------|-------|
| C01 | `fix_range` on one number over any ordered field with floor | well-founded induction on the loops; uniqueness by integer arithmetic |
| C02 | small-step array loop with NaN and infinite entries | ranking argument for finite entries; invariance argument for divergence at infinity |
| C03 C04 C05 | the conversion functions on top of `fix_range` | congruence lemmas and C01 |
| C06 | `datetime2hr` | linear arithmetic, lexicographic order |
| C07 C08 | decomposition of seconds, `strptime` on `%Y %j %H %M %S` numbers, day arithmetic | integer division lemmas; witness for the refuted half |
| C09 | `convert_time` control flow with the parser as a model of `strptime` | floor/ceil bounds; witness |
| C10 | `get_datetime_fmt_len`, formats as token lists | induction over tokens; witness |
| C11 C12 C13 | `get_next_good_ocb_ind`, `retrieve_all_good_indices` with Python indexing | induction on remaining records |
| C14-C17 | `match_data_ocb` for single boundaries and for dual boundaries (cycle method as parameter) | loop invariants, ranking function |
| C18 | the driver loop | refinement to a nearest-neighbour specification |
| C19-C23 | `DualBoundary.__init__`, `set_good_ind`, `rec_ind` setter, `get_next_good_ind` | loop invariants |
| C24-C29 | `normal_coord`, `revert_coord`, `get_aacgm_boundary_lat` for one point | Euclidean geometry in the polar plane, `Complex.arg` |
| C30 C38 | cache lists as state machines | induction over call lists |
| C31 | heap cell model of the input array | witness for the refuted claim, frame theorem for the rest |
| C32 C33 C34 | Cartesian conversion, time filter, constructor | trigonometry of `arg`; list filters; case analysis |
| C35 C36 C37 C39 | piecewise formulas of `DualBoundary` | field arithmetic; geometry for the partition |
| C40 | `calc_vec_pole_angle` with `hav`/`archav`/Vincenty terms | half-angle formula to law of cosines |
| C41-C46 | `vectors.py` per element, all sixteen quadrant pairs | case analysis and trigonometric identities |
| C47 C48 C49 C50 C51 | `ocb_scaling.py` functions and the `VectorData` state | algebra; case analysis; state-machine invariant |
| C52 | `ocb_correction.py` with its coefficient tables | bounds on trigonometric sums |
| C53 C54 | `get_boundary_files` name parsing and `get_default_file` choice | list induction |
| C55 C56 | DMSP formatting and selection | geometry composed with C24, C32 |
| C57 C58 | the two line-oriented parsers | round trip against a renderer |
| C59 C60 | driver loops including the `None` comparison | invariants; witness |
| C61 | the file-name decision | case analysis over all strings; witnesses |
| C62 | band and latitude cut of `satellite_track` | field arithmetic; witness |
| C63-C65 | stored locations and the `DualBoundary` methods as state changes | induction over calls; witnesses |
| C66 C67 C68 | scalar and array branches of `vectors.py`; the chain pole angle, quadrants, rotation | spherical triangle with destination pole; witness in the south |
| C69 C71-C75 C77 | `VectorData` from construction to `set_ocb` | composition of C40, C42, C24; witnesses for shapes, hemispheres and missing arguments |
| C78 C79 | names outside the convention, choice by instrument | list lemmas; witnesses |
| C80-C83 | DMSP crossings, windows, files and their order | circle geometry; list induction; witnesses |
| C84 C85 | `convert_time` on texts with `strptime` | round trip against a renderer; witnesses |
| C86 C87 | truncation and fill values in SuperMAG files | parser invariants; witnesses |
| C88 | hemisphere of `satellite_track` | sign argument; witness |
| C89-C91 C94-C99 | `add_ocb_to_data` for pandas data | dictionary frames, C18 for the matching, text lemmas for the names |
| C92 C93 | masks and grids of xarray data | index arithmetic of row-major order; witnesses |
| C100-C105 | `load_ascii_data` | column frames; C84 for the times; witnesses |
| C106-C109 | `vort2ascii_ocb` from the file to the rows | C57, C18, C24 composed; witnesses |
| C110-C114 | `supermag2ascii_ocb` from the file to the rows | C58, C59, C69 composed; witnesses |
| C115-C117 | metadata of `add_ocb_to_data` | dictionary frames and text lemmas; witnesses |
| C118-C121 | `update_vect_coords_to_mag` and `set_ocb` for geographic vectors | C05, C40, C42, C67, C69 composed; witnesses |
| C122 C123 C126 | the constructors from the arguments and the lines of the file to the object | C07, C32, C33, C53, C84 composed; witnesses |
| C124 C125 | the arguments that `__repr__` writes, the records and functions that `__str__` lists | reconstruction through C122; list lemmas; witnesses |
| C127 C128 | the arguments that `VectorData.__repr__` writes, the lines that `__str__` writes | the constructor as an equivalence, applied to its own result; loop invariants; witnesses |
| C129 C130 C131 C132 C133 | the download of DMSP data as a state change of files and streams, with non-termination as an outcome | iterates of the loop; case analysis of the call; text lemmas; witnesses |
| C134 C135 C136 | texts as lists of shown values; the dual object over the objects of `Init` with an abstract view of the figures of merit | case analysis of the constructors; C19, C22, C124, C125; witnesses |
| C137 C138 C139 | arguments of shape `()` or `(k,)`, results with their shape | broadcasting lemmas; reduction to C41, C42, C66; witnesses |
| C140 C141 C142 | two calls of `set_ocb` with assignments between them | what each step reads and writes; loop lemmas; witnesses |
| C143 C144 C145 | `fix_range` in double precision, as a relation (a call that never returns has no outcome) | sums of doubles that do not grow stay on the grid; absorption of small addends; ranking by the distance to the limit |
| C146 C147 C148 | conversions of hours and degrees in double precision | error bounds of half a unit in the last place, added up; witnesses for the refuted halves |
| C149 C150 C151 | seconds of the year and of the day in double precision | floors of rounded quotients are exact because the numerator lies on a grid; witnesses |
| C152 | `total_seconds` and the tests of `match_data_ocb` on it | error bound below half a microsecond; two microseconds with one rounding for the refuted half |
| C153 | `hr2rad` in double precision | as C146; `numpy.pi` compared with pi to twenty digits; the special angles are doubles, so nothing is rounded |
| C154 C155 C156 | comparisons with `where=`, whose other entries are uninitialised memory: any truth value, another at every evaluation (`Where`); `calc_dest_vec_sign` called directly | the masks are determined although the comparisons are not; a loop over an array ends with every entry where its own loop ends; witnesses with two contents of memory |
| C157 C158 | `test_file`, path objects in messages, and the drivers of `vort.py` and `supermag.py` with the state of the output file, row by row (`OutFile`) | the loop that writes at once and the list of pairs of C107/C110 agree; the matcher can end the loop at its first call only |
| C159 C160 C161 C162 | integer arrays, in which numpy does not add floats in place or store NaN, in `fix_range`, `get_aacgm_boundary_lat(s)`, both `normal_coord` and `define_pole_quadrants` (`Whole`) | loops over integers carried over to loops over floats; exact conditions for the errors |
| C163 C164 | `match_data_ocb` with a `DualBoundary` and criteria, which selects the pairs anew and starts from the first pair in every call, and the drivers that do so for every datum (`Reselect`) | for ordered series a search from the first pair and a search from the pair of the last datum end at the same pair: pairs before a stretch of ever closer pairs are too early for the next datum as well; induction over the calls |
| C165 | programs of operations on a `VectorData` object (`VectOps`): after every such program the magnitudes are the lengths of the components, if neither components nor magnitude are assigned | induction over the operations; each keeps the invariant or recalculates |
| C166 C167 | `normal_coord` and `revert_coord` with geographic coordinates, single and dual boundaries (`Geo`), for every `aacgmv2` library | the calls equal the magnetic ones composed with the library entry by entry; index arrays: writing to a permutation of all indices is a map; round trips from C25 and C36 |
| C168 | `set_ocb` with the tracing method as an argument (`Trace`), for every library and `normal_coord` as functions of the method | two calls compared step by step; for magnetic locations `normal_coord` is assumed not to depend on the method (nothing is traced there) |
| C169 C170 | `set_ocb` with a `DualBoundary` (`SetDual`: cursor setter, its `normal_coord` from `Dual`, the pole step of `Scaling`) | one pair index for all vectors; the result is compared with `set_ocb` on the OCB's records and with `calc_r`; stored boundary locations arbitrary |
| C171 | `match_data_ocb` and the conversion loop with the messages that format the tolerance (`FloatTol`) | both versions of the loop compared step by step; the type of the tolerance is a flag |
| C172 | `set_good_ind` with dictionaries as objects that may be shared (`SelDict`) | criteria in a dictionary do not change when limits are entered |
| C173 | `supermag2ascii_ocb` with a `DualBoundary` (`SmagDual`) | rows hold the dual coordinates and the vectors of the OCB; when the call fails |
| C174 | keyword arguments of `add_ocb_to_data` (`DualArgs`) | which arguments reach the constructor and which the matching |
| C175 | `set_good_ind` with the messages that format `max_delta` (`FloatDelta`) | the pairing loop cannot leave its OCB record with a float |
| C176 | `normal_coord` for pairs of locations and of boundaries (`CoordError`) | `normal_coord` is a similarity of the polar plane: error bound for OCB latitudes, monotone in the radius |
| C177 | `OCBoundary.normal_coord`, `revert_coord` with single values and arrays mixed (`CoordMix`) | shape of the correction, heights only |
| C178 | `DualBoundary.normal_coord`, `revert_coord` with single values and arrays mixed (`CoordMix`) | entries of `r_corr` and `aacgm_mlt` dropped for a single location |
| C179 | `DualBoundary.calc_r` with single values and arrays mixed (`CoordMix`) | single local time, no current pair |
| C180 | stored boundary longitudes (`BoundLon`) | overwriting without `set_lon`, first stored without `set_lon`, conversion raises |
| C181 | `DualBoundary.normal_coord` for arrays of several dimensions (`DualGrid`) | rows in one region agree with one dimension; one location changes its row |
| C182 | `DualBoundary.revert_coord` for arrays of several dimensions (`DualGrid`) | rows in one region; the count of polar latitudes is compared with the number of rows |
| C183 | `DualBoundary.calc_r` for arrays of several dimensions (`DualGrid`) | rows in one region; one location changes its row |
| C184 | `normal_evar`, `normal_curl_evar` in double precision (`ScaleDouble`) | rounding errors, sign, order |
| C185 | `normal_evar`, `normal_curl_evar` in double precision (`ScaleDouble`) | equal radii, there and back |
| C186 | `normal_coord` in double precision (`CoordDouble`) | error of latitude and local time |
| C187 | `revert_coord` in double precision (`CoordDouble`) | error of latitude and local time |
| C188 | both in double precision (`CoordDouble`) | there and back |
| C189 | `hav`, `archav` in double precision (`HavDouble`) | no NaN; error bounds; witness near half a turn |
| C190 | `calc_vec_pole_angle` in double precision (`PoleDouble`) | error of each side, of the half-angle formula, of the arc cosine; law of sines |
| C191 | `adjust_vector` in double precision (`TurnDouble`) | the root of a rounded square is exact; arc cosine of near numbers; the sixteen cases with slack |
| C192 | `define_pole_quadrants` in double precision (`QuadDouble`) | the two loops by cases |
| C193 | pole angle, quadrants and rotation in double precision (`QuadDouble`) | composition of C190, C192, C191; law of sines keeps the angle inside (0, 180) |
| C194 C195 | the numbers in the output files (`OutText`) | the text as quotient and remainder of the rounded multiple; nearest even rounding is monotone |
| C196 C197 | the lines of the output files of `vort.py` and `supermag.py`, read back with the model of `load_ascii_data` (`OutText`, `Ascii`) | words of a joined line; C84, C100, C101 composed |
| C198 | `elliptical` and `harmonic` in double precision (`BoundDouble`) | error of each term, C153, sums from left to right |
| C199 C200 | `get_aacgm_boundary_lat` in double precision (`BoundDouble`) | root and leg give back the hypotenuse whatever the digits lost in the difference of squares; composition with C186 |
| C201 C202 C203 | `DualBoundary.normal_coord` and `revert_coord` in double precision (`DualDouble`) | composition of C186, C187, C188 and C199; the witness is computed digit by digit for every rounding to the nearest |
| C204 C205 C206 | what any loaded vorticity or SuperMAG table guarantees; the lines of a vorticity file with `save_all`, and reading them back (`SaveAll`) | invariants over the lines of the file; composition with C107, C195 and C196 |
| C207 | from the lines of a vorticity or SuperMAG file to the output file and back (`FileBack`) | composition of C204, C107, C110, C196 and C197 |
| C208 | the lines of the DMSP boundary files, loaded with the model of the constructors (`DmspText`, `Init`) | composition of C55, C82, C84, C122 and C195; bound on the smallest circle |
| C209 | the DMSP CSV files from their texts to the passes (`DmspCsv`) | first occurrence of a name in the header; split and join of rows; induction over lines |
| C210, C211, C212 | `add_ocb_to_data` for xarray sets (`XData`) | cells by labels; the loop writes each cell once; orders of dimensions as lists; the mask of a time holds its cells; dictionaries of a one-row table |
| C213 | `add_ocb_to_data` with an `OCBoundary` and magnetic coordinates (`PysatOcb`) | the parameters of `Pysat` and `XData` filled with the models of `normal_coord` and of the scale functions; C94, C210 and C211 joined with C24, C25 and C27 |
| C214 | the vectors of `add_ocb_to_data` with a northern `OCBoundary` (`PysatVect`) | the vector parameter of `Pysat` filled with the models of the `VectorData` constructor and of `set_ocb`; C94 and C90 joined with C69 |
| C215–C217 | `add_ocb_to_data` with a `DualBoundary` (`PysatDual`) | the parameters of `Pysat` filled with the model of the dual `normal_coord` and the polar cap radii; C94, C210, C211 and C212 joined with C35, C36, C37 and C39; the vectors go through `set_ocb` of `SetDual` |
| C218 | `add_ocb_to_data` with vectors and a southern `OCBoundary` (`PysatVect`) | C94 joined with the northern pole of `get_pole_loc`; the geometry of C71 |
| C219 | `add_ocb_to_data` with an `OCBoundary` and geographic coordinates (`PysatGeo`) | the parameters of `Pysat` filled with `normal_coord` of `Geo`; C94, C210 and C211 joined with C166 and C27; refuted with a library whose magnetic latitude depends on the longitude |
| C220 | `add_ocb_to_data` with a `DualBoundary` and geographic coordinates (`PysatGeoDual`) | C94 and C210 joined with C167 and the lemmas of C215; refuted with the same library |

## Claims that the unchanged code violates

Where the code violates a property, the full statement is kept in `properties.jsonl`, its negation is proved with a concrete witness (theorem suffix `_refuted`), and what does hold is proved with suffix `_partial`.

What was found, by file (each item is a theorem that begins with the property id and ends in `_refuted`):

* `ocb_time.py`: a period wider than the interval (C01); arrays with an infinity loop for ever (C02); the last half second of a minute fails (C07); trailing characters cut off the seconds (C09); format lengths that are too short (C10); UnboundLocalError for days above 366 (C85).
* `_boundary.py`: NaN attributes pass both limits (C13); a cursor past the end of the pairs (C22); ready-made or NaN boundaries pass the latitude check (C23); mixed arrays and latitudes below -90 (C27); caller's arrays are changed (C31) or stored by reference (C63); files of one row (C33); `boundary_lat=None` (C34); dual coordinates depend on other points of the call (C64); `revert_coord` without a selected pair (C65); a float `max_delta` (C175); instruments of `EABoundary` (C123), texts that do not evaluate to the object (C124), functions with the same name (C125).
* `cycle_boundary.py`: records that share a time (C16), the documented None is not returned (C17), data far from the records raise TypeError in the drivers (C60); steep, vertical or unsymmetric tracks (C62) and points of the other hemisphere (C88) in `satellite_track`; criteria with a `DualBoundary` move the cursor back and stay in force (C163), and are not looked at when the object has no pairs (C164); float tolerances raise ValueError at gaps (C171).
* `_boundary.py`, `set_good_ind`: the caller's dictionaries are changed, limits in them are lost (C172).
* `vectors.py`: pole angles on the meridian of the pole or for a pole on the equator (C40), the vertical component (C44), aligned vectors (C45), NaN latitudes (C66), southern poles (C68); latitude arrays on the meridian of the pole raise (C137), an array of angles gets one quadrant (C138), mixed calls of `adjust_vector` raise or have another shape (C139); NaN angles get the sign -1 and given quadrants let memory through (C155); the magnitude warning depends on memory (C156); in doubles a small component across the direction is lost, and tiny vectors turn into NaN (C191), a pole just west of the meridian counts as east (C192).
* `boundaries/dmsp_ssj_files.py`, download: a link without an archive makes the call run for ever (C129), streams stay captured or are replaced (C130), temporary files stay after errors, existing files are downloaded again (C131), directory entries and failed conversions (C132), '-f' in a path and the span of dates (C133).
* `_boundary.py`, `DualBoundary`: without data in a member the object has no cursor and `normal_coord` and `calc_r` raise AttributeError; ready-made members are moved, past their end if nothing pairs (C135); repr loses the criteria of `set_good_ind` and fails for an EAB without file (C136); `revert_coord` to geographic coordinates raises for locations on both sides of the OCB and mixes up heights (C167).
* `ocb_scaling.py` 1139: `evar * unscaled_r / scaled_r` changes some values though the radii are equal, which the formula of `normal_curl_evar` does not (C185).
* `_boundary.py` 1452-1467: the regions are told apart by the magnetic latitude on one side of the OCB and by the OCB latitude on the other, so that in double precision a location on the boundary can belong to none and become NaN (C201).
* `_boundary.py` 788-849: replacing stored locations with `set_lon=False` (as the `DualBoundary` methods do), or when the conversion raises, leaves the longitudes of the old local times; locations first stored with `set_lon=False` never get longitudes without `overwrite` (C180).
* `_boundary.py` 1451-1481, 1590-1650, 1787-1815, arrays of several dimensions in `DualBoundary`: `np.where(...)[0]` keeps the first index, so that one location decides how its whole row is scaled (C181, C183); all locations count as inside the OCB if there are as many polar ones as rows, and local times are asked for where they are not needed (C182).
* `_boundary.py`, single values and arrays mixed: `normal_coord` gives a single correction for an array of latitudes, results are single or arrays depending on the hemisphere if only the heights are an array (C177); `DualBoundary.revert_coord` drops all but the first entry of `r_corr` and `aacgm_mlt` for a single location (C178); `calc_r` raises TypeError for a single local time and gives arrays for single values without a pair (C179).
* `ocb_scaling.py`: single vectors are scaled without rotation (C49), unchecked names after an update (C50), stale results after a change of index (C51), southern boundaries (C71), the cursor past the end (C72), geographic locations (C73), lost entries (C74), shapes (C75), change between geographic systems (C77); geographic vectors with southern poles, on the meridian of the pole or next to a gap (C118), names used before assignment (C119), shapes with geographic vectors (C121); texts that do not evaluate to the object (C127), repeated lines and exceptions in `str` (C128); results of the old place after a vector was moved (C141), a scale function that is ignored (C142); assigned components leave the old magnitude, a given magnitude is stored whatever it is (C165); the tracing method of `set_ocb` has no influence (C168); with a `DualBoundary`, vectors of the other hemisphere are turned in mixed arrays (C169) and the polar cap radii are used in all regions (C170); `archav` loses half of the digits near half a turn (C189).
* `boundaries`: stray files (C78), instruments before their default times (C79); DMSP crossings at one local time (C80), windows that start at midday (C81), files with a single pass (C82), or a single pass in a hemisphere (C208), CSV headers with a comment mark (C209), order (C83).
* Integers instead of floats raise TypeError or ValueError in `fix_range` (C159), `get_aacgm_boundary_lat` and `DualBoundary.normal_coord` (C160), `normal_coord` (C161) and `define_pole_quadrants` (C162).
* `instruments/vort.py` and `supermag.py`: path objects (C157), the old output file is lost when nothing overlaps (C158).
* Output files of `vort.py` and `supermag.py`: 24 hours as local time, the boundary for points below it, zero for small values (C195); a file with one row cannot be read back (C196, C197, C205).
* `instruments/supermag.py`: an index line named like a column of the stations gives that column one value more than the others (C204).
* `instruments/vort.py`: equator (C106), radius with dual boundaries (C108), data of the other hemisphere (C109).
* `instruments/supermag.py`: blocks without stations and blank lines (C58), truncation (C86), fill values of latitude (C87, C114), southern components (C112), stations of the other hemisphere (C113), undocumented exceptions (C114).
* `instruments/general.py`: single rows and repeated names (C100), time of day before the date (C101), columns taken by position in the format (C102), the caller's header list (C103), comment marks and taken names (C104), files without rows (C105).
* `instruments/pysat_instruments.py`: documented file names (C61), rows with NaN (C89), vectors sharing values (C90), names with `ocb` (C91, C116), masks and grids (C92, C93, C95), layouts of xarray sets (C210, C211, C212), changed arguments (C96), equator (C97), default height (C98), metadata (C115, C116, C117), keyword arguments for the constructor (C174).
