{
 "C01": {
  "note": "Exact arithmetic. Yield sequence characterised for every run; completion shown when raw steps have a positive lower bound. Disagreement recorded: a zero-duration call yields the same time twice."
 },
 "C02": {
  "note": "Exact arithmetic."
 },
 "C03": {
  "note": "Exact arithmetic; splits at multiples of the yield step. Disagreement recorded: set_time before the first evolve is ignored."
 },
 "C04": {
  "note": "The exception comes at the (max_smallsteps+1)*default_order-th consecutive small step."
 },
 "C05": {
  "note": "Interior edges tagged by the user break symmetry (C05_interior_tag_breaks_symmetry); symmetric otherwise."
 },
 "C06": {
  "note": ""
 },
 "C07": {
  "note": "Negative user ids are outside the model (natural numbers)."
 },
 "C08": {
  "note": "False in full: C08_unused_node_breaks_average. Proved when no unused node number lies below a used one, for every tie order of the sort.",
  "status": "partial"
 },
 "C09": {
  "note": "Exact arithmetic. A failed update leaves a partly advanced state (C09_failure_leaves_partial_state).",
  "status": "proved"
 },
 "C10": {
  "note": "Fluxes, forcing, protection and ghosts are arbitrary functions.",
  "status": "proved"
 },
 "C100": {
  "note": "Exact arithmetic; friction, negative and empty lists of times left out. That depths are wrong with a moving bed is proved by witnesses.",
  "status": "proved"
 },
 "C101": {
  "note": "Exact arithmetic. Points within 2e-15 of a side without being on it are left open (as in C18).",
  "status": "proved"
 },
 "C102": {
  "note": "Compression, statistics, expiry and the file formats are left out; hash of atoms arbitrary. The wrong results are proved by witnesses for every hash function.",
  "status": "proved"
 },
 "C103": {
  "note": "Joins C65, C69 and C87. Hypotheses of C87 remain: the number of stored times differs from the numbers of nodes and triangles of the first file, and in the smooth format the first processor has two triangles sharing a node (C103_format). Node numbers are stored exactly.",
  "status": "proved"
 },
 "C104": {
  "note": "Real arithmetic. Longitudes from 180 to 186 get zone 1 and eastings above thirty million (C104_full_circle, C104_east_of_180); those below -180 are refused or get zone -1 (C104_west_of_180); across the equator the default northing jumps by ten million and the points are accepted together (C104_equator_jump).",
  "status": "proved"
 },
 "C105": {
  "note": "Real arithmetic. A frequency which is not a whole number is accepted and nothing is ever collected (C105_fraction); with a velocity_zero_height below the minimum height dry triangles get speeds (C105_speed_of_dry).",
  "status": "proved"
 },
 "C106": {
  "note": "Text level model: lines, words, numbers of rows and columns. How numbers are printed is a parameter with the hypothesis that they can be read back. Hemisphere, datum and the like do not come back (C106_hemisphere); attributes with a gap move to other vertices (C106_attributes_move).",
  "status": "proved"
 },
 "C107": {
  "note": "Tables of the NetCDF library are taken to give back what was stored. Numbers are exact. Refusals: C107_tags_needed, C107_neighbours_needed, C107_bytes_needed.",
  "status": "proved"
 },
 "C108": {
  "note": "Assumes that the culvert is not closed, that the inlets are not empty and that the call on one processor raises no exception (C108_serial: this is so if the discharge routine returns a discharge that is not negative and the inlets do not overlap). Messages between two processors arrive in order (as in MPI).",
  "status": "proved"
 },
 "C109": {
  "note": "Dictionaries of neighbours are assumed to fit together (proved of those of distributed meshes: C109_fits, from C68_messages_match). Operators which exchange ghosts themselves are left out of the order of events.",
  "status": "proved"
 },
 "C11": {
  "note": "Exact arithmetic. Serial routine: after every history of calls including partial flux refresh. OpenMP routine: when edge geometry agrees from both sides.",
  "status": "proved"
 },
 "C110": {
  "note": "Stations of different numbers of steps and indices that do not exist make the C code leave its arrays and are errors of the model. Negative indices are left out.",
  "status": "proved"
 },
 "C111": {
  "note": "`redfearn` is any function here (C104 and C105 describe it). Arrays of different length are refused.",
  "status": "proved"
 },
 "C112": {
  "note": "Values which `file_function` gives at points are taken as given (C39, C98). Exact numbers: the product of probability and number is rounded without error of representation.",
  "status": "proved"
 },
 "C113": {
  "note": "Rows are those which the `csv` module of Python reads and writes; `strip` and `float` are parameters.",
  "status": "proved"
 },
 "C114": {
  "note": "Exact numbers; arrays are not empty; lines of the grid differ.",
  "status": "proved"
 },
 "C115": {
  "note": "Reading of dates, words and numbers are parameters; exact numbers. The part about `file_function` rests on the model of C97.",
  "status": "proved"
 },
 "C116": {
  "note": "Rows are those of the `csv` module of Python; `strip` is a parameter.",
  "status": "proved"
 },
 "C117": {
  "note": "Numbers are exact: the file written has them with five digits. Which lines are empty and which numbers lines hold are parameters.",
  "status": "proved"
 },
 "C118": {
  "note": "The first two fields of each row are numbers, taken as exact. The limit on recursion is a parameter of the model.",
  "status": "proved"
 },
 "C119": {
  "note": "A line is given by what the code looks at. That a polygon of one point takes away a side of the one before it is proved as C119_single.",
  "status": "proved"
 },
 "C12": {
  "note": "Volume added by depth protection appears as an explicit separate term. Other operators and forcing on stage excluded.",
  "status": "proved"
 },
 "C120": {
  "note": "Messages arrive: each exchange gives every processor what the others have sent, which needs messages to be stored on the way, as all processors send before they receive. Names are split into domain and time; reading of a file is a parameter.",
  "status": "proved"
 },
 "C121": {
  "note": "Exact numbers; the conversions from and to metres are arbitrary functions. `lat_amount` and `long_amount` are fields of the grid which the model, like the code, does not use.",
  "status": "proved"
 },
 "C122": {
  "note": "Lines are told apart by what the code looks at; the header is given by the number of sections, and the writing of points is not part of it.",
  "status": "proved"
 },
 "C123": {
  "note": "Exact numbers; conversion of one position is an arbitrary function. The points that a shorter row moves and the half cell are shown by example files.",
  "status": "proved"
 },
 "C124": {
  "note": "Exact numbers; locations are vertices and centroids, not unique vertices; X is a number, not a function; all quantities named exist.",
  "status": "proved"
 },
 "C125": {
  "note": "Exact numbers; all files have the same number of values; reading of NetCDF variables, coordinates and the choice of cells in a polygon are left out (cells are given).",
  "status": "proved"
 },
 "C13": {
  "note": "Exact arithmetic. Provisional jumps of size 1e-100 (constant TINY in limit_gradient) are excluded by hypothesis. Limits shown: beta above one (C13_large_beta_breaks_lake) and river walls on boundary edges (C13_boundary_wall_breaks_lake) make lakes move.",
  "status": "proved"
 },
 "C14": {
  "note": "Mass flux zero and momentum flux normal to the wall; closed domains keep volume. False when the edge also carries a river wall (C14_not_with_river_wall).",
  "status": "proved"
 },
 "C15": {
  "note": "Exact arithmetic. Disagreement recorded: the OpenMP routine leaves the y momentum of dry cells (C15_openmp_keeps_ymomentum).",
  "status": "proved"
 },
 "C16": {
  "note": "Exact arithmetic; square root and power are parameters with the properties used. Flat and sloped versions.",
  "status": "proved"
 },
 "C17": {
  "note": "two-ended fill of the index array for every classification; the single point tests agree with the list results",
  "status": "proved"
 },
 "C18": {
  "note": "even-odd rule for all polygons (apex form), triangles, rectangles, boundary, bounding box, listing; sqrt assumed exact, points closer than 2e-15 to a side excluded because of the safety margins in the code",
  "status": "proved"
 },
 "C19": {
  "note": "",
  "status": "proved"
 },
 "C20": {
  "note": "two theorems show the limits of the tolerances: crossing segments of length 2e-5 are missed, a gap of 5e-16 raises RuntimeError",
  "status": "proved"
 },
 "C21": {
  "note": "Exact arithmetic. Disagreements recorded: 0*A keeps its entries in len (C21_zero_scale_keeps_entries); + ignores sizes (C21_add_ignores_sizes).",
  "status": "proved"
 },
 "C22": {
  "note": "The claim 'always preserves the matrix' is false; both directions of the exact condition are proved (C22_no_gap, C22_gap_breaks) for matrices without explicit zero entries.",
  "status": "proved"
 },
 "C23": {
  "note": "Exact arithmetic; division by zero is a separate outcome. Disagreements recorded: Python Jacobi preconditioning diverges on x/4=1, one allowed iteration returns the start unchecked in Python, only the last column is checked in C, indefinite matrices can break down.",
  "status": "proved"
 },
 "C24": {
  "note": "All references and arrays of points; C24_tiny_origin and C24_single_point record where get_absolute departs from the other conversion.",
  "status": "proved"
 },
 "C25": {
  "note": "State of both objects after return and after raise; C25_not_atomic records the hemisphere case.",
  "status": "proved"
 },
 "C26": {
  "note": "Exact arithmetic. Recursion depth is a parameter of insertion; C26_terminates shows a sufficient depth exists, C26_point_box_fails that none exists for a point box.",
  "status": "proved"
 },
 "C27": {
  "note": "Exact arithmetic; sqrt is a parameter. Stack depth is a parameter of insertion.",
  "status": "proved"
 },
 "C28": {
  "note": "Exact arithmetic. Also proved: a negative factor with positive rates drives depth negative; a triangle listed twice is booked twice; get_Q misreports quantity/array rates on a region.",
  "status": "proved"
 },
 "C29": {
  "note": "argsort is any permutation that sorts.",
  "status": "proved"
 },
 "C30": {
  "note": "Serial Inlet_operator; the parallel one is not modelled.",
  "status": "proved"
 },
 "C31": {
  "note": "The discharge routine is an arbitrary non-negative number; the tolerance of the assertion is irrelevant because gain equals loss exactly.",
  "status": "proved"
 },
 "C32": {
  "note": "Disagreements: decreasing bins give negative counts (C32_unsorted_bins), relative histogram is 0/0 when all samples are below the first bin, the ten percent report may print 19 groups (C32_not_tenths), the reported timestep is floored to whole seconds.",
  "status": "proved"
 },
 "C33": {
  "note": "C33_last_region excludes a default function that returns its argument array itself when some region is a function: the array is then overwritten (C33_default_aliases).",
  "status": "proved"
 },
 "C34": {
  "note": "Exact arithmetic. The lists of nodes and triangles come from Python sets in any order. Disagreements: Set_stage_operator does not check the bed (C34_stage_operator_below_bed); with continuous elevation and centroid averaging, which all DE algorithms leave on, setting the bed of the whole domain ignores the value (C34_whole_domain_ignores_value); unusable values are dropped without notice (C34_unusable_value).",
  "status": "proved"
 },
 "C35": {
  "note": "Disagreement: a triangle that was always dry reports the minimum height as maximum depth (C35_dry_depth).",
  "status": "proved"
 },
 "C36": {
  "note": "Proved for all triangles (indices=None). False for index subsets: get_wet_elements returns positions in the list instead of triangles (C36_positions), so a bed outside the subset may be reported (C36_subset_wrong).",
  "status": "partial"
 },
 "C37": {
  "note": "C37_history assumes a separate dictionary object per call; with a shared one two domains stay coupled (C37_shared_map). boundary_flux_type is misaligned when a tag is bound to None (C37_flux_type_misaligned).",
  "status": "proved"
 },
 "C38": {
  "note": "quantity.c limiters. Edge limiters bound edges only; derived vertex values get the explicit weaker bound. bound_vertices_below needs the centroid above the bound (witness given).",
  "status": "proved"
 },
 "C39": {
  "note": "Over an exact field with an exact square root. The boundary polygon test is the code's own (C17-C19 describe it). Two disagreements are proved: the centroid flag of a call without points is ignored when the matrix is kept, and an interpolate_block call in between changes the answer of a later call without points. use_cache is not modelled.",
  "status": "proved"
 },
 "C40": {
  "note": "Exact arithmetic, per triangle.",
  "status": "proved"
 },
 "C41": {
  "note": "Exact arithmetic.",
  "status": "proved"
 },
 "C42": {
  "note": "Modes 0 and 2. Weir heads exactly equal, positive and below 1e-100 are excluded (formula is one-sided there).",
  "status": "proved"
 },
 "C43": {
  "note": "Needs owned triangles numbered before ghosts (C43_not_with_ghost_first otherwise).",
  "status": "proved"
 },
 "C44": {
  "note": "A single stray compute_fluxes call misaligns later steps (C44_not_after_stray_call).",
  "status": "proved"
 },
 "C45": {
  "note": "Exact arithmetic, up to the constant 1e-100 below which limit_gradient does not limit.",
  "status": "proved"
 },
 "C46": {
  "note": "Exact arithmetic.",
  "status": "proved"
 },
 "C47": {
  "note": "False in full: abs_mom (flat) and k6, z (sloped) are missing from the private clauses, C47_flat_not_serial and C47_sloped_not_serial give schedules with a wrong result. Proved for schedules that respect the intervals between writing and last reading of the shared variables, in particular for one thread.",
  "status": "partial"
 },
 "C48": {
  "note": "Proved for velocity extrapolation (the default) and momentum limiter parameters that vanish at dry cells (DE0, DE1, DE2). Otherwise false: C48_race_with_dry_beta, C48_not_without_velocity.",
  "status": "partial"
 },
 "C49": {
  "note": "Exact arithmetic, up to 2e-100.",
  "status": "proved"
 },
 "C50": {
  "note": "",
  "status": "proved"
 },
 "C51": {
  "note": "Exact arithmetic; sqrt and pow(.,0.385) are functions with the listed properties (shown for the real functions).",
  "status": "proved"
 },
 "C52": {
  "note": "Exact arithmetic. Disagreements recorded: small entries are lost however often added (C52_small_lost); with an empty row in the middle the product depends on uninitialised memory (C52_gap_reads_memory).",
  "status": "proved"
 },
 "C53": {
  "note": "Drawn numbers are an argument, so all random outcomes are covered; C53_split_can_fail, C53_add_loses, C53_sample_not_addable record defects.",
  "status": "proved"
 },
 "C54": {
  "note": "One process; the flux step is a hypothesis (C12). Structures with negative discharge are outside.",
  "status": "proved"
 },
 "C55": {
  "note": "False for the Flather condition with water on both sides (C55_flather_differs), for the characteristic stage condition (evaluate always raises), for Time_stage_zero_momentum_boundary (both raise) and for over-long Dirichlet vectors. Proved for all other classes (C55_agree) and for Flather where one side is dry.",
  "status": "partial"
 },
 "C56": {
  "note": "Flather: the per-edge version; characteristic: the vectorised version. Disagreements: velocities at a wall are reflected the wrong way, roll-over with a series ending at time 0 or before never ends, an inflow object on two tags gives the second a wrong rate.",
  "status": "proved"
 },
 "C57": {
  "note": "Exact real arithmetic. Disagreement: with a zero reference, or without one in the two-norm, the relative error is inf or nan, not the documented absolute error (C57_err_zero_reference).",
  "status": "proved"
 },
 "C58": {
  "note": "Exact real arithmetic.",
  "status": "proved"
 },
 "C59": {
  "note": "Exact arithmetic. Disagreement: of a line with more than two points only the first segment is used (C59_polyline_tail_ignored); coinciding points meet nothing (C59_point_line).",
  "status": "proved"
 },
 "C60": {
  "note": "The inside test and the line test are those of C17 and C59. Disagreements: a centre without radius, or the reverse, selects the whole domain (C60_half_circle).",
  "status": "proved"
 },
 "C61": {
  "note": "Proved: a triangle whose side crosses a polygon side properly is reported. False in general (C61_overlap_wrong): disjoint triangles are reported and triangles that contain the polygon are missed.",
  "status": "partial"
 },
 "C62": {
  "note": "One quantity at one interpolation point (all are treated alike). The thinning clause holds in the spatial case; proved disagreement: for a function of time only the values are not thinned with the times. Proved disagreement: repeated times are accepted and then the value at that time depends on earlier calls.",
  "status": "proved"
 },
 "C63": {
  "note": "The system is proved to be the normal equations of the cost (squared distances plus alpha times integral of squared slope, via the planes through the nodal values), hence minimality; uniqueness from connectedness; blocks and order from equality of the accumulated sums (C52); the compressed form from C52. One attribute per point; the iterative solver itself is C23. C63_second_fit is a disagreement: a second fit() on one object returns the first surface divided by alpha (no right angles).",
  "status": "proved"
 },
 "C64": {
  "note": "Closed forms of the loops, then geometry in cell coordinates. Exact arithmetic: in floating point the points of the last column may miss origin + len by rounding. rectangular_old raises NameError (undefined delta1) and is not modelled.",
  "status": "proved"
 },
 "C65": {
  "note": "What METIS returns is arbitrary. For a single processor distribute keeps the domain as it is (not modelled).",
  "status": "proved"
 },
 "C66": {
  "note": "Edges tagged by the user inside the mesh are not crossed, which is a source of differences from the serial run: see C67.",
  "status": "proved"
 },
 "C67": {
  "note": "With a user tag on an edge inside the mesh the triangle behind it may be missing, so that number_of_boundaries of an own triangle exceeds the serial one: C67_interior_tag_changes_count.",
  "status": "proved"
 },
 "C68": {
  "note": "Messages are matched by source, destination and call, as MPI does. build_local_commun sorts the two columns of its tables independently; the proof shows that this is harmless because both are increasing.",
  "status": "proved"
 },
 "C69": {
  "note": "No river walls and no operators; settings of the local domains are those of the serial one. C69_two_layers_not_enough: with positive dry limiters a run with the default two layers differs from the serial run.",
  "status": "proved"
 },
 "C70": {
  "note": "Two disagreements with expectation are proved: C70_more_headwater_less_flow (the discharge falls where the barrels begin to run full) and C70_pipe_depth_not_similar (depth in a pipe breaks similarity). The critical depth of the trapezoid comes from a numerical root search and is an arbitrary positive function in the model.",
  "status": "proved"
 },
 "C71": {
  "note": "C71_first_step_uphill: with smoothing and inlet 1 higher at construction, water is moved uphill in the first step, because the constructor stores the absolute value of the difference.",
  "status": "proved"
 },
 "C72": {
  "note": "Two disagreements are proved: C72_more_headwater_less_flow and C72_still_water_flows. Reading the csv file is not modelled; a table is a list of columns with trailing blanks.",
  "status": "proved"
 },
 "C73": {
  "note": "",
  "status": "proved"
 },
 "C74": {
  "note": "The root finder of scipy is a function in the model; theorems on implicit calls assume that it solves the equations it is given. Two disagreements are proved: C74_first_step_asymmetric and C74_closed_but_flowing.",
  "status": "proved"
 },
 "C75": {
  "note": "Restricted to triangles of one size because of a fault that is proved: C75_uniform_iff_equal_areas (with areas in use, the default, a uniform flow is a solution only if neighbours have equal areas). Two more: C75_not_symmetric_at_shore and C75_call_loses_momentum. The option add_safety is not modelled.",
  "status": "proved"
 },
 "C76": {
  "note": "",
  "status": "proved"
 },
 "C77": {
  "note": "Unless the inscribed circle is asked for, the radius is the distance from the centroid to the nearest edge midpoint, which can be larger or smaller: C77_default_radius, C77_default_radius_not_inscribed.",
  "status": "proved"
 },
 "C78": {
  "note": "The bounds need the inscribed radius; with the default radius they fail: C78_default_radius_overshoots.",
  "status": "proved"
 },
 "C79": {
  "note": "A missing number on the far side of a cell counts even where its weight is zero: C79_far_side. Decreasing grid lines are accepted: C79_accepts_unsorted.",
  "status": "proved"
 },
 "C80": {
  "note": "Places are those the code assigns. Corner and centre of the first cell are treated alike (C80_corner_is_centre); a decimated number is placed beside the centre of its stencil (C80_decimated_position); agreement of the two readers needs an integer value for missing data (C80_fractional_missing).",
  "status": "proved"
 },
 "C81": {
  "note": "Clear position: no end, corner or crossing within the rounding tolerances of the code without being exact. A part that begins and ends strictly inside one triangle is dropped by the code (C81_inner_part_is_lost, C81_inner_part_is_silent); the exactness statements assume that no part does.",
  "status": "proved"
 },
 "C82": {
  "note": "The gap check is sound only as stated: C82_gap_missed has a wall from boundary to boundary with one gap which passes; without messages no gap is reported (C82_silent). Only midpoints count (C82_across). Walls of an earlier call stay on their edges without parameters (C82_again); a refused call leaves marked edges (C82_refused).",
  "status": "proved"
 },
 "C83": {
  "note": "The documentation promises the polygon that contains the entire mesh: false on a mesh with a hole (C83_hole: the hole is returned, clockwise) and on one touching itself in the starting point (C83_pinch: half is left out); the statement is scoped accordingly.",
  "status": "proved"
 },
 "C84": {
  "note": "The default rate of an inflow is not divided by the area (C84_default, C84_default_differs), and on a mesh with holes an inflow everywhere loses volume (C84_hole); the statement is scoped accordingly.",
  "status": "proved"
 },
 "C85": {
  "note": "Known faults outside the scope of the statement: sign of the pressure term (C85_sign), reading times that go back as in the third order method (C85_back), interpolation of directions as numbers (C85_direction), functions of fixed length (C85_three).",
  "status": "proved"
 },
 "C86": {
  "note": "Faults outside the scope of the statement: times after a roll-over to a second file (C86_rollover), break with a coarser output step (C86_break_shifts), range after replacing (C86_range_stale).",
  "status": "proved"
 },
 "C87": {
  "note": "Scope: the number of stored times differs from the numbers of points and triangles of the first file (otherwise C87_static_mistaken). The start time is truncated to whole seconds (C87_start, C87_start_truncated).",
  "status": "proved"
 },
 "C88": {
  "note": "Places are relative to the origin, which is that of the first file (C88_origin_mixed); the start time is lost (C88_times, C88_start_lost); for a file with separate corners the arrays do not fit the mesh returned with them (C88_values_match, C88_values_mismatch).",
  "status": "proved"
 },
 "C89": {
  "note": "A reference marked absolute has origin zero (Honest). The overall point is chosen without regard to the interior regions and may lie in one (C89_shared_corner); the documented distance of point_in_polygon is not kept (C89_point_far).",
  "status": "proved"
 },
 "C90": {
  "note": "The triangulation library is a hypothesis (Faithful): conforming output, one segment per edge, markers kept, unmarked boundary marked one.",
  "status": "proved"
 },
 "C91": {
  "note": "The text of a number is a parameter (rounding of %.3e); positions within 1e-12 of a side's length count as on it. The corner of a text grid is cut to a whole number, so the map is displaced for other corners (C91_corner).",
  "status": "proved"
 },
 "C92": {
  "note": "Sources work point by point; the tree of scipy is a parameter. Files of polygons are taken as read.",
  "status": "proved"
 },
 "C93": {
  "note": "The contract of scipy's tree (k nearest, sorted, true distances) is a hypothesis, shown satisfiable by a sorting tree over the reals. Values beyond 9e100 are excluded for the methods 'min' and 'max'. A missing value of zero is never recognised (C93_zero).",
  "status": "proved"
 },
 "C94": {
  "note": "The claims about the plain operator are proved as they are in the code (C94_plain_fails, C94_plain_one, C94_plain_three, C94_whole_domain). Slopes of the water surface, the square root, the power and the tangent are parameters; one processor.",
  "status": "proved"
 },
 "C95": {
  "note": "Real exponential, square root and power. numpy's vectorize is modelled by its rule that the type of the first result is that of all.",
  "status": "proved"
 },
 "C96": {
  "note": "Messages are modelled by the values they carry. Stages must be below the largest float32, the start value of the search. The last sentence is a defect of the code, proved as it is (C96_books, C96_counted_again).",
  "status": "proved"
 },
 "C97": {
  "note": "Making the interpolator from vertices and triangles is a parameter; the theorem needs that it fits the mesh (`Fits`, built in C27/C39). Series are proved without thinning (C62 shows that thinning goes wrong there). That the boundary takes the time \"model time plus start\" is a defect, proved as it is.",
  "status": "proved"
 },
 "C98": {
  "note": "Numbers are not turned into text. The bearing, the tables that always fail, the choice of files by part of the name and the times of later files are proved as they are in the code.",
  "status": "proved"
 },
 "C99": {
  "note": "Points within the tolerance of several sides without being on all of them are left out. The zero off the sides, the relative tolerance, the refusal of a whole polygon and of fixed quantities are proved as they are in the code.",
  "status": "proved"
 }
}