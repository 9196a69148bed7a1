
## Where the code disagrees with what its users would expect

Each of these is a theorem in the development (a negation with a witness) unless marked (read): seen while reading, outside the model.

* **Evolve.** A zero-duration call yields the same time twice. `set_time` before the first `evolve` is ignored.
  `set_evolve_max_timestep` can only decrease the limit.
* **Mesh.** An interior edge tagged by the user breaks the symmetry of the neighbour structure (C05). Node averages are wrong when an
  unused node number lies below a used one (C08). A failed semi-implicit update leaves a partly advanced state (C09).
* **Fluxes.** A reflective wall that carries a river wall leaks (C14). River walls on boundary edges and limiter parameters above one
  set a lake at rest in motion (C13). The timestep skips edges whose lower-numbered triangle is a ghost (C43). A stray
  `compute_fluxes` call misaligns later boundary flux sums (C44).
* **OpenMP.** Friction loops race on `abs_mom`, `k6`, `z` (C47). Protection zeroes the x momentum twice and leaves the y momentum (C15).
  The distribution step races at isolated cells if the dry limiter parameter is not zero, and differs from the serial one without velocity
  extrapolation (C48).
* **Distribution.** Triangles with two boundary edges are de facto first order (C49).
* **Polygons.** Crossing segments of length 2e-5 are missed, a gap of 5e-16 raises RuntimeError (C20). `polygon_overlap` reports disjoint
  triangles and misses triangles containing the polygon (C61). Of a line with more than two points only the first segment is used (C59).
  A default function that returns its argument is overwritten (C33).
* **Sparse matrices and solvers.** `0*A` keeps explicit zeros, `+` ignores sizes (C21). An empty row between non-empty rows makes the
  compressed product wrong (C22) or dependent on uninitialised memory (C52). Entries of at most 1e-10 are lost, `add_sparse_dok`
  zeroes common entries of the second matrix (C52). The Python preconditioned solver diverges on a 1×1 system, one allowed iteration
  is returned unchecked, only the last column's failure is noticed in C (C23).
* **Geo references.** Origins of at most 1e-8 are treated as zero by one conversion and not by the other, single points are rejected
  (C24). A hemisphere clash raises after the zone was changed (C25). Sums of point sets forget the hemisphere and extra attributes,
  samples without attributes cannot be added, split can fail (C53).
* **Trees.** A point box exhausts the recursion (C26), a triangle beyond the corner of the root the stack (C27).
* **Operators.** A negative factor with positive rates gives negative depths, a repeated index is booked twice, `get_Q` is wrong for
  quantity rates on a region (C28). `Set_stage_operator` does not check the bed; setting the bed of the whole domain with continuous
  elevation ignores the value; unusable values are dropped (C34). Dry cells report the minimum height as maximum depth (C35). Inundation
  queries for a subset may report a triangle outside it (C36). A centre without radius selects the whole domain (C60).
* **Boundaries.** `set_boundary` keeps the caller's dictionary; flux types are misaligned with None (C37). Vectorised Flather ignores the
  interior, `Characteristic.evaluate` always raises, `Time_stage_zero_momentum_boundary` is unusable (C55). Wall velocities are reflected
  the wrong way, roll-over of a series ending at time 0 never ends, an inflow object on two tags uses the first tag's length (C56).
* **Tools.** Unsorted bins give negative counts, the ten percent report may have 19 groups (C32); relative error with zero reference is
  inf or nan (C57).
* **Interpolation and fitting.** The centroid flag of a call without points is ignored when the matrix is kept; an `interpolate_block` call
  in between changes a later call without points (C39). Repeated times make values depend on earlier calls; thinning of a function of
  time thins times but not values (C62). A second `fit` on one object returns the surface divided by alpha (C63).
* **Parallel.** A user tag on an edge inside the mesh stops the ghost layer; an own triangle then counts more boundary edges than in the
  serial mesh (C67). The default ghost layer of two triangles is too thin when the dry limiters of the momenta are positive (flow algorithms
  DE0_7, DE1_7, or set by the user): extrapolation next to a dry triangle reads whether the triangle behind it is isolated, which depends
  on its neighbours. Results then differ from the serial run (C69_two_layers_not_enough). At triangles with two boundary edges the same can
  happen with any limiter. With a layer of four or five triangles rk2 skips its inner exchange although six would be needed.
  (read) `distribute` copies the flow algorithm, name, data directory, storage flags, minimum heights and low Froude switch; a CFL
  number, limiter, timestepping method, maximal timestep, start time or forcing term set on the serial domain before is lost.
* **Structures.** The discharge of a box falls where the barrels begin to run full, because the wetted perimeter jumps by the width of the
  roof; the critical depth of a pipe is multiplied by D^2.5 where it should be divided, so similar pipes do not give similar depths (C70).
  Constructors store the absolute value of the first energy difference or discharge: with smoothing, a culvert set up with inlet 1 higher
  moves water uphill at first (C71), and an internal boundary starts closed (C74). A closed internal boundary passes water in the implicit
  mode, the default (C74). The discharge of a rating table falls when rising head water passes the end of the upper curve, and still water
  below the lowest tail water flows (C72). (read) A repeated largest head water whose largest discharge occurs elsewhere loses its point.
* **Kinematic viscosity.** The matrix is multiplied by the inverse triangle areas on the right instead of the left, so on a mesh with
  triangles of different sizes a uniform flow does not stay uniform; where a wet triangle adjoins a dry one the matrix is not symmetric,
  which the conjugate gradient method assumes; each call multiplies momentum by h²/(h² + 1e-8) even if nothing diffuses (C75). (read)
  `add_safety` adds 0.1 to a quantity, which drops its boundary values; `Elliptic_operator.update_elliptic_boundary_term` fails for an
  array; `__rmul__` refers to an undefined name.
* **Radii.** What limits the time step by default is the distance from the centroid to the nearest edge midpoint, described as an
  approximation of the inscribed circle. It can be larger by any factor on thin triangles (C77); advection then leaves the bounds of
  its data in one step of the length it chose itself (C78). (read) `Mesh.set_to_inscribed_circle` indexes a third column that does not
  exist and divides the area by twice the perimeter instead of doubling it; `Advection_Domain.compute_fluxes_python` sets `timestep`,
  not `flux_timestep`.
* **Rasters.** A missing number on the far side of a cell makes points on the near grid line missing although its weight is zero, and a
  raster with one column interpolates to missing values; decreasing grid lines are accepted and give missing values (C79). Keywords
  `xllcorner` and `xllcenter` place numbers alike, half a cell wrong for one of them; a fractional NODATA value is truncated when
  the text is read but not through NetCDF; `dem2dem` places numbers half an old cell too far east and, with rows left over, too far
  south (C80). (read) `interpolate2d` with `bounds_error` raises an undefined name; `dem2pts` and `dem2dem` with `name_out` refer to
  an undefined name; `dem2dem` truncates the cell size to an integer.
* **Cross sections.** A straight part of the polyline that begins and ends strictly inside one triangle yields no segment: alone it
  raises an assertion, in a longer polyline its flow is left out without notice (C81).
* **River walls.** A second `create_riverwalls` does not clear `edge_flux_type`: edges of the deleted walls stay walls, with elevation
  `-max_float` and row -1 of the table (C82_again); a call refused for its parameters leaves edges marked without a table (C82_refused).
  The check for gaps runs only with `verbose` (C82_silent) and passes a wall from boundary to boundary with one gap (C82_gap_missed).
  Only midpoints are compared, so a wall across an edge through its midpoint makes it a wall (C82_across). (read) The test that points
  have three coordinates, `len(a) != 3 | len(b) != 3`, is `len(a) != (3 | len(b)) != 3`, so two coordinates are not
  refused there.
* **Boundary polygon.** The walk starts at the boundary point nearest to the lower left corner of the extent. That point may belong to a
  hole, then the hole is returned (C83_hole); if two boundary edges start there, part of the mesh may be left out (C83_pinch). Inlets,
  forcing terms, fitting and interpolation use this polygon to decide what is inside the mesh.
* **Forcing terms.** The default rate of `Inflow` is used as a rate of change of stage, not divided by the area as the rate is
  (C84_default, C84_default_differs). `Inflow` over the whole mesh divides by the area within the boundary polygon, so volume is lost on a
  mesh with holes (C84_hole). Air pressure pushes water towards high pressure: the sign is wrong (C85_sign). A stored series asked at
  an earlier time than before extrapolates; the third order method asks at the middle of the step after its end (C85_back). Wind directions are
  interpolated as numbers, through 180 degrees between 350 and 10 (C85_direction). A function that returns three values for any number of
  points is accepted as a wind field (C85_three). A series opened strictly within its last interval is refused although values exist (C85_opens).
* (read) Forcing terms: `Barometric_pressure(1000)`, as documented, fails since `p` is not set; `Barometric_pressure_fast` takes `[0]` twice if the
  function is given as an argument and uses `N` before it is set with coordinates; `Wind_stress_fast` needs the keyword `domain`; `rho_a` is 1.2e-3
  beside `rho_w` of 1023, different units; pressure in hPa is not converted; times in the file are relative to the start time of the file, model time
  is absolute; `set_quantity_values` ignores the name of the quantity; a centre without radius and an empty polygon raise errors of undefined variables.
* **Output files.** When a file becomes too big a new one is started whose start time is the present time while the stored times go on counting
  from the start of the run: moments are `start + 2 * elapsed` (C86_rollover). Leaving the loop over `evolve` with `break` when not every yield is
  stored shifts the stored moments of later runs (C86_break_shifts). After a slice is replaced the range may be too wide (C86_range_stale).
* **Merged files.** A static quantity is taken for a dynamic one if the number of stored times equals the number of points (triangles) of the
  first file; merging fails (C87_static_mistaken). The start time is truncated to whole seconds (C87_start_truncated). `sww_merge` drops the
  start time (C88_times, C88_start_lost) and places all files by the origin of the first (C88_origin_mixed). A file with separate corners is read
  back with a mesh of fewer nodes than there are values, so that the interpolation over it, for example flow through a cross section, is refused
  (C88_values_match, C88_values_mismatch).
* (read) Merged files of the separate format are marked as smooth, so that readers take them for a mesh of triangles that do not touch; the time zone is
  lost; `gather` for arrays without time does not divide by the number of corners (not reached as files are read now).
* **Mesh generation.** The point that carries the overall maximal area is next to the first suitable corner of the bounding polygon even if an
  interior region shares that corner; then both points lie in the interior region and the rest of the mesh has no limit (C89_shared_corner; the
  list `excluded_polygons` is made and not used). `point_in_polygon` moves a coordinate by the fraction delta of itself, so the distance is not
  the documented one (C89_point_far).
* (read) Negative numbers of sides are accepted and count from the end, but the warning about sides without tag does not see them; breaklines
  and region points are taken as absolute even if a reference for the polygons is given.
* **Export to a text grid.** `sww2dem` writes the corner of an `.asc` file with `%d`: unless it is a whole number the map is displaced by up to one
  unit (C91_corner). The `.ers` format is exact.
* (read) `sww2dem`: `mean` is named as a reduction but only built-in functions are called, any other is used as an index; a variable missing from
  the file leads to `raise(Exception, msg)`, which is itself an error.
* **Rasters with zero for missing data.** `rasterValuesAtPoints` compares with a tolerance relative to the value for missing data and a strict
  `<`: if that value is 0, missing pixels are returned as the number 0 (C93_zero).
* **Threshold.** The nearest neighbour function is documented to use the background value where the point is *more than* the threshold away; it does so at exactly
  that distance too (C93_one).
* (read) `composite_quantity_setting_function`: a callable `fi` gets the domain's coordinates, while its polygon `pi` is in map coordinates.
* **Erosion_operator.** `elev_v[ind] - de` mixes arrays of shapes (n,3) and (n,), and row maxima of shape (n,) are assigned to an (n,3) array: every
  step fails unless the region has one or three triangles (C94_plain_fails). With one, the bed is set to its highest corner less the scour,
  so a sloping bed under still water rises (C94_plain_one); with three, corners are lowered by the scour of other triangles (C94_plain_three).
* **Erosion without region.** `indices=None` is documented as all triangles; with a continuous bed no operator can be made, with a
  discontinuous one nothing ever changes (C94_whole_domain).
* **Bed below the base.** All erosion operators with a base lift a lower bed up to it, also under still water (C94_never_rises).
* **Sand dunes.** The default base `0.0`, or any number, makes every call fail: it is indexed (C94_dune_number_base). (read) The parameter `threshold` is not used.
* **Friction from depth.** `np.vectorize` takes the type of the first result for all: a function returning the integer 0 for the first triangle makes all
  frictions below one vanish (C95_truncated); an empty region fails (C95_empty_region). (read) `timestepping_statistics` uses the missing attribute `indices`.
* **Set_w_uh_vh_operator** accepts a stage below the bed (C95_below_bed). (read) Functions of position are called with `None` for the positions.
* **Volume integral of shared inlets.** Each processor that holds a part of an inlet adds the whole volume to its `fractional_step_volume_integral`, and
  `get_fractional_step_volume_integral` adds these up: an inlet on k processors is counted k times in the water balance (C96_counted_again).
* **Boundaries read from files.** `File_boundary.evaluate` passes the absolute time of the domain to a function whose times count from the start of the
  domain: with a start s other than zero the values of time t + s are imposed at time t (C97_boundary, C97_boundary_late).
* **Second file with a later start.** Opening it moves the start of the domain, but functions opened before keep counting from the old start
  (C97_two_files).
* **Limit and absolute times.** `use_relative_time=False` with `time_limit`: absolute times are compared with the limit minus the start
  (C97_limit_absolute).
* **Bearing.** `calc_bearing` measures the angle anticlockwise from South: flow to the north is reported as 180°, to the south as 0° (C98_bearing,
  C98_north). `test_calc_bearings` never resets its flag and passes nevertheless.
* **Files of other runs.** `sww2csv_gauges` takes all files whose name contains that of the run: `run2.sww` is appended to the series of `run.sww`
  (C98_other_run). Times of later files are counted from the start of the first (C98_second_start).
* **Gauges.** Gauges of the same name overwrite each other (C98_same_name); unknown quantities appear in the heading only (C98_unknown); centroids
  are those of the gauges found, so that they are missing or shifted after a gauge off the mesh, and relative to the corner (C98_centroids).
* **Tables of stage and Froude number.** `interpolate_sww2csv` with `stage_file` or `froude_file` always raises `AttributeError` (C98_stage_file).
* (read) `file_function` with a `Geospatial_data` of absolute points shifts the points of that object in place by the corner of the file.
* **Gauges along a boundary.** Points off the sides between gauges silently get 0 (C99_silent_zero). A polygon with gauges at all its vertices is refused
  (C99_whole). The tolerance for gauges is relative: 100 km from the corner of the file the first gauge within 10 m is taken, even if another one is
  exactly at the vertex (C99_wrong_gauge). Quantities without time cannot be read (C99_no_time).
* (read) An array given as `boundary_polygon` is shifted in place by the corner of the file, so that a second file cannot be read with it; if no
  vertex has a gauge, an `IndexError` comes before the intended message.
* **Result files of a moving bed.** With 'max' and no stored depth the depth is taken over the highest bed of the run (C100_max_depth_wrong).
  `get_centroids` takes the bed of the first time for all times, even if the depth is stored, and `water_volume` follows
  (C100_centroid_depth_wrong). A file with values at nodes only cannot be read at one time (C100_one_time_fails). `combine_outputs` keeps the bed of
  the first file only (C101_bed_lost).
* **Centroids of files put together.** `get_centroids(combine_outputs(...))`, as advised in its documentation, answers for the first file only, and the
  smallest depth given to `combine_outputs` is not used (C101_first_only).
* (read) `combine_outputs` compares the coordinates of the nodes but not the corners of the files, and does not remove repeated times.
* **Caching.** Changed dependency files are not noticed, only another number of them (C102_changed_files_unnoticed, C102_count_noticed): `compare` of
  two dictionaries of the same length calls itself on the same objects and finds them equal. For the same reason keyword arguments are only compared
  by their hash, and arrays are hashed by their mean (C102_wrong_keyword). Arrays are compared with broadcasting (C102_wrong_array). A forced
  evaluation that raises leaves a wrong result (C102_wrong_after_exception).
* (read) The code of a function is compared without the names it calls; a function changed only in these is not evaluated again.
* **Merged files, nodes.** Values at nodes stored by a parallel run differ from those of the serial run near the borders between processors, even if every
  processor holds the serial values in all its triangles, ghosts included: the average at a node is taken over the triangles present, and the ghost layers cross
  edges only (C103_node_values_differ).
* (read) `store_connectivity` stores node numbers as `V.astype(num.float32)`: numbers above 16777216 are rounded.
* **Projection, sixth term.** The bracket of the sixth-order term of the northing in `redfearn` ends `+t4-t2`; a conformal projection (and Redfearn's formula)
  has `+t4`. The northing is too small by `nu sin^3 cos^3 omega^6 / 720`, less than a tenth of a millimetre within a zone (C104_conformal, C104_sixth_term).
* **Projection, full circle.** Longitudes from 180 to 186 are put into zone 1 but the relative longitude is not reduced by 360 degrees: eastings above thirty
  million (C104_full_circle). Longitudes from -192 to -180 are refused, from -198 to -192 accepted with zone -1 (C104_west_of_180). `LLtoUTM` puts those from -186
  to -180 into zone 1, not 60 (C104_utm_west).
* **Projection, equator.** With the default false northing two points at 1 degree south and north are ten million metres apart in the wrong direction, and
  `convert_from_latlon_to_utm` accepts them together (C104_equator_jump).
* **Degrees, minutes, seconds.** `decimal_degrees2degminsec` loses the sign of numbers between -1 and 0 (C104_dms_sign).
* (read) `ferret2sww.py` 274-282 takes the zone of the first point and ignores those of the others: a grid that crosses a zone border is folded.
* **Maxima, first step.** With Euler's method operators see the clock of the beginning of the step: with `collection_start_time` 0 the values after the first
  step are not collected; with the other methods they are (C105_first_step).
* **Maxima, depth.** `max_depth` is at least `minimum_allowed_height` in triangles that were never wet (C105_depth).
* **Maxima, frequency.** `update_frequency` 1.5 passes the assertion and nothing is ever collected (C105_fraction).
* **Maxima, vertices.** `Collect_max_stage_operator` takes vertex values extrapolated before the step and centroid values after it: with rising water the greatest
  stage at all vertices is below that at the centroid (C105_stale).
* **Mesh files, hemisphere.** A `.tsh` file keeps zone and origin only: hemisphere, datum, false easting come back as defaults (C106_hemisphere).
* **Mesh files, gaps.** If some vertices have attributes and others none, the rows after a gap come back for other vertices (C106_attributes_move).
* **Mesh files, titles.** Attribute titles without attributes make a `.tsh` file which cannot be read (C106_titles_without_columns); so does a tag with an end of line
  (C106_two_lines).
* **Mesh files, cut off.** A file which ends after the triangulation is read without complaint, without outline, holes, regions and geo reference (C106_no_outline).
* **Mesh files, areas.** A region with greatest area `None` can be written and read, but `importMeshFromFile` fails on it (C106_area_none).
* (read) `IOOutline2Mesh` clears `self.Holes` and `self.Regions` where it means `holes` and `regions`; `_write_msh_file` compares attributes with `!= None`, which fails
  for NumPy arrays with more than one entry.
* **Mesh files, two forms.** Triangles without tags, or neighbours `None`, can be kept as `.tsh` but not as `.msh`, where writing fails with an exception after the file has
  been opened (C107_formats_differ, C107_neighbours_needed); a tag with a letter outside ASCII fails likewise (C107_bytes_needed).
* (read) **Closed culverts.** `Boyd_box_operator` and the weir return no discharge at once if their height is not positive; the classes which `anuga` exports when MPI is
  present (parallel box and weir) lack this test and evaluate formulas with divisions by the height; only the parallel pipe has it, and then keeps the roles of the ends of
  the call before. The assertion that gain and loss agree is missing in the parallel call too. C108 is about culverts which are not closed.
* (read) **Enquiry points outside.** If no processor has the enquiry point of an inlet, the coordinating processor fails in `allocate_inlet_procs` while the others wait for
  its message for ever.
* **Ghost buffers are reused while messages may still be read from them.** `communicate_ghosts_non_blocking` waits for its receives and never for its sends, and all exchanges
  use the same buffers. With the method of second order (the default of `DE1`; two layers of ghosts), that of third order, fixed timesteps and a second call of `evolve`, two
  exchanges follow each other without a collective operation, and a neighbour may receive values of the next exchange (`C109_race`, `C109_settings`, `C109_again`, `C109_rk2`).
  Waiting for the sends as well would be safe (`Safe`, first case).
* **Multiplexed files: a gauge that never records makes all series two steps early.** Its first step is stored as -1, which becomes the first step of the window and the start
  time, while values begin with step 1 (`C110_early`, `C110_never`).
* **Multiplexed files cut off are accepted.** The result of `fread` is not looked at; missing values are those of the source read before (or zero) (`C110_truncated`).
* **Sums that come to 99 (within 1e-5) count as missing**, also sums of the first few sources only (`C110_99`).
* (read) `urs.c`: arrays are sized for the number of steps of station 0; stations with more steps are written beyond them. `urs2sts` looks for missing values in heights only, so
  a missing velocity beside a height that is there becomes 99 m/s.
* **Damage curves exceed 1.** Their last points are (1000 m, 64.7), (1000 m, 69.4) and (1000 m, 98.6), percentages in place of fractions, and values in between are interpolated.
  Contents of a structure which stands lose more than their value from 2.15 m on, structures from 8 m on; one that has collapsed loses less (`C112_more_than_all`).
* **Momentum of places outside the mesh is minus the height of the floor** in `calc_max_depth_and_momentum` (`C112_negative`).
* **Damage is computed from files of other runs** whose names contain the base name: `run1` also reads `run10.sww` (`C112_other_runs`).
* Ten structures with a probability of collapse of 5 % never lose one (`C112_half`): the number is rounded within each probability, and halves go to the even number.
* **Columns with the same title are mixed** by `load_csv_as_dict`: the entries of both alternate in one column of twice the length, without a message; saving such a table
  fails, or loses a title and its entries (`C113_title_twice`).
* **`clipping_polygons` of `load_csv_as_polygons` cannot be used**: `inside_polygon` is not imported there, so that any polygon given is a `NameError` (`C113_clipping`); an empty list
  leaves out all polygons but keeps their values (`C113_clip_empty`).
* **Files of polygons without a column of values are always refused**, although the documentation says that it can be omitted (`C113_no_values`).
* A table without rows can be read, but asking for, setting or saving columns fails (`C113_no_rows`). `set_column` does not remove blanks around names, as its documentation says (`C113_blanks`).
* **Grids of small extent with descending latitudes are cut wrongly** by `get_min_max_indices`: the order is found with `allclose`, so that an extent below a hundred-thousandth of the
  latitude counts as ascending; lines in the area are lost (`C114_small`). The area is also not always "just big enough": a lower bound on a line keeps the line below too (`C114_extra`).
* **Values missing in a line of a time series become zero** in `timefile2netcdf`, and fields after the second one are ignored (`C115_missing`); a text without values is converted although
  the code says that it must have one (`C115_none`).
* Rows that are cut off are left out by `merge_csv_key_values` without a message (`C116_cut_off`).
* (proved, C119_single, C119_point) `load_ungenerate`: a polygon with a single point is taken for a closed one, so that its point and the last segment of the polygon before it are removed, and a segment to a point that does not exist is added; in the first polygon it is an exception.
* (proved, C118_refused) `order_boundary` calls itself once for every point, so that files with about a thousand points end in a `RecursionError`.
* (proved, C117_taken) `MaxAsc` ends with an exception (after writing part of the file) if a row is empty in all files, e.g. an empty line at the end; (read) what it writes is rounded to five digits, so that the result for a single file is not that file.
* (proved, C120_broken) `load_checkpoint_file`: a directory without files below the directory of checkpoints makes `_get_checkpoint_times` return `None`, although there are checkpoint files; the processor ends with a `TypeError` and, with several processors, the others wait for its message.
* (proved, C121_short) `keep_point` divides by the squared length of the segment where the distance from a line needs the length: along sides longer than a metre hardly any point is left out, along shorter ones needed points are, up to the exception that the polygon does not overlap.
* (proved, C121_beyond) `points_needed` does not use `lat_amount` and `long_amount`: points which the grid does not have are asked for, and a polygon far from the grid is not refused.
* (proved, C122_unfinished, C122_read) `sdf2pts`: a last cross section without `END` is lost without a message if the header does not count it; a file without cross sections whose header says so ends with `NameError`.
* (proved, C123_narrow) `llasc2pts` does not compare the number of values in a row with `ncols`: values of shorter rows are written for places in other rows, without an exception.
* (proved, C123_centre) `llasc2pts` treats `xllcorner` and `xllcenter` alike: the same raster described in the two ways gives points half a cell apart.
* (proved, C124_centroids, C124_flat) `set_values` with `indices` at centroids extrapolates to first order in all triangles: setting the elevation at the centroids of one region takes away its slope in the triangles of all others.
* (proved, C125_small, C125_area) `accumulate_data_stats` divides the extent from the first to the last centre by the number of centres: cells, and with them volumes and areas of catchments, come out too small, for two by two cells by a factor of four.
* (read) `sww2pts` does not use its arguments `timestep` and `origin` nor the corner of the file: points are taken relative to the corner and written as absolute.
* (read) Fitting several attributes in blocks raises; `Fit` with Geospatial_data and no `z` raises; `rectangular_old` raises NameError;
  `interpolate_sww2csv` with a stage file raises; `update_conserved_quantities` does nothing for continuous elevation; `set_values` of a
  constant at 'unique vertices' does nothing; `Polygonal_set_quantity_operator` refers to an undefined class; comparisons
  `indices is []` are never true; `Inlet.compute_area`'s error path uses a missing attribute; `determine_function_type` takes f(t, a=default)
  for a function of x, y.
