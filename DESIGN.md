# Formal model of anuga_core: design

All Lean sources live in `lean/Verif/`.  Each area `A` has

* `Verif/A/Model.lean` – transcription of the code, every definition citing file and lines in `/repo`, the simplifications at the top;
* `Verif/A/Spec.lean` – the independent vocabulary in which properties are stated;
* `Verif/A/Lemmas.lean` and the like – helper lemmas;
* `Verif/A/Props*.lean` – the property theorems (the names listed in `MANIFEST.json`) with examples showing that their hypotheses
  are met by concrete non-trivial cases.

`tools/mk_manifest.py` regenerates `MANIFEST.json`, `lean/Verif.lean` and this file from the sources, `tools/notes.json`,
`tools/how.json` and `tools/design_*.md`.  `seeded/LOG.jsonl` records the wrong programs on which the theorems were tried.

How to read that log.  `theorems_failed` lists the theorems whose proofs no longer check after the edit.  This shows that the proof
depends on what was edited; it does not by itself show that the statement became false.  Entries whose edit is harmless say so.
For the runs all files of an area are put into one file.  In Compose, Erode, PlotU, Interp and Check that file failed even without an
edit, because a tactic found its goal already closed, and the first three and Interp were logged before this was noticed: theorems
were listed that had failed without the edit, and some edits counted as caught that had survived.  The proofs were made robust, and
today's unedited files of every area pass.  Edits for which only such theorems were listed were run again: eleven had survived, nine
of them led to new theorems (C94_plain_level, C94_plain_continuous, C95_cut_off, C100_max_bed, C101_max_again), two still survive.
Entries with a remark that begins with CORRECTION were not run again.  Unedited files were not tried at the time of the earlier runs.

## Trusted base

* Lean 4.33.0's kernel, and Mathlib as installed.
* Axioms: every theorem depends at most on `propext`, `Classical.choice`, `Quot.sound`.  No own axioms, no `sorry`, no
  `native_decide`, no `bv_decide`.  Concrete examples are evaluated by the kernel (`decide +kernel`).
* The transcription from Python/C/C++/Cython to Lean is by hand and not machine checked.  Each definition cites its source lines.

## Modelling decisions that apply everywhere

* **Floating point.** Doubles are elements of an arbitrary linearly ordered field `K` (so theorems hold for ℚ and ℝ), or reals where
  the code needs `arccos` or real powers; `sqrt` and `pow` are parameters with stated properties, or `Real.sqrt`.  Round-off, NaN,
  infinities and overflow are not modelled unless a module says so: the theorems are about the algorithm, not its round-off.
* **Exceptions** are values.  Where Lean's `x / 0 = 0` or a list default could be reached, the error branch is modelled or the theorem
  carries the guard the code checks.
* **Arrays** are lists or functions; mutation is state passing; aliasing is modelled where it can be observed (C33, C37).
* **Uninitialised memory** (`num.empty`, `malloc`) is an arbitrary argument (C22, C52, C63, C64).
* **Unspecified orders** (argsort ties, sets, dictionaries) are arbitrary permutations.
* **Parallel loops.** The OpenMP flux, distribution, friction and protection routines are modelled and compared with the serial ones
  (C15, C42, C47, C48); where the loop is free of races its iterations are run in order, races are modelled as interleavings (C47) or
  as reads of a neighbour's old or new value (C48).

## What is modelled, and what is not

| area | source |
|---|---|
| Bdry | `shallow_water/boundaries.py`, `generic_boundary_conditions.py`, `set_boundary`, `update_boundary` |
| CG, Sparse | `utilities/cg_solve.py`, `cg.c`, `sparse.py`, `sparse.c`, `sparse_dok.c` |
| Evolve | evolve loop and timestep control of `generic_domain.py` |
| Extrap, Flux, Friction | `sw_domain_orig.c`, `sw_domain_openmp.c`: distribution, fluxes, weirs, protection, friction |
| Factory | `mesh_factory.py`, `mesh_factory_ext.pyx`: rectangular, cross and periodic meshes |
| Par | `parallel/distribute_mesh.py`, `sequential_distribute.py`, `parallel_generic_communications.py`: partition, ghost layers, local meshes, exchange |
| ParRun | whole runs on several processors: `parallel_shallow_water.py`, order of step, exchange and yield in `evolve`, composed from Par, Extrap, Flux, Friction, Quantity |
| Culvert, Gate | `structures/boyd_box_operator.py`, `boyd_pipe_operator.py`, `weir_orifice_trapezoid_operator.py`, `internal_boundary_operator.py`, `internal_boundary_functions.py` |
| Kv | `operators/kinematic_viscosity_operator.py`, `kinematic_viscosity_operator.c`, `elliptic_operator.py` |
| Geom, Adv | `abstract_2d_finite_volumes/general_mesh.py` (geometry), `advection/advection.c`, `advection/advection.py`, time stepping in `generic_domain.py` |
| Raster | `fit_interpolate/interpolate2d.py`, `file_conversion/grd2array.py`, `asc2dem.py`, `dem2array.py`, `dem2pts.py`, `dem2dem.py` |
| Cross | `abstract_2d_finite_volumes/neighbour_mesh.py` (intersecting segments), `shallow_water/forcing.py` (Cross_section), `shallow_water/sww_interrogate.py` (cross sections) |
| Wall | `structures/riverwall.py` |
| Loop | `abstract_2d_finite_volumes/neighbour_mesh.py` (boundary polygon), `utilities/numerical_tools.py` (angle) |
| Forcing | `shallow_water/forcing.py` (rain, inflow, wind, pressure, stored series) |
| Sww | `file/sww.py` (writing, reading back), `utilities/sww_merge.py`, output part of `shallow_water_domain.evolve` |
| Gen | `pmesh/mesh_interface.py`, outline and tag functions of `pmesh/mesh.py`, `mesh_engine.py` (repeated points), `pmesh2domain*` |
| Dem | `file_conversion/sww2dem.py`, `calc_grid_values.c` |
| Compose | `utilities/quantity_setting_functions.py`, `utilities/spatialInputUtil.py` (raster values) |
| Erode | `operators/erosion_operators.py`, `sanddune_erosion_operator.py`, `mannings_operator.py`, `set_friction_operators.py`, `set_w_uh_vh_operator.py` |
| ParInlet | `parallel/parallel_inlet.py`, `parallel_inlet_operator.py`, `parallel_operator_factory.py` (inlets, `allocate_inlet_procs`) |
| FileFn | `abstract_2d_finite_volumes/file_function.py`, `fit_interpolate/interpolate.py` (`Interpolation_function`), `File_boundary`, start times of the domain |
| Gauge | `abstract_2d_finite_volumes/gauge.py` (`sww2csv_gauges`), `util.py` (`calc_bearing`), `file_utils.py` (`get_all_swwfiles`), `interpolate.py` (`interpolate_sww2csv`) |
| Sts | `file_function.py` (gauges on a boundary polygon), `geometry/polygon.py` and `polygon.c` (`interpolate_polyline`) |
| PlotU | `utilities/plot_utils.py` (reading files at nodes and centroids, files put together, areas, volumes, transects, triangles) |
| Caching | `caching/caching.py` (hashing, comparison, lookup, storing, clearing) |
| ParFile | result files of a parallel run: `generic_domain.py` (`tri_full_flag`), `sww.py` (`store_connectivity`, `store_parallel_data`), joined to Par, ParRun and Sww |
| Proj | `coordinate_transforms/redfearn.py`, zones of `lat_long_UTM_conversion.py` |
| MaxOps | `operators/collect_max_quantities_operator.py`, `collect_max_stage_operator.py`, `Quantity.maximum`, the place of the operators in the time loop |
| MeshFile | `load_mesh/loadASCII.py` (`.tsh` and `.msh` files), `system_tools.py` (`string_to_char`), `geo_reference.py` (ASCII and NetCDF), `pmesh/mesh.py` (`Mesh2IODict`, `IOOutline2Mesh`) |
| ParStruct | `parallel/parallel_structure_operator.py`, `parallel_boyd_box_operator.py`, message passing between processors (`utilities/parallel_abstraction.py`) |
| ParGhost | `parallel/parallel_generic_communications.py` (exchange with messages that do not block, `Allreduce`), order of exchanges in `evolve` |
| Mux | `file/urs.c`, `file/urs_ext.pyx`, `file/mux.py`, `file_conversion/urs2sts.py`, `file/sts.py` (`store_header`, `create_sts_boundary`) |
| Damage | `damage_modelling/inundation_damage.py` |
| Csv | `file/csv_file.py`, `damage_modelling/exposure.py` (columns and saving), `utilities/csv_tools.py` |
| Cut | `file_conversion/file_conversion.py` (`get_min_max_indices`) |
| TimeFile | `file_conversion/file_conversion.py` (`timefile2netcdf`), with FileFn |
| Lib | `lib/maxasc.py`, `lib/order_boundary.py` |
| Ungen | `file/ungenerate.py` |
| Check | `shallow_water/checkpoint.py` |
| Urs | `file/urs.py` (choice of points; not `Read_urs`) |
| Sdf | `file_conversion/sdf2pts.py` (not the rest of the header) |
| Llasc | `file_conversion/llasc2pts.py`, `convert_from_latlon_to_utm` of `coordinate_transforms/redfearn.py` |
| TagRegion | `abstract_2d_finite_volumes/tag_region.py`, `set_tag_region` of `generic_domain.py`, `build_tagged_elements_dictionary` of `pmesh2domain.py` |
| Radar | `rain/calibrated_radar_rain.py`, `rain/raster_time_slice_data.py` (not plots and coordinates) |
| Fit, Interp, Quad | `fit_interpolate/`, `fitsmooth.c`, `quad_tree.c`, `geometry/quad.py`, `aabb.py` |
| GeoRef | `geo_reference.py`, parts of `geospatial_data.py` |
| Mesh, NodeAvg, Quantity | `neighbour_table.cpp`, `neighbour_mesh.py`, `general_mesh.py` (inverted structure), `quantity.c` |
| Ops | rate, inlet and structure operators, volume report |
| Polygon, PolyFun, Region | `geometry/polygon.c`, `polygon.py`, `polygon_function.py`, `region.py` |
| SetQ | setters, maximum collector, inundation queries |
| Tools | `numerical_tools.py`, histogram reports |

Not modelled: Python/NumPy runtime and Cython glue, CUDA and OpenACC variants, the NetCDF library and the remaining file formats, MPI transport and the
choice of the partition (Metis, Morton), caching, plotting, logging, mesh generation by triangle, damage and tsunami source models.

## Properties

For each property: what is modelled and how it is proved; then the limits.

* **C01** evolve yields exactly the requested times. `_evolve_base` and `update_timestep` are a step machine driven by an arbitrary list of flux-limited timesteps (`Evolve/Model`). The list of yielded times is compared with an independently written list of expected times; induction over the steps. Completion is shown when the raw steps have a positive lower bound. *Limits:* Exact arithmetic. Yield sequence characterised for every run; completion shown when raw steps have a positive lower bound. Disagreement recorded: a zero-duration call yields the same time twice.
* **C02** internal timestep never exceeds any of its limits. Same machine; invariants of one internal step (never beyond the yield or final time, never above the maximum timestep), carried through a run by induction. *Limits:* Exact arithmetic.
* **C03** interrupting and resuming evolve loses nothing. Two consecutive calls of the machine, with the state the code carries over, against one call with the later final time. *Limits:* Exact arithmetic; splits at multiples of the yield step. Disagreement recorded: set_time before the first evolve is ignored.
* **C04** small-timestep fallback is bounded and reversible. The counter of consecutive small steps and the order as components of the machine; induction over lists of steps. *Limits:* The exception comes at the (max_smallsteps+1)*default_order-th consecutive small step.
* **C05** mesh neighbour relation is symmetric and geometric. `_build_neighbour_structure` with its hash map as an association list; symmetry stated with directed edges between node numbers (`DirEdge`, `Across`). *Limits:* Interior edges tagged by the user break symmetry (C05_interior_tag_breaks_symmetry); symmetric otherwise.
* **C06** non-conforming meshes are rejected. Same model: construction fails exactly if a directed edge occurs twice.
* **C07** boundary segments are numbered bijectively. `boundary_dictionary_construct` and `build_boundary_neighbours`: the enumeration is a bijection between tagged segments and numbers, sorted, and independent of the dictionary's order. *Limits:* Negative user ids are outside the model (natural numbers).
* **C08** (partial) node averages are true averages. `_average_vertex_values` as a fold over the inverted triangle structure, which is any sorted arrangement of the corners; the sum a node receives is compared with the sum over its corners. *Limits:* False in full: C08_unused_node_breaks_average. Proved when no unused node number lies below a used one, for every tie order of the sort.
* **C09** semi-implicit update solves its equation or fails. The loop of `_update`, including the state left behind by an error; the specification is the implicit equation solved for the new value. *Limits:* Exact arithmetic. A failed update leaves a partly advanced state (C09_failure_leaves_partial_state).
* **C10** Runge-Kutta steps combine sub-steps as documented. euler, rk2 and rk3 steps with an arbitrary rate function and an arbitrary repair of cells after each update; specification: the published combinations written out. *Limits:* Fluxes, forcing, protection and ghosts are arbitrary functions.
* **C11** closed-domain mass conservation of the flux scheme. The serial and OpenMP flux routines over a mesh of any size, with the marks for edges already done; finite sums regrouped edge by edge. The edge flux is the modelled one, not a parameter. *Limits:* Exact arithmetic. Serial routine: after every history of calls including partial flux refresh. OpenMP routine: when edge geometry agrees from both sides.
* **C12** reported boundary flux integral matches the volume change. The flux integral operator run after each step of the three integrators, over any history of steps, with the volume added by the repair of negative cells recorded separately. *Limits:* Volume added by depth protection appears as an explicit separate term. Other operators and forcing on stage excluded.
* **C13** lake at rest stays at rest. Distribution step, edge flux, bed slope terms and wall boundary composed: from a lake at rest all updates vanish, for any mesh and bed with dry land. *Limits:* Exact arithmetic. Provisional jumps of size 1e-100 (constant TINY in limit_gradient) are excluded by hypothesis. Limits shown: beta above one (C13_large_beta_breaks_lake) and river walls on boundary edges (C13_boundary_wall_breaks_lake) make lakes move.
* **C14** reflective walls are impermeable. Flux function with the state built by `Reflective_boundary`. *Limits:* Mass flux zero and momentum flux normal to the wall; closed domains keep volume. False when the edge also carries a river wall (C14_not_with_river_wall).
* **C15** depth protection removes all negative depths and reports added mass. `_protect_new` and the OpenMP loop per triangle, with the reported mass error as a sum. *Limits:* Exact arithmetic. Disagreement recorded: the OpenMP routine leaves the y momentum of dry cells (C15_openmp_keeps_ymomentum).
* **C16** friction only slows the flow. Friction coefficient (square root and power as functions with stated properties) composed with C09: momentum keeps direction and shrinks. *Limits:* Exact arithmetic; square root and power are parameters with the properties used. Flat and sloped versions.
* **C17** point-in-polygon classification is a partition. The two-ended filling of the index array as a fold, for any classification of the points. *Limits:* two-ended fill of the index array for every classification; the single point tests agree with the list results
* **C18** point-in-polygon is geometrically right. Crossing count and on-edge test, compared with an even-odd rule stated without loops; consequences for triangles and rectangles. *Limits:* even-odd rule for all polygons (apex form), triangles, rectangles, boundary, bounding box, listing; sqrt assumed exact, points closer than 2e-15 to a side excluded because of the safety margins in the code
* **C19** polygon area is geometric. Shoelace sums on vertex lists: any base point, fans, chords, linear maps, translation, rotation and reversal of the list.
* **C20** segment intersection is sound and complete. `intersection` with its status codes and the table for collinear segments, against parametric definitions of meeting points. *Limits:* two theorems show the limits of the tolerances: crossing segments of length 2e-5 are missed, a gap of 5e-16 raises RuntimeError
* **C21** Sparse matrices behave like the dense matrix they denote. Dictionary as association list; each operation is compared with the dense matrix operation. *Limits:* Exact arithmetic. Disagreements recorded: 0*A keeps its entries in len (C21_zero_scale_keeps_entries); + ignores sizes (C21_add_ignores_sizes).
* **C22** CSR conversion preserves the matrix unless a row in the middle is empty. The constructor loop; the exact condition (no empty row before a non-empty one) is proved in both directions. *Limits:* The claim 'always preserves the matrix' is false; both directions of the exact condition are proved (C22_no_gap, C22_gap_breaks) for matrices without explicit zero entries.
* **C23** conjugate_gradient returns what it claims. Python and C loops as recursion on the remaining iterations, with general symmetric positive definite matrices: residual invariants, conjugacy, termination in n steps, meaning of the reported error. *Limits:* Exact arithmetic; division by zero is a separate outcome. Disagreements recorded: Python Jacobi preconditioning diverges on x/4=1, one allowed iteration returns the start unchecked in Python, only the last column is checked in C, indefinite matrices can break down.
* **C24** Geo-referencing round-trips. Conversions between absolute and relative coordinates and between references, and the NetCDF/ASCII round trips, for all point arrays. *Limits:* All references and arrays of points; C24_tiny_origin and C24_single_point record where get_absolute departs from the other conversion.
* **C25** Zone reconciliation never mixes zones. `reconcile_zones` with the state of both objects after return and after raise. *Limits:* State of both objects after return and after raise; C25_not_atomic records the hemisphere case.
* **C26** searching the tree of boxes is complete and correct. Boxes and the Python tree as an inductive type; insertion takes the available stack depth; search returns exactly what was inserted and contains the point. *Limits:* Exact arithmetic. Recursion depth is a parameter of insertion; C26_terminates shows a sufficient depth exists, C26_point_box_fails that none exists for a point box.
* **C27** looking up a point in the triangle tree finds a triangle around it. Tree of triangles: every point in a triangle is found, weights are the barycentric coordinates; convexity argument for the child boxes. *Limits:* Exact arithmetic; sqrt is a parameter. Stack depth is a parameter of insertion.
* **C28** rate operator keeps depth non-negative and accounts for water. Rate operator per triangle and as totals over index lists: booked volume equals the change of volume. *Limits:* Exact arithmetic. Also proved: a negative factor with positive rates drives depth negative; a triangle listed twice is booked twice; get_Q misreports quantity/array rates on a region.
* **C29** inlet fills basins level and exactly. Filling to a level: sort by stage and prefix sums, compared with the defining equation of the level. *Limits:* argsort is any permutation that sorts.
* **C30** inlet operator never extracts more water than available and books what it applied. Decision logic of the inlet operator on top of C29, totals over histories. *Limits:* Serial Inlet_operator; the parallel one is not modelled.
* **C31** culvert/structure transfer conserves water. Transfer between two disjoint inlets with an arbitrary discharge: what one gains the other loses. *Limits:* The discharge routine is an arbitrary non-negative number; the tolerance of the assertion is irrelevant because gain equals loss exactly.
* **C32** Histograms and the timestep statistics report count every sample once. `searchsorted` as a count; counts telescope to the number of samples. *Limits:* Disagreements: decreasing bins give negative counts (C32_unsorted_bins), relative histogram is 0/0 when all samples are below the first bin, the ten percent report may print 19 groups (C32_not_tenths), the reported timestep is floored to whole seconds.
* **C33** Polygon_function gives the last matching region. Fold over regions in order, with the aliasing of numpy arrays modelled. *Limits:* C33_last_region excludes a default function that returns its argument array itself when some region is a function: the array is then overwritten (C33_default_aliases).
* **C34** Setting a quantity, the stage or the bed changes the region as told and keeps the water. Setters of quantity, stage and elevation: which triangles and nodes change and to which value. *Limits:* Exact arithmetic. The lists of nodes and triangles come from Python sets in any order. Disagreements: Set_stage_operator does not check the bed (C34_stage_operator_below_bed); with continuous elevation and centroid averaging, which all DE algorithms leave on, setting the bed of the whole domain ignores the value (C34_whole_domain_ignores_value); unusable values are dropped without notice (C34_unusable_value).
* **C35** The maximum collector is the running maximum. State machine over histories of calls; the maxima are compared with the maximum over the visited states. *Limits:* Disagreement: a triangle that was always dry reports the minimum height as maximum depth (C35_dry_depth).
* **C36** (partial) Wet elements and maximum inundation refer to the right triangles. Wet elements and the position of the highest wet triangle. *Limits:* Proved for all triangles (indices=None). False for index subsets: get_wet_elements returns positions in the list instead of triangles (C36_positions), so a bed outside the subset may be reported (C36_subset_wrong).
* **C37** set_boundary binds every segment or raises, and update_boundary uses that binding. `set_boundary` as state machine over histories of calls, with object identity of the dictionaries. *Limits:* C37_history assumes a separate dictionary object per call; with a shared one two domains stay coupled (C37_shared_map). boundary_flux_type is misaligned when a tag is bound to None (C37_flux_type_misaligned).
* **C38** limited reconstruction keeps the cell mean and neighbour bounds. Every limiter of quantity.c per triangle: bounds, average kept, unchanged where within bounds. *Limits:* quantity.c limiters. Edge limiters bound edges only; derived vertex values get the explicit weaker bound. bound_vertices_below needs the centroid above the bound (witness given).
* **C39** Interpolation from a mesh is the piecewise linear surface. Interpolation matrix from the tree of C27 and its product (C22): values of planes, range, blocks, kept matrix. *Limits:* Over an exact field with an exact square root. The boundary polygon test is the code's own (C17-C19 describe it). Two disagreements are proved: the centroid flag of a call without points is ignored when the matrix is kept, and an interpolate_block call in between changes the answer of a later call without points. use_cache is not modelled.
* **C40** vertex-edge-centroid interpolation round-trips. Vertex, edge and centroid conversions as linear identities. *Limits:* Exact arithmetic, per triangle.
* **C41** gradient reconstruction is exact for planes. `_gradient`, `_gradient2` and the least squares gradient of quantity.c on values of a plane. *Limits:* Exact arithmetic.
* **C42** serial and OpenMP flux routines agree. Both flux routines on the same mesh: equal updates, edge fluxes and timestep. *Limits:* Modes 0 and 2. Weir heads exactly equal, positive and below 1e-100 are excluded (formula is one-sided there).
* **C43** flux timestep respects the CFL bound of every owned triangle. Timestep as a minimum over edges, compared with the CFL condition of every wet edge. *Limits:* Needs owned triangles numbered before ghosts (C43_not_with_ghost_first otherwise).
* **C44** substep slots of boundary_flux_sum stay aligned. The static call counter over histories of steps; slots of boundary flux sums aligned with substeps. *Limits:* A single stray compute_fluxes call misaligns later steps (C44_not_after_stray_call).
* **C45** reconstructed edge values stay within the range of neighbouring triangles. Distribution step: stage, depth and velocity at each edge against the range of the triangle and its neighbours. *Limits:* Exact arithmetic, up to the constant 1e-100 below which limit_gradient does not limit.
* **C46** reconstruction keeps cell averages and is exact for planes. Distribution step: mean of edge values is the average; planes are reproduced. *Limits:* Exact arithmetic.
* **C47** (partial) parallel friction loops agree with the serial ones. Parallel friction loops as interleavings of atomic reads and writes of the variables missing from the private clause. *Limits:* False in full: abs_mom (flat) and k6, z (sloped) are missing from the private clauses, C47_flat_not_serial and C47_sloped_not_serial give schedules with a wrong result. Proved for schedules that respect the intervals between writing and last reading of the shared variables, in particular for one thread.
* **C48** (partial) serial and OpenMP distribution steps agree. Both distribution routines on the same input. *Limits:* Proved for velocity extrapolation (the default) and momentum limiter parameters that vanish at dry cells (DE0, DE1, DE2). Otherwise false: C48_race_with_dry_beta, C48_not_without_velocity.
* **C49** triangles with two boundary edges are reconstructed first order. Triangles with two or three boundary edges get constant values (first order) up to 2e-100. *Limits:* Exact arithmetic, up to 2e-100.
* **C50** point-in-triangle test is exact. `__is_inside_triangle` with tolerances against the half plane description of a triangle.
* **C51** River walls act as weirs and give way gradually to shallow water flow. `adjust_edgeflux_with_weir` with square root and power as functions with stated properties: range, thresholds, direction, bounds. *Limits:* Exact arithmetic; sqrt and pow(.,0.385) are functions with the listed properties (shown for the real functions).
* **C52** Entries of fitting matrices are summed up exactly unless tiny. `sparse_dok.c`: accumulated entries, ordering and conversion to compressed rows. *Limits:* Exact arithmetic. Disagreements recorded: small entries are lost however often added (C52_small_lost); with an empty row in the middle the product depends on uninitialised memory (C52_gap_reads_memory).
* **C53** Point sets keep every point, its place and its attributes. Geospatial_data: sum, clip, sample and split of point sets with their references; drawn random numbers are an argument. *Limits:* Drawn numbers are an argument, so all random outcomes are covered; C53_split_can_fail, C53_add_loses, C53_sample_not_addable record defects.
* **C54** volume report balances for every set of operators. Any list of rate, inlet and structure operators over any history; the flux step enters through its own balance (C12). *Limits:* One process; the flux step is a hypothesis (C12). Structures with negative discharge are outside.
* **C55** (partial) Per-edge and vectorised evaluation of a boundary condition agree. Both evaluation routes of every boundary class on the same state. *Limits:* False for the Flather condition with water on both sides (C55_flather_differs), for the characteristic stage condition (evaluate always raises), for Time_stage_zero_momentum_boundary (both raise) and for over-long Dirichlet vectors. Proved for all other classes (C55_agree) and for Flather where one side is dry.
* **C56** What each boundary condition imposes at an edge. What each boundary class writes, per class, against the condition it is documented to impose. *Limits:* Flather: the per-edge version; characteristic: the vectorised version. Disagreements: velocities at a wall are reflected the wrong way, roll-over with a series ending at time 0 or before never ends, an inflow object on two tags gives the second a wrong rate.
* **C57** Covariance, correlation and error norms are what their names say. mean, cov, corr, err, norm over the reals; Cauchy–Schwarz. *Limits:* Exact real arithmetic. Disagreement: with a zero reference, or without one in the two-norm, the relative error is inf or nan, not the documented absolute error (C57_err_zero_reference).
* **C58** angle and anglediff give the anticlockwise angle in [0, 2 pi). `angle`, `anglediff`: uniqueness up to full turns. *Limits:* Exact real arithmetic.
* **C59** line_intersect reports exactly the triangles a segment meets. `line_intersect`: exact set of triangles met. *Limits:* Exact arithmetic. Disagreement: of a line with more than two points only the first segment is used (C59_polyline_tail_ignored); coinciding points meet nothing (C59_point_line).
* **C60** A Region is the set of triangles it describes. `Region` constructor: set of triangles for every selection, conflicts refused. *Limits:* The inside test and the line test are those of C17 and C59. Disagreements: a centre without radius, or the reverse, selects the whole domain (C60_half_circle).
* **C61** (partial) polygon_overlap reports the triangles overlapping a polygon. `polygon_overlap`, same model as C59. *Limits:* Proved: a triangle whose side crosses a polygon side properly is reported. False in general (C61_overlap_wrong): disjoint triangles are reported and triangles that contain the polygon are missed.
* **C62** A time series function is the polygonal line through its data, without memory. `Interpolation_function` in time with its running index, over histories of calls. *Limits:* One quantity at one interpolation point (all are treated alike). The thinning clause holds in the spatial case; proved disagreement: for a function of time only the values are not thinned with the times. Proved disagreement: repeated times are accepted and then the value at that time depends on earlier calls.
* **C63** Surface fitted to points is the smoothed least squares surface. Assembly of the fitting system, block by block, shown to be the normal equations of the documented cost. *Limits:* The system is proved to be the normal equations of the cost (squared distances plus alpha times integral of squared slope, via the planes through the nodal values), hence minimality; uniqueness from connectedness; blocks and order from equality of the accumulated sums (C52); the compressed form from C52. One attribute per point; the iterative solver itself is C23. C63_second_fit is a disagreement: a second fit() on one object returns the first surface divided by alpha (no right angles).
* **C64** Structured meshes tile the rectangle and tag its sides. Loops of the generators reduced to closed forms; tiling, areas and tags then follow in cell coordinates. *Limits:* Closed forms of the loops, then geometry in cell coordinates. Exact arithmetic: in floating point the points of the last column may miss origin + len by rounding. rectangular_old raises NameError (undefined delta1) and is not modelled.
* **C65** Distributing a domain gives every triangle to exactly one processor and copies it faithfully. Stable sorting by processor number: in the sorted list the entries below p come first, so block p of the new numbering is exactly processor p's triangles; the index maps are inverted. *Limits:* What METIS returns is arbitrary. For a single processor distribute keeps the domain as it is (not modelled).
* **C66** The ghost layer holds exactly the triangles within the requested distance. Induction on the number of layers: a neighbour of an older layer is already in the layers found. *Limits:* Edges tagged by the user inside the mesh are not crossed, which is a source of differences from the serial run: see C67.
* **C67** The local mesh is the restriction of the serial mesh. DirEdge of a local triangle corresponds to DirEdge of the serial one through the injective node map; tags follow from C07. *Limits:* With a user tag on an edge inside the mesh the triangle behind it may be missing, so that number_of_boundaries of an own triangle exceeds the serial one: C67_interior_tag_changes_count.
* **C68** After an exchange every ghost has its owner's value. Receive and send lists are the same increasing list of shared triangles; writing it puts the owner's value at each of them. *Limits:* Messages are matched by source, destination and call, as MPI does. build_local_commun sorts the two columns of its tables independently; the proof shows that this is harmless because both are increasing.
* **C69** A run on several processors gives the values of the serial run. Composes C65 to C68 with the models of distribution, flux, friction and time stepping. The flux through the edges of a triangle depends on values at most three edges away; by induction over the events, own triangles agree with the serial run and ghosts agree after each exchange. *Limits:* No river walls and no operators; settings of the local domains are those of the serial one. C69_two_layers_not_enough: with positive dry limiters a run with the default two layers differs from the serial run.
* **C70** Culvert and weir discharge is the most the inlet and the barrel allow. Real numbers with real powers and square roots, as the code is written. Specification: the published inlet formulas and the head loss equation; the discharge is shown to be the greatest element of the set they allow. *Limits:* Two disagreements with expectation are proved: C70_more_headwater_less_flow (the discharge falls where the barrels begin to run full) and C70_pipe_depth_not_similar (depth in a pipe breaks similarity). The critical depth of the trapezoid comes from a numerical root search and is an arbitrary positive function in the model.
* **C71** Culverts choose the higher side, limit the velocity, and smoothing only delays. discharge_routine with its state (smoothed energy difference and discharge), for an arbitrary discharge function with stated bounds, which the three structures are shown to meet; induction over calls. *Limits:* C71_first_step_uphill: with smoothing and inlet 1 higher at construction, water is moved uphill in the first step, because the constructor stores the absolute value of the difference.
* **C72** Rating tables of gates are read as curves, never uphill. Construction and call of hecras_internal_boundary_function over columns with blanks. Specification: broken lines through points; an invariant of accepted tables, then the cases of the call. *Limits:* Two disagreements are proved: C72_more_headwater_less_flow and C72_still_water_flows. Reading the csv file is not modelled; a table is a list of columns with trailing blanks.
* **C73** Pumps stay within capacity, ramps and hysteresis. Constructor and call of pumping_station_function; induction over calls.
* **C74** Internal boundaries pass water only downhill, and implicit steps do not overshoot. Both discharge routines, the constructor and runs; implicit equation stated independently as the balance of the two levels. *Limits:* The root finder of scipy is a function in the model; theorems on implicit calls assume that it solves the equations it is given. Two disagreements are proved: C74_first_step_asymmetric and C74_closed_but_flowing.
* **C75** Kinematic viscosity diffuses velocity without new extremes and leaves depth alone. Assembly of the matrix row by row (with the sort of columns), multiplication, boundary term, solve (with the conjugate gradient model of C23) and the call. Specification: inflow through edges; summation by parts gives symmetry and sign, the largest entry gives the maximum principle. *Limits:* Restricted to triangles of one size because of a fault that is proved: C75_uniform_iff_equal_areas (with areas in use, the default, a uniform flow is a solution only if neighbours have equal areas). Two more: C75_not_symmetric_at_shore and C75_call_loses_momentum. The option add_safety is not modelled.
* **C76** Elliptic equations on the mesh are solved. Same operator; a sign change of matrix and right hand side is shown not to change the run of the solver, which reduces to C23; a path to the boundary gives definiteness.
* **C77** Areas, normals, lengths, centroids and radii of a mesh are those of its triangles. Formulas of the constructor over the reals; the specification uses cross products, distances and signed heights. The incentre is given explicitly; any point further from all edges would give a larger area. *Limits:* Unless the inscribed circle is asked for, the radius is the distance from the centroid to the nearest edge midpoint, which can be larger or smaller: C77_default_radius, C77_default_radius_not_inscribed.
* **C78** Advection conserves mass and creates no new extremes. Flux loop, time step fold, first order extrapolation, the three methods and runs. The update is rewritten as a combination of own and upstream values; the weights are not negative because one side of the flow has a single edge, which is at most half of the perimeter. *Limits:* The bounds need the inscribed radius; with the default radius they fail: C78_default_radius_overshoots.
* **C79** Interpolation from a raster is bilinear, exact at grid points and never overshoots. Binary search, index arithmetic, weights and NaN handling of the code on lists; the specification is the bilinear form on the cell that contains the point. The search is shown to find a bracketing cell; cells that share the point give the same value. *Limits:* A missing number on the far side of a cell counts even where its weight is zero: C79_far_side. Decreasing grid lines are accepted: C79_accepts_unsorted.
* **C80** Grid files keep each number at its place through all conversions. Readers and converters as functions on the parsed header and rows (no text parsing, no NetCDF layer). Both directions of the membership statement for points; index arithmetic for windows and stencils. *Limits:* Places are those the code assigns. Corner and centre of the first cell are treated alike (C80_corner_is_centre); a decimated number is placed beside the centre of its stencil (C80_decimated_position); agreement of the two readers needs an integer value for missing data (C80_fractional_missing).
* **C81** Flow and energy through a cross section. The loops over triangles and edges with the segment intersection and point-in-polygon functions of the Polygon model. The specification is the interval of the line inside each closed triangle; intervals of different triangles have disjoint interiors or are equal, and cover the line, so sums over them telescope. *Limits:* Clear position: no end, corner or crossing within the rounding tolerances of the code without being exact. A part that begins and ends strictly inside one triangle is dropped by the code (C81_inner_part_is_lost, C81_inner_part_is_silent); the exactness statements assume that no part does.
* **C82** River walls. The loops over walls, segments and edges, the table of parameters and the check of connectedness, with the state of domain and river wall object. Segments along an edge are described by coordinates along and across; the crest by the nearest point of the segment; gaps by places which are an end of just one edge. *Limits:* The gap check is sound only as stated: C82_gap_missed has a wall from boundary to boundary with one gap which passes; without messages no gap is reported (C82_silent). Only midpoints count (C82_across). Walls of an earlier call stay on their edges without parameters (C82_again); a refused call leaves marked edges (C82_refused).
* **C83** Boundary polygon of a mesh. The search of the starting point and the walk along the dictionary of segments, with a number of rounds. As many boundary edges end at a point as begin there, since sums of antisymmetric functions over all edges of triangles reduce to the boundary; so the walk cannot return to any point but the first. The same reduction gives the area. *Limits:* The documentation promises the polygon that contains the entire mesh: false on a mesh with a hole (C83_hole: the hole is returned, clockwise) and on one touching itself in the starting point (C83_pinch: half is left out); the statement is scoped accordingly.
* **C84** Rain and inflow. Construction as a function of optional arguments to an error or the triangles and the exchange area, and the call as a function of the time, the rate, the default and the flag. Membership in a polygon is the model of C17; the area within the boundary is related to that of the mesh by C83. *Limits:* The default rate of an inflow is not divided by the area (C84_default, C84_default_differs), and on a mesh with holes an inflow everywhere loses volume (C84_hole); the statement is scoped accordingly.
* **C85** Wind, air pressure and stored time series. The loops over triangles, the gradient formula shared with the area Quantity, and the state of a stored series (index, two arrays) with its catch-up loop. Invariant: the arrays are the data at the two times around the index, and the first of these is not later than the reading time. *Limits:* Known faults outside the scope of the statement: sign of the pressure term (C85_sign), reading times that go back as in the third order method (C85_back), interpolation of directions as numbers (C85_direction), functions of fixed length (C85_three).
* **C86** What the output file holds. The file as lists of times, rows and ranges; a call as a partial function of file, time and state; the loop of evolve as a function of the yields. Invariant over calls: all rows have one entry per time, and the ranges bound them. *Limits:* Faults outside the scope of the statement: times after a roll-over to a second file (C86_rollover), break with a coarser output step (C86_break_shifts), range after replacing (C86_range_stale).
* **C87** Merging the files of a parallel run. Files of the processors with their maps to global numbers, and the sequence of array assignments in their order. The specification speaks of owners; the lemma is that the last assignment to an entry is made by an owner, and that every entry has one. *Limits:* Scope: the number of stored times differs from the numbers of points and triangles of the first file (otherwise C87_static_mistaken). The start time is truncated to whole seconds (C87_start, C87_start_truncated).
* **C88** Joining separate files and reading files back. Induction over the files with the triangles seen as triples of corner records, so that numbers do not occur in the statement; the dictionary of points as the list of first occurrences; the two while loops with the position they end at. *Limits:* Places are relative to the origin, which is that of the first file (C88_origin_mixed); the start time is lost (C88_times, C88_start_lost); for a file with separate corners the arrays do not fit the mesh returned with them (C88_values_match, C88_values_mismatch).
* **C89** Outline made from polygons and tags. The outline as numbered vertices relative to an origin, segments, regions, holes; the specification is the picture in absolute coordinates, free of numbers. Each adding function is shown to extend the picture; acceptance is characterised function by function, independent of the outline reached. *Limits:* A reference marked absolute has origin zero (Honest). The overall point is chosen without regard to the interior regions and may lie in one (C89_shared_corner); the documented distance of point_in_polygon is not kept (C89_point_far).
* **C90** Tags from the outline to the domain. Codes as look-ups in the dictionary built by the loop; the removal loop with an invariant on the prefix seen and on the ends of the segments; the edge dictionary by induction on the last segment; then combined with C06 and C07. *Limits:* The triangulation library is a hypothesis (Faithful): conforming output, one segment per edge, markers kept, unmarked boundary marked one.
* **C91** Maps exported from results. The loops as folds over lists; the index range of each triangle is shown to contain every grid point the test accepts, so an entry is that of the last accepting triangle. The weights are quotients of signed areas, hence the linear interpolant. The block loop by an invariant on the finished prefix. Reading back is C80. *Limits:* The text of a number is a parameter (rounding of %.3e); positions within 1e-12 of a side's length count as on it. The corner of a text grid is cut to a whole number, so the map is displaced for other corners (C91_corner).
* **C92** Quantities composed from several sources. The array loop is shown to act on each point separately (a state of value, set and ever-missing per point); the point loop is then solved by induction over the pairs. Regions are decided by the library's polygon test, C18 and others. *Limits:* Sources work point by point; the tree of scipy is a parameter. Files of polygons are taken as read.
* **C93** Values from scattered points and rasters. Folds over the neighbour list bounded by induction; weights are positive. For rasters the pair of pixels and the place between them are computed from the floor, giving a convex combination; exactness is an identity of polynomials. *Limits:* The contract of scipy's tree (k nearest, sorted, true distances) is a hypothesis, shown satisfiable by a sorting tree over the reals. Values beyond 9e100 are excluded for the methods 'min' and 'max'. A missing value of zero is never recognised (C93_zero).
* **C94** Erosion keeps the water, the base level and the lie of the bed. The clean-up is the one of setting the elevation; its node loop is solved by the lemmas of C34. Levels of a node are means, bounded by the bounds of their terms. Runs by induction. numpy's broadcasting of (n,3) with (n,) arrays is modelled by the length of the list. *Limits:* The claims about the plain operator are proved as they are in the code (C94_plain_fails, C94_plain_one, C94_plain_three, C94_whole_domain). Slopes of the water surface, the square root, the power and the tangent are parameters; one processor.
* **C95** Friction operators slow the flow; friction from depth; setting the flow. Monotonicity of exp and real powers; 1 + x ≤ exp x. Lists are written by the put lemma of C34. *Limits:* Real exponential, square root and power. numpy's vectorize is modelled by its rule that the type of the first result is that of all.
* **C96** An inlet shared by processors acts as on one processor. Invariant of the merge: everything taken lies below the current stage, everything else above, and the sums run over what was taken. The step is then compared with the operator of C30 by the uniqueness of the level. The parts of a region follow from C60: selection depends on one triangle only. *Limits:* Messages are modelled by the values they carry. Stages must be below the largest float32, the start value of the search. The last sentence is a defect of the code, proved as it is (C96_books, C96_counted_again).
* **C97** Functions and boundaries read from result files. The table made by the constructor is computed by induction over times and quantities with the interpolation theorems of C39 (the interpolator is passed on, so its invariant goes along); the slot of a call by the theorems of C62; shifts by corner and start are moved through planes, triangles and lines. *Limits:* Making the interpolator from vertices and triangles is a parameter; the theorem needs that it fits the mesh (`Fits`, built in C27/C39). Series are proved without thinning (C62 shows that thinning goes wrong there). That the boundary takes the time "model time plus start" is a defect, proved as it is.
* **C98** Series at gauges are the stored results at the gauges. At a stored time the function of C97 gives the stored values whatever was called before; the files written are followed with an invariant over gauges, times and files. The bearing follows from the uniqueness of the angle (C58). *Limits:* Numbers are not turned into text. The bearing, the tables that always fail, the choice of files by part of the name and the times of later files are proved as they are in the code.
* **C99** Gauges along a boundary give values linear between them. The neighbour of a selected gauge is the gauge at the next vertex around the polygon; the count of neighbours is right iff exactly one gauge has none. The loop over the sides replaces the value; all sides at the point agree. Time as in C97. *Limits:* Points within the tolerance of several sides without being on all of them are left out. The zero off the sides, the relative tolerance, the refusal of a whole polygon and of fixed quantities are proved as they are in the code.
* **C100** Values of a result file read for analysis are those stored. Every array is a table of a function of time and node, or a fold over the times; the functions are compared with the values held by the file. Largest and furthest values by induction over the list. *Limits:* Exact arithmetic; friction, negative and empty lists of times left out. That depths are wrong with a moving bed is proved by witnesses.
* **C101** Files put together, areas, volumes, transects and triangles found. Induction over the files. The distance to the line, squared, times the squared length is the squared cross product, as is that to the foot. Triangles by C18; the first least value by induction. *Limits:* Exact arithmetic. Points within 2e-15 of a side without being on it are left open (as in C18).
* **C102** A cached call returns what the call would compute. Invariant of the stored slots (a result with its code is right for all arguments of its name; or is right for the stored arguments) kept by every operation. *Limits:* Compression, statistics, expiry and the file formats are left out; hash of atoms arbitrary. The wrong results are proved by witnesses for every hash function.
* **C103** The merged result file of a parallel run is that of the serial run. The flags of the local domain are shown to be one exactly at own triangles; with C65 the files are the pieces of the mesh in the sense of C87; with C69 the values at own triangles are the serial ones. *Limits:* Joins C65, C69 and C87. Hypotheses of C87 remain: the number of stored times differs from the numbers of nodes and triangles of the first file, and in the smooth format the first processor has two triangles sharing a node (C103_format). Node numbers are stored exactly.
* **C104** Projecting latitudes and longitudes. Real analysis: the coefficients of the series are differentiated along the meridian and compared with the equations of Cauchy and Riemann (Spec); the meridian distance by bounds on the binomial series and the mean value theorem; growth of eastings by bounds on the powers of the relative longitude; zones by floors. *Limits:* Real arithmetic. Longitudes from 180 to 186 get zone 1 and eastings above thirty million (C104_full_circle, C104_east_of_180); those below -180 are refused or get zone -1 (C104_west_of_180); across the equator the default northing jumps by ten million and the points are accepted together (C104_equator_jump).
* **C105** Maxima collected during a run. Invariant of the calls: counter is the number of calls after the start modulo the frequency and each array is the greatest element of the set of collected values; induction on the list of calls. Several processors through C65. *Limits:* Real arithmetic. A frequency which is not a whole number is accepted and nothing is ever collected (C105_fraction); with a velocity_zero_height below the minimum height dry triangles get speeds (C105_speed_of_dry).
* **C106** Mesh files in text form give back the mesh. Each row is shown to be read back from its line; counts of rows make the reader stop where the writer did; induction on the rows. A file cut off: adding lines at the end does not change what a reader has read, so a shorter file which is read would leave lines over. *Limits:* Text level model: lines, words, numbers of rows and columns. How numbers are printed is a parameter with the hypothesis that they can be read back. Hemisphere, datum and the like do not come back (C106_hemisphere); attributes with a gap move to other vertices (C106_attributes_move).
* **C107** Mesh files in NetCDF form give back the mesh. Each variable is followed from the dictionary to the file and back; tags padded with blanks trim to the same text because trimming is unique; the two forms are compared through C106. *Limits:* Tables of the NetCDF library are taken to give back what was stored. Numbers are exact. Refusals: C107_tags_needed, C107_neighbours_needed, C107_bytes_needed.
* **C108** A culvert between processors does what it does on one processor and never deadlocks. Processors are programs which send and receive; steps commute (diamond), so one complete run in which every message is handed over directly decides all executions. Such a run is put together from phases: reports to a master, announcements, sums over an inlet (C96_averages); the master's numbers are those of Culvert.routine and Ops.StructOp.call. *Limits:* Assumes that the culvert is not closed, that the inlets are not empty and that the call on one processor raises no exception (C108_serial: this is so if the discharge routine returns a discharge that is not negative and the inlets do not overlap). Messages between two processors arrive in order (as in MPI).
* **C109** Exchanges of ghost values end and, with one exchange a step, give the same result in all executions. Transition system in which reading a buffer is a step of its own, at any time after the send. An invariant says what each buffer, message and memory holds; progress follows from the processor with the fewest exchanges; steps are counted by a measure. The order of exchanges and collective operations is a list of events per setting, and C109_order says exactly which settings are safe; C109_race builds the wrong execution for every pair of processors. *Limits:* Dictionaries of neighbours are assumed to fit together (proved of those of distributed meshes: C109_fits, from C68_messages_match). Operators which exchange ghosts themselves are left out of the order of events.
* **C110** Multiplexed files of tsunami sources give back the series written and their weighted sum. The data block is specified as the list of records of all steps; the walk through it is proved by induction on the steps with the number of records passed as invariant (fillLoop_ok). Sources are added by induction; least first and greatest last step give the window. *Limits:* Stations of different numbers of steps and indices that do not exist make the C code leave its arrays and are errors of the model. Negative indices are left out.
* **C111** Gauge files made from tsunami sources hold scaled heights, momentum and true positions. The returned file is computed from what the three reads give; C111_stage puts it together with C110_read and C110_times. *Limits:* `redfearn` is any function here (C104 and C105 describe it). Arrays of different length are refused.
* **C112** Assessments of damage to structures: depths, curves, collapse and losses. Maxima by induction over times and files; `interp1d` is proved to be the broken line through the points; the dictionary of probabilities is proved to hold for each probability the structures that have it, and draws without repetition give as many as asked for (collapse_spec). *Limits:* Values which `file_function` gives at points are taken as given (C39, C98). Exact numbers: the product of probability and number is rounded without error of representation.
* **C113** Tables in text form: columns, changes, saving, files of polygons. A loaded table is proved to have a normal form (titles zipped with columns), which setting columns keeps and from which saving and reading again are computed; for polygons an invariant of the loop over rows says which ids are past, current and what has been collected. *Limits:* Rows are those which the `csv` module of Python reads and writes; `strip` and `float` are parameters.
* **C114** An area cut out of a grid of latitudes and longitudes covers what was asked for. Binary search is proved to find the first entry not below a value; covering follows for ascending entries and is carried over to descending ones by turning indices round. *Limits:* Exact numbers; arrays are not empty; lines of the grid differ.
* **C115** Time series from text give functions of time through the lines of the text. The converted file is computed from what the lines say (convert_iff) and shown to meet the hypotheses of C97_series, whose conclusion is then turned back into times and values of lines. *Limits:* Reading of dates, words and numbers are parameters; exact numbers. The part about `file_function` rests on the model of C97.
* **C116** Columns of several tables are put side by side under the right keys. Reading is characterised by positions of titles, merging by an equivalence: output if and only if keys agree, with every entry of the output given. *Limits:* Rows are those of the `csv` module of Python; `strip` is a parameter.
* **C117** Rasters put together hold at every place the greatest value of all files. Greatest values by induction over the files (`fold_greatest`), stated as `IsGreatest` of the set of values that occur at a place; acceptance is an equivalence with conditions on the files. *Limits:* Numbers are exact: the file written has them with five digits. Which lines are empty and which numbers lines hold are parameters.
* **C118** Ordering of boundary points keeps every point and walks to the nearest one. The search for the nearest point is characterised with its ties; the walk by induction over the depth of recursion. *Limits:* The first two fields of each row are numbers, taken as exact. The limit on recursion is a parameter of the model.
* **C119** Polygons of an ungenerate file come back with their corners and sides. The loop over lines is computed for files given as lists of polygons (C119_read); C119_sides says what the segments are without formulas; C119_taken is the converse. *Limits:* A line is given by what the code looks at. That a polygon of one point takes away a side of the one before it is proved as C119_single.
* **C120** After a restart all processors go on from the same, the latest usable checkpoint. Common times are the intersection on every processor, so that the sorted lists are equal (sorted lists without repetitions and with the same members); the rounds then stop at the first time all can load, which is the greatest. *Limits:* Messages arrive: each exchange gives every processor what the others have sent, which needs messages to be stored on the way, as all processors send before they receive. Names are split into domain and time; reading of a file is a parameter.
* **C121** The recording points chosen along a boundary are those around it. Bounds of rounding to even by cases; the first row or column is at most the lower, the last one at least the upper line of the cell around any place between the ends; nearness by comparing squares, without roots; sides by list positions modulo the length. *Limits:* Exact numbers; the conversions from and to metres are arbitrary functions. `lat_amount` and `long_amount` are fields of the grid which the model, like the code, does not use.
* **C122** All surface points of all cross sections are converted, or the file is refused. Induction over the lines in front of a surface (passed over), over its lines (points are collected) and over the sections. *Limits:* Lines are told apart by what the code looks at; the header is given by the number of sections, and the writing of points is not part of it.
* **C123** Each value of a raster in degrees becomes one point at its place. Position k of the flattened values is row k / ncols and column k % ncols (induction over rows); the list of places has the same shape; values and places taken at the same positions. *Limits:* Exact numbers; conversion of one position is an arbitrary function. The points that a shorter row moves and the half cell are shown by example files.
* **C124** Setting quantities on a region with a tag changes the triangles with this tag. The dictionary of tags, built by appending, has every tag once with its triangles in order (induction over the tags from the end); so each action meets its tag once. Assignments one after the other at different triangles equal a pointwise change. *Limits:* Exact numbers; locations are vertices and centroids, not unique vertices; X is a number, not a function; all quantities named exist.
* **C125** Radar rain: slices in order of time, accumulated rain and volumes that add up. Sorting permutes the files (so sums and members stay) and is unique for different times; accumulation by induction over the files; sums over cells and slices exchanged. *Limits:* Exact numbers; all files have the same number of values; reading of NetCDF variables, coordinates and the choice of cells in a polygon are left out (cells are given).

## Where the code disagrees with what its users would expect

Each of these is a theorem in the development (a negation with a witness) unless marked (read): seen while reading, outside the model.

* **Evolve.** A zero-duration call yields the same time twice. `set_time` before the first `evolve` is ignored.
  `set_evolve_max_timestep` can only decrease the limit.
* **Mesh.** An interior edge tagged by the user breaks the symmetry of the neighbour structure (C05). Node averages are wrong when an
  unused node number lies below a used one (C08). A failed semi-implicit update leaves a partly advanced state (C09).
* **Fluxes.** A reflective wall that carries a river wall leaks (C14). River walls on boundary edges and limiter parameters above one
  set a lake at rest in motion (C13). The timestep skips edges whose lower-numbered triangle is a ghost (C43). A stray
  `compute_fluxes` call misaligns later boundary flux sums (C44).
* **OpenMP.** Friction loops race on `abs_mom`, `k6`, `z` (C47). Protection zeroes the x momentum twice and leaves the y momentum (C15).
  The distribution step races at isolated cells if the dry limiter parameter is not zero, and differs from the serial one without velocity
  extrapolation (C48).
* **Distribution.** Triangles with two boundary edges are de facto first order (C49).
* **Polygons.** Crossing segments of length 2e-5 are missed, a gap of 5e-16 raises RuntimeError (C20). `polygon_overlap` reports disjoint
  triangles and misses triangles containing the polygon (C61). Of a line with more than two points only the first segment is used (C59).
  A default function that returns its argument is overwritten (C33).
* **Sparse matrices and solvers.** `0*A` keeps explicit zeros, `+` ignores sizes (C21). An empty row between non-empty rows makes the
  compressed product wrong (C22) or dependent on uninitialised memory (C52). Entries of at most 1e-10 are lost, `add_sparse_dok`
  zeroes common entries of the second matrix (C52). The Python preconditioned solver diverges on a 1×1 system, one allowed iteration
  is returned unchecked, only the last column's failure is noticed in C (C23).
* **Geo references.** Origins of at most 1e-8 are treated as zero by one conversion and not by the other, single points are rejected
  (C24). A hemisphere clash raises after the zone was changed (C25). Sums of point sets forget the hemisphere and extra attributes,
  samples without attributes cannot be added, split can fail (C53).
* **Trees.** A point box exhausts the recursion (C26), a triangle beyond the corner of the root the stack (C27).
* **Operators.** A negative factor with positive rates gives negative depths, a repeated index is booked twice, `get_Q` is wrong for
  quantity rates on a region (C28). `Set_stage_operator` does not check the bed; setting the bed of the whole domain with continuous
  elevation ignores the value; unusable values are dropped (C34). Dry cells report the minimum height as maximum depth (C35). Inundation
  queries for a subset may report a triangle outside it (C36). A centre without radius selects the whole domain (C60).
* **Boundaries.** `set_boundary` keeps the caller's dictionary; flux types are misaligned with None (C37). Vectorised Flather ignores the
  interior, `Characteristic.evaluate` always raises, `Time_stage_zero_momentum_boundary` is unusable (C55). Wall velocities are reflected
  the wrong way, roll-over of a series ending at time 0 never ends, an inflow object on two tags uses the first tag's length (C56).
* **Tools.** Unsorted bins give negative counts, the ten percent report may have 19 groups (C32); relative error with zero reference is
  inf or nan (C57).
* **Interpolation and fitting.** The centroid flag of a call without points is ignored when the matrix is kept; an `interpolate_block` call
  in between changes a later call without points (C39). Repeated times make values depend on earlier calls; thinning of a function of
  time thins times but not values (C62). A second `fit` on one object returns the surface divided by alpha (C63).
* **Parallel.** A user tag on an edge inside the mesh stops the ghost layer; an own triangle then counts more boundary edges than in the
  serial mesh (C67). The default ghost layer of two triangles is too thin when the dry limiters of the momenta are positive (flow algorithms
  DE0_7, DE1_7, or set by the user): extrapolation next to a dry triangle reads whether the triangle behind it is isolated, which depends
  on its neighbours. Results then differ from the serial run (C69_two_layers_not_enough). At triangles with two boundary edges the same can
  happen with any limiter. With a layer of four or five triangles rk2 skips its inner exchange although six would be needed.
  (read) `distribute` copies the flow algorithm, name, data directory, storage flags, minimum heights and low Froude switch; a CFL
  number, limiter, timestepping method, maximal timestep, start time or forcing term set on the serial domain before is lost.
* **Structures.** The discharge of a box falls where the barrels begin to run full, because the wetted perimeter jumps by the width of the
  roof; the critical depth of a pipe is multiplied by D^2.5 where it should be divided, so similar pipes do not give similar depths (C70).
  Constructors store the absolute value of the first energy difference or discharge: with smoothing, a culvert set up with inlet 1 higher
  moves water uphill at first (C71), and an internal boundary starts closed (C74). A closed internal boundary passes water in the implicit
  mode, the default (C74). The discharge of a rating table falls when rising head water passes the end of the upper curve, and still water
  below the lowest tail water flows (C72). (read) A repeated largest head water whose largest discharge occurs elsewhere loses its point.
* **Kinematic viscosity.** The matrix is multiplied by the inverse triangle areas on the right instead of the left, so on a mesh with
  triangles of different sizes a uniform flow does not stay uniform; where a wet triangle adjoins a dry one the matrix is not symmetric,
  which the conjugate gradient method assumes; each call multiplies momentum by h²/(h² + 1e-8) even if nothing diffuses (C75). (read)
  `add_safety` adds 0.1 to a quantity, which drops its boundary values; `Elliptic_operator.update_elliptic_boundary_term` fails for an
  array; `__rmul__` refers to an undefined name.
* **Radii.** What limits the time step by default is the distance from the centroid to the nearest edge midpoint, described as an
  approximation of the inscribed circle. It can be larger by any factor on thin triangles (C77); advection then leaves the bounds of
  its data in one step of the length it chose itself (C78). (read) `Mesh.set_to_inscribed_circle` indexes a third column that does not
  exist and divides the area by twice the perimeter instead of doubling it; `Advection_Domain.compute_fluxes_python` sets `timestep`,
  not `flux_timestep`.
* **Rasters.** A missing number on the far side of a cell makes points on the near grid line missing although its weight is zero, and a
  raster with one column interpolates to missing values; decreasing grid lines are accepted and give missing values (C79). Keywords
  `xllcorner` and `xllcenter` place numbers alike, half a cell wrong for one of them; a fractional NODATA value is truncated when
  the text is read but not through NetCDF; `dem2dem` places numbers half an old cell too far east and, with rows left over, too far
  south (C80). (read) `interpolate2d` with `bounds_error` raises an undefined name; `dem2pts` and `dem2dem` with `name_out` refer to
  an undefined name; `dem2dem` truncates the cell size to an integer.
* **Cross sections.** A straight part of the polyline that begins and ends strictly inside one triangle yields no segment: alone it
  raises an assertion, in a longer polyline its flow is left out without notice (C81).
* **River walls.** A second `create_riverwalls` does not clear `edge_flux_type`: edges of the deleted walls stay walls, with elevation
  `-max_float` and row -1 of the table (C82_again); a call refused for its parameters leaves edges marked without a table (C82_refused).
  The check for gaps runs only with `verbose` (C82_silent) and passes a wall from boundary to boundary with one gap (C82_gap_missed).
  Only midpoints are compared, so a wall across an edge through its midpoint makes it a wall (C82_across). (read) The test that points
  have three coordinates, `len(a) != 3 | len(b) != 3`, is `len(a) != (3 | len(b)) != 3`, so two coordinates are not
  refused there.
* **Boundary polygon.** The walk starts at the boundary point nearest to the lower left corner of the extent. That point may belong to a
  hole, then the hole is returned (C83_hole); if two boundary edges start there, part of the mesh may be left out (C83_pinch). Inlets,
  forcing terms, fitting and interpolation use this polygon to decide what is inside the mesh.
* **Forcing terms.** The default rate of `Inflow` is used as a rate of change of stage, not divided by the area as the rate is
  (C84_default, C84_default_differs). `Inflow` over the whole mesh divides by the area within the boundary polygon, so volume is lost on a
  mesh with holes (C84_hole). Air pressure pushes water towards high pressure: the sign is wrong (C85_sign). A stored series asked at
  an earlier time than before extrapolates; the third order method asks at the middle of the step after its end (C85_back). Wind directions are
  interpolated as numbers, through 180 degrees between 350 and 10 (C85_direction). A function that returns three values for any number of
  points is accepted as a wind field (C85_three). A series opened strictly within its last interval is refused although values exist (C85_opens).
* (read) Forcing terms: `Barometric_pressure(1000)`, as documented, fails since `p` is not set; `Barometric_pressure_fast` takes `[0]` twice if the
  function is given as an argument and uses `N` before it is set with coordinates; `Wind_stress_fast` needs the keyword `domain`; `rho_a` is 1.2e-3
  beside `rho_w` of 1023, different units; pressure in hPa is not converted; times in the file are relative to the start time of the file, model time
  is absolute; `set_quantity_values` ignores the name of the quantity; a centre without radius and an empty polygon raise errors of undefined variables.
* **Output files.** When a file becomes too big a new one is started whose start time is the present time while the stored times go on counting
  from the start of the run: moments are `start + 2 * elapsed` (C86_rollover). Leaving the loop over `evolve` with `break` when not every yield is
  stored shifts the stored moments of later runs (C86_break_shifts). After a slice is replaced the range may be too wide (C86_range_stale).
* **Merged files.** A static quantity is taken for a dynamic one if the number of stored times equals the number of points (triangles) of the
  first file; merging fails (C87_static_mistaken). The start time is truncated to whole seconds (C87_start_truncated). `sww_merge` drops the
  start time (C88_times, C88_start_lost) and places all files by the origin of the first (C88_origin_mixed). A file with separate corners is read
  back with a mesh of fewer nodes than there are values, so that the interpolation over it, for example flow through a cross section, is refused
  (C88_values_match, C88_values_mismatch).
* (read) Merged files of the separate format are marked as smooth, so that readers take them for a mesh of triangles that do not touch; the time zone is
  lost; `gather` for arrays without time does not divide by the number of corners (not reached as files are read now).
* **Mesh generation.** The point that carries the overall maximal area is next to the first suitable corner of the bounding polygon even if an
  interior region shares that corner; then both points lie in the interior region and the rest of the mesh has no limit (C89_shared_corner; the
  list `excluded_polygons` is made and not used). `point_in_polygon` moves a coordinate by the fraction delta of itself, so the distance is not
  the documented one (C89_point_far).
* (read) Negative numbers of sides are accepted and count from the end, but the warning about sides without tag does not see them; breaklines
  and region points are taken as absolute even if a reference for the polygons is given.
* **Export to a text grid.** `sww2dem` writes the corner of an `.asc` file with `%d`: unless it is a whole number the map is displaced by up to one
  unit (C91_corner). The `.ers` format is exact.
* (read) `sww2dem`: `mean` is named as a reduction but only built-in functions are called, any other is used as an index; a variable missing from
  the file leads to `raise(Exception, msg)`, which is itself an error.
* **Rasters with zero for missing data.** `rasterValuesAtPoints` compares with a tolerance relative to the value for missing data and a strict
  `<`: if that value is 0, missing pixels are returned as the number 0 (C93_zero).
* **Threshold.** The nearest neighbour function is documented to use the background value where the point is *more than* the threshold away; it does so at exactly
  that distance too (C93_one).
* (read) `composite_quantity_setting_function`: a callable `fi` gets the domain's coordinates, while its polygon `pi` is in map coordinates.
* **Erosion_operator.** `elev_v[ind] - de` mixes arrays of shapes (n,3) and (n,), and row maxima of shape (n,) are assigned to an (n,3) array: every
  step fails unless the region has one or three triangles (C94_plain_fails). With one, the bed is set to its highest corner less the scour,
  so a sloping bed under still water rises (C94_plain_one); with three, corners are lowered by the scour of other triangles (C94_plain_three).
* **Erosion without region.** `indices=None` is documented as all triangles; with a continuous bed no operator can be made, with a
  discontinuous one nothing ever changes (C94_whole_domain).
* **Bed below the base.** All erosion operators with a base lift a lower bed up to it, also under still water (C94_never_rises).
* **Sand dunes.** The default base `0.0`, or any number, makes every call fail: it is indexed (C94_dune_number_base). (read) The parameter `threshold` is not used.
* **Friction from depth.** `np.vectorize` takes the type of the first result for all: a function returning the integer 0 for the first triangle makes all
  frictions below one vanish (C95_truncated); an empty region fails (C95_empty_region). (read) `timestepping_statistics` uses the missing attribute `indices`.
* **Set_w_uh_vh_operator** accepts a stage below the bed (C95_below_bed). (read) Functions of position are called with `None` for the positions.
* **Volume integral of shared inlets.** Each processor that holds a part of an inlet adds the whole volume to its `fractional_step_volume_integral`, and
  `get_fractional_step_volume_integral` adds these up: an inlet on k processors is counted k times in the water balance (C96_counted_again).
* **Boundaries read from files.** `File_boundary.evaluate` passes the absolute time of the domain to a function whose times count from the start of the
  domain: with a start s other than zero the values of time t + s are imposed at time t (C97_boundary, C97_boundary_late).
* **Second file with a later start.** Opening it moves the start of the domain, but functions opened before keep counting from the old start
  (C97_two_files).
* **Limit and absolute times.** `use_relative_time=False` with `time_limit`: absolute times are compared with the limit minus the start
  (C97_limit_absolute).
* **Bearing.** `calc_bearing` measures the angle anticlockwise from South: flow to the north is reported as 180°, to the south as 0° (C98_bearing,
  C98_north). `test_calc_bearings` never resets its flag and passes nevertheless.
* **Files of other runs.** `sww2csv_gauges` takes all files whose name contains that of the run: `run2.sww` is appended to the series of `run.sww`
  (C98_other_run). Times of later files are counted from the start of the first (C98_second_start).
* **Gauges.** Gauges of the same name overwrite each other (C98_same_name); unknown quantities appear in the heading only (C98_unknown); centroids
  are those of the gauges found, so that they are missing or shifted after a gauge off the mesh, and relative to the corner (C98_centroids).
* **Tables of stage and Froude number.** `interpolate_sww2csv` with `stage_file` or `froude_file` always raises `AttributeError` (C98_stage_file).
* (read) `file_function` with a `Geospatial_data` of absolute points shifts the points of that object in place by the corner of the file.
* **Gauges along a boundary.** Points off the sides between gauges silently get 0 (C99_silent_zero). A polygon with gauges at all its vertices is refused
  (C99_whole). The tolerance for gauges is relative: 100 km from the corner of the file the first gauge within 10 m is taken, even if another one is
  exactly at the vertex (C99_wrong_gauge). Quantities without time cannot be read (C99_no_time).
* (read) An array given as `boundary_polygon` is shifted in place by the corner of the file, so that a second file cannot be read with it; if no
  vertex has a gauge, an `IndexError` comes before the intended message.
* **Result files of a moving bed.** With 'max' and no stored depth the depth is taken over the highest bed of the run (C100_max_depth_wrong).
  `get_centroids` takes the bed of the first time for all times, even if the depth is stored, and `water_volume` follows
  (C100_centroid_depth_wrong). A file with values at nodes only cannot be read at one time (C100_one_time_fails). `combine_outputs` keeps the bed of
  the first file only (C101_bed_lost).
* **Centroids of files put together.** `get_centroids(combine_outputs(...))`, as advised in its documentation, answers for the first file only, and the
  smallest depth given to `combine_outputs` is not used (C101_first_only).
* (read) `combine_outputs` compares the coordinates of the nodes but not the corners of the files, and does not remove repeated times.
* **Caching.** Changed dependency files are not noticed, only another number of them (C102_changed_files_unnoticed, C102_count_noticed): `compare` of
  two dictionaries of the same length calls itself on the same objects and finds them equal. For the same reason keyword arguments are only compared
  by their hash, and arrays are hashed by their mean (C102_wrong_keyword). Arrays are compared with broadcasting (C102_wrong_array). A forced
  evaluation that raises leaves a wrong result (C102_wrong_after_exception).
* (read) The code of a function is compared without the names it calls; a function changed only in these is not evaluated again.
* **Merged files, nodes.** Values at nodes stored by a parallel run differ from those of the serial run near the borders between processors, even if every
  processor holds the serial values in all its triangles, ghosts included: the average at a node is taken over the triangles present, and the ghost layers cross
  edges only (C103_node_values_differ).
* (read) `store_connectivity` stores node numbers as `V.astype(num.float32)`: numbers above 16777216 are rounded.
* **Projection, sixth term.** The bracket of the sixth-order term of the northing in `redfearn` ends `+t4-t2`; a conformal projection (and Redfearn's formula)
  has `+t4`. The northing is too small by `nu sin^3 cos^3 omega^6 / 720`, less than a tenth of a millimetre within a zone (C104_conformal, C104_sixth_term).
* **Projection, full circle.** Longitudes from 180 to 186 are put into zone 1 but the relative longitude is not reduced by 360 degrees: eastings above thirty
  million (C104_full_circle). Longitudes from -192 to -180 are refused, from -198 to -192 accepted with zone -1 (C104_west_of_180). `LLtoUTM` puts those from -186
  to -180 into zone 1, not 60 (C104_utm_west).
* **Projection, equator.** With the default false northing two points at 1 degree south and north are ten million metres apart in the wrong direction, and
  `convert_from_latlon_to_utm` accepts them together (C104_equator_jump).
* **Degrees, minutes, seconds.** `decimal_degrees2degminsec` loses the sign of numbers between -1 and 0 (C104_dms_sign).
* (read) `ferret2sww.py` 274-282 takes the zone of the first point and ignores those of the others: a grid that crosses a zone border is folded.
* **Maxima, first step.** With Euler's method operators see the clock of the beginning of the step: with `collection_start_time` 0 the values after the first
  step are not collected; with the other methods they are (C105_first_step).
* **Maxima, depth.** `max_depth` is at least `minimum_allowed_height` in triangles that were never wet (C105_depth).
* **Maxima, frequency.** `update_frequency` 1.5 passes the assertion and nothing is ever collected (C105_fraction).
* **Maxima, vertices.** `Collect_max_stage_operator` takes vertex values extrapolated before the step and centroid values after it: with rising water the greatest
  stage at all vertices is below that at the centroid (C105_stale).
* **Mesh files, hemisphere.** A `.tsh` file keeps zone and origin only: hemisphere, datum, false easting come back as defaults (C106_hemisphere).
* **Mesh files, gaps.** If some vertices have attributes and others none, the rows after a gap come back for other vertices (C106_attributes_move).
* **Mesh files, titles.** Attribute titles without attributes make a `.tsh` file which cannot be read (C106_titles_without_columns); so does a tag with an end of line
  (C106_two_lines).
* **Mesh files, cut off.** A file which ends after the triangulation is read without complaint, without outline, holes, regions and geo reference (C106_no_outline).
* **Mesh files, areas.** A region with greatest area `None` can be written and read, but `importMeshFromFile` fails on it (C106_area_none).
* (read) `IOOutline2Mesh` clears `self.Holes` and `self.Regions` where it means `holes` and `regions`; `_write_msh_file` compares attributes with `!= None`, which fails
  for NumPy arrays with more than one entry.
* **Mesh files, two forms.** Triangles without tags, or neighbours `None`, can be kept as `.tsh` but not as `.msh`, where writing fails with an exception after the file has
  been opened (C107_formats_differ, C107_neighbours_needed); a tag with a letter outside ASCII fails likewise (C107_bytes_needed).
* (read) **Closed culverts.** `Boyd_box_operator` and the weir return no discharge at once if their height is not positive; the classes which `anuga` exports when MPI is
  present (parallel box and weir) lack this test and evaluate formulas with divisions by the height; only the parallel pipe has it, and then keeps the roles of the ends of
  the call before. The assertion that gain and loss agree is missing in the parallel call too. C108 is about culverts which are not closed.
* (read) **Enquiry points outside.** If no processor has the enquiry point of an inlet, the coordinating processor fails in `allocate_inlet_procs` while the others wait for
  its message for ever.
* **Ghost buffers are reused while messages may still be read from them.** `communicate_ghosts_non_blocking` waits for its receives and never for its sends, and all exchanges
  use the same buffers. With the method of second order (the default of `DE1`; two layers of ghosts), that of third order, fixed timesteps and a second call of `evolve`, two
  exchanges follow each other without a collective operation, and a neighbour may receive values of the next exchange (`C109_race`, `C109_settings`, `C109_again`, `C109_rk2`).
  Waiting for the sends as well would be safe (`Safe`, first case).
* **Multiplexed files: a gauge that never records makes all series two steps early.** Its first step is stored as -1, which becomes the first step of the window and the start
  time, while values begin with step 1 (`C110_early`, `C110_never`).
* **Multiplexed files cut off are accepted.** The result of `fread` is not looked at; missing values are those of the source read before (or zero) (`C110_truncated`).
* **Sums that come to 99 (within 1e-5) count as missing**, also sums of the first few sources only (`C110_99`).
* (read) `urs.c`: arrays are sized for the number of steps of station 0; stations with more steps are written beyond them. `urs2sts` looks for missing values in heights only, so
  a missing velocity beside a height that is there becomes 99 m/s.
* **Damage curves exceed 1.** Their last points are (1000 m, 64.7), (1000 m, 69.4) and (1000 m, 98.6), percentages in place of fractions, and values in between are interpolated.
  Contents of a structure which stands lose more than their value from 2.15 m on, structures from 8 m on; one that has collapsed loses less (`C112_more_than_all`).
* **Momentum of places outside the mesh is minus the height of the floor** in `calc_max_depth_and_momentum` (`C112_negative`).
* **Damage is computed from files of other runs** whose names contain the base name: `run1` also reads `run10.sww` (`C112_other_runs`).
* Ten structures with a probability of collapse of 5 % never lose one (`C112_half`): the number is rounded within each probability, and halves go to the even number.
* **Columns with the same title are mixed** by `load_csv_as_dict`: the entries of both alternate in one column of twice the length, without a message; saving such a table
  fails, or loses a title and its entries (`C113_title_twice`).
* **`clipping_polygons` of `load_csv_as_polygons` cannot be used**: `inside_polygon` is not imported there, so that any polygon given is a `NameError` (`C113_clipping`); an empty list
  leaves out all polygons but keeps their values (`C113_clip_empty`).
* **Files of polygons without a column of values are always refused**, although the documentation says that it can be omitted (`C113_no_values`).
* A table without rows can be read, but asking for, setting or saving columns fails (`C113_no_rows`). `set_column` does not remove blanks around names, as its documentation says (`C113_blanks`).
* **Grids of small extent with descending latitudes are cut wrongly** by `get_min_max_indices`: the order is found with `allclose`, so that an extent below a hundred-thousandth of the
  latitude counts as ascending; lines in the area are lost (`C114_small`). The area is also not always "just big enough": a lower bound on a line keeps the line below too (`C114_extra`).
* **Values missing in a line of a time series become zero** in `timefile2netcdf`, and fields after the second one are ignored (`C115_missing`); a text without values is converted although
  the code says that it must have one (`C115_none`).
* Rows that are cut off are left out by `merge_csv_key_values` without a message (`C116_cut_off`).
* (proved, C119_single, C119_point) `load_ungenerate`: a polygon with a single point is taken for a closed one, so that its point and the last segment of the polygon before it are removed, and a segment to a point that does not exist is added; in the first polygon it is an exception.
* (proved, C118_refused) `order_boundary` calls itself once for every point, so that files with about a thousand points end in a `RecursionError`.
* (proved, C117_taken) `MaxAsc` ends with an exception (after writing part of the file) if a row is empty in all files, e.g. an empty line at the end; (read) what it writes is rounded to five digits, so that the result for a single file is not that file.
* (proved, C120_broken) `load_checkpoint_file`: a directory without files below the directory of checkpoints makes `_get_checkpoint_times` return `None`, although there are checkpoint files; the processor ends with a `TypeError` and, with several processors, the others wait for its message.
* (proved, C121_short) `keep_point` divides by the squared length of the segment where the distance from a line needs the length: along sides longer than a metre hardly any point is left out, along shorter ones needed points are, up to the exception that the polygon does not overlap.
* (proved, C121_beyond) `points_needed` does not use `lat_amount` and `long_amount`: points which the grid does not have are asked for, and a polygon far from the grid is not refused.
* (proved, C122_unfinished, C122_read) `sdf2pts`: a last cross section without `END` is lost without a message if the header does not count it; a file without cross sections whose header says so ends with `NameError`.
* (proved, C123_narrow) `llasc2pts` does not compare the number of values in a row with `ncols`: values of shorter rows are written for places in other rows, without an exception.
* (proved, C123_centre) `llasc2pts` treats `xllcorner` and `xllcenter` alike: the same raster described in the two ways gives points half a cell apart.
* (proved, C124_centroids, C124_flat) `set_values` with `indices` at centroids extrapolates to first order in all triangles: setting the elevation at the centroids of one region takes away its slope in the triangles of all others.
* (proved, C125_small, C125_area) `accumulate_data_stats` divides the extent from the first to the last centre by the number of centres: cells, and with them volumes and areas of catchments, come out too small, for two by two cells by a factor of four.
* (read) `sww2pts` does not use its arguments `timestep` and `origin` nor the corner of the file: points are taken relative to the corner and written as absolute.
* (read) Fitting several attributes in blocks raises; `Fit` with Geospatial_data and no `z` raises; `rectangular_old` raises NameError;
  `interpolate_sww2csv` with a stage file raises; `update_conserved_quantities` does nothing for continuous elevation; `set_values` of a
  constant at 'unique vertices' does nothing; `Polygonal_set_quantity_operator` refers to an undefined class; comparisons
  `indices is []` are never true; `Inlet.compute_area`'s error path uses a missing attribute; `determine_function_type` takes f(t, a=default)
  for a function of x, y.
