{
 "claims": [
  {
   "property": "C01",
   "status": "proved",
   "theorems": [
    "Verif.Evolve.C01_evolve_yields_requested_times",
    "Verif.Evolve.C01_evolve_yields_prefix",
    "Verif.Evolve.C01_schedule_strictly_increasing",
    "Verif.Evolve.C01_evolve_completes",
    "Verif.Evolve.C01_zero_duration_repeats_time"
   ],
   "note": "Exact arithmetic. Yield sequence characterised for every run; completion shown when raw steps have a positive lower bound. Disagreement recorded: a zero-duration call yields the same time twice."
  },
  {
   "property": "C02",
   "status": "proved",
   "theorems": [
    "Verif.Evolve.C02_step_limits",
    "Verif.Evolve.C02_set_max_timestep"
   ],
   "note": "Exact arithmetic."
  },
  {
   "property": "C03",
   "status": "proved",
   "theorems": [
    "Verif.Evolve.C03_resume_equals_single_run",
    "Verif.Evolve.C03_set_time_before_first_evolve_is_ignored"
   ],
   "note": "Exact arithmetic; splits at multiples of the yield step. Disagreement recorded: set_time before the first evolve is ignored."
  },
  {
   "property": "C04",
   "status": "proved",
   "theorems": [
    "Verif.Evolve.C04_small_step_fallback",
    "Verif.Evolve.C04_new_call_restores_order"
   ],
   "note": "The exception comes at the (max_smallsteps+1)*default_order-th consecutive small step."
  },
  {
   "property": "C05",
   "status": "proved",
   "theorems": [
    "Verif.Mesh.C05_neighbours_are_adjacent_triangles",
    "Verif.Mesh.C05_negative_iff_no_neighbour",
    "Verif.Mesh.C05_neighbour_symmetry",
    "Verif.Mesh.C05_not_own_neighbour",
    "Verif.Mesh.C05_number_of_boundaries",
    "Verif.Mesh.C05_surrogate",
    "Verif.Mesh.C05_symmetry_after_numbering",
    "Verif.Mesh.C05_interior_tag_breaks_symmetry"
   ],
   "note": "Interior edges tagged by the user break symmetry (C05_interior_tag_breaks_symmetry); symmetric otherwise."
  },
  {
   "property": "C06",
   "status": "proved",
   "theorems": [
    "Verif.Mesh.C06_rejects_exactly_nonconforming",
    "Verif.Mesh.C06_mesh_built_iff_conforming"
   ],
   "note": ""
  },
  {
   "property": "C07",
   "status": "proved",
   "theorems": [
    "Verif.Mesh.C07_bad_segment_rejected",
    "Verif.Mesh.C07_tags",
    "Verif.Mesh.C07_enumeration_bijective",
    "Verif.Mesh.C07_enumeration_sorted",
    "Verif.Mesh.C07_tag_lists",
    "Verif.Mesh.C07_order_independent"
   ],
   "note": "Negative user ids are outside the model (natural numbers)."
  },
  {
   "property": "C08",
   "status": "partial",
   "theorems": [
    "Verif.NodeAvg.C08_node_value_is_mean_partial",
    "Verif.NodeAvg.C08_centroid_average_is_mean_partial",
    "Verif.NodeAvg.C08_written_nodes",
    "Verif.NodeAvg.C08_set_node_values",
    "Verif.NodeAvg.C08_get_after_set",
    "Verif.NodeAvg.C08_smooth",
    "Verif.NodeAvg.C08_unused_node_breaks_average",
    "Verif.NodeAvg.C08_ghost_nodes_written_out_of_bounds"
   ],
   "note": "False in full: C08_unused_node_breaks_average. Proved when no unused node number lies below a used one, for every tie order of the sort."
  },
  {
   "property": "C09",
   "status": "proved",
   "theorems": [
    "Verif.Quantity.C09_update_fails_iff",
    "Verif.Quantity.C09_update_solves",
    "Verif.Quantity.C09_solution_unique",
    "Verif.Quantity.C09_damping_is_safe",
    "Verif.Quantity.C09_failure_leaves_partial_state"
   ],
   "note": "Exact arithmetic. A failed update leaves a partly advanced state (C09_failure_leaves_partial_state)."
  },
  {
   "property": "C10",
   "status": "proved",
   "theorems": [
    "Verif.Quantity.C10_euler",
    "Verif.Quantity.C10_rk2",
    "Verif.Quantity.C10_rk3",
    "Verif.Quantity.C10_rk2_keeps_bounds",
    "Verif.Quantity.C10_rk3_keeps_bounds"
   ],
   "note": "Fluxes, forcing, protection and ghosts are arbitrary functions."
  },
  {
   "property": "C11",
   "status": "proved",
   "theorems": [
    "Verif.Flux.C11_mass_balance",
    "Verif.Flux.C11_mass_balance_parallel"
   ],
   "note": "Exact arithmetic. Serial routine: after every history of calls including partial flux refresh. OpenMP routine: when edge geometry agrees from both sides."
  },
  {
   "property": "C12",
   "status": "proved",
   "theorems": [
    "Verif.Flux.C12_step",
    "Verif.Flux.C12_run"
   ],
   "note": "Volume added by depth protection appears as an explicit separate term. Other operators and forcing on stage excluded."
  },
  {
   "property": "C13",
   "status": "proved",
   "theorems": [
    "Verif.Extrap.C13_lake_at_rest",
    "Verif.Extrap.C13_lake_stays",
    "Verif.Extrap.C13_large_beta_breaks_lake",
    "Verif.Extrap.C13_boundary_wall_breaks_lake"
   ],
   "note": "Exact arithmetic. Provisional jumps of size 1e-100 (constant TINY in limit_gradient) are excluded by hypothesis. Limits shown: beta above one (C13_large_beta_breaks_lake) and river walls on boundary edges (C13_boundary_wall_breaks_lake) make lakes move."
  },
  {
   "property": "C14",
   "status": "proved",
   "theorems": [
    "Verif.Flux.C14_reflective_edge",
    "Verif.Flux.C14_closed_domain_keeps_volume",
    "Verif.Flux.C14_not_with_river_wall"
   ],
   "note": "Mass flux zero and momentum flux normal to the wall; closed domains keep volume. False when the edge also carries a river wall (C14_not_with_river_wall)."
  },
  {
   "property": "C15",
   "status": "proved",
   "theorems": [
    "Verif.Extrap.C15_depth",
    "Verif.Extrap.C15_momentum",
    "Verif.Extrap.C15_mass_error",
    "Verif.Extrap.C15_idempotent",
    "Verif.Extrap.C15_openmp_stage",
    "Verif.Extrap.C15_openmp_keeps_ymomentum",
    "Verif.Extrap.C15_fix_negative"
   ],
   "note": "Exact arithmetic. Disagreement recorded: the OpenMP routine leaves the y momentum of dry cells (C15_openmp_keeps_ymomentum)."
  },
  {
   "property": "C16",
   "status": "proved",
   "theorems": [
    "Verif.Friction.C16_manning_law",
    "Verif.Friction.C16_friction_only_slows",
    "Verif.Friction.C16_friction_solves",
    "Verif.Friction.C16_direction_kept",
    "Verif.Friction.C16_sloped_on_level_bed"
   ],
   "note": "Exact arithmetic; square root and power are parameters with the properties used. Flat and sloped versions."
  },
  {
   "property": "C17",
   "status": "proved",
   "theorems": [
    "Verif.Polygon.C17_inside",
    "Verif.Polygon.C17_outside",
    "Verif.Polygon.C17_both"
   ],
   "note": "two-ended fill of the index array for every classification; the single point tests agree with the list results"
  },
  {
   "property": "C18",
   "status": "proved",
   "theorems": [
    "Verif.Polygon.C18_boundary",
    "Verif.Polygon.C18_outside_box",
    "Verif.Polygon.C18_even_odd",
    "Verif.Polygon.C18_triangle",
    "Verif.Polygon.C18_rectangle",
    "Verif.Polygon.C18_listing"
   ],
   "note": "even-odd rule for all polygons (apex form), triangles, rectangles, boundary, bounding box, listing; sqrt assumed exact, points closer than 2e-15 to a side excluded because of the safety margins in the code"
  },
  {
   "property": "C19",
   "status": "proved",
   "theorems": [
    "Verif.Polygon.C19_seen_from_anywhere",
    "Verif.Polygon.C19_triangle",
    "Verif.Polygon.C19_listing",
    "Verif.Polygon.C19_linear",
    "Verif.Polygon.C19_star_shaped",
    "Verif.Polygon.C19_cut"
   ],
   "note": ""
  },
  {
   "property": "C20",
   "status": "proved",
   "theorems": [
    "Verif.Polygon.C20_point",
    "Verif.Polygon.C20_common_points_found",
    "Verif.Polygon.C20_segment",
    "Verif.Polygon.C20_order_of_arguments",
    "Verif.Polygon.C20_no_assertion",
    "Verif.Polygon.C20_tiny_crossing_missed",
    "Verif.Polygon.C20_tiny_gap_raises"
   ],
   "note": "two theorems show the limits of the tolerances: crossing segments of length 2e-5 are missed, a gap of 5e-16 raises RuntimeError"
  },
  {
   "property": "C21",
   "status": "proved",
   "theorems": [
    "Verif.Sparse.C21_elements",
    "Verif.Sparse.C21_products",
    "Verif.Sparse.C21_nonzeros",
    "Verif.Sparse.C21_zero_scale_keeps_entries",
    "Verif.Sparse.C21_add_ignores_sizes"
   ],
   "note": "Exact arithmetic. Disagreements recorded: 0*A keeps its entries in len (C21_zero_scale_keeps_entries); + ignores sizes (C21_add_ignores_sizes)."
  },
  {
   "property": "C22",
   "status": "proved",
   "theorems": [
    "Verif.Sparse.C22_no_gap",
    "Verif.Sparse.C22_gap_breaks"
   ],
   "note": "The claim 'always preserves the matrix' is false; both directions of the exact condition are proved (C22_no_gap, C22_gap_breaks) for matrices without explicit zero entries."
  },
  {
   "property": "C23",
   "status": "proved",
   "theorems": [
    "Verif.CG.C23_tolerance",
    "Verif.CG.C23_terminates",
    "Verif.CG.C23_exact",
    "Verif.CG.C23_energy",
    "Verif.CG.C23_c_agrees",
    "Verif.CG.C23_one_iteration_unchecked",
    "Verif.CG.C23_python_jacobi_diverges",
    "Verif.CG.C23_only_last_column_checked",
    "Verif.CG.C23_indefinite_breaks_down"
   ],
   "note": "Exact arithmetic; division by zero is a separate outcome. Disagreements recorded: Python Jacobi preconditioning diverges on x/4=1, one allowed iteration returns the start unchecked in Python, only the last column is checked in C, indefinite matrices can break down."
  },
  {
   "property": "C24",
   "status": "proved",
   "theorems": [
    "Verif.GeoRef.C24_round_trip",
    "Verif.GeoRef.C24_absolute",
    "Verif.GeoRef.C24_change",
    "Verif.GeoRef.C24_change_back",
    "Verif.GeoRef.C24_routes_agree",
    "Verif.GeoRef.C24_tiny_origin",
    "Verif.GeoRef.C24_single_point",
    "Verif.GeoRef.C24_construct",
    "Verif.GeoRef.C24_netcdf",
    "Verif.GeoRef.C24_ascii"
   ],
   "note": "All references and arrays of points; C24_tiny_origin and C24_single_point record where get_absolute departs from the other conversion."
  },
  {
   "property": "C25",
   "status": "proved",
   "theorems": [
    "Verif.GeoRef.C25_reconciled",
    "Verif.GeoRef.C25_defined_kept",
    "Verif.GeoRef.C25_clash_first",
    "Verif.GeoRef.C25_not_atomic"
   ],
   "note": "State of both objects after return and after raise; C25_not_atomic records the hemisphere case."
  },
  {
   "property": "C26",
   "status": "proved",
   "theorems": [
    "Verif.Quad.C26_retrieve",
    "Verif.Quad.C26_search",
    "Verif.Quad.C26_terminates",
    "Verif.Quad.C26_point_box_fails",
    "Verif.Quad.C26_bounding_box"
   ],
   "note": "Exact arithmetic. Recursion depth is a parameter of insertion; C26_terminates shows a sufficient depth exists, C26_point_box_fails that none exists for a point box."
  },
  {
   "property": "C27",
   "status": "proved",
   "theorems": [
    "Verif.Quad.C27_items",
    "Verif.Quad.C27_found_contains",
    "Verif.Quad.C27_complete",
    "Verif.Quad.C27_exact",
    "Verif.Quad.C27_terminates",
    "Verif.Quad.C27_outside_fails",
    "Verif.Quad.C27_mesh",
    "Verif.Quad.C27_weights",
    "Verif.Quad.C27_search_fast"
   ],
   "note": "Exact arithmetic; sqrt is a parameter. Stack depth is a parameter of insertion."
  },
  {
   "property": "C28",
   "status": "proved",
   "theorems": [
    "Verif.Ops.C28_outside",
    "Verif.Ops.C28_applied",
    "Verif.Ops.C28_books",
    "Verif.Ops.C28_momentum",
    "Verif.Ops.C28_fails",
    "Verif.Ops.C28_getQ",
    "Verif.Ops.C28_negative_factor",
    "Verif.Ops.C28_repeated_index",
    "Verif.Ops.C28_getQ_wrong"
   ],
   "note": "Exact arithmetic. Also proved: a negative factor with positive rates drives depth negative; a triangle listed twice is booked twice; get_Q misreports quantity/array rates on a region."
  },
  {
   "property": "C29",
   "status": "proved",
   "theorems": [
    "Verif.Ops.C29_level_fill",
    "Verif.Ops.C29_unique",
    "Verif.Ops.C29_inlet"
   ],
   "note": "argsort is any permutation that sorts."
  },
  {
   "property": "C30",
   "status": "proved",
   "theorems": [
    "Verif.Ops.C30_books",
    "Verif.Ops.C30_depths",
    "Verif.Ops.C30_velocity",
    "Verif.Ops.C30_fails"
   ],
   "note": "Serial Inlet_operator; the parallel one is not modelled."
  },
  {
   "property": "C31",
   "status": "proved",
   "theorems": [
    "Verif.Ops.C31_moves",
    "Verif.Ops.C31_conserves",
    "Verif.Ops.C31_momentum",
    "Verif.Ops.C31_inflow_momentum"
   ],
   "note": "The discharge routine is an arbitrary non-negative number; the tolerance of the assertion is irrelevant because gain equals loss exactly."
  },
  {
   "property": "C32",
   "status": "proved",
   "theorems": [
    "Verif.Tools.C32_counts",
    "Verif.Tools.C32_total",
    "Verif.Tools.C32_bins",
    "Verif.Tools.C32_all",
    "Verif.Tools.C32_relative",
    "Verif.Tools.C32_relative_undefined",
    "Verif.Tools.C32_unsorted_bins",
    "Verif.Tools.C32_lines",
    "Verif.Tools.C32_percentiles",
    "Verif.Tools.C32_not_tenths",
    "Verif.Tools.C32_reported_timestep"
   ],
   "note": "Disagreements: decreasing bins give negative counts (C32_unsorted_bins), relative histogram is 0/0 when all samples are below the first bin, the ten percent report may print 19 groups (C32_not_tenths), the reported timestep is floored to whole seconds."
  },
  {
   "property": "C33",
   "status": "proved",
   "theorems": [
    "Verif.PolyFun.C33_last_region",
    "Verif.PolyFun.C33_lengths",
    "Verif.PolyFun.C33_pointwise",
    "Verif.PolyFun.C33_default_aliases",
    "Verif.PolyFun.C33_geo_reference"
   ],
   "note": "C33_last_region excludes a default function that returns its argument array itself when some region is a function: the array is then overwritten (C33_default_aliases)."
  },
  {
   "property": "C34",
   "status": "proved",
   "theorems": [
    "Verif.SetQ.C34_quantity",
    "Verif.SetQ.C34_single_element",
    "Verif.SetQ.C34_stage",
    "Verif.SetQ.C34_unusable_value",
    "Verif.SetQ.C34_stage_operator_below_bed",
    "Verif.SetQ.C34_depth_kept",
    "Verif.SetQ.C34_volume_kept",
    "Verif.SetQ.C34_discontinuous",
    "Verif.SetQ.C34_continuous",
    "Verif.SetQ.C34_continuous_inside",
    "Verif.SetQ.C34_continuous_everywhere",
    "Verif.SetQ.C34_whole_domain_ignores_value",
    "Verif.SetQ.C34_nothing"
   ],
   "note": "Exact arithmetic. The lists of nodes and triangles come from Python sets in any order. Disagreements: Set_stage_operator does not check the bed (C34_stage_operator_below_bed); with continuous elevation and centroid averaging, which all DE algorithms leave on, setting the bed of the whole domain ignores the value (C34_whole_domain_ignores_value); unusable values are dropped without notice (C34_unusable_value)."
  },
  {
   "property": "C35",
   "status": "proved",
   "theorems": [
    "Verif.SetQ.C35_maxima",
    "Verif.SetQ.C35_frequency",
    "Verif.SetQ.C35_monotone",
    "Verif.SetQ.C35_dry_depth"
   ],
   "note": "Disagreement: a triangle that was always dry reports the minimum height as maximum depth (C35_dry_depth)."
  },
  {
   "property": "C36",
   "status": "partial",
   "theorems": [
    "Verif.SetQ.C36_wet",
    "Verif.SetQ.C36_maximum",
    "Verif.SetQ.C36_inundation_partial",
    "Verif.SetQ.C36_positions",
    "Verif.SetQ.C36_subset_wrong"
   ],
   "note": "Proved for all triangles (indices=None). False for index subsets: get_wet_elements returns positions in the list instead of triangles (C36_positions), so a bed outside the subset may be reported (C36_subset_wrong)."
  },
  {
   "property": "C37",
   "status": "proved",
   "theorems": [
    "Verif.Bdry.C37_history",
    "Verif.Bdry.C37_update",
    "Verif.Bdry.C37_order",
    "Verif.Bdry.C37_shared_map",
    "Verif.Bdry.C37_flux_type_misaligned",
    "Verif.Bdry.C37_flux_type"
   ],
   "note": "C37_history assumes a separate dictionary object per call; with a shared one two domains stay coupled (C37_shared_map). boundary_flux_type is misaligned when a tag is bound to None (C37_flux_type_misaligned)."
  },
  {
   "property": "C38",
   "status": "proved",
   "theorems": [
    "Verif.Quantity.C38_vertex_limiter",
    "Verif.Quantity.C38_edge_limiter",
    "Verif.Quantity.C38_extrapolate_and_limit",
    "Verif.Quantity.C38_no_limiting_inside_range",
    "Verif.Quantity.C38_edge_by_neighbour",
    "Verif.Quantity.C38_bound_below",
    "Verif.Quantity.C38_bound_below_needs_centroid_above",
    "Verif.Quantity.C38_gradient_by_neighbour"
   ],
   "note": "quantity.c limiters. Edge limiters bound edges only; derived vertex values get the explicit weaker bound. bound_vertices_below needs the centroid above the bound (witness given)."
  },
  {
   "property": "C39",
   "status": "proved",
   "theorems": [
    "Verif.Interp.C39_values",
    "Verif.Interp.C39_linear_function",
    "Verif.Interp.C39_range",
    "Verif.Interp.C39_common_side",
    "Verif.Interp.C39_linear_in_data",
    "Verif.Interp.C39_centroids",
    "Verif.Interp.C39_wrong_length",
    "Verif.Interp.C39_outside_indices",
    "Verif.Interp.C39_repeat",
    "Verif.Interp.C39_flag_kept",
    "Verif.Interp.C39_block_interferes"
   ],
   "note": "Over an exact field with an exact square root. The boundary polygon test is the code's own (C17-C19 describe it). Two disagreements are proved: the centroid flag of a call without points is ignored when the matrix is kept, and an interpolate_block call in between changes the answer of a later call without points. use_cache is not modelled."
  },
  {
   "property": "C40",
   "status": "proved",
   "theorems": [
    "Verif.Quantity.C40_vertices_edges_vertices",
    "Verif.Quantity.C40_edges_vertices_edges",
    "Verif.Quantity.C40_centroid_is_mean",
    "Verif.Quantity.C40_constant"
   ],
   "note": "Exact arithmetic, per triangle."
  },
  {
   "property": "C41",
   "status": "proved",
   "theorems": [
    "Verif.Quantity.C41_gradient_exact",
    "Verif.Quantity.C41_gradient_interpolates",
    "Verif.Quantity.C41_gradient2",
    "Verif.Quantity.C41_plane_reproduced"
   ],
   "note": "Exact arithmetic."
  },
  {
   "property": "C42",
   "status": "proved",
   "theorems": [
    "Verif.Flux.C42_serial_equals_parallel"
   ],
   "note": "Modes 0 and 2. Weir heads exactly equal, positive and below 1e-100 are excluded (formula is one-sided there)."
  },
  {
   "property": "C43",
   "status": "proved",
   "theorems": [
    "Verif.Flux.C43_timestep_is_stable",
    "Verif.Flux.C43_timestep_is_attained",
    "Verif.Flux.C43_later_substeps_keep",
    "Verif.Flux.C43_not_with_ghost_first"
   ],
   "note": "Needs owned triangles numbered before ghosts (C43_not_with_ghost_first otherwise)."
  },
  {
   "property": "C44",
   "status": "proved",
   "theorems": [
    "Verif.Flux.C44_substeps_aligned",
    "Verif.Flux.C44_not_after_stray_call"
   ],
   "note": "A single stray compute_fluxes call misaligns later steps (C44_not_after_stray_call)."
  },
  {
   "property": "C45",
   "status": "proved",
   "theorems": [
    "Verif.Extrap.C45_edges_within_neighbour_range"
   ],
   "note": "Exact arithmetic, up to the constant 1e-100 below which limit_gradient does not limit."
  },
  {
   "property": "C46",
   "status": "proved",
   "theorems": [
    "Verif.Extrap.C46_averages_kept",
    "Verif.Extrap.C46_momentum_averages_kept",
    "Verif.Extrap.C46_exact_for_planes"
   ],
   "note": "Exact arithmetic."
  },
  {
   "property": "C47",
   "status": "partial",
   "theorems": [
    "Verif.Friction.C47_flat_partial",
    "Verif.Friction.C47_sloped_partial",
    "Verif.Friction.C47_flat_one_thread",
    "Verif.Friction.C47_sloped_one_thread",
    "Verif.Friction.C47_flat_not_serial",
    "Verif.Friction.C47_sloped_not_serial"
   ],
   "note": "False in full: abs_mom (flat) and k6, z (sloped) are missing from the private clauses, C47_flat_not_serial and C47_sloped_not_serial give schedules with a wrong result. Proved for schedules that respect the intervals between writing and last reading of the shared variables, in particular for one thread."
  },
  {
   "property": "C48",
   "status": "partial",
   "theorems": [
    "Verif.Extrap.C48_openmp_agrees_partial",
    "Verif.Extrap.C48_race_with_dry_beta",
    "Verif.Extrap.C48_not_without_velocity"
   ],
   "note": "Proved for velocity extrapolation (the default) and momentum limiter parameters that vanish at dry cells (DE0, DE1, DE2). Otherwise false: C48_race_with_dry_beta, C48_not_without_velocity."
  },
  {
   "property": "C49",
   "status": "proved",
   "theorems": [
    "Verif.Extrap.C49_corners_first_order"
   ],
   "note": "Exact arithmetic, up to 2e-100."
  },
  {
   "property": "C50",
   "status": "proved",
   "theorems": [
    "Verif.Polygon.C50_open",
    "Verif.Polygon.C50_closed",
    "Verif.Polygon.C50_accepted",
    "Verif.Polygon.C50_agrees_with_polygon_test"
   ],
   "note": ""
  },
  {
   "property": "C51",
   "status": "proved",
   "theorems": [
    "Verif.Flux.C51_between",
    "Verif.Flux.C51_weir_regime",
    "Verif.Flux.C51_submerged",
    "Verif.Flux.C51_gradual",
    "Verif.Flux.C51_momentum",
    "Verif.Flux.C51_discharge",
    "Verif.Flux.C51_low_wall",
    "Verif.Flux.C51_high_wall"
   ],
   "note": "Exact arithmetic; sqrt and pow(.,0.385) are functions with the listed properties (shown for the real functions)."
  },
  {
   "property": "C52",
   "status": "proved",
   "theorems": [
    "Verif.Sparse.C52_accumulates",
    "Verif.Sparse.C52_exact",
    "Verif.Sparse.C52_counters",
    "Verif.Sparse.C52_small_lost",
    "Verif.Sparse.C52_compressed",
    "Verif.Sparse.C52_gap_reads_memory"
   ],
   "note": "Exact arithmetic. Disagreements recorded: small entries are lost however often added (C52_small_lost); with an empty row in the middle the product depends on uninitialised memory (C52_gap_reads_memory)."
  },
  {
   "property": "C53",
   "status": "proved",
   "theorems": [
    "Verif.GeoRef.C53_set_reference",
    "Verif.GeoRef.C53_add",
    "Verif.GeoRef.C53_add_returns",
    "Verif.GeoRef.C53_add_none",
    "Verif.GeoRef.C53_add_loses",
    "Verif.GeoRef.C53_sample",
    "Verif.GeoRef.C53_clip",
    "Verif.GeoRef.C53_sample_not_addable",
    "Verif.GeoRef.C53_split",
    "Verif.GeoRef.C53_split_returns",
    "Verif.GeoRef.C53_split_can_fail"
   ],
   "note": "Drawn numbers are an argument, so all random outcomes are covered; C53_split_can_fail, C53_add_loses, C53_sample_not_addable record defects."
  },
  {
   "property": "C54",
   "status": "proved",
   "theorems": [
    "Verif.Ops.C54_step",
    "Verif.Ops.C54_run",
    "Verif.Ops.C54_report"
   ],
   "note": "One process; the flux step is a hypothesis (C12). Structures with negative discharge are outside."
  },
  {
   "property": "C55",
   "status": "partial",
   "theorems": [
    "Verif.Bdry.C55_agree",
    "Verif.Bdry.C55_flather_ignores_interior",
    "Verif.Bdry.C55_flather_differs",
    "Verif.Bdry.C55_flather_partial",
    "Verif.Bdry.C55_characteristic_evaluate",
    "Verif.Bdry.C55_time_stage_zero_broken",
    "Verif.Bdry.C55_dirichlet_too_long"
   ],
   "note": "False for the Flather condition with water on both sides (C55_flather_differs), for the characteristic stage condition (evaluate always raises), for Time_stage_zero_momentum_boundary (both raise) and for over-long Dirichlet vectors. Proved for all other classes (C55_agree) and for Flather where one side is dry."
  },
  {
   "property": "C56",
   "status": "proved",
   "theorems": [
    "Verif.Bdry.C56_reflective",
    "Verif.Bdry.C56_reflective_velocity",
    "Verif.Bdry.C56_n_momentum",
    "Verif.Bdry.C56_default_only_late",
    "Verif.Bdry.C56_simple",
    "Verif.Bdry.C56_series",
    "Verif.Bdry.C56_time",
    "Verif.Bdry.C56_roll_over",
    "Verif.Bdry.C56_roll_over_diverges",
    "Verif.Bdry.C56_characteristic",
    "Verif.Bdry.C56_flather",
    "Verif.Bdry.C56_inflow_total",
    "Verif.Bdry.C56_inflow_two_tags"
   ],
   "note": "Flather: the per-edge version; characteristic: the vectorised version. Disagreements: velocities at a wall are reflected the wrong way, roll-over with a series ending at time 0 or before never ends, an inflow object on two tags gives the second a wrong rate."
  },
  {
   "property": "C57",
   "status": "proved",
   "theorems": [
    "Verif.Tools.C57_cov",
    "Verif.Tools.C57_corr",
    "Verif.Tools.C57_err",
    "Verif.Tools.C57_err_zero_reference"
   ],
   "note": "Exact real arithmetic. Disagreement: with a zero reference, or without one in the two-norm, the relative error is inf or nan, not the documented absolute error (C57_err_zero_reference)."
  },
  {
   "property": "C58",
   "status": "proved",
   "theorems": [
    "Verif.Tools.C58_angle",
    "Verif.Tools.C58_angle_unique",
    "Verif.Tools.C58_anglediff",
    "Verif.Tools.C58_zero",
    "Verif.Tools.C58_safe_acos"
   ],
   "note": "Exact real arithmetic."
  },
  {
   "property": "C59",
   "status": "proved",
   "theorems": [
    "Verif.Region.C59_line_meets",
    "Verif.Region.C59_line_indices",
    "Verif.Region.C59_line_symmetric",
    "Verif.Region.C59_point_line",
    "Verif.Region.C59_polyline_tail_ignored"
   ],
   "note": "Exact arithmetic. Disagreement: of a line with more than two points only the first segment is used (C59_polyline_tail_ignored); coinciding points meet nothing (C59_point_line)."
  },
  {
   "property": "C60",
   "status": "proved",
   "theorems": [
    "Verif.Region.C60_everything",
    "Verif.Region.C60_indices",
    "Verif.Region.C60_circle",
    "Verif.Region.C60_polygon",
    "Verif.Region.C60_line",
    "Verif.Region.C60_poly",
    "Verif.Region.C60_get",
    "Verif.Region.C60_conflict",
    "Verif.Region.C60_half_circle"
   ],
   "note": "The inside test and the line test are those of C17 and C59. Disagreements: a centre without radius, or the reverse, selects the whole domain (C60_half_circle)."
  },
  {
   "property": "C61",
   "status": "partial",
   "theorems": [
    "Verif.Region.C61_crossing_reported_partial",
    "Verif.Region.C61_overlap_wrong"
   ],
   "note": "Proved: a triangle whose side crosses a polygon side properly is reported. False in general (C61_overlap_wrong): disjoint triangles are reported and triangles that contain the polygon are missed."
  },
  {
   "property": "C62",
   "status": "proved",
   "theorems": [
    "Verif.Interp.C62_decreasing_refused",
    "Verif.Interp.C62_values",
    "Verif.Interp.C62_no_memory",
    "Verif.Interp.C62_range",
    "Verif.Interp.C62_thinning",
    "Verif.Interp.C62_made",
    "Verif.Interp.C62_thinning_of_time_only",
    "Verif.Interp.C62_repeated_time"
   ],
   "note": "One quantity at one interpolation point (all are treated alike). The thinning clause holds in the spatial case; proved disagreement: for a function of time only the values are not thinned with the times. Proved disagreement: repeated times are accepted and then the value at that time depends on earlier calls."
  },
  {
   "property": "C63",
   "status": "proved",
   "theorems": [
    "Verif.Fit.C63_minimises",
    "Verif.Fit.C63_unique",
    "Verif.Fit.C63_constant",
    "Verif.Fit.C63_blocks",
    "Verif.Fit.C63_outside_ignored",
    "Verif.Fit.C63_refusals",
    "Verif.Fit.C63_last_block",
    "Verif.Fit.C63_solver_matrix",
    "Verif.Fit.C63_second_fit"
   ],
   "note": "The system is proved to be the normal equations of the cost (squared distances plus alpha times integral of squared slope, via the planes through the nodal values), hence minimality; uniqueness from connectedness; blocks and order from equality of the accumulated sums (C52); the compressed form from C52. One attribute per point; the iterative solver itself is C23. C63_second_fit is a disagreement: a second fit() on one object returns the first surface divided by alpha (no right angles)."
  },
  {
   "property": "C64",
   "status": "proved",
   "theorems": [
    "Verif.Factory.C64_cross_triangles",
    "Verif.Factory.C64_cross_tiles",
    "Verif.Factory.C64_cross_boundary",
    "Verif.Factory.C64_compiled_same",
    "Verif.Factory.C64_diagonal_triangles",
    "Verif.Factory.C64_diagonal_tiles",
    "Verif.Factory.C64_diagonal_boundary",
    "Verif.Factory.C64_accepted",
    "Verif.Factory.C64_cross_accepted",
    "Verif.Factory.C64_diagonal_accepted",
    "Verif.Factory.C64_periodic_mesh",
    "Verif.Factory.C64_periodic_exchange"
   ],
   "note": "Closed forms of the loops, then geometry in cell coordinates. Exact arithmetic: in floating point the points of the last column may miss origin + len by rounding. rectangular_old raises NameError (undefined delta1) and is not modelled."
  },
  {
   "property": "C65",
   "status": "proved",
   "theorems": [
    "Verif.Par.C65_accepted",
    "Verif.Par.C65_parts",
    "Verif.Par.C65_every_triangle_owned_once",
    "Verif.Par.C65_serial_order",
    "Verif.Par.C65_local_copies"
   ],
   "note": "What METIS returns is arbitrary. For a single processor distribute keeps the domain as it is (not modelled)."
  },
  {
   "property": "C66",
   "status": "proved",
   "theorems": [
    "Verif.Par.C66_layers"
   ],
   "note": "Edges tagged by the user inside the mesh are not crossed, which is a source of differences from the serial run: see C67."
  },
  {
   "property": "C67",
   "status": "proved",
   "theorems": [
    "Verif.Par.C67_accepted",
    "Verif.Par.C67_tags",
    "Verif.Par.C67_neighbours",
    "Verif.Par.C67_own_complete",
    "Verif.Par.C67_interior_tag_changes_count"
   ],
   "note": "With a user tag on an edge inside the mesh the triangle behind it may be missing, so that number_of_boundaries of an own triangle exceeds the serial one: C67_interior_tag_changes_count."
  },
  {
   "property": "C68",
   "status": "proved",
   "theorems": [
    "Verif.Par.C68_exchange",
    "Verif.Par.C68_messages_match",
    "Verif.Par.C68_common_step"
   ],
   "note": "Messages are matched by source, destination and call, as MPI does. build_local_commun sorts the two columns of its tables independently; the proof shows that this is harmless because both are increasing."
  },
  {
   "property": "C69",
   "status": "proved",
   "theorems": [
    "Verif.ParRun.C69_parallel_equals_serial",
    "Verif.ParRun.C69_two_layers",
    "Verif.ParRun.C69_two_layers_not_enough"
   ],
   "note": "No river walls and no operators; settings of the local domains are those of the serial one. C69_two_layers_not_enough: with positive dry limiters a run with the default two layers differs from the serial run."
  },
  {
   "property": "C70",
   "status": "proved",
   "theorems": [
    "Verif.Culvert.C70_box",
    "Verif.Culvert.C70_box_no_flow",
    "Verif.Culvert.C70_box_monotone",
    "Verif.Culvert.C70_box_wider",
    "Verif.Culvert.C70_more_headwater_less_flow",
    "Verif.Culvert.C70_pipe",
    "Verif.Culvert.C70_pipe_no_flow",
    "Verif.Culvert.C70_pipe_depth_not_similar",
    "Verif.Culvert.C70_trapezoid"
   ],
   "note": "Two disagreements with expectation are proved: C70_more_headwater_less_flow (the discharge falls where the barrels begin to run full) and C70_pipe_depth_not_similar (depth in a pipe breaks similarity). The critical depth of the trapezoid comes from a numerical root search and is an arbitrary positive function in the model."
  },
  {
   "property": "C71",
   "status": "proved",
   "theorems": [
    "Verif.Culvert.C71_structures",
    "Verif.Culvert.C71_step",
    "Verif.Culvert.C71_unsmoothed",
    "Verif.Culvert.C71_run",
    "Verif.Culvert.C71_relaxes",
    "Verif.Culvert.C71_first_step_uphill"
   ],
   "note": "C71_first_step_uphill: with smoothing and inlet 1 higher at construction, water is moved uphill in the first step, because the constructor stores the absolute value of the difference."
  },
  {
   "property": "C72",
   "status": "proved",
   "theorems": [
    "Verif.Gate.C72_reversal",
    "Verif.Gate.C72_between",
    "Verif.Gate.C72_on_curve",
    "Verif.Gate.C72_defined",
    "Verif.Gate.C72_still_water",
    "Verif.Gate.C72_sign",
    "Verif.Gate.C72_more_headwater_less_flow",
    "Verif.Gate.C72_still_water_flows",
    "Verif.Gate.C72_repeated",
    "Verif.Gate.C72_build"
   ],
   "note": "Two disagreements are proved: C72_more_headwater_less_flow and C72_still_water_flows. Reading the csv file is not modelled; a table is a list of columns with trailing blanks."
  },
  {
   "property": "C73",
   "status": "proved",
   "theorems": [
    "Verif.Gate.C73_init",
    "Verif.Gate.C73_call",
    "Verif.Gate.C73_run"
   ],
   "note": ""
  },
  {
   "property": "C74",
   "status": "proved",
   "theorems": [
    "Verif.Gate.C74_explicit_step",
    "Verif.Gate.C74_explicit_unsmoothed",
    "Verif.Gate.C74_implicit_step",
    "Verif.Gate.C74_implicit_unique",
    "Verif.Gate.C74_run_downhill",
    "Verif.Gate.C74_first_step_asymmetric",
    "Verif.Gate.C74_closed_but_flowing"
   ],
   "note": "The root finder of scipy is a function in the model; theorems on implicit calls assume that it solves the equations it is given. Two disagreements are proved: C74_first_step_asymmetric and C74_closed_but_flowing."
  },
  {
   "property": "C75",
   "status": "proved",
   "theorems": [
    "Verif.Kv.C75_matrix",
    "Verif.Kv.C75_columns",
    "Verif.Kv.C75_definite",
    "Verif.Kv.C75_solution",
    "Verif.Kv.C75_answers",
    "Verif.Kv.C75_no_new_extremes",
    "Verif.Kv.C75_uniform",
    "Verif.Kv.C75_conserves",
    "Verif.Kv.C75_energy",
    "Verif.Kv.C75_call",
    "Verif.Kv.C75_uniform_iff_equal_areas",
    "Verif.Kv.C75_not_symmetric_at_shore",
    "Verif.Kv.C75_call_loses_momentum",
    "Verif.Kv.C75_uniform_flow_is_changed"
   ],
   "note": "Restricted to triangles of one size because of a fault that is proved: C75_uniform_iff_equal_areas (with areas in use, the default, a uniform flow is a solution only if neighbours have equal areas). Two more: C75_not_symmetric_at_shore and C75_call_loses_momentum. The option add_safety is not modelled."
  },
  {
   "property": "C76",
   "status": "proved",
   "theorems": [
    "Verif.Kv.C76_definite",
    "Verif.Kv.C76_solution",
    "Verif.Kv.C76_answers",
    "Verif.Kv.C76_unique",
    "Verif.Kv.C76_between"
   ],
   "note": ""
  },
  {
   "property": "C77",
   "status": "proved",
   "theorems": [
    "Verif.Geom.C77_accepts",
    "Verif.Geom.C77_cells",
    "Verif.Geom.C77_area",
    "Verif.Geom.C77_normals",
    "Verif.Geom.C77_outflow",
    "Verif.Geom.C77_closed",
    "Verif.Geom.C77_shared",
    "Verif.Geom.C77_centroid",
    "Verif.Geom.C77_inscribed",
    "Verif.Geom.C77_default_radius",
    "Verif.Geom.C77_extent",
    "Verif.Geom.C77_default_radius_not_inscribed"
   ],
   "note": "Unless the inscribed circle is asked for, the radius is the distance from the centroid to the nearest edge midpoint, which can be larger or smaller: C77_default_radius, C77_default_radius_not_inscribed."
  },
  {
   "property": "C78",
   "status": "proved",
   "theorems": [
    "Verif.Adv.C78_time_step",
    "Verif.Adv.C78_local",
    "Verif.Adv.C78_bounds",
    "Verif.Adv.C78_exchange",
    "Verif.Adv.C78_mass",
    "Verif.Adv.C78_mass_methods",
    "Verif.Adv.C78_uniform",
    "Verif.Adv.C78_contraction",
    "Verif.Adv.C78_default_radius_overshoots"
   ],
   "note": "The bounds need the inscribed radius; with the default radius they fail: C78_default_radius_overshoots."
  },
  {
   "property": "C79",
   "status": "proved",
   "theorems": [
    "Verif.Raster.C79_bilinear",
    "Verif.Raster.C79_exact",
    "Verif.Raster.C79_missing",
    "Verif.Raster.C79_no_overshoot",
    "Verif.Raster.C79_nearest",
    "Verif.Raster.C79_outside",
    "Verif.Raster.C79_call",
    "Verif.Raster.C79_call_error",
    "Verif.Raster.C79_raster",
    "Verif.Raster.C79_far_side",
    "Verif.Raster.C79_accepts_unsorted"
   ],
   "note": "A missing number on the far side of a cell counts even where its weight is zero: C79_far_side. Decreasing grid lines are accepted: C79_accepts_unsorted."
  },
  {
   "property": "C80",
   "status": "proved",
   "theorems": [
    "Verif.Raster.C80_ascii",
    "Verif.Raster.C80_same",
    "Verif.Raster.C80_points",
    "Verif.Raster.C80_points_once",
    "Verif.Raster.C80_all_points",
    "Verif.Raster.C80_interpolates",
    "Verif.Raster.C80_decimated",
    "Verif.Raster.C80_decimated_position",
    "Verif.Raster.C80_corner_is_centre",
    "Verif.Raster.C80_fractional_missing"
   ],
   "note": "Places are those the code assigns. Corner and centre of the first cell are treated alike (C80_corner_is_centre); a decimated number is placed beside the centre of its stencil (C80_decimated_position); agreement of the two readers needs an integer value for missing data (C80_fractional_missing)."
  },
  {
   "property": "C81",
   "status": "proved",
   "theorems": [
    "Verif.Cross.C81_segments",
    "Verif.Cross.C81_length",
    "Verif.Cross.C81_flow",
    "Verif.Cross.C81_polyline",
    "Verif.Cross.C81_answers",
    "Verif.Cross.C81_uniform",
    "Verif.Cross.C81_direction",
    "Verif.Cross.C81_direction_polyline",
    "Verif.Cross.C81_several",
    "Verif.Cross.C81_energy_bounds",
    "Verif.Cross.C81_rest",
    "Verif.Cross.C81_specific",
    "Verif.Cross.C81_inner_part_is_lost",
    "Verif.Cross.C81_inner_part_is_silent",
    "Verif.Cross.Sample.C81_inner_part_witness"
   ],
   "note": "Clear position: no end, corner or crossing within the rounding tolerances of the code without being exact. A part that begins and ends strictly inside one triangle is dropped by the code (C81_inner_part_is_lost, C81_inner_part_is_silent); the exactness statements assume that no part does."
  },
  {
   "property": "C82",
   "status": "proved",
   "theorems": [
    "Verif.Wall.C82_edges",
    "Verif.Wall.C82_near",
    "Verif.Wall.C82_counter",
    "Verif.Wall.C82_crest",
    "Verif.Wall.C82_linear",
    "Verif.Wall.C82_between",
    "Verif.Wall.C82_both_sides",
    "Verif.Wall.C82_parameters",
    "Verif.Wall.C82_geometry",
    "Verif.Wall.C82_accepts",
    "Verif.Wall.C82_chain",
    "Verif.Wall.C82_silent",
    "Verif.Wall.C82_again",
    "Verif.Wall.C82_refused",
    "Verif.Wall.C82_across",
    "Verif.Wall.C82_gap_missed"
   ],
   "note": "The gap check is sound only as stated: C82_gap_missed has a wall from boundary to boundary with one gap which passes; without messages no gap is reported (C82_silent). Only midpoints count (C82_across). Walls of an earlier call stay on their edges without parameters (C82_again); a refused call leaves marked edges (C82_refused)."
  },
  {
   "property": "C83",
   "status": "proved",
   "theorems": [
    "Verif.Loop.C83_loop",
    "Verif.Loop.C83_area",
    "Verif.Loop.C83_one_loop",
    "Verif.Loop.C83_path",
    "Verif.Loop.C83_angle",
    "Verif.Loop.C83_hole",
    "Verif.Loop.C83_pinch"
   ],
   "note": "The documentation promises the polygon that contains the entire mesh: false on a mesh with a hole (C83_hole: the hole is returned, clockwise) and on one touching itself in the starting point (C83_pinch: half is left out); the statement is scoped accordingly."
  },
  {
   "property": "C84",
   "status": "proved",
   "theorems": [
    "Verif.Forcing.C84_accepts",
    "Verif.Forcing.C84_rain",
    "Verif.Forcing.C84_inflow",
    "Verif.Forcing.C84_whole",
    "Verif.Forcing.C84_whole_one_loop",
    "Verif.Forcing.C84_default",
    "Verif.Forcing.C84_warning",
    "Verif.Forcing.C84_default_differs",
    "Verif.Forcing.C84_hole"
   ],
   "note": "The default rate of an inflow is not divided by the area (C84_default, C84_default_differs), and on a mesh with holes an inflow everywhere loses volume (C84_hole); the statement is scoped accordingly."
  },
  {
   "property": "C85",
   "status": "proved",
   "theorems": [
    "Verif.Forcing.C85_wind",
    "Verif.Forcing.C85_constant",
    "Verif.Forcing.C85_stress",
    "Verif.Forcing.C85_place",
    "Verif.Forcing.C85_refused",
    "Verif.Forcing.C85_three",
    "Verif.Forcing.C85_pressure",
    "Verif.Forcing.C85_sign",
    "Verif.Forcing.C85_opens",
    "Verif.Forcing.C85_series",
    "Verif.Forcing.C85_one_value",
    "Verif.Forcing.C85_back",
    "Verif.Forcing.C85_direction"
   ],
   "note": "Known faults outside the scope of the statement: sign of the pressure term (C85_sign), reading times that go back as in the third order method (C85_back), interpolation of directions as numbers (C85_direction), functions of fixed length (C85_three)."
  },
  {
   "property": "C86",
   "status": "proved",
   "theorems": [
    "Verif.Sww.C86_history",
    "Verif.Sww.C86_replace",
    "Verif.Sww.C86_unknown_time",
    "Verif.Sww.C86_depth",
    "Verif.Sww.C86_range",
    "Verif.Sww.C86_range_exact",
    "Verif.Sww.C86_static",
    "Verif.Sww.C86_rollover",
    "Verif.Sww.C86_every_nth",
    "Verif.Sww.C86_resume",
    "Verif.Sww.C86_break_every",
    "Verif.Sww.C86_break_shifts",
    "Verif.Sww.C86_range_stale"
   ],
   "note": "Faults outside the scope of the statement: times after a roll-over to a second file (C86_rollover), break with a coarser output step (C86_break_shifts), range after replacing (C86_range_stale)."
  },
  {
   "property": "C87",
   "status": "proved",
   "theorems": [
    "Verif.Sww.C87_smooth",
    "Verif.Sww.C87_agreed",
    "Verif.Sww.C87_plain",
    "Verif.Sww.C87_start",
    "Verif.Sww.C87_static_mistaken",
    "Verif.Sww.C87_start_truncated"
   ],
   "note": "Scope: the number of stored times differs from the numbers of points and triangles of the first file (otherwise C87_static_mistaken). The start time is truncated to whole seconds (C87_start, C87_start_truncated)."
  },
  {
   "property": "C88",
   "status": "proved",
   "theorems": [
    "Verif.Sww.C88_concatenated",
    "Verif.Sww.C88_accepted",
    "Verif.Sww.C88_times",
    "Verif.Sww.C88_weed",
    "Verif.Sww.C88_weed_accepted",
    "Verif.Sww.C88_values_match",
    "Verif.Sww.C88_values_smooth",
    "Verif.Sww.C88_time_accepted",
    "Verif.Sww.C88_time_value",
    "Verif.Sww.C88_time_exact",
    "Verif.Sww.C88_start_lost",
    "Verif.Sww.C88_origin_mixed",
    "Verif.Sww.C88_values_mismatch"
   ],
   "note": "Places are relative to the origin, which is that of the first file (C88_origin_mixed); the start time is lost (C88_times, C88_start_lost); for a file with separate corners the arrays do not fit the mesh returned with them (C88_values_match, C88_values_mismatch)."
  },
  {
   "property": "C89",
   "status": "proved",
   "theorems": [
    "Verif.Gen.C89_segments",
    "Verif.Gen.C89_regions",
    "Verif.Gen.C89_reference",
    "Verif.Gen.C89_accepts",
    "Verif.Gen.C89_rejects_tag",
    "Verif.Gen.C89_rejects_polygon",
    "Verif.Gen.C89_point",
    "Verif.Gen.C89_shared_corner",
    "Verif.Gen.C89_point_far"
   ],
   "note": "A reference marked absolute has origin zero (Honest). The overall point is chosen without regard to the interior regions and may lie in one (C89_shared_corner); the documented distance of point_in_polygon is not kept (C89_point_far)."
  },
  {
   "property": "C90",
   "status": "proved",
   "theorems": [
    "Verif.Gen.C90_codes",
    "Verif.Gen.C90_region_codes",
    "Verif.Gen.C90_distinct_points",
    "Verif.Gen.C90_edge_tags",
    "Verif.Gen.C90_tagged_elements",
    "Verif.Gen.C90_stage",
    "Verif.Gen.C90_domain"
   ],
   "note": "The triangulation library is a hypothesis (Faithful): conforming output, one segment per edge, markers kept, unmarked boundary marked one."
  },
  {
   "property": "C91",
   "status": "proved",
   "theorems": [
    "Verif.Dem.C91_values",
    "Verif.Dem.C91_block_size",
    "Verif.Dem.C91_defined",
    "Verif.Dem.C91_ers",
    "Verif.Dem.C91_asc",
    "Verif.Dem.C91_read_back",
    "Verif.Dem.C91_unique",
    "Verif.Dem.C91_exact",
    "Verif.Dem.C91_within",
    "Verif.Dem.C91_greatest",
    "Verif.Dem.C91_depth",
    "Verif.Dem.C91_speed",
    "Verif.Dem.C91_corner"
   ],
   "note": "The text of a number is a parameter (rounding of %.3e); positions within 1e-12 of a side's length count as on it. The corner of a text grid is cut to a whole number, so the map is displaced for other corners (C91_corner)."
  },
  {
   "property": "C92",
   "status": "proved",
   "theorems": [
    "Verif.Compose.C92_value",
    "Verif.Compose.C92_unique",
    "Verif.Compose.C92_succeeds",
    "Verif.Compose.C92_gaps",
    "Verif.Compose.C92_pointwise",
    "Verif.Compose.C92_clipped"
   ],
   "note": "Sources work point by point; the tree of scipy is a parameter. Files of polygons are taken as read."
  },
  {
   "property": "C93",
   "status": "proved",
   "theorems": [
    "Verif.Compose.C93_one",
    "Verif.Compose.C93_many",
    "Verif.Compose.C93_background",
    "Verif.Compose.C93_pixel",
    "Verif.Compose.C93_outside",
    "Verif.Compose.C93_within",
    "Verif.Compose.C93_exact",
    "Verif.Compose.C93_centre",
    "Verif.Compose.C93_missing",
    "Verif.Compose.C93_zero"
   ],
   "note": "The contract of scipy's tree (k nearest, sorted, true distances) is a hypothesis, shown satisfiable by a sorting tree over the reals. Values beyond 9e100 are excluded for the methods 'min' and 'max'. A missing value of zero is never recognised (C93_zero)."
  },
  {
   "property": "C94",
   "status": "proved",
   "theorems": [
    "Verif.Erode.C94_water",
    "Verif.Erode.C94_volume",
    "Verif.Erode.C94_shear",
    "Verif.Erode.C94_never_rises",
    "Verif.Erode.C94_run",
    "Verif.Erode.C94_shear_continuous",
    "Verif.Erode.C94_node_bounds",
    "Verif.Erode.C94_slice",
    "Verif.Erode.C94_fill",
    "Verif.Erode.C94_slice_continuous",
    "Verif.Erode.C94_dune",
    "Verif.Erode.C94_dune_bounds",
    "Verif.Erode.C94_dune_still",
    "Verif.Erode.C94_dune_number_base",
    "Verif.Erode.C94_plain_fails",
    "Verif.Erode.C94_plain_one",
    "Verif.Erode.C94_plain_three",
    "Verif.Erode.C94_whole_domain",
    "Verif.Erode.C94_plain_level",
    "Verif.Erode.C94_plain_continuous"
   ],
   "note": "The claims about the plain operator are proved as they are in the code (C94_plain_fails, C94_plain_one, C94_plain_three, C94_whole_domain). Slopes of the water surface, the square root, the power and the tangent are parameters; one processor."
  },
  {
   "property": "C95",
   "status": "proved",
   "theorems": [
    "Verif.Erode.C95_manning",
    "Verif.Erode.C95_manning_implicit",
    "Verif.Erode.C95_half_steps",
    "Verif.Erode.C95_depth_roughness",
    "Verif.Erode.C95_depth_friction",
    "Verif.Erode.C95_constant_friction",
    "Verif.Erode.C95_truncated",
    "Verif.Erode.C95_empty_region",
    "Verif.Erode.C95_set_flow",
    "Verif.Erode.C95_below_bed",
    "Verif.Erode.C95_cut_off"
   ],
   "note": "Real exponential, square root and power. numpy's vectorize is modelled by its rule that the type of the first result is that of all."
  },
  {
   "property": "C96",
   "status": "proved",
   "theorems": [
    "Verif.ParInlet.C96_level",
    "Verif.ParInlet.C96_averages",
    "Verif.ParInlet.C96_fails",
    "Verif.ParInlet.C96_books",
    "Verif.ParInlet.C96_allocate",
    "Verif.ParInlet.C96_allocate_fails",
    "Verif.ParInlet.C96_region",
    "Verif.ParInlet.C96_same",
    "Verif.ParInlet.C96_counted_again"
   ],
   "note": "Messages are modelled by the values they carry. Stages must be below the largest float32, the start value of the search. The last sentence is a defect of the code, proved as it is (C96_books, C96_counted_again)."
  },
  {
   "property": "C97",
   "status": "proved",
   "theorems": [
    "Verif.FileFn.C97_value",
    "Verif.FileFn.C97_series",
    "Verif.FileFn.C97_clock",
    "Verif.FileFn.C97_boundary",
    "Verif.FileFn.C97_boundary_late",
    "Verif.FileFn.C97_two_files",
    "Verif.FileFn.C97_limit_absolute"
   ],
   "note": "Making the interpolator from vertices and triangles is a parameter; the theorem needs that it fits the mesh (`Fits`, built in C27/C39). Series are proved without thinning (C62 shows that thinning goes wrong there). That the boundary takes the time \"model time plus start\" is a defect, proved as it is."
  },
  {
   "property": "C98",
   "status": "proved",
   "theorems": [
    "Verif.Gauge.C98_csv",
    "Verif.Gauge.C98_files",
    "Verif.Gauge.C98_bearing",
    "Verif.Gauge.C98_north",
    "Verif.Gauge.C98_three",
    "Verif.Gauge.C98_stage_file",
    "Verif.Gauge.C98_gauges_found",
    "Verif.Gauge.C98_gauges",
    "Verif.Gauge.C98_other_run",
    "Verif.Gauge.C98_second_start",
    "Verif.Gauge.C98_same_name",
    "Verif.Gauge.C98_unknown",
    "Verif.Gauge.C98_centroids"
   ],
   "note": "Numbers are not turned into text. The bearing, the tables that always fail, the choice of files by part of the name and the times of later files are proved as they are in the code."
  },
  {
   "property": "C99",
   "status": "proved",
   "theorems": [
    "Verif.Sts.C99_stretch",
    "Verif.Sts.C99_value",
    "Verif.Sts.C99_whole",
    "Verif.Sts.C99_silent_zero",
    "Verif.Sts.C99_wrong_gauge",
    "Verif.Sts.C99_no_time"
   ],
   "note": "Points within the tolerance of several sides without being on all of them are left out. The zero off the sides, the relative tolerance, the refusal of a whole polygon and of fixed quantities are proved as they are in the code."
  },
  {
   "property": "C100",
   "status": "proved",
   "theorems": [
    "Verif.PlotU.C100_rows",
    "Verif.PlotU.C100_shape",
    "Verif.PlotU.C100_max",
    "Verif.PlotU.C100_velocity",
    "Verif.PlotU.C100_centroids",
    "Verif.PlotU.C100_centroids_max",
    "Verif.PlotU.C100_max_bed",
    "Verif.PlotU.C100_max_depth_wrong",
    "Verif.PlotU.C100_centroid_depth_wrong",
    "Verif.PlotU.C100_one_time_fails"
   ],
   "note": "Exact arithmetic; friction, negative and empty lists of times left out. That depths are wrong with a moving bed is proved by witnesses."
  },
  {
   "property": "C101",
   "status": "proved",
   "theorems": [
    "Verif.PlotU.C101_max_again",
    "Verif.PlotU.C101_combine",
    "Verif.PlotU.C101_combine_ok",
    "Verif.PlotU.C101_first_only",
    "Verif.PlotU.C101_area",
    "Verif.PlotU.C101_volume",
    "Verif.PlotU.C101_volume_times",
    "Verif.PlotU.C101_transect",
    "Verif.PlotU.C101_containing",
    "Verif.PlotU.C101_near",
    "Verif.PlotU.C101_bed_lost"
   ],
   "note": "Exact arithmetic. Points within 2e-15 of a side without being on it are left open (as in C18)."
  },
  {
   "property": "C102",
   "status": "proved",
   "theorems": [
    "Verif.Caching.C102_no_collisions",
    "Verif.Caching.C102_exact",
    "Verif.Caching.C102_changed_files_unnoticed",
    "Verif.Caching.C102_count_noticed",
    "Verif.Caching.C102_clear",
    "Verif.Caching.C102_wrong_keyword",
    "Verif.Caching.C102_wrong_array",
    "Verif.Caching.C102_wrong_after_exception"
   ],
   "note": "Compression, statistics, expiry and the file formats are left out; hash of atoms arbitrary. The wrong results are proved by witnesses for every hash function."
  },
  {
   "property": "C103",
   "status": "proved",
   "theorems": [
    "Verif.ParFile.C103_format",
    "Verif.ParFile.C103_smooth",
    "Verif.ParFile.C103_plain",
    "Verif.ParFile.C103_part",
    "Verif.ParFile.C103_triangles",
    "Verif.ParFile.C103_run",
    "Verif.ParFile.C103_node_values_differ"
   ],
   "note": "Joins C65, C69 and C87. Hypotheses of C87 remain: the number of stored times differs from the numbers of nodes and triangles of the first file, and in the smooth format the first processor has two triangles sharing a node (C103_format). Node numbers are stored exactly."
  },
  {
   "property": "C104",
   "status": "proved",
   "theorems": [
    "Verif.Proj.C104_zone",
    "Verif.Proj.C104_zone_unique",
    "Verif.Proj.C104_east_of_180",
    "Verif.Proj.C104_west_of_180",
    "Verif.Proj.C104_axes",
    "Verif.Proj.C104_mirror_meridian",
    "Verif.Proj.C104_mirror_equator",
    "Verif.Proj.C104_easting_increases",
    "Verif.Proj.C104_northing_increases",
    "Verif.Proj.C104_easting_range",
    "Verif.Proj.C104_full_circle",
    "Verif.Proj.C104_convert",
    "Verif.Proj.C104_two_zones",
    "Verif.Proj.C104_one_zone",
    "Verif.Proj.C104_meridian_distance",
    "Verif.Proj.C104_conformal",
    "Verif.Proj.C104_sixth_term",
    "Verif.Proj.C104_dms",
    "Verif.Proj.C104_dms_sign",
    "Verif.Proj.C104_dms_back",
    "Verif.Proj.C104_zones_agree",
    "Verif.Proj.C104_utm_wraps",
    "Verif.Proj.C104_utm_west",
    "Verif.Proj.C104_zone_given",
    "Verif.Proj.C104_zone_same",
    "Verif.Proj.C104_meridian_given",
    "Verif.Proj.C104_ellipsoid",
    "Verif.Proj.C104_equator_jump"
   ],
   "note": "Real arithmetic. Longitudes from 180 to 186 get zone 1 and eastings above thirty million (C104_full_circle, C104_east_of_180); those below -180 are refused or get zone -1 (C104_west_of_180); across the equator the default northing jumps by ten million and the points are accepted together (C104_equator_jump)."
  },
  {
   "property": "C105",
   "status": "proved",
   "theorems": [
    "Verif.MaxOps.C105_maxima",
    "Verif.MaxOps.C105_speed",
    "Verif.MaxOps.C105_speed_of_dry",
    "Verif.MaxOps.C105_depth",
    "Verif.MaxOps.C105_every_call",
    "Verif.MaxOps.C105_fraction",
    "Verif.MaxOps.C105_grow",
    "Verif.MaxOps.C105_product",
    "Verif.MaxOps.C105_first_step",
    "Verif.MaxOps.C105_steps",
    "Verif.MaxOps.C105_max_stage",
    "Verif.MaxOps.C105_mean",
    "Verif.MaxOps.C105_max_stage_run",
    "Verif.MaxOps.C105_stale",
    "Verif.MaxOps.C105_local",
    "Verif.MaxOps.C105_parallel"
   ],
   "note": "Real arithmetic. A frequency which is not a whole number is accepted and nothing is ever collected (C105_fraction); with a velocity_zero_height below the minimum height dry triangles get speeds (C105_speed_of_dry)."
  },
  {
   "property": "C106",
   "status": "proved",
   "theorems": [
    "Verif.MeshFile.C106_tsh",
    "Verif.MeshFile.C106_tsh_any",
    "Verif.MeshFile.C106_attributes",
    "Verif.MeshFile.C106_cut_off",
    "Verif.MeshFile.C106_no_outline",
    "Verif.MeshFile.C106_titles_without_columns",
    "Verif.MeshFile.C106_mesh",
    "Verif.MeshFile.C106_area_none",
    "Verif.MeshFile.C106_hemisphere",
    "Verif.MeshFile.C106_attributes_move",
    "Verif.MeshFile.C106_two_lines"
   ],
   "note": "Text level model: lines, words, numbers of rows and columns. How numbers are printed is a parameter with the hypothesis that they can be read back. Hemisphere, datum and the like do not come back (C106_hemisphere); attributes with a gap move to other vertices (C106_attributes_move)."
  },
  {
   "property": "C107",
   "status": "proved",
   "theorems": [
    "Verif.MeshFile.C107_written_is_right",
    "Verif.MeshFile.C107_can_be_written",
    "Verif.MeshFile.C107_msh",
    "Verif.MeshFile.C107_formats_agree",
    "Verif.MeshFile.C107_tags_needed",
    "Verif.MeshFile.C107_neighbours_needed",
    "Verif.MeshFile.C107_bytes_needed",
    "Verif.MeshFile.C107_no_overflow",
    "Verif.MeshFile.C107_hemisphere",
    "Verif.MeshFile.C107_two_lines",
    "Verif.MeshFile.C107_formats_differ"
   ],
   "note": "Tables of the NetCDF library are taken to give back what was stored. Numbers are exact. Refusals: C107_tags_needed, C107_neighbours_needed, C107_bytes_needed."
  },
  {
   "property": "C108",
   "status": "proved",
   "theorems": [
    "Verif.ParStruct.C108_call",
    "Verif.ParStruct.C108_serial"
   ],
   "note": "Assumes that the culvert is not closed, that the inlets are not empty and that the call on one processor raises no exception (C108_serial: this is so if the discharge routine returns a discharge that is not negative and the inlets do not overlap). Messages between two processors arrive in order (as in MPI)."
  },
  {
   "property": "C109",
   "status": "proved",
   "theorems": [
    "Verif.ParGhost.C109_together",
    "Verif.ParGhost.C109_result",
    "Verif.ParGhost.C109_progress",
    "Verif.ParGhost.C109_bounded",
    "Verif.ParGhost.C109_completes",
    "Verif.ParGhost.C109_order",
    "Verif.ParGhost.C109_again",
    "Verif.ParGhost.C109_fits",
    "Verif.ParGhost.C109_exchange",
    "Verif.ParGhost.C109_owner",
    "Verif.ParGhost.C109_race",
    "Verif.ParGhost.C109_settings",
    "Verif.ParGhost.C109_evolve",
    "Verif.ParGhost.C109_rk2"
   ],
   "note": "Dictionaries of neighbours are assumed to fit together (proved of those of distributed meshes: C109_fits, from C68_messages_match). Operators which exchange ghosts themselves are left out of the order of events."
  },
  {
   "property": "C110",
   "status": "proved",
   "theorems": [
    "Verif.Mux.C110_demux",
    "Verif.Mux.C110_read",
    "Verif.Mux.C110_weights",
    "Verif.Mux.C110_times",
    "Verif.Mux.C110_early",
    "Verif.Mux.C110_truncated",
    "Verif.Mux.C110_99",
    "Verif.Mux.C110_never"
   ],
   "note": "Stations of different numbers of steps and indices that do not exist make the C code leave its arrays and are errors of the model. Negative indices are left out."
  },
  {
   "property": "C111",
   "status": "proved",
   "theorems": [
    "Verif.Mux.C111_agree",
    "Verif.Mux.C111_origin",
    "Verif.Mux.C111_file",
    "Verif.Mux.C111_stage"
   ],
   "note": "`redfearn` is any function here (C104 and C105 describe it). Arrays of different length are refused."
  },
  {
   "property": "C112",
   "status": "proved",
   "theorems": [
    "Verif.Damage.C112_inundation",
    "Verif.Damage.C112_order",
    "Verif.Damage.C112_files",
    "Verif.Damage.C112_assessed",
    "Verif.Damage.C112_house",
    "Verif.Damage.C112_collapses",
    "Verif.Damage.C112_info",
    "Verif.Damage.C112_deeper",
    "Verif.Damage.C112_fraction",
    "Verif.Damage.C112_more_than_all",
    "Verif.Damage.C112_negative",
    "Verif.Damage.C112_other_runs",
    "Verif.Damage.C112_half"
   ],
   "note": "Values which `file_function` gives at points are taken as given (C39, C98). Exact numbers: the product of probability and number is rounded without error of representation."
  },
  {
   "property": "C113",
   "status": "proved",
   "theorems": [
    "Verif.Csv.C113_readable",
    "Verif.Csv.C113_load",
    "Verif.Csv.C113_column",
    "Verif.Csv.C113_add",
    "Verif.Csv.C113_overwrite",
    "Verif.Csv.C113_wrong_number",
    "Verif.Csv.C113_save",
    "Verif.Csv.C113_again",
    "Verif.Csv.C113_polygons_taken",
    "Verif.Csv.C113_polygons",
    "Verif.Csv.C113_heights",
    "Verif.Csv.C113_clipping",
    "Verif.Csv.C113_no_values",
    "Verif.Csv.C113_title_twice",
    "Verif.Csv.C113_no_rows",
    "Verif.Csv.C113_blanks",
    "Verif.Csv.C113_clip_empty"
   ],
   "note": "Rows are those which the `csv` module of Python reads and writes; `strip` and `float` are parameters."
  },
  {
   "property": "C114",
   "status": "proved",
   "theorems": [
    "Verif.Cut.C114_ascending",
    "Verif.Cut.C114_descending",
    "Verif.Cut.C114_some",
    "Verif.Cut.C114_extra",
    "Verif.Cut.C114_small"
   ],
   "note": "Exact numbers; arrays are not empty; lines of the grid differ."
  },
  {
   "property": "C115",
   "status": "proved",
   "theorems": [
    "Verif.TimeFile.C115_taken",
    "Verif.TimeFile.C115_file",
    "Verif.TimeFile.C115_series",
    "Verif.TimeFile.C115_missing",
    "Verif.TimeFile.C115_none"
   ],
   "note": "Reading of dates, words and numbers are parameters; exact numbers. The part about `file_function` rests on the model of C97."
  },
  {
   "property": "C116",
   "status": "proved",
   "theorems": [
    "Verif.Csv.C116_merge",
    "Verif.Csv.C116_cut_off"
   ],
   "note": "Rows are those of the `csv` module of Python; `strip` is a parameter."
  },
  {
   "property": "C117",
   "status": "proved",
   "theorems": [
    "Verif.Lib.C117_greatest",
    "Verif.Lib.C117_taken"
   ],
   "note": "Numbers are exact: the file written has them with five digits. Which lines are empty and which numbers lines hold are parameters."
  },
  {
   "property": "C118",
   "status": "proved",
   "theorems": [
    "Verif.Lib.C118_order",
    "Verif.Lib.C118_refused"
   ],
   "note": "The first two fields of each row are numbers, taken as exact. The limit on recursion is a parameter of the model."
  },
  {
   "property": "C119",
   "status": "proved",
   "theorems": [
    "Verif.Ungen.C119_read",
    "Verif.Ungen.C119_sides",
    "Verif.Ungen.C119_taken",
    "Verif.Ungen.C119_single",
    "Verif.Ungen.C119_point"
   ],
   "note": "A line is given by what the code looks at. That a polygon of one point takes away a side of the one before it is proved as C119_single."
  },
  {
   "property": "C120",
   "status": "proved",
   "theorems": [
    "Verif.Check.C120_latest",
    "Verif.Check.C120_given",
    "Verif.Check.C120_broken"
   ],
   "note": "Messages arrive: each exchange gives every processor what the others have sent, which needs messages to be stored on the way, as all processors send before they receive. Names are split into domain and time; reading of a file is a parameter."
  },
  {
   "property": "C121",
   "status": "proved",
   "theorems": [
    "Verif.Urs.C121_around",
    "Verif.Urs.C121_only",
    "Verif.Urs.C121_beyond",
    "Verif.Urs.C121_short"
   ],
   "note": "Exact numbers; the conversions from and to metres are arbitrary functions. `lat_amount` and `long_amount` are fields of the grid which the model, like the code, does not use."
  },
  {
   "property": "C122",
   "status": "proved",
   "theorems": [
    "Verif.Sdf.C122_read",
    "Verif.Sdf.C122_unfinished",
    "Verif.Sdf.C122_refused"
   ],
   "note": "Lines are told apart by what the code looks at; the header is given by the number of sections, and the writing of points is not part of it."
  },
  {
   "property": "C123",
   "status": "proved",
   "theorems": [
    "Verif.Llasc.C123_points",
    "Verif.Llasc.C123_taken",
    "Verif.Llasc.C123_narrow",
    "Verif.Llasc.C123_centre"
   ],
   "note": "Exact numbers; conversion of one position is an arbitrary function. The points that a shorter row moves and the half cell are shown by example files."
  },
  {
   "property": "C124",
   "status": "proved",
   "theorems": [
    "Verif.TagRegion.C124_after",
    "Verif.TagRegion.C124_others",
    "Verif.TagRegion.C124_centroids",
    "Verif.TagRegion.C124_flat"
   ],
   "note": "Exact numbers; locations are vertices and centroids, not unique vertices; X is a number, not a function; all quantities named exist."
  },
  {
   "property": "C125",
   "status": "proved",
   "theorems": [
    "Verif.Radar.C125_slices",
    "Verif.Radar.C125_order",
    "Verif.Radar.C125_volume",
    "Verif.Radar.C125_area",
    "Verif.Radar.C125_small"
   ],
   "note": "Exact numbers; all files have the same number of values; reading of NetCDF variables, coordinates and the choice of cells in a polygon are left out (cells are given)."
  }
 ]
}