{"id": "C01", "title": "evolve yields exactly the requested times", "statement": "Iterating domain.evolve(yieldstep, finaltime) on a fresh domain hands control back at the start time, then at start+yieldstep, start+2*yieldstep, ... in increasing order, and finally exactly at finaltime, after which it stops; no requested time is skipped, repeated or reordered, whatever internal timesteps the flux computation imposes.", "quantifier": "all start times, positive yieldsteps, final times not before the start, and all sequences of (positive) flux-limited internal timesteps", "why_tests_cant": "The internal timestep sequence is data dependent and unbounded; tests only see a handful of flux histories and yieldstep/finaltime ratios.", "anchors": ["anuga/abstract_2d_finite_volumes/generic_domain.py:_evolve_base", "anuga/abstract_2d_finite_volumes/generic_domain.py:update_timestep"]}
{"id": "C02", "title": "internal timestep never exceeds any of its limits", "statement": "Each internal step taken by evolve is at most CFL times the flux-limited step, at most the user maximum step, and never carries the model time past the next yield time or the final time; model time never decreases.", "quantifier": "all flux-limited steps, CFL numbers, maximum steps, current times, yield times and final times reachable in an evolve run", "why_tests_cant": "The clipping combinations form an infinite space; a test checks isolated numbers only.", "anchors": ["anuga/abstract_2d_finite_volumes/generic_domain.py:update_timestep", "anuga/abstract_2d_finite_volumes/generic_domain.py:set_evolve_max_timestep"]}
{"id": "C03", "title": "interrupting and resuming evolve loses nothing", "statement": "Evolving to an intermediate final time that is a whole number of yieldsteps from the start and then calling evolve again to a later final time yields the same list of times as one uninterrupted call, without repeating the junction time.", "quantifier": "all start times, yieldsteps, split points and flux-timestep histories", "why_tests_cant": "Requires reasoning over two consecutive unbounded runs with state carried over between calls.", "anchors": ["anuga/abstract_2d_finite_volumes/generic_domain.py:_evolve_base"]}
{"id": "C04", "title": "small-timestep fallback is bounded and reversible", "statement": "A run of consecutive too-small timesteps longer than max_smallsteps first drops the scheme to first order; the same run continuing at first order raises an exception, exactly at the (max_smallsteps+1)*default_order-th consecutive small step and never earlier; a single normal timestep restores the default order and resets the count.", "quantifier": "all sequences of internal timesteps and all positive max_smallsteps", "why_tests_cant": "Temporal property of arbitrary-length histories.", "anchors": ["anuga/abstract_2d_finite_volumes/generic_domain.py:update_timestep"]}
{"id": "C05", "title": "mesh neighbour relation is symmetric and geometric", "statement": "For every triangulation accepted by Mesh, triangle l is reported as neighbour of k across edge i exactly when l has an edge j joining the same two nodes in the opposite direction; then k is the neighbour of l across j, and every edge without partner is counted as a boundary edge.", "quantifier": "all finite lists of node triples (any size, any connectivity)", "why_tests_cant": "Needs every mesh topology; tests use a few small rectangular meshes.", "anchors": ["anuga/abstract_2d_finite_volumes/neighbour_mesh.py:build_neighbour_structure", "anuga/abstract_2d_finite_volumes/neighbour_table.cpp:_build_neighbour_structure"]}
{"id": "C06", "title": "non-conforming meshes are rejected", "statement": "Building a mesh in which two triangles traverse the same edge in the same direction (duplicate or inconsistently oriented triangles) always fails instead of producing a neighbour table, and conforming meshes are never rejected.", "quantifier": "all finite lists of node triples", "why_tests_cant": "Must hold for every invalid mesh, not just the examples in a test.", "anchors": ["anuga/abstract_2d_finite_volumes/neighbour_table.cpp:_build_neighbour_structure"]}
{"id": "C07", "title": "boundary segments are numbered bijectively", "statement": "After mesh construction every boundary segment (triangle, edge) owns a distinct index 0..B-1, the neighbour entry of that edge is minus that index minus one, and looking the index up returns the segment it came from.", "quantifier": "all boundary dictionaries over all meshes", "why_tests_cant": "A permutation/aliasing error only shows on particular orders of keys.", "anchors": ["anuga/abstract_2d_finite_volumes/neighbour_mesh.py:build_boundary_neighbours", "anuga/abstract_2d_finite_volumes/neighbour_mesh.py:build_boundary_dictionary"]}
{"id": "C08", "title": "node averages are true averages", "statement": "The smooth vertex value a Quantity reports at a node equals the mean of the values of all triangle corners meeting at that node, for every node used by some triangle.", "quantifier": "all meshes (including ones with unused nodes) and all vertex values", "why_tests_cant": "The C loop walks a flattened structure whose alignment depends on every node's degree.", "anchors": ["anuga/abstract_2d_finite_volumes/quantity.c:_average_vertex_values", "anuga/abstract_2d_finite_volumes/general_mesh.py:build_inverted_triangle_structure"]}
{"id": "C09", "title": "semi-implicit update solves its equation or fails", "statement": "Quantity.update(dt) either reports failure or leaves each centroid value c' satisfying c' = c + dt*explicit + dt*(semi/c)*c' (with the semi-implicit term ignored where c=0), and resets the semi-implicit update; it fails exactly when some 1 - dt*semi/c is not positive.", "quantifier": "all centroid values, updates and timesteps, all array lengths", "why_tests_cant": "Universal over reals and over array lengths, including the zero-centroid special case.", "anchors": ["anuga/abstract_2d_finite_volumes/quantity.c:_update"]}
{"id": "C10", "title": "Runge-Kutta steps combine sub-steps as documented", "statement": "One rk2 (rk3) internal step changes each conserved quantity by dt times the weighted sum (1/2,1/2) ((1/6,1/6,2/3)) of the rates used in its sub-steps; hence if sub-steps keep a value in an interval the full step keeps it in that interval.", "quantifier": "all initial values, rates, timesteps", "why_tests_cant": "Algebraic identity for all reals; combination with bounds is universally quantified.", "anchors": ["anuga/abstract_2d_finite_volumes/generic_domain.py:evolve_one_rk2_step", "anuga/abstract_2d_finite_volumes/generic_domain.py:evolve_one_rk3_step", "anuga/abstract_2d_finite_volumes/quantity.c:_saxpy_centroid_values"]}
{"id": "C11", "title": "closed-domain mass conservation of the flux scheme", "statement": "The area-weighted sum of all stage updates computed by compute_fluxes equals minus the sum of the fluxes through boundary edges; in particular contributions of interior edges cancel for any numerical flux, so a closed domain keeps its volume.", "quantifier": "all meshes with symmetric neighbours, all states, all flux functions", "why_tests_cant": "Sum over arbitrary meshes; floating tests only see a few runs.", "anchors": ["anuga/shallow_water/sw_domain_orig.c:_compute_fluxes_central", "anuga/shallow_water/shallow_water_domain.py:compute_boundary_flows"]}
{"id": "C12", "title": "reported boundary flux integral matches the volume change", "statement": "The cumulative boundary flux integral reported by the domain increases during one internal step by exactly the change of total water volume caused by fluxes, for euler, rk2 and rk3 timestepping.", "quantifier": "all timestepping methods, all rates, all timesteps and any number of steps", "why_tests_cant": "Needs the interaction of the integrator weights and the accounting operator over all histories.", "anchors": ["anuga/operators/boundary_flux_integral_operator.py:boundary_flux_integral_operator.__call__", "anuga/shallow_water/shallow_water_domain.py:report_water_volume_statistics"]}
{"id": "C13", "title": "lake at rest stays at rest", "statement": "A lake at rest (no momentum, surface level W where the bed is lower, surface on the bed elsewhere) over any bed, wet, dry or partly dry, with or without river walls between triangles and with boundaries that repeat the inside level, gets zero stage and momentum updates, and stays exactly as it is over any number of euler, rk2 or rk3 steps with friction, provided no limiter parameter exceeds one.", "quantifier": "all meshes, beds, water levels, gravity constants, timesteps, numbers of steps", "why_tests_cant": "Well-balancedness is an identity over all bathymetries; tests look at a few within tolerances.", "anchors": ["anuga/shallow_water/sw_domain_orig.c:_flux_function_central", "anuga/shallow_water/sw_domain_orig.c:_compute_fluxes_central", "anuga/shallow_water/sw_domain_orig.c:_extrapolate_second_order_edge_sw", "anuga/shallow_water/shallow_water_domain.py:distribute_to_vertices_and_edges"]}
{"id": "C14", "title": "reflective walls are impermeable", "statement": "The stage (mass) flux through an edge with a reflective boundary is exactly zero for every interior state.", "quantifier": "all stages, beds, momenta, normals, gravity constants", "why_tests_cant": "Symmetry identity over all reals and all unit normals.", "anchors": ["anuga/shallow_water/sw_domain_orig.c:_flux_function_central", "anuga/shallow_water/boundaries.py:Reflective_boundary"]}
{"id": "C15", "title": "depth protection removes all negative depths and reports added mass", "statement": "After the wet/dry protection step every cell has stage not below bed, cells that already had non-negative depth keep their stage, momenta vanish exactly where the depth is below the minimum, the returned mass error is exactly the volume added, and repeating the step changes nothing. The repair of negative cells after an update puts exactly the owned cells with negative depth on the bed and returns their number.", "quantifier": "all stages, beds, areas, thresholds", "why_tests_cant": "Universal over states; tests sample.", "anchors": ["anuga/shallow_water/sw_domain_orig.c:_protect_new", "anuga/shallow_water/sw_domain_orig.c:_protect", "anuga/shallow_water/sw_domain_orig.c:_orig_fix_negative_cells", "anuga/shallow_water/sw_domain_openmp.c:_openmp_protect"]}
{"id": "C16", "title": "friction only slows the flow", "statement": "Applying the Manning friction term in the semi-implicit update never reverses, and never increases, either momentum component, and never fails.", "quantifier": "all depths, momenta, friction coefficients, timesteps", "why_tests_cant": "Combination of two C routines over all reals.", "anchors": ["anuga/shallow_water/sw_domain_orig.c:_manning_friction_flat", "anuga/abstract_2d_finite_volumes/quantity.c:_update"]}
{"id": "C17", "title": "point-in-polygon classification is a partition", "statement": "inside_polygon, outside_polygon and in_and_outside_polygon classify each query point exactly once: the inside and outside index lists are disjoint, cover all points, are consistent with each other and with the single point test, and inside indices are in increasing order.", "quantifier": "all polygons, all point lists, both closed flags", "why_tests_cant": "The two-ended fill of one index array is only right if it is right for all interleavings.", "anchors": ["anuga/geometry/polygon.c:__separate_points_by_polygon", "anuga/geometry/polygon.py:in_and_outside_polygon", "anuga/geometry/polygon.py:outside_polygon"]}
{"id": "C18", "title": "point-in-polygon is geometrically right", "statement": "For every polygon, also a self-intersecting one, is_inside_polygon decides by the even-odd rule: a point not touching a side is inside exactly when an odd number of the triangles spanned by the sides and an arbitrary apex contain it; for triangles and axis-aligned rectangles this means strictly inside. Points on a side are classified by the closed flag, points outside the bounding box are outside. The start vertex, the orientation and a repeated first vertex do not matter.", "quantifier": "all polygons and points; for points off the boundary: at a distance of more than 2e-15 from every side", "why_tests_cant": "Ray-crossing ties (rays through vertices, horizontal edges) are a measure-zero set that random tests miss.", "anchors": ["anuga/geometry/polygon.c:__separate_points_by_polygon", "anuga/geometry/polygon.c:__point_on_line", "anuga/geometry/polygon.py:is_inside_polygon"]}
{"id": "C19", "title": "polygon area is geometric", "statement": "polygon_area is non-negative and equals base times height over two for triangles; it is the absolute value of the signed area seen from any point, the sum of the areas of the triangles of a fan for star-shaped (in particular convex) polygons, additive under cutting along a chord, multiplied by |det| under linear maps, and unchanged by translation, by starting from another vertex, by reversing the orientation and by repeating the first vertex.", "quantifier": "all vertex lists, translations and linear maps", "why_tests_cant": "Invariances over all polygons.", "anchors": ["anuga/geometry/polygon.py:polygon_area"]}
{"id": "C20", "title": "segment intersection is sound and complete", "statement": "intersection(line0, line1) reports a point only if it is the only common point of the two segments, reports no intersection (or raises an exception) only if the segments share no point, reports as common segment only end points lying on both within the tolerance and then covers all common points, and does not depend on the order of the arguments.", "quantifier": "all pairs of segments that are exactly parallel or have a cross product above atol (below it the code misses crossings; counterexamples are proved), all non-negative tolerances, exact arithmetic", "why_tests_cant": "Case analysis over all relative positions including collinear overlaps.", "anchors": ["anuga/geometry/polygon.py:intersection", "anuga/geometry/polygon.c:__point_on_line"]}
{"id": "C21", "title": "Sparse matrices behave like the dense matrix they denote", "statement": "However a Sparse matrix was made - empty, from a dense array, by element assignments (also of zero), copies, sums and multiples - it reads back, converts to dense and multiplies vectors (also transposed) and matrices exactly as the dense matrix made the same way; access outside raises; len counts the nonzero elements unless a matrix was multiplied by zero.", "quantifier": "all ways of building a matrix, dimensions, vectors", "why_tests_cant": "Arbitrary-length histories including deletes by zero assignment.", "anchors": ["anuga/utilities/sparse.py:Sparse"]}
{"id": "C22", "title": "CSR conversion preserves the matrix unless a row in the middle is empty", "statement": "Sparse_CSR(A) * x equals A * x for every vector x exactly when A has no empty row between nonempty ones; then products with matrices and the dense form are right too. With such a row some product is wrong.", "quantifier": "all sparse matrices and vectors", "why_tests_cant": "Depends on which rows are empty - an input pattern tests do not enumerate.", "anchors": ["anuga/utilities/sparse.py:Sparse_CSR", "anuga/utilities/sparse.c:_csr_mv", "anuga/utilities/sparse.c:_csr_mm"]}
{"id": "C23", "title": "conjugate_gradient returns what it claims", "statement": "A vector returned by conjugate_gradient with at least two iterations allowed has a true residual within the tolerances, for any matrix and either implementation. For a symmetric positive definite matrix of size n it does return when n+2 iterations are allowed, the result is nearer the solution than the start in the energy norm, and with zero tolerances it is exact (except for the Python solver with preconditioner). The C and Python solvers agree.", "quantifier": "all matrices, right-hand sides, start vectors, tolerances and iteration limits", "why_tests_cant": "Invariant of an unbounded loop.", "anchors": ["anuga/utilities/cg_solve.py:conjugate_gradient", "anuga/utilities/cg_solve.py:_conjugate_gradient", "anuga/utilities/cg_solve.py:_conjugate_gradient_preconditioned", "anuga/utilities/cg.c:_cg_solve_c", "anuga/utilities/cg.c:_cg_solve_c_precon"]}
{"id": "C24", "title": "Geo-referencing round-trips", "statement": "Converting an array of points to absolute coordinates and back with the same Geo_reference returns the original points; get_absolute adds the origin (exactly if the origin is (0,0) or further than 1e-8 from it, within 1e-8 otherwise); change_points_geo_ref keeps every point at its absolute position, moving back undoes it and moving in two steps equals moving at once. A reference written to NetCDF and read back compares equal; one written as ASCII keeps zone and origin only.", "quantifier": "all references, origins, point arrays of any length, pairs and triples of references", "why_tests_cant": "The laws are universal over origins and points and include the special cases of default origin, identical object, tiny origin and stale flag.", "anchors": ["anuga/coordinate_transforms/geo_reference.py:Geo_reference.change_points_geo_ref", "anuga/coordinate_transforms/geo_reference.py:Geo_reference.get_absolute", "anuga/coordinate_transforms/geo_reference.py:Geo_reference.get_relative", "anuga/coordinate_transforms/geo_reference.py:Geo_reference.read_NetCDF", "anuga/coordinate_transforms/geo_reference.py:Geo_reference.write_NetCDF", "anuga/coordinate_transforms/geo_reference.py:Geo_reference.read_ASCII"]}
{"id": "C25", "title": "Zone reconciliation never mixes zones", "statement": "reconcile_zones returns exactly when neither zones nor hemispheres clash, and then both references have the known zone and the known hemisphere; whether it returns or raises, a defined zone or hemisphere never changes and nothing else is touched; a zone clash is reported before anything is changed. A hemisphere clash is reported only after the zone has been filled in.", "quantifier": "all pairs of references", "why_tests_cant": "Needs all combinations of defined and undefined values and also the state after a raise.", "anchors": ["anuga/coordinate_transforms/geo_reference.py:Geo_reference.reconcile_zones"]}
{"id": "C26", "title": "searching the tree of boxes is complete and correct", "statement": "Searching the tree of boxes at a point returns the data of exactly those inserted items whose box contains the point, each as often as it was inserted; retrieving everything returns the inserted items and count is their number. The box built from points is the smallest one around them. Inserting boxes that are more than points always ends; a box that is a single point inside the root exhausts the recursion whatever its limit.", "quantifier": "all insertion sequences, boxes (also overlapping, repeated, outside the root) and query points", "why_tests_cant": "Depends on recursive splitting with overlapping children for arbitrary histories; termination is about all depths.", "anchors": ["anuga/geometry/quad.py:Cell.insert_item", "anuga/geometry/quad.py:Cell.search", "anuga/geometry/aabb.py:AABB"]}
{"id": "C27", "title": "looking up a point in the triangle tree finds a triangle around it", "statement": "Looking up a point in the tree of a mesh reports a triangle whenever the point is inside or on the boundary of some inserted triangle; a reported triangle is an inserted one and contains the point up to 1e-12 of a side length. The weights reported with it sum to one and reproduce every linear function at the point. The tree of a mesh holds every triangle once and its construction ends for every mesh without single-point triangles; a triangle beyond the corner of the root would exhaust any stack.", "quantifier": "all triangle lists, insertion orders and query points, including points on the middle axes of cells", "why_tests_cant": "Points on cell midlines and arbitrary nesting are not enumerable.", "anchors": ["anuga/utilities/quad_tree.c:search", "anuga/utilities/quad_tree.c:quad_tree_insert_triangle", "anuga/utilities/quad_tree.c:calculate_sigma", "anuga/pmesh/mesh_quadtree.py:MeshQuadtree"]}
{"id": "C28", "title": "rate operator keeps depth non-negative and accounts for water", "statement": "One application of a rate operator changes the depth of every triangle of its region by rate times factor times timestep, stopping at zero; leaves all other triangles untouched; scales momentum by a number between 0 and 1 and never raises a velocity; and adds to its own and the domain's books exactly the volume it added to full triangles. It fails only for a time function queried outside its data without a default.", "quantifier": "all five kinds of rate, all factors, depths, regions without repeated triangles, times and timesteps", "why_tests_cant": "Mixed-sign vectors, clipping and arbitrary regions; the totals are sums over all triangles.", "anchors": ["anuga/operators/rate_operators.py:Rate_operator.__call__", "anuga/utilities/function_utils.py:evaluate_temporal_function"]}
{"id": "C29", "title": "inlet fills basins level and exactly", "statement": "Inlet.set_stages_evenly(V) adds exactly the volume V (V>=0), never lowers a stage, leaves all raised triangles at one common level that is not above any untouched triangle, is the only such result (so ties and listing order do not matter), and touches nothing outside the inlet.", "quantifier": "all non-empty sets of triangles with positive areas, arbitrary stages, all non-negative volumes, every sorting permutation", "why_tests_cant": "Water filling over arbitrary sorted profiles with ties; uniqueness is a statement about all candidate results.", "anchors": ["anuga/structures/inlet.py:Inlet.set_stages_evenly"]}
{"id": "C30", "title": "inlet operator never extracts more water than available and books what it applied", "statement": "An Inlet_operator step changes the inlet volume by the mean discharge over the step times the timestep, or by minus all the water there if that is less; this change is what it records as applied, what the domain books and the reported discharge times the timestep. Depths stay non-negative, nothing outside changes, velocities are the prescribed ones (or zero, or the old ones). It fails only if the inlet volume is negative or the discharge is unknown without default.", "quantifier": "all discharge functions, defaults, velocities, timesteps, inlet states", "why_tests_cant": "Three-way branch over all reals and state-dependent clipping.", "anchors": ["anuga/structures/inlet_operator.py:Inlet_operator.__call__"]}
{"id": "C31", "title": "culvert/structure transfer conserves water", "statement": "A structure operator step removes from its inflow region exactly the volume it adds to its outflow region; the volume lies between 0 and discharge times timestep and below the water available, and is exactly discharge times timestep unless the region would run dry. The internal assertion never fails, depths stay non-negative, total water is conserved even if the regions overlap, and total momentum too unless a jet or zero momentum was asked for.", "quantifier": "all non-negative discharges and barrel speeds (any discharge routine), timesteps, areas, states", "why_tests_cant": "Holds for all discharge values including dry inflow and all states.", "anchors": ["anuga/structures/structure_operator.py:Structure_operator.__call__"]}
{"id": "C32", "title": "Histograms and the timestep statistics report count every sample once", "statement": "histogram(a, bins) with increasing bins returns for each bin the number of samples in its half-open class, the last class being open above; the counts sum to the number of samples not below the first bin, whatever the bins; the relative histogram sums to one and has no negative entry; bins made by create_bins lose no sample, are equally spaced and start at the minimum; the classes printed by the statistics report touch, each with its own count; the groups of the percentile report partition the sorted samples.", "quantifier": "all sample lists, bin lists and bin numbers", "why_tests_cant": "Ties with bin edges over arbitrary data.", "anchors": ["anuga/utilities/numerical_tools.py:histogram", "anuga/utilities/numerical_tools.py:create_bins", "anuga/abstract_2d_finite_volumes/generic_domain.py:timestepping_statistics"]}
{"id": "C33", "title": "Polygon_function gives the last matching region", "statement": "Polygon_function evaluated at points returns for each point the value of the last listed polygon containing it, or the default elsewhere, independently of the other points asked for; with a geo reference a point relative to it is judged as its absolute position against the absolute polygon; arrays of unequal length are rejected.", "quantifier": "all region lists (constants and functions), geo references, point lists and default values", "why_tests_cant": "Overlap order over arbitrary lists.", "anchors": ["anuga/geometry/polygon_function.py:Polygon_function.__call__"]}
{"id": "C34", "title": "Setting a quantity, the stage or the bed changes the region as told and keeps the water", "statement": "Set_quantity gives the triangles of its region the value and leaves all others; Set_stage gives them the higher of value and bed, so no depth becomes negative, and changes nothing else; Set_elevation keeps the depth and momenta of every triangle, hence the water volume of any part of the domain, for continuous and discontinuous elevation; with discontinuous elevation the bed of the region becomes the value; with continuous elevation every node of the region gets the mean over all corners there (the value itself inside the region), a continuous bed stays continuous, centroid and edge values of all touched triangles are means and midpoints of the new corners, all other triangles stay; no value or a value that cannot be evaluated changes nothing.", "quantifier": "all values (numbers, functions of time, position or both), regions, meshes and states", "why_tests_cant": "Universal over states, regions and shared-node structure.", "anchors": ["anuga/operators/set_quantity.py:Set_quantity.__call__", "anuga/operators/set_stage.py:Set_stage.__call__", "anuga/operators/set_elevation.py:Set_elevation.__call__"]}
{"id": "C35", "title": "The maximum collector is the running maximum", "statement": "After any sequence of operator calls the collected stage, depth, speed and momentum of each triangle are the greatest over exactly the sampled calls, which are every update_frequency-th of the calls after the start time; they never decrease; a zero frequency is rejected.", "quantifier": "all histories of states and times, all frequencies and start times", "why_tests_cant": "History property of unbounded length.", "anchors": ["anuga/operators/collect_max_quantities_operator.py:Collect_max_quantities_operator.__call__"]}
{"id": "C36", "title": "Wet elements and maximum inundation refer to the right triangles", "statement": "get_wet_elements lists exactly the requested triangles deeper than the minimum height; get_maximum_inundation_elevation is the highest bed among them and get_maximum_inundation_location the centroid of such a triangle; both raise if none is wet.", "quantifier": "all states, minimum heights and index subsets", "why_tests_cant": "Index bookkeeping errors show only for proper subsets.", "anchors": ["anuga/shallow_water/shallow_water_domain.py:get_wet_elements", "anuga/shallow_water/shallow_water_domain.py:get_maximum_inundation_elevation", "anuga/shallow_water/shallow_water_domain.py:get_maximum_inundation_location", "anuga/abstract_2d_finite_volumes/quantity.py:get_maximum_index"]}
{"id": "C37", "title": "set_boundary binds every segment or raises, and update_boundary uses that binding", "statement": "After any history of set_boundary calls with fresh dictionaries, a call that names an unknown tag raises and changes nothing; otherwise a segment with a tag never bound makes it raise, and if none is left the segments are associated, in the order of their keys, with exactly the condition that the latest call mentioning their tag gave (segments bound to None with none). update_boundary then writes at every segment what the condition bound to its tag gives at that segment alone, leaves segments bound to None and everything except the boundary values alone, and its result does not depend on the order in which tags are visited.", "quantifier": "all boundary tags and maps, all histories of calls including rejected ones, all boundary condition classes, all orders of tags", "why_tests_cant": "Histories of calls over arbitrary tag sets, and arbitrary orders of a dictionary.", "anchors": ["anuga/abstract_2d_finite_volumes/generic_domain.py:set_boundary", "anuga/abstract_2d_finite_volumes/generic_domain.py:update_boundary", "anuga/abstract_2d_finite_volumes/neighbour_mesh.py:set_boundary"]}
{"id": "C38", "title": "limited reconstruction keeps the cell mean and neighbour bounds", "statement": "Limiting vertex/edge values keeps the mean of the three values equal to the centroid value and leaves every value within the range spanned by the cell and its neighbours (for beta not exceeding one).", "quantifier": "all meshes, centroid values, gradients, beta in [0,1]", "why_tests_cant": "Universal over reals and neighbour configurations.", "anchors": ["anuga/abstract_2d_finite_volumes/quantity.c:_limit_vertices_by_all_neighbours", "anuga/shallow_water/sw_domain_orig.c:limit_gradient"]}
{"id": "C39", "title": "Interpolation from a mesh is the piecewise linear surface", "statement": "interpolate(f, points) gives, in the order of the points, for every point of the boundary polygon lying in a triangle the height of the plane through the three node values of a triangle containing it; every linear function is reproduced exactly; on a common side or node the value does not depend on which triangle is found; values stay in the range of the node values (at points no triangle contains only within the 1e-12 tolerance); values are linear in f; points outside the polygon or in holes get the no-data value and are exactly those listed by get_outside_poly_indices; output_centroids gives the mean of the three node values; none of this depends on start_blocking_len; a call without points gives, after any history of interpolate calls, what a new object gives for the points passed last; data of the wrong length is refused.", "quantifier": "all meshes of proper triangles, node data, lists of points, block lengths, histories of calls", "why_tests_cant": "Exactness over the continuum of points, all block boundaries and all call histories.", "anchors": ["anuga/fit_interpolate/interpolate.py:Interpolate.interpolate", "anuga/fit_interpolate/interpolate.py:Interpolate.interpolate_block", "anuga/fit_interpolate/interpolate.py:Interpolate._build_interpolation_matrix_A"]}
{"id": "C40", "title": "vertex-edge-centroid interpolation round-trips", "statement": "Interpolating vertex values to edges and back recovers the vertex values; edge and vertex means equal the centroid value; set/get of constants returns the constant everywhere.", "quantifier": "all vertex values and meshes", "why_tests_cant": "Linear identities for all reals.", "anchors": ["anuga/abstract_2d_finite_volumes/quantity.c:_interpolate_from_vertices_to_edges", "anuga/abstract_2d_finite_volumes/quantity.c:_interpolate_from_edges_to_vertices"]}
{"id": "C41", "title": "gradient reconstruction is exact for planes", "statement": "The gradients computed from three non-collinear points recover every affine function exactly, the two-point gradient matches both values and is zero across the line, and extrapolating the centroid value with the gradient reproduces the plane at the corners; limiting with beta at least one does not alter it when it stays in the neighbour range.", "quantifier": "every plane, every triangle geometry with nonzero determinant, every neighbour configuration", "why_tests_cant": "floating point tests use a few planes and triangles; exactness is an identity over all coefficients and coordinates", "anchors": ["anuga/utilities/util_ext.h:_gradient", "anuga/utilities/util_ext.h:_gradient2", "anuga/abstract_2d_finite_volumes/quantity.c:_extrapolate_from_gradient", "anuga/abstract_2d_finite_volumes/quantity.c:_extrapolate_and_limit_from_gradient"]}
{"id": "C42", "title": "serial and OpenMP flux routines agree", "statement": "With multiprocessor_mode 0 or 2, compute_fluxes gives the same stage and momentum updates, the same boundary flux and the same flux timestep on a sequential domain, river walls included, although one visits each edge once and copies the result while the other visits it from both sides.", "quantifier": "all meshes with agreeing edge geometry, all states, all river walls with sane weir parameters, all square root functions", "why_tests_cant": "Tests compare a few runs within tolerances.", "anchors": ["anuga/shallow_water/sw_domain_orig.c:_compute_fluxes_central", "anuga/shallow_water/sw_domain_openmp.c:_openmp_compute_fluxes_central"]}
{"id": "C43", "title": "flux timestep respects the CFL bound of every owned triangle", "statement": "The timestep returned by the first flux computation of a step times the wave speed of any edge of any owned triangle is at most the inradius of that triangle, and it is the largest such value; later flux computations of the step do not change it.", "quantifier": "all meshes numbered with owned triangles first, all states", "why_tests_cant": "Minimum over shared edge visits; tests see few meshes.", "anchors": ["anuga/shallow_water/sw_domain_orig.c:_compute_fluxes_central"]}
{"id": "C44", "title": "substep slots of boundary_flux_sum stay aligned", "statement": "Whatever domains with euler, rk2 or rk3 stepping take turns in one program, each complete step records its boundary fluxes in slots 0,1,2 in order and computes its timestep in the first flux call.", "quantifier": "all interleavings of complete steps of any number of domains", "why_tests_cant": "The counters are C statics shared by all domains; histories are unbounded.", "anchors": ["anuga/shallow_water/sw_domain_orig.c:_compute_fluxes_central"]}
{"id": "C45", "title": "reconstructed edge values stay within the range of neighbouring triangles", "statement": "With limiter parameters at most one, the stage and depth reconstructed at an edge of a triangle lie between the smallest and largest centroid values of the triangle and its neighbours, and the edge momentum is the edge depth times a velocity in the corresponding range.", "quantifier": "all meshes, states, limiter parameters up to one", "why_tests_cant": "Over- and undershoot over all states; tests sample.", "anchors": ["anuga/shallow_water/sw_domain_orig.c:_extrapolate_second_order_edge_sw", "anuga/shallow_water/sw_domain_orig.c:limit_gradient", "anuga/shallow_water/sw_domain_orig.c:find_qmin_and_qmax"]}
{"id": "C46", "title": "reconstruction keeps cell averages and is exact for planes", "statement": "The mean of the reconstructed edge values of stage and depth is the centroid value, so reconstruction neither creates nor destroys water; linear data are reproduced exactly on triangles with at most one boundary edge when the limiter parameter is at least one and the edge values lie in the range of the surrounding values.", "quantifier": "all meshes whose edge midpoints average to the centroid, all states", "why_tests_cant": "An identity over all states and geometries.", "anchors": ["anuga/shallow_water/sw_domain_orig.c:_extrapolate_second_order_edge_sw"]}
{"id": "C47", "title": "parallel friction loops agree with the serial ones", "statement": "In multiprocessor mode 2 the Manning friction update equals the serial update for every schedule of the loop iterations.", "quantifier": "all interleavings of the loop iterations", "why_tests_cant": "Races depend on the schedule; a test sees one.", "anchors": ["anuga/shallow_water/sw_domain_openmp.c:_openmp_manning_friction_flat", "anuga/shallow_water/sw_domain_openmp.c:_openmp_manning_friction_sloped"]}
{"id": "C48", "title": "serial and OpenMP distribution steps agree", "statement": "distribute_to_vertices_and_edges gives the same centroid and edge values in multiprocessor modes 0 and 2, for every schedule of the loop iterations.", "quantifier": "all meshes, states and schedules", "why_tests_cant": "Races depend on the schedule; a test sees one.", "anchors": ["anuga/shallow_water/sw_domain_openmp.c:_openmp_extrapolate_second_order_edge_sw", "anuga/shallow_water/sw_domain_openmp.c:_openmp_protect", "anuga/shallow_water/sw_domain_orig.c:_extrapolate_second_order_edge_sw"]}
{"id": "C49", "title": "triangles with two boundary edges are reconstructed first order", "statement": "On a triangle with two or three boundary edges the reconstructed stage and depth equal the centroid value on all edges, whatever the limiter parameters, although the code computes a gradient towards the only neighbour.", "quantifier": "all meshes whose edge midpoints average to the centroid, all states and parameters", "why_tests_cant": "The limiter happens to cancel every such gradient; no test looks at it.", "anchors": ["anuga/shallow_water/sw_domain_orig.c:_extrapolate_second_order_edge_sw", "anuga/shallow_water/sw_domain_orig.c:limit_gradient"]}
{"id": "C50", "title": "point-in-triangle test is exact", "statement": "is_inside_triangle with closed=False is true exactly for the points strictly inside the triangle; with closed=True it also accepts every point of the sides (even of degenerate triangles) and nothing further away from a side than rtol times its length (plus 2e-15). Away from the sides it agrees with is_inside_polygon.", "quantifier": "all points and triangles, all non-negative tolerances", "why_tests_cant": "The quick rejection tests, the normal equations and the side test have to agree everywhere, on an uncountable domain.", "anchors": ["anuga/geometry/polygon.c:__is_inside_triangle", "anuga/geometry/polygon.py:is_inside_triangle"]}
{"id": "C51", "title": "River walls act as weirs and give way gradually to shallow water flow", "statement": "Over a river wall the mass flux lies between the weir discharge and the shallow water flux: it is the discharge below the blending thresholds, the shallow water flux past either of them, and changes gradually in between; both momentum fluxes are scaled by the same factor, limited to 0..10. The discharge goes from the higher to the lower head, never exceeds the free discharge, equals it when the lower side is dry and vanishes for equal heads. A wall lower than either bed, or without water above it, only raises the bed at the edge.", "quantifier": "all heads, wall heights, fluxes and sensible wall parameters", "why_tests_cant": "Continuous family of heads and parameters; thresholds.", "anchors": ["anuga/shallow_water/sw_domain_orig.c:adjust_edgeflux_with_weir", "anuga/shallow_water/sw_domain_orig.c:_compute_fluxes_central", "anuga/structures/riverwall.py:RiverWall"]}
{"id": "C52", "title": "Entries of fitting matrices are summed up exactly unless tiny", "statement": "However the matrix of a fit is accumulated - by adding entries and combining matrices with factors - each element is the exact sum up to 1e-10 per operation, and exact if it never came within 1e-10 of zero without being zero; the entry counter is the number of entries. If every row before the last filled one is filled, the compressed form multiplies like the matrix whatever memory it is written to.", "quantifier": "all sequences of additions and combinations, all keys and values, all initial contents of memory", "why_tests_cant": "Arbitrary-length accumulations with cancellation; uninitialised memory.", "anchors": ["anuga/utilities/sparse_dok.c:add_dok_entry", "anuga/utilities/sparse_dok.c:add_sparse_dok", "anuga/utilities/sparse_dok.c:convert_to_csr_ptr"]}
{"id": "C53", "title": "Point sets keep every point, its place and its attributes", "statement": "set_geo_reference leaves every point at its place on the map. a + b holds the absolute points of a followed by those of b and, for each attribute of a, the values of a followed by those of b, and returns exactly when zones, hemispheres and attributes match. get_sample, clip and clip_outside return exactly the points asked for (respectively inside, outside) in order with their attribute values. split divides the points into two parts without loss or repetition whenever it returns; it returns exactly when for every v at most n-v of the drawn numbers are v or more, otherwise it raises IndexError.", "quantifier": "all point sets, attribute tables, references, index lists, polygons and random draws", "why_tests_cant": "split depends on random draws, most of which work; the laws hold for any number of points and attributes.", "anchors": ["anuga/geospatial_data/geospatial_data.py:Geospatial_data.set_geo_reference", "anuga/geospatial_data/geospatial_data.py:Geospatial_data.__add__", "anuga/geospatial_data/geospatial_data.py:Geospatial_data.get_sample", "anuga/geospatial_data/geospatial_data.py:Geospatial_data.clip", "anuga/geospatial_data/geospatial_data.py:Geospatial_data.clip_outside", "anuga/geospatial_data/geospatial_data.py:Geospatial_data.split"]}
{"id": "C54", "title": "volume report balances for every set of operators", "statement": "Whatever rate, inlet and structure operators are registered, in any number and order and with overlapping regions, applying them changes the booked fractional step volume by exactly the change of water in the domain; so over a whole run the imbalance V - BF - FS - InitialVolume printed by report_water_volume_statistics stays zero as long as the flux step satisfies its own balance.", "quantifier": "all lists of operators, all states, any number of steps, any flux step satisfying C12", "why_tests_cant": "A statement about every sequence of operator calls; tests try a few fixed combinations.", "anchors": ["anuga/abstract_2d_finite_volumes/generic_domain.py:apply_fractional_steps", "anuga/shallow_water/shallow_water_domain.py:report_water_volume_statistics"]}
{"id": "C55", "title": "Per-edge and vectorised evaluation of a boundary condition agree", "statement": "For every boundary condition class, evaluating a list of boundary edges at once gives the same stage and momenta as evaluating edge by edge, and one version raises only if the other does.", "quantifier": "all domains, edge states, normals, times, parameter functions and lists of edges (repetitions allowed)", "why_tests_cant": "Two implementations over arbitrary states; tests compare them at a handful of edges.", "anchors": ["anuga/abstract_2d_finite_volumes/generic_boundary_conditions.py:Boundary.evaluate_segment", "anuga/shallow_water/boundaries.py:Reflective_boundary", "anuga/shallow_water/boundaries.py:Flather_external_stage_zero_velocity_boundary", "anuga/shallow_water/boundaries.py:Characteristic_stage_boundary"]}
{"id": "C56", "title": "What each boundary condition imposes at an edge", "statement": "A wall keeps stage, depth and tangential momentum and reverses the normal momentum; set-stage conditions impose the given stage and transmit, project or cancel momentum as their name says; a default replaces a time series only after its end; characteristic and Flather conditions keep the outgoing Riemann combination of the inside state and take the incoming one from still water outside; a discharge condition lets in the prescribed flow per width; an inflow condition lets in exactly its rate over its tag; time rolls over into (0, T].", "quantifier": "all edge states, unit normals, time series, bed levels and lengths", "why_tests_cant": "Algebraic identities over all states and directions.", "anchors": ["anuga/shallow_water/boundaries.py:Reflective_boundary", "anuga/shallow_water/boundaries.py:Characteristic_stage_boundary", "anuga/shallow_water/boundaries.py:Inflow_boundary", "anuga/shallow_water/boundaries.py:Transmissive_momentum_set_stage_boundary", "anuga/abstract_2d_finite_volumes/generic_boundary_conditions.py:Time_boundary"]}
{"id": "C57", "title": "Covariance, correlation and error norms are what their names say", "statement": "cov is the mean product minus the product of means, symmetric and unaffected by shifts; corr lies in [-1, 1], is symmetric, 0 for constant data and exactly 1 or -1 for affinely related data; err returns the Euclidean or maximum norm of the difference, relative to the norm of the reference if asked; vectors of unequal length are rejected by cov.", "quantifier": "all vectors of all lengths", "why_tests_cant": "Inequalities over all real vectors.", "anchors": ["anuga/utilities/numerical_tools.py:cov", "anuga/utilities/numerical_tools.py:corr", "anuga/utilities/numerical_tools.py:err", "anuga/utilities/numerical_tools.py:norm"]}
{"id": "C58", "title": "angle and anglediff give the anticlockwise angle in [0, 2 pi)", "statement": "angle(v1, v2) is the only number in [0, 2 pi) such that turning v2 by it gives the direction of v1; anglediff(v0, v1) is that same angle computed through the x axis; a zero vector is rejected; safe_acos accepts exactly numbers within its tolerance of [-1, 1] and changes its argument by no more than that.", "quantifier": "all vectors of the plane", "why_tests_cant": "Branch selection over all pairs of directions, including parallel and opposite ones.", "anchors": ["anuga/utilities/numerical_tools.py:angle", "anuga/utilities/numerical_tools.py:anglediff", "anuga/utilities/numerical_tools.py:safe_acos"]}
{"id": "C59", "title": "line_intersect reports exactly the triangles a segment meets", "statement": "line_intersect(triangles, line) returns exactly the indices of the triangles that share at least one point with the segment between the two given points, in increasing order and independently of the direction of the segment; not_line_intersect gives the complement.", "quantifier": "all segments with distinct ends, all nondegenerate triangles in either orientation", "why_tests_cant": "Touching vertices, collinear edges and contained segments over the continuum.", "anchors": ["anuga/geometry/polygon.py:line_intersect", "anuga/geometry/polygon.c:__triangle_line_intersect"]}
{"id": "C60", "title": "A Region is the set of triangles it describes", "statement": "Region returns the whole domain when nothing is selected, the given indices unchanged, the triangles whose centroid lies strictly within the radius for a circle, those whose centroid lies in the polygon (plus, with expand_polygon, those met by a side of the polygon) and those that meet the line; a circle or line that selects nothing is rejected on a serial domain; get_indices(full_only) drops exactly the ghost triangles; two selections at once are rejected.", "quantifier": "all domains and all argument combinations", "why_tests_cant": "Combinations of optional arguments over arbitrary meshes.", "anchors": ["anuga/abstract_2d_finite_volumes/region.py:Region"]}
{"id": "C61", "title": "polygon_overlap reports the triangles overlapping a polygon", "statement": "polygon_overlap(triangles, polygon) returns exactly the indices of triangles that share a point with the polygon.", "quantifier": "all triangles and polygons", "why_tests_cant": "Continuum of relative positions.", "anchors": ["anuga/geometry/polygon.py:polygon_overlap", "anuga/geometry/polygon.c:__triangle_polygon_overlap"]}
{"id": "C62", "title": "A time series function is the polygonal line through its data, without memory", "statement": "Calling an Interpolation_function at time t gives the value at t of the polygonal line through the stored (time, value) pairs and raises Modeltime_too_early / Modeltime_too_late exactly before the first and after the last time; for strictly increasing times the value does not depend on any calls made before, in whatever order and also after failed calls; values stay in the range of the data; decreasing times are refused; time_thinning=n keeps exactly every n-th time with its own value.", "quantifier": "all time series, query times and histories of calls", "why_tests_cant": "The object keeps a moving index between calls; only an invariant over all histories excludes stale answers.", "anchors": ["anuga/fit_interpolate/interpolate.py:Interpolation_function.__call__", "anuga/fit_interpolate/interpolate.py:Interpolation_function.__init__"]}
{"id": "C63", "title": "Surface fitted to points is the smoothed least squares surface", "statement": "For a mesh of non-degenerate triangles and a smoothing parameter alpha >= 0, a solution of the linear system that Fit.fit builds is the continuous, piecewise linear surface that makes the sum of squared vertical distances to the data points lying in the mesh plus alpha times the integral of the squared slope as small as possible. With alpha > 0, a connected mesh and at least one point in the mesh this surface is unique; points all of one height give a horizontal surface. It does not matter in how many blocks or in which order the points are given; points outside the mesh are ignored, though they count when too few points are refused with alpha = 0. The compressed matrix handed to the solver represents the system whatever uninitialised memory it was built in. (Entries of at most 1e-10 are dropped, so this is claimed for accumulations that never come that close to zero.) A second call of fit on the same object does not return the same surface.", "quantifier": "all meshes, all data sets and their partitions into blocks, all alpha, all right angled or acute triangle shapes, all contents of uninitialised memory", "why_tests_cant": "Tests fit a plane to a handful of points on one small mesh; minimality against every other surface, uniqueness and independence of blocks and order range over all surfaces and all data sets.", "anchors": ["anuga/fit_interpolate/fitsmooth.c:28-139", "anuga/fit_interpolate/fitsmooth.c:179-257", "anuga/fit_interpolate/fitsmooth_ext.pyx:253-274", "anuga/fit_interpolate/fit.py:60-375"]}
{"id": "C64", "title": "Structured meshes tile the rectangle and tag its sides", "statement": "For all positive cell counts m, n and positive side lengths, rectangular_cross(m, n, len1, len2, origin) and rectangular(m, n, len1, len2, origin) return a mesh whose triangles are counter-clockwise, have equal area, cover exactly the requested rectangle without overlapping and meet edge to edge; all points are distinct and every one of them is used; the boundary dictionary holds exactly the edges with a triangle on one side only, each tagged with the side (left, right, bottom, top) it lies on, so that building the mesh succeeds and no edge keeps a default tag. The compiled cross generator returns the same mesh as the Python one whatever its arrays contained before. rectangular_periodic returns such a mesh for the rectangle widened by one column of cells on either side; the triangles that receive values are exactly those outside the rectangle, each once, and each is the copy, shifted by the length of the rectangle, of the triangle at the same position in the list of senders, which lies inside.", "quantifier": "all m, n \u2265 1, all positive lengths, all origins, all previous array contents", "why_tests_cant": "The counts, sizes and origin are unbounded and the claims quantify over all points of the plane and all pairs of triangles; tests look at a few small meshes.", "anchors": ["anuga/abstract_2d_finite_volumes/mesh_factory.py:64-242", "anuga/abstract_2d_finite_volumes/mesh_factory.py:317-461", "anuga/abstract_2d_finite_volumes/mesh_factory_ext.pyx:9-90"]}
{"id": "C65", "title": "Distributing a domain gives every triangle to exactly one processor and copies it faithfully", "statement": "For every mesh and every assignment of its triangles to processors, distribute is refused exactly when some processor would get nothing or a number is out of range. Otherwise every triangle of the serial mesh is a full triangle of exactly one subdomain, the one it was assigned to; the full triangles of a subdomain come first and keep their serial order; tri_l2g and node_l2g name, for every local triangle and node, the serial triangle and node it is a copy of: corner by corner the same nodes, and quantity values taken from the same row. No node is stored twice and none is unused.", "quantifier": "all conforming meshes, boundary tags, assignments of triangles to processors, numbers of processors and ghost widths", "why_tests_cant": "The renumbering depends on the partition, which METIS chooses; tests run a few meshes on two to four processors and compare summary values.", "anchors": ["anuga/parallel/distribute_mesh.py:103-262", "anuga/parallel/distribute_mesh.py:311-388", "anuga/parallel/distribute_mesh.py:932-1015", "anuga/parallel/distribute_mesh.py:1068-1106", "anuga/parallel/distribute_mesh.py:1192-1250", "anuga/parallel/distribute_mesh.py:1596-1663"]}
{"id": "C66", "title": "The ghost layer holds exactly the triangles within the requested distance", "statement": "With ghost_layer_width w a subdomain holds, each exactly once, the triangles that can be reached from its own triangles by crossing at most w edges (one, if w is 0), where edges between triangles that carry a user tag are not crossed; and no other triangles.", "quantifier": "all conforming meshes, tags, partitions and widths", "why_tests_cant": "The statement is about reachability of unbounded length in arbitrary meshes.", "anchors": ["anuga/parallel/distribute_mesh.py:507-565", "anuga/parallel/distribute_mesh.py:858-912"]}
{"id": "C67", "title": "The local mesh is the restriction of the serial mesh", "statement": "Every subdomain is accepted as a mesh. Between triangles it holds, its neighbour relation (triangle and edge) is that of the serial mesh. An edge has the serial boundary tag if the serial mesh has one there, the tag 'ghost' exactly if the serial mesh has a triangle behind it that the subdomain does not hold, and no tag otherwise; in particular no edge gets the default tag, and around the subdomain's own triangles nothing is missing.", "quantifier": "all conforming meshes, tags, partitions and widths, all local triangles and edges", "why_tests_cant": "Requires comparing two neighbour structures under an arbitrary renumbering; tests compare results of short runs.", "anchors": ["anuga/parallel/distribute_mesh.py:640-700", "anuga/parallel/distribute_mesh.py:1068-1106", "anuga/parallel/distribute_mesh.py:1192-1250", "anuga/abstract_2d_finite_volumes/neighbour_mesh.py:296-505"]}
{"id": "C68", "title": "After an exchange every ghost has its owner's value", "statement": "When ghost values are exchanged, every local triangle of every subdomain ends up with the value the owner of that triangle had before the exchange; own triangles keep theirs. What one processor sends to another is triangle by triangle, in the same order and of the same length, what the other expects; no processor sends to itself. The common timestep is the smallest of all, unless a fixed one is set.", "quantifier": "all conforming meshes, tags, partitions, widths and all values on all processors", "why_tests_cant": "The pairing of send and receive lists is built on different processors from different data and must agree for every partition; a test sees one partition.", "anchors": ["anuga/parallel/distribute_mesh.py:755-827", "anuga/parallel/distribute_mesh.py:1127-1172", "anuga/parallel/parallel_generic_communications.py:35-86", "anuga/parallel/parallel_generic_communications.py:155-250"]}
{"id": "C69", "title": "A run on several processors gives the values of the serial run", "statement": "For every mesh, partition, initial state, boundary conditions, and every sequence of internal steps (Euler, rk2 or rk3, each with its timestep derived from the flux timestep) and yields: a domain distributed with a ghost layer of at least three triangles (six for rk2 when the layer is four or wider, because the exchange inside the step is then skipped) ends at the same time, and every triangle has, on the processor that owns it, exactly the stage and momenta of the serial run. Two layers, the default, are enough when the dry limiters of the momenta are zero and no triangle has two boundary edges; otherwise they are not.", "quantifier": "all conforming meshes, partitions, widths as stated, states, boundary conditions (functions of time and the values inside), bed levels, roughness, all numbers of steps and yields, exact arithmetic", "why_tests_cant": "How far values travel in one step depends on wet and dry neighbours of neighbours and on the partition; tests compare short runs of two or three meshes up to a tolerance.", "anchors": ["anuga/parallel/parallel_shallow_water.py:128-155", "anuga/parallel/parallel_generic_communications.py:35-86", "anuga/parallel/parallel_generic_communications.py:155-250", "anuga/parallel/parallel_api.py:60-230", "anuga/abstract_2d_finite_volumes/generic_domain.py:1815-2176", "anuga/shallow_water/sw_domain_orig.c:765-1148", "anuga/shallow_water/sw_domain_orig.c:1994-2676", "anuga/parallel/distribute_mesh.py:507-565"]}
{"id": "C70", "title": "Culvert and weir discharge is the most the inlet and the barrel allow", "statement": "For every box culvert, pipe culvert and trapezoidal weir of ordinary dimensions (positive size, less than fully blocked) and all positive driving energies and level differences that are not negative: the discharge function answers; the discharge is the largest that satisfies both inlet control formulas (weir and orifice) and, under outlet control, does not lose more head to local losses and friction than the difference of levels (for the trapezoid: does not exceed these, and equals the inlet limit under inlet control); flow depth and area lie within the barrel; velocity times area never exceeds the discharge. A fully blocked structure, and one without level difference, carries nothing. At fixed levels a wider, smoother or shorter box does not carry less, and a box that stays part full (or stays full) does not carry less when levels rise.", "quantifier": "all dimensions, losses, Manning coefficients, blockages, numbers of barrels, energies, level differences and outlet depths (real numbers)", "why_tests_cant": "The formulas are switched by several thresholds with fractional powers; tests compare a few spreadsheet values to two digits.", "anchors": ["anuga/structures/boyd_box_operator.py:263-398", "anuga/structures/boyd_pipe_operator.py:216-382", "anuga/structures/weir_orifice_trapezoid_operator.py:262-485"]}
{"id": "C71", "title": "Culverts choose the higher side, limit the velocity, and smoothing only delays", "statement": "For every structure as in C70 and every sequence of levels at the enquiry points and timesteps: every call answers with a discharge and velocity that are not negative, a velocity of at most 10, no discharge from a side that is dry or through a closed structure, and discharge not above the discharge function and flowing the way the smoothed energy difference says. The smoothed difference stays between the extremes of its start value and the differences seen, and with held levels approaches the difference geometrically. Without smoothing the result does not depend on the past: inflow is the inlet with the higher energy and the discharge is that of the discharge function, limited by the velocity.", "quantifier": "all structures, sequences of calls, timesteps, smoothing time scales, levels, with or without velocity head", "why_tests_cant": "The direction of flow depends on the history of smoothed differences; tests make single calls.", "anchors": ["anuga/structures/boyd_box_operator.py:115-262", "anuga/structures/boyd_pipe_operator.py:95-210", "anuga/structures/weir_orifice_trapezoid_operator.py:105-255", "anuga/structures/inlet_enquiry.py:66-158"]}
{"id": "C72", "title": "Rating tables of gates are read as curves, never uphill", "statement": "For every rating table whose columns are in order (head water not falling, discharge rising, tail waters rising) and every datum: the table is accepted, and keeps one point per head water. Read at any levels the discharge never runs from the lower to the higher level; swapping the levels changes the sign when reversal is allowed and is refused otherwise; on a tail water of the table the value is on its curve (beyond its end on the free flow curve); between two tail waters it is the mean of the two curves at the same loss of head, weighted by closeness; still water does not flow at tail waters covered by the curves.", "quantifier": "all tables, numbers of rows and blanks, datums and levels", "why_tests_cant": "Which curve and segment is read depends on the levels and on where neighbouring curves end; tests use one table and a few levels.", "anchors": ["anuga/structures/internal_boundary_functions.py:31-160", "anuga/structures/internal_boundary_functions.py:164-314", "anuga/structures/internal_boundary_functions.py:357-388"]}
{"id": "C73", "title": "Pumps stay within capacity, ramps and hysteresis", "statement": "A pumping station is accepted exactly if its initial rate is between 0 and capacity, its starting level is not below its stopping level and its ramps are not negative. For every sequence of calls at times that do not go back, the rate stays between 0 and the capacity, changes no faster than the ramps, is unchanged between the stopping and starting level, and after any time above the starting (below the stopping) level is exactly the initial rate plus ramp times elapsed time, capped at capacity (at zero) \u2014 however the time is divided. A call back in time is refused.", "quantifier": "all stations, states, sequences of times and levels", "why_tests_cant": "The rate is the result of the whole history of calls; tests make a handful.", "anchors": ["anuga/structures/internal_boundary_functions.py:392-477"]}
{"id": "C74", "title": "Internal boundaries pass water only downhill, and implicit steps do not overshoot", "statement": "For every discharge function that lets water flow from the higher level only, and every run of explicit or implicit calls with any smoothing: the discharge is not negative, and water leaves the inlet that is higher at that time. Without smoothing an explicit call gives the discharge function at the present levels. An implicit call whose equations are solved moves at most a discharge that equals the function at the levels it leads to, so the levels do not cross within a step; for functions that rise with the head and fall with the tail this discharge is unique. The explicit routine passes nothing when closed.", "quantifier": "all discharge functions as stated, areas, timesteps, time scales, levels, states and lengths of runs", "why_tests_cant": "Overshoot and wrong direction depend on the timestep, areas and history; tests use single calls with one table.", "anchors": ["anuga/structures/internal_boundary_operator.py:105-117", "anuga/structures/internal_boundary_operator.py:121-218", "anuga/structures/internal_boundary_operator.py:221-308"]}
{"id": "C75", "title": "Kinematic viscosity diffuses velocity without new extremes and leaves depth alone", "statement": "For every conforming mesh whose triangles have one size (or with triangle areas switched off), every diffusivity that is not negative and every timestep: the velocities after a call satisfy the implicit diffusion equation (exchange with each neighbour and boundary edge in proportion to mean diffusivity times edge length over distance) up to the tolerance of the solver; up to that tolerance they stay between the least and greatest velocity before and at the boundary, and a triangle without diffusivity keeps its velocity; a uniform flow keeps its velocity exactly. With positive diffusivity everywhere the system is symmetric and positive definite, the call never fails, the sum of velocities changes only by exchange through boundary edges, and the sum of squares does not grow under zero boundary values. A call changes nothing but momenta and does nothing until the chosen interval has passed.", "quantifier": "all conforming meshes, numbers of triangles (at most 9998 for the guarantee that the solver answers), diffusivities, states, boundary values and timesteps (real numbers)", "why_tests_cant": "Maximum principles and definiteness quantify over all meshes and fields; tests compare small matrices and a few products.", "anchors": ["anuga/operators/kinematic_viscosity_operator.py:116-164", "anuga/operators/kinematic_viscosity_operator.py:245-271", "anuga/operators/kinematic_viscosity_operator.py:391-418", "anuga/operators/kinematic_viscosity_operator.py:490-563", "anuga/operators/kinematic_viscosity_operator.c:43-86", "anuga/operators/kinematic_viscosity_operator.c:139-191"]}
{"id": "C76", "title": "Elliptic equations on the mesh are solved", "statement": "For every conforming mesh as in C75 with positive diffusivity in which every triangle is connected to the boundary: the discrete equation div(a grad u) = f with given boundary values has exactly one solution; elliptic_solve answers, although it hands a negative definite matrix to the conjugate gradient method; whatever it returns satisfies the equation up to the relative or absolute tolerance; and without source the solution lies between the least and the greatest boundary value.", "quantifier": "all such meshes, diffusivities, right hand sides, boundary values, start values and tolerances; iteration limits of at least the number of triangles plus two", "why_tests_cant": "Solvability and the maximum principle hold for all meshes or not at all; tests solve one small system.", "anchors": ["anuga/operators/elliptic_operator.py:400-441", "anuga/operators/kinematic_viscosity_operator.py:448-486", "anuga/utilities/cg_solve.py:51-139"]}
{"id": "C77", "title": "Areas, normals, lengths, centroids and radii of a mesh are those of its triangles", "statement": "For every list of nodes and triangles: a mesh is accepted exactly if the triangles refer to existing nodes and run anticlockwise. Then each area is positive and half of base times height; the three normals have length one, are perpendicular to their edges and point outwards; for every field linear in space the outflow through the edge midpoints is divergence times area (so lengths times normals add up to zero); triangles that share an edge agree on its length and midpoint and have opposite normals there; the centroid is inside and cuts off a third of the area at each edge. The inscribed radius, if asked for, is the largest distance any point can have from all three edges. The extent is the smallest rectangle around the corners.", "quantifier": "all node lists, triangle lists and both choices of radius (real numbers)", "why_tests_cant": "Statements about all triangles; the tests compute a handful, mostly right-angled ones, for which several wrong formulas agree.", "anchors": ["anuga/abstract_2d_finite_volumes/general_mesh.py:65-281", "anuga/abstract_2d_finite_volumes/general_mesh.py:599-628", "anuga/abstract_2d_finite_volumes/general_mesh.py:856-882"]}
{"id": "C78", "title": "Advection conserves mass and creates no new extremes", "statement": "For every conforming mesh, constant velocity, boundary rule and run of time steps: the total changes by exactly what passes the boundary edges (upwind value times normal velocity times length), with Euler and both Runge-Kutta methods; a uniform value stays; the time step is the largest that exceeds neither the limit given nor radius over normal speed for any full triangle and edge. With the inscribed radius and time steps up to that one, each new value lies between the old value and the values upstream, all runs stay between bounds respected by initial and boundary values, and two runs with the same boundary values never move apart (in the area-weighted sum of differences).", "quantifier": "all conforming meshes, velocities, initial values, boundary rules, numbers and lengths of time steps (real numbers, first order)", "why_tests_cant": "A maximum principle for runs of any length over any mesh; the tests take one step on two or four triangles.", "anchors": ["anuga/advection/advection.c:21-115", "anuga/advection/advection.py:79-180", "anuga/abstract_2d_finite_volumes/generic_domain.py:1914-2176"]}
{"id": "C79", "title": "Interpolation from a raster is bilinear, exact at grid points and never overshoots", "statement": "For every grid of at least two increasing lines each way and every point inside: linear interpolation gives the bilinear blend of the numbers at the corners of a cell containing the point, whichever such cell is meant; grids of a function A + Bx + Cy + Dxy are reproduced exactly; the result lies between the smallest and the largest of these four numbers; with a missing number at a corner the result is missing wherever that corner takes part. Piecewise constant interpolation gives the number at the nearest corner. Points outside, or with a missing coordinate, give a missing value; with the check of bounds a point outside is refused. Rows of a raster run from north to south.", "quantifier": "all grids, points and both modes; missing numbers anywhere", "why_tests_cant": "The tests interpolate linear functions on small grids; a wrong cell or swapped weights that agree on those would pass.", "anchors": ["anuga/fit_interpolate/interpolate2d.py:29-213", "anuga/fit_interpolate/interpolate2d.py:215-262", "anuga/fit_interpolate/interpolate2d.py:267-349"]}
{"id": "C80", "title": "Grid files keep each number at its place through all conversions", "statement": "For every ASCII grid whose numbers fill the stated rows and columns: reading it gives the grid lines corner + i * cell size and, at column i from the west and row j from the south, the number in the file there, or a missing value if it is the one for missing data. Converting to NetCDF and reading that gives the same arrays. Conversion to points gives exactly the grid points inside the window (borders included) that are not missing, each once, at its place, with its number; interpolation in the raster at such a place gives that number. Decimation gives for each new cell the weighted sum of the numbers under the stencil, or missing if one of them is missing; the stencil always lies inside the grid.", "quantifier": "all grids, windows, stencils and whole cell sizes", "why_tests_cant": "Orientation, gaps and off-by-one errors depend on sizes and contents; the tests convert one file each way.", "anchors": ["anuga/file_conversion/grd2array.py:10-112", "anuga/file_conversion/asc2dem.py:58-213", "anuga/file_conversion/dem2array.py:12-80", "anuga/file_conversion/dem2pts.py:55-381", "anuga/file_conversion/dem2dem.py:8-137"]}
{"id": "C81", "title": "Flow and energy through a cross section", "statement": "For every mesh of anticlockwise triangles meeting edge to edge and every polyline in clear position to it: a straight line is cut into exactly its parts inside triangles, each counted once (also along edges shared by two triangles), in the direction of the line, with its length and the unit normal to the right; the lengths add up to the length of the line. The reported flow of a momentum linear in space is exact whatever the mesh; for uniform momentum it depends on the ends of the polyline only; in the opposite direction it is the opposite for every momentum. Several cross sections at once give what they give one by one. The energy is an average of the heads along the line; for water at rest the total energy is the level and the flow is nought.", "quantifier": "all meshes, lines, polylines and momentum or stage fields", "why_tests_cant": "The tests use two square meshes and lines at a few angles with uniform flow; double counting on shared edges or dropped parts depends on the position of the line in the mesh.", "anchors": ["anuga/abstract_2d_finite_volumes/neighbour_mesh.py:1252-1461", "anuga/shallow_water/forcing.py:683-821", "anuga/shallow_water/sww_interrogate.py:73-136", "anuga/shallow_water/sww_interrogate.py:138-220", "anuga/shallow_water/sww_interrogate.py:286-377"]}
{"id": "C82", "title": "River walls", "statement": "For every mesh and every set of walls given as polylines with elevations: on a new domain the edges made river walls are exactly those whose midpoint lies along some segment (less than the tolerance from its line and past its ends by less than the tolerance). Each such edge has the elevation of the wall where it is nearest to the midpoint (so linear between corners, never outside the elevations of the two corners), from the last segment of the last wall along it, and its parameters are those of that wall: given for it, else the given default, else the standard, and admissible (0 <= s1 < s2, 0 <= h1 < h2). The two sides of an edge agree; the counters of edges lead to their own entries. Calls are accepted exactly if all names are known, parameters are admissible, and (with messages on) no wall has more than two loose ends inside the domain; a wall whose edges follow one another is never refused.", "quantifier": "all meshes, walls, tolerances, parameter dictionaries, earlier states", "why_tests_cant": "Tests use one or two walls on a rectangular mesh; overlapping walls, the order of override and the connectivity check depend on how walls lie in the mesh.", "anchors": ["anuga/structures/riverwall.py:58-150", "anuga/structures/riverwall.py:153-480", "anuga/structures/riverwall.py:496-570", "anuga/structures/riverwall.py:573-674"]}
{"id": "C83", "title": "Boundary polygon of a mesh", "statement": "For every mesh of anticlockwise triangles meeting edge to edge in which no point is the start of two boundary edges: the boundary polygon is found after as many rounds as there are boundary edges; it is a loop of boundary edges in their direction (mesh on the left) without repeated points, beginning with a boundary point nearest to the lower left corner of the extent; its signed area seen from any point is the area of the mesh less that of the boundary edges not on it. If the boundary is one loop, the polygon has exactly the boundary edges, is anticlockwise and has the area of the mesh. On any mesh, consecutive points of a result are joined by boundary edges.", "quantifier": "all meshes, numbers and orders of boundary edges", "why_tests_cant": "Tests check about ten small meshes; whether the walk closes, terminates and covers the boundary depends on the shape of the mesh and the order of the boundary dictionary.", "anchors": ["anuga/abstract_2d_finite_volumes/neighbour_mesh.py:518-667", "anuga/abstract_2d_finite_volumes/general_mesh.py:856-872", "anuga/utilities/numerical_tools.py:21-124"]}
{"id": "C84", "title": "Rain and inflow", "statement": "Rain and inflow terms accept exactly the descriptions of a place (everywhere; centre and radius; polygon) that pass the test of lying within the boundary of the mesh and contain the centroid of some triangle. Rain of x mm/s adds x/1000 m/s to the rate of change of stage on every triangle whose centroid is in the place and on no other. An inflow of Q m3/s into a circle or polygon adds a uniform rate whose volume over the triangles is exactly Q; over the whole mesh it is Q times the area of the mesh over that within its boundary polygon, hence Q if the boundary is one loop. Functions of time are taken at the time of the call; too early is an error; too late is an error unless a default rate is given, with one warning at the first such call and none later.", "quantifier": "all meshes, places, rates, default rates, times, update vectors and sequences of calls", "why_tests_cant": "Tests use a handful of meshes, regions and rates and compare a few values; that the volume is exact for every region and that nothing outside is touched are statements about all of them.", "anchors": ["anuga/shallow_water/forcing.py:231-466", "anuga/shallow_water/forcing.py:505-583", "anuga/shallow_water/forcing.py:586-679"]}
{"id": "C85", "title": "Wind, air pressure and stored time series", "statement": "Wind with one speed and direction per triangle adds to the momentum of each triangle the wind vector times its speed times the drag constant: the magnitude is proportional to the square of the speed, directions 360 degrees apart are equal and 180 degrees apart opposite. A pressure linear on a triangle adds depth times its gradient over the density of water. A stored series of increasing times opened at a start within it (not strictly within its last interval) and read at times that never decrease returns at every point the value of the piecewise linear function through the data, whatever was read before, and fails beyond the last time.", "quantifier": "all meshes, wind and pressure fields, time series, numbers of points and sequences of reading times", "why_tests_cant": "Tests read a few times of one or two files; that the stored state never makes the answer depend on the history is a statement about all sequences of times.", "anchors": ["anuga/shallow_water/forcing.py:26-228", "anuga/shallow_water/forcing.py:822-964", "anuga/shallow_water/forcing.py:967-1138", "anuga/shallow_water/forcing.py:1141-1340"]}
{"id": "C86", "title": "What the output file holds", "statement": "A run whose storing times increase leaves in its output file one slice per storing, in order: the times, for stage and momenta the vertex values in single precision, except that where the water is shallower than the storable height the stage is the bed and the momenta are zero (so stored depth is never negative), and for centroid quantities the centroid values. Storing again at a stored time replaces that slice and nothing else; at an earlier time that was not stored it fails. The ranges in the file contain every stored value, and are attained if no slice was replaced. Of the yielded moments every n-th is stored, n being the ratio of output step and yield step, also across several calls of evolve that run to their end.", "quantifier": "all sequences of times and states, meshes, quantities, thresholds, rounding functions, output frequencies and numbers of runs", "why_tests_cant": "Tests write a few steps on one mesh and look at some values; that no slice is lost, shifted or altered for any sequence of storing is about all of them.", "anchors": ["anuga/file/sww.py:260-432", "anuga/file/sww.py:563-692", "anuga/file/sww.py:798-829", "anuga/file/sww.py:875-1035", "anuga/file/sww.py:1037-1091", "anuga/shallow_water/shallow_water_domain.py:2300-2404"]}
{"id": "C87", "title": "Merging the files of a parallel run", "statement": "Merging the files written by the processors of a run on a distributed mesh gives the file of the whole mesh: its triangles, the coordinates of its points, the stored times, and for every static and dynamic quantity the values of the owner: at a triangle those of the processor owning it, at a node (smooth format) those of the last processor owning a triangle there, at a corner (separate format) those of the owner of the triangle. Ghost values are never used.", "quantifier": "all meshes, distributions over processors, formats, numbers of times and quantities", "why_tests_cant": "Tests merge one small run; a ghost value or a misplaced index shows only for particular distributions.", "anchors": ["anuga/utilities/sww_merge.py:26-45", "anuga/utilities/sww_merge.py:205-801"]}
{"id": "C88", "title": "Joining separate files and reading files back", "statement": "Joining files of separate meshes works exactly if they have equally many stored times, and then the result holds all triangles in order, each with the places, elevations and histories its corners had. A file stored with separate corners is read back as a mesh in which no two nodes coincide, every corner is at its place and corners have one number exactly if they are at one place. A moment is accepted exactly within the stored times and gives the stored slice or the mixture of the two slices around it in the proportion of the times.", "quantifier": "all lists of files, meshes, histories, times and points", "why_tests_cant": "Tests join two small files and read a few; renumbering mistakes depend on sizes and order.", "anchors": ["anuga/utilities/sww_merge.py:18-23", "anuga/utilities/sww_merge.py:48-204", "anuga/file/sww.py:1321-1462", "anuga/file/sww.py:1465-1520", "anuga/file/sww.py:1523-1577"]}
{"id": "C89", "title": "Outline made from polygons and tags", "statement": "create_mesh_from_regions hands to the mesh generator exactly the outline asked for, in absolute coordinates whatever the references: the pieces of the breaklines, every side of the bounding polygon with the tag its number has in the dictionary (the last mention counts, none if there is none), the sides of the interior regions that lie within the bounding polygon, the sides of the holes with their tags ('interior' by default); a point strictly inside the bounding polygon with the overall maximal area, one strictly inside each interior region with its resolution, the user's region points, and one point strictly inside each hole. Inputs are accepted exactly if every number means a side, regions are contained (or those that are not may be left out), holes have three points and are contained, no polygon is a single point, and a point inside can be found next to a corner.", "quantifier": "all polygons, tags, references, interior regions, holes, breaklines and region points", "why_tests_cant": "Tests make a few meshes of rectangles; a shifted tag or an offset by the wrong reference shows only for particular combinations of arguments.", "anchors": ["anuga/pmesh/mesh_interface.py:144-370", "anuga/pmesh/mesh.py:587-804", "anuga/pmesh/mesh.py:886-948", "anuga/geometry/polygon.py:946-982", "anuga/geometry/polygon.py:1133-1145"]}
{"id": "C90", "title": "Tags from the outline to the domain", "statement": "Tags survive the way through the mesh generator: coding and decoding gives back every list of tags, untagged is zero and 'exterior' is one, any number of meshes after another; regions likewise. Repeated points are removed so that all points are distinct and all segments keep their ends. In the domain an edge has the tag of the last tagged segment it lies on, in either direction. Altogether, for a generator that keeps markers and marks the unmarked boundary with one, the domain's boundary consists of the edges on tagged segments with those tags and of the remaining edges without a triangle behind them, tagged 'exterior'. Each region tag leads to exactly its triangles. A mesh with elevation but no stage starts dry.", "quantifier": "all lists of tags, points, segments, triangulations and markers", "why_tests_cant": "Tests follow two or three tags; codes that collide or an edge numbered wrongly appear only for other lists.", "anchors": ["anuga/pmesh/mesh.py:53-55", "anuga/pmesh/mesh.py:1098-1136", "anuga/pmesh/mesh.py:2232-2365", "anuga/mesh_engine/mesh_engine.py:117-147", "anuga/abstract_2d_finite_volumes/pmesh2domain_ext.pyx:33-131", "anuga/abstract_2d_finite_volumes/pmesh2domain.py:74-88", "anuga/abstract_2d_finite_volumes/pmesh2domain.py:148-220"]}
{"id": "C91", "title": "Maps exported from results", "statement": "sww2dem writes a map of a quantity: at every point of the mesh the expression is evaluated from the stored values and reduced over the stored times (greatest value by default, or one time by index), whatever the block size. The grid has exactly the columns and rows that lie between the west and east, south and north asked for (or those of the mesh), rows from the north. Each entry is the value at its map position of the linear function through the corners of a triangle there, and the value for missing data where no triangle contains the position; linear quantities are exact everywhere on the mesh, and nothing overshoots the values of the mesh. In the ER Mapper format the corner is exact; a text grid with whole corner and missing value, read back, has its lines and values at the right places. For other corners the text grid is displaced.", "quantifier": "all meshes of proper triangles, windows, cell sizes, expressions, reductions, block sizes and missing values", "why_tests_cant": "Tests compare a few cells of regular meshes with whole corners; rows reversed, a block boundary or a cell at the rim show only for other sizes.", "anchors": ["anuga/file_conversion/sww2dem.py:22-27", "anuga/file_conversion/sww2dem.py:231-475", "anuga/file_conversion/calc_grid_values.c:29-403", "anuga/file_conversion/calc_grid_values_ext.pyx:18-51"]}
{"id": "C92", "title": "Quantities composed from several sources", "statement": "composite_quantity_setting_function gives at every point the value of the first pair whose region contains the point and whose source has a number there, moved into the range given for that pair. The result at a point does not depend on which other points are asked for, and always lies in the range. With a region for filling gaps, exactly the points that got nothing from their first choice and lie in that region are replaced by the value at the nearest other points. The function fails exactly when the ranges do not fit, a region follows 'All', a source raises an exception or lacks a number where this is not allowed, a point gets no value, or too few points are left to fill from.", "quantifier": "all lists of pairs, polygons, functions, constants, point sets and rasters, ranges, treatments of missing values, regions for filling, and point lists", "why_tests_cant": "The arrays are updated through index lists selected from the points not yet set; a slip in the bookkeeping shows only when several regions overlap with partly missing sources. Tests use two or three pairs on one mesh.", "anchors": ["anuga/utilities/quantity_setting_functions.py:166-603"]}
{"id": "C93", "title": "Values from scattered points and rasters", "statement": "The nearest neighbour function returns the value of a nearest data point if it is nearer than the threshold, and the background value otherwise; with several neighbours the smallest, the largest or the inverse distance weighted mean of the k nearest, hence between their values. Raster values at points: by pixel, the value of the pixel containing the point; bilinear, exact for fields A+Bx+Cy+Dxy between the outer pixel centres, equal to the pixel at its centre, never outside the values of the pixels around and never failing inside the raster; outside there is an exception, and missing data give nan, unless the value for them is zero.", "quantifier": "all sets of data points, thresholds, methods and numbers of neighbours, given a tree that answers correctly; all rasters and positions", "why_tests_cant": "Tests use a few points in the middle of one raster; half pixels, the rim and a missing value of zero are not tried.", "anchors": ["anuga/utilities/quantity_setting_functions.py:12-161", "anuga/utilities/quantity_setting_functions.py:608-640", "anuga/utilities/spatialInputUtil.py:696-864"]}
{"id": "C94", "title": "Erosion keeps the water, the base level and the lie of the bed", "statement": "No erosion operator makes or loses water or momentum: the depth over every triangle stays. The bed shear operator lowers the bed of each triangle of its region by the scour of the step (shear stress over factor, where the water is faster than the threshold) but not below the base level, so over any run a bed above the base only sinks and stays above it; triangles outside the region stay. With a continuous bed the corners are lowered so and every node then gets one level between its old one and the base. Slicing cuts the region down to a level and nothing else; filling makes the level the highest of the region. A dune is scoured only by stress above 2.1 Pa, collapses to the angle of repose above its lowest neighbour, and never goes below its base. The plain Erosion_operator fails unless its region has one or three triangles, and can raise the bed then.", "quantifier": "all meshes, regions, states, levels, thresholds, bases, slopes of the surface, time steps, orders of node and triangle lists, and whole runs with arbitrary flow between the calls", "why_tests_cant": "Depth and base must hold for every state and step of a run; tests make one step on a mesh of a few triangles, with regions of a size for which the array shapes happen to fit.", "anchors": ["anuga/operators/erosion_operators.py:21-240", "anuga/operators/erosion_operators.py:410-442", "anuga/operators/erosion_operators.py:504-828", "anuga/operators/sanddune_erosion_operator.py:97-284"]}
{"id": "C95", "title": "Friction operators slow the flow; friction from depth; setting the flow", "statement": "Mannings_operator multiplies the momentum of every triangle by one factor in (0, 1], the exponential of minus the time step times the rate of Manning's formula; it keeps direction and stage, slows at least as much as an implicit step, two half steps never slow more than one step, deeper water is slowed less and rougher ground slows more. Set_depth_friction_operator gives each triangle of a non-empty region the function's value at its depth and leaves the others. Set_w_uh_vh_operator sets stage and momentum of its region only. A friction function that returns a whole number for the first triangle has the fractions of all others cut off; an empty region fails; a stage below the bed is accepted.", "quantifier": "all flows, depths, roughnesses and time steps over the reals; all regions, friction functions and states", "why_tests_cant": "Inequalities between whole families of states; the loss of fractions depends on which triangle comes first.", "anchors": ["anuga/operators/mannings_operator.py:8-63", "anuga/operators/set_friction_operators.py:23-112", "anuga/operators/set_w_uh_vh_operator.py:25-145"]}
{"id": "C96", "title": "An inlet shared by processors acts as on one processor", "statement": "An inlet whose triangles are spread over several processors is filled to one common level that holds exactly the requested volume, whatever processor is the master, in whatever order the processors are listed and however each sorts equal stages. A step of the operator gives in every triangle the stage and momentum that the operator gives when the whole domain is on one processor, fails exactly when that one fails, and changes nothing outside the inlet; areas, volumes and averages gathered by the master are those of the whole inlet. Every processor with a full triangle in the region, and no other, takes part, each once, with one of those with the most triangles as master; a circle, line or polygon selects on the parts together, without ghosts, exactly what it selects on the whole domain. Every taking-part processor books the whole volume, so the volume integral reported for the run grows by the volume times the number of processors that share the inlet.", "quantifier": "all meshes, distributions of triangles over processors, states, discharges, options and orders of processors, masters and ways to sort ties", "why_tests_cant": "Tests run on one processor count with one mesh and compare with stored numbers within a tolerance; the merge of sorted stages and the agreement with one processor are claims about all distributions.", "anchors": ["anuga/parallel/parallel_inlet.py:98-517", "anuga/parallel/parallel_inlet_operator.py:100-205", "anuga/parallel/parallel_operator_factory.py:50-131", "anuga/parallel/parallel_operator_factory.py:876-990", "anuga/shallow_water/shallow_water_domain.py:1715-1750"]}
{"id": "C97", "title": "Functions and boundaries read from result files", "statement": "A function read from a mesh file with stored results gives, for each point inside the mesh and each time between the first and last used result, the values of the named quantities at that absolute position and absolute time: linear over a triangle of the file at the point (or the mean of its corners, if asked for centroids) and linear between neighbouring used results. Used are every n-th result up to the limit. Quantities stored without time keep their one value. The corner of the file is taken off the points; results do not depend on earlier calls. Points off the mesh give the missing value, earlier and later times are refused. Times are counted from the later one of the starts of file and domain, and a domain that starts earlier is moved to the start of the file; if it has been evolved already this is an error. A file of series gives the polygonal lines through its values. A boundary read from a file imposes at an edge the values of the file at the position of the midpoint and at the time model time plus start of the domain, which is the model time only if the domain starts at zero; after the end of the file the default boundary takes over; edges off the mesh are an error.", "quantifier": "all files (meshes, times, quantities, corners, starts), points, limits, thinnings, histories of calls, clocks of the domain", "why_tests_cant": "Tests read a few files, mostly starting at time zero with the domain; shifts by starts and corners, limits and thinning together have to be right for all combinations.", "anchors": ["anuga/abstract_2d_finite_volumes/file_function.py:29-497", "anuga/fit_interpolate/interpolate.py:754-1115", "anuga/abstract_2d_finite_volumes/generic_boundary_conditions.py:544-717", "anuga/abstract_2d_finite_volumes/generic_domain.py:598-619", "anuga/abstract_2d_finite_volumes/generic_domain.py:1604-1617"]}
{"id": "C98", "title": "Series at gauges are the stored results at the gauges", "statement": "Exporting series at gauges writes for each gauge in the mesh a csv file of its name, newly started, with one row for each stored result of each result file whose name contains the base name, in the order of the names; gauges off the mesh and other csv files are left alone. A row holds the time counted from the start of the first file, in seconds and hours, and the requested quantities in order: stage, elevation and momentum of that result at the position of the gauge (linear over a triangle there, or the mean of its corners), depth as their difference, momentum as the length of the vector, speed as that over the depth (zero below 0.001 m or for an x momentum of 10^6 and more). Gauges are read from the columns headed name, easting and northing, in whatever order. The exported bearing is 180 minus the bearing of the flow from North (modulo 360), right due east and west only. The tables of depth and velocity hold one row for each used result and one column for each point; asking for a table of stages or Froude numbers always fails.", "quantifier": "all result files, meshes, times, gauges with distinct names, requested quantities, directories, previous csv files; all flows for the bearing", "why_tests_cant": "Tests export one or two gauges of small files and compare a few numbers; the test of the bearing sets a flag that stays set, so that it passes with any value.", "anchors": ["anuga/abstract_2d_finite_volumes/gauge.py:30-266", "anuga/utilities/file_utils.py:201-235", "anuga/fit_interpolate/interpolate.py:526-697", "anuga/abstract_2d_finite_volumes/util.py:156-171"]}
{"id": "C99", "title": "Gauges along a boundary give values linear between them", "statement": "A file of gauges (.sts) opened with a boundary polygon is accepted exactly if the vertices of the polygon that have a gauge form one stretch of it, which may run past the first vertex but is not the whole polygon (and has two vertices if points are asked for). The function then gives, at every absolute time covered by the file and whatever was asked before: on a side between two vertices with gauges the value linear along the side between those of its gauges, at a vertex the value of its gauge, and zero at points off these sides; in time linear between the used results. Other times are refused. The gauge of a vertex is the first one within 1e-4 of each coordinate (relative to the corner of the file) plus 1e-4.", "quantifier": "all files, gauges, polygons, points, times, thinning and limits, start times of the domain, histories of calls", "why_tests_cant": "Tests use a few gauges in geographic order on one boundary and sample times; the arrangement on the polygon and points off it are not varied.", "anchors": ["anuga/abstract_2d_finite_volumes/file_function.py:231-497", "anuga/fit_interpolate/interpolate.py:754-1005", "anuga/geometry/polygon.py:1069-1129", "anuga/geometry/polygon.c:270-318"]}
{"id": "C100", "title": "Values of a result file read for analysis are those stored", "statement": "get_output on a result file gives, for the times asked for ('all', 'last', a list), one row per time and one column per node: the stored times, stages, beds and momenta; the depth (stored, or stage less bed, never negative); velocities that are momentum over depth up to a relative error of 1e-12 over the depth and zero in water not deeper than minimum_allowed_height; the speed is the length of the velocity. With 'max' it gives per node the largest stage, depth and speed and the components of momentum and velocity of largest magnitude, with their sign, over all times of the file (depth: if the bed is fixed or the depth stored). get_centroids gives the same at the centroids, from stored centroid values or from the corners: mean momentum and the velocity it makes in the mean depth, or with velocity_extrapolation the mean velocity and the momentum it makes. With a bed that changes in time the depths of 'max' and of get_centroids are not those of the file.", "quantifier": "all files, meshes, values, selections of times, smallest depths >= 0, both ways of finding velocities", "why_tests_cant": "Tests compare a few nodes of one run with a fixed bed; selections, stored variables and moving beds are not combined.", "anchors": ["anuga/utilities/plot_utils.py:146-204", "anuga/utilities/plot_utils.py:208-328", "anuga/utilities/plot_utils.py:331-648"]}
{"id": "C101", "title": "Files put together, areas, volumes, transects and triangles found", "statement": "combine_outputs accepts files exactly on one mesh and gives the times and the rows of every array in the order of the files. triangle_areas gives the areas of the triangles; water_volume the sum of area times depth over the triangles (or the subset) where the stage is above the bed, per unit area divided by their total area, one number per time. near_transect lists, in order, exactly the points whose foot on the line lies between the two ends and that are nearer than tol, with the distance of the foot from the first end. get_triangle_containing_point returns the first triangle of its search that has the point inside or on a side and fails only if there is none. get_triangle_near_point returns the first triangle with the nearest centroid in absolute coordinates if it is within the tolerance. get_centroids of files put together answers for the first file only.", "quantifier": "all files, meshes, values, subsets, transects, points, search orders, tolerances", "why_tests_cant": "Tests use one small mesh and a few points.", "anchors": ["anuga/utilities/plot_utils.py:55-111", "anuga/utilities/plot_utils.py:682-871"]}
{"id": "C102", "title": "A cached call returns what the call would compute", "statement": "cache(f, args, kwargs) has the outcome of f(*args, **kwargs) (value or exception), after any history of cached calls with any options, exceptions, clearing and lost or damaged cache files, if f depends on its arguments only and no two of the argument lists used have the same hash; also if they have, provided the arguments hold no dictionaries or arrays and the functions never raise. After clearing, nothing is found. Otherwise results can be wrong: a call whose dependency files have changed returns the old result as long as their number is the same; keyword arguments are not compared, so arrays of the same mean given by keyword get each other's results; arrays of one element equal any array of copies of it; an exception in a forced evaluation leaves the new arguments beside the old result.", "quantifier": "all hash functions, functions, arguments (atoms, tuples, lists, dictionaries, arrays), dependencies, options, histories", "why_tests_cant": "Tests call a few functions twice; the assertion that changed dependencies are noticed is commented out.", "anchors": ["anuga/caching/caching.py:145-418", "anuga/caching/caching.py:814-1061", "anuga/caching/caching.py:1414-1582"]}
{"id": "C103", "title": "The merged result file of a parallel run is that of the serial run", "statement": "Distribute any mesh over any number of processors with any width of the ghost layer, let each processor store its local mesh and what it holds, and merge the files: the merged file has the triangles of the serial mesh in the serial order, its points and the times. Every quantity of which each processor holds the serial values at its own triangles (or, for arrays at nodes or corners, at the nodes or corners of its own triangles) is stored as in the serial run, whatever the ghosts hold. In particular for a run with three layers of ghosts, any steps and any outputs, the merged file has the times of the serial run and in each triangle its stage and momenta. Values at nodes can differ from the serial file: they are averages over the triangles a processor has, and it need not have all triangles around a node.", "quantifier": "all meshes, partitions, numbers of processors and ghost layers, coordinates, contents of ghosts, runs and output times", "why_tests_cant": "Tests merge files of one or two fixed meshes and compare a few numbers; agreement for every partition and whatever the ghosts hold needs a proof.", "anchors": ["anuga/parallel/distribute_mesh.py:241-330", "anuga/parallel/parallel_api.py:60-200", "anuga/file/sww.py:201-234", "anuga/file/sww.py:829-873", "anuga/utilities/sww_merge.py:26-46", "anuga/abstract_2d_finite_volumes/generic_domain.py:281-291"]}
{"id": "C104", "title": "Projecting latitudes and longitudes", "statement": "Every longitude from -180 to 180 is in the zone of six degrees that holds it (1 to 60), within three degrees of its central meridian. In the zone, eastings on a parallel grow from west to east and lie between 160 and 840 km; on the central meridian the easting is the false easting and the northing the scaled distance along the meridian of the ellipsoid, to within 4 cm per radian of latitude, and grows from south to north within a hemisphere; on the equator the northing is the false northing. Points either side of the central meridian and of the equator are mirror images. The series are those of the conformal projection of the ellipsoid to the sixth power of the relative longitude and of the sphere for the seventh and eighth, but for the sixth term of the northing, which is too small by nu sin^3 cos^3 / 720 (less than 0.1 mm). A list of points is accepted exactly if all are in one zone, and projected point by point in order. Degrees, minutes and seconds joined and split are what they were, and numbers split and joined too unless between -1 and 0, where the sign is lost. The two conversions agree on zones outside south-west Norway and Svalbard.", "quantifier": "all latitudes and longitudes, false eastings and northings, zones, central meridians and scale factors, lists of points", "why_tests_cant": "Tests compare a dozen points with published values to a few digits; the shape of the projection over a whole zone, its mirror images and the exact series cannot be sampled.", "anchors": ["anuga/coordinate_transforms/redfearn.py:13-38", "anuga/coordinate_transforms/redfearn.py:40-191", "anuga/coordinate_transforms/redfearn.py:194-258", "anuga/coordinate_transforms/lat_long_UTM_conversion.py:63-100"]}
{"id": "C105", "title": "Maxima collected during a run", "statement": "After any run the greatest stage and the greatest momentum per width collected in a triangle are exactly the greatest over the collected calls: with update frequency m every m-th of the calls later than the collection start time; before the first they are -max_float and zero. The greatest depth is the greatest of the depths and of the minimum allowed height, so triangles that stay dry are given that height. The greatest speed is that of the collected calls where water not deeper than the given height counts as still (if that height is at least the minimum allowed height). Maxima never fall; a triangle's maxima depend on its own values alone; on several processors each processor exports the rows of the serial table for its own triangles, so each row is in exactly one file. The stage operator holds, at each vertex, edge and centroid, the greatest value at its calls. By Euler's method the clock is that of the beginning of the step when operators are called: the values after the first step from time 0 are not collected, and the greatest stage at vertices lacks the values after the last step.", "quantifier": "all meshes, runs, time steps, stepping methods, frequencies, start times and heights, partitions", "why_tests_cant": "A test runs a few steps and compares one array; which calls count for every frequency and start time, and what is left out, needs a proof over all runs.", "anchors": ["anuga/operators/collect_max_quantities_operator.py:33-110", "anuga/operators/collect_max_quantities_operator.py:130-143", "anuga/operators/collect_max_stage_operator.py:24-52", "anuga/abstract_2d_finite_volumes/quantity.py:255-278", "anuga/abstract_2d_finite_volumes/generic_domain.py:1835-1855"]}
{"id": "C106", "title": "Mesh files in text form give back the mesh", "statement": "If numbers are written as words from which the same number is read, a mesh written to a .tsh file is read back with the same vertices, attributes and titles, triangles, triangle tags and neighbours, segments, outline points, outline segments, holes, regions, tags and greatest areas, and with the same zone and origin of the geo reference. For any dictionary which can be written, the geometry comes back as it was, tags and titles come back without the white space at their ends, missing neighbours come back as -1 and missing triangle tags as empty texts. A file cut off anywhere before the end of the triangulation is refused. A mesh saved and loaded again has the same points, segments, holes, regions and tags, and the same greatest areas as far as they are positive.", "quantifier": "all meshes, tags, titles, attributes and geo references; all faithful ways of writing numbers; all places where a file may be cut off", "why_tests_cant": "Tests write and read one or two small meshes; tags with spaces, gaps in attributes, missing neighbours and truncated files form an unbounded space.", "anchors": ["anuga/load_mesh/loadASCII.py:85-141", "anuga/load_mesh/loadASCII.py:158-257", "anuga/load_mesh/loadASCII.py:260-379", "anuga/load_mesh/loadASCII.py:380-570", "anuga/coordinate_transforms/geo_reference.py:235-280", "anuga/pmesh/mesh.py:1946-2062", "anuga/pmesh/mesh.py:2079-2146"]}
{"id": "C107", "title": "Mesh files in NetCDF form give back the mesh", "statement": "If writing a mesh to a .msh file succeeds, what is read from the file has the same vertices, triangles, neighbours, segments, outline, holes, regions, greatest areas and the whole geo reference including hemisphere, datum and units; tags and titles come back without the white space at their ends; no number of a point is changed by being stored in 32 bits. Writing succeeds for every mesh with a tag for each segment, triangle and region, a title for each column of attributes, equally many attributes for each point, whole numbers of 32 bits and characters of one byte. A mesh which both kinds of file can keep is read back from .tsh and .msh as the same mesh, except for what .tsh forgets of the geo reference. Missing tags or neighbours, which .tsh accepts, are refused.", "quantifier": "all meshes, tags, titles, attributes and geo references", "why_tests_cant": "Tests write and read one or two small meshes; padding of tags, absent variables and agreement of the two formats concern all meshes.", "anchors": ["anuga/load_mesh/loadASCII.py:573-776", "anuga/load_mesh/loadASCII.py:779-899", "anuga/utilities/system_tools.py:265-280", "anuga/coordinate_transforms/geo_reference.py:169-205"]}
{"id": "C108", "title": "A culvert between processors does what it does on one processor and never deadlocks", "statement": "In a run on several processors, one call of a Boyd box culvert whose two ends, and the enquiry points, lie on any processors always comes to an end: whichever processor is faster and whether or not the message system stores messages on their way, no processor waits for ever, the number of steps is bounded, no message is left over, and every execution has the same result. Depth and momentum in both inlets, the smoothed energy difference and discharge, the accumulated flow and the discharge are those of the same call on one processor; nothing outside the two inlets is changed. On one processor the call returns whenever the discharge routine does.", "quantifier": "all divisions of the two inlets among processors, choices of masters, flows, levels, discharge functions, options and timesteps, all interleavings of the processors and all ways to store messages", "why_tests_cant": "A test runs one culvert on three processors with one message system which stores small messages; it cannot try all orders in which processors send and wait, nor all ways in which the inlets are cut.", "anchors": ["anuga/parallel/parallel_structure_operator.py:254-469", "anuga/parallel/parallel_boyd_box_operator.py:145-320", "anuga/parallel/parallel_inlet.py:98-332", "anuga/parallel/parallel_operator_factory.py:142-285"]}
{"id": "C109", "title": "Exchanges of ghost values end and, with one exchange a step, give the same result in all executions", "statement": "In a run on several processors the exchanges of ghost values of a call of `evolve` always come to an end, whichever processor is faster and whenever the message system reads the buffers of messages sent: no processor waits for ever and the number of steps is bounded. With Euler's method, or the method of second order with at least four layers of ghosts, and a timestep agreed on by all processors, every processor has after each exchange what it has if all go together, exchange by exchange, although processors do not wait until their messages have been read; so all executions have the same result. These are the only settings for which this is so: otherwise (second order with the default two layers, third order, fixed timesteps, several calls of `evolve`) buffers are written again while messages may still be read from them, and a neighbour can get the ghost values of the next exchange. With the safe settings, on distributed meshes (C65 to C68), every local triangle then holds the value its owner had when the exchange began.", "quantifier": "all numbers of processors, neighbours, computations, initial values, numbers of steps and settings; all interleavings of processors and message system", "why_tests_cant": "Whether a message is read from its buffer at once or later depends on its length, the network and the load; a test sees one order on one machine, where short messages are stored at once.", "anchors": ["anuga/parallel/parallel_generic_communications.py:35-88", "anuga/parallel/parallel_generic_communications.py:159-248", "anuga/parallel/parallel_shallow_water.py:128-145", "anuga/abstract_2d_finite_volumes/generic_domain.py:1817-1857", "anuga/abstract_2d_finite_volumes/generic_domain.py:1914-2180", "anuga/parallel/distribute_mesh.py:1133-1168"]}
{"id": "C110", "title": "Multiplexed files of tsunami sources give back the series written and their weighted sum", "statement": "Files in which the values of all stations are interleaved, step by step and without those that do not record, are taken apart correctly: for every station, `read_mux2_py` gets the series written for it, zero before its first step. Several sources are added with their weights; a value of 99 in one of them stands for missing and makes the sum missing. Stations come in the order asked for, series run from the first to the last step of all stations asked for, and the value at position k belongs to the time `starttime + times[k]`. Only where all stations asked for record in all sources are times right: a station that never records in one source makes all series two timesteps early.", "quantifier": "all files, stations, steps, values, sources, weights and orders", "why_tests_cant": "The position of a number in the file depends on which of all the stations record at each of the steps before; tests have few stations which all record from the first to the last step.", "anchors": ["anuga/file/urs.c:38-126", "anuga/file/urs.c:129-160", "anuga/file/urs.c:338-617", "anuga/file/urs_ext.pyx:15-133", "anuga/file/mux.py:24-124"]}
{"id": "C111", "title": "Gauge files made from tsunami sources hold scaled heights, momentum and true positions", "statement": "If `urs2sts` returns, then the file has for every gauge asked for, in this order, its projected position (`create_sts_boundary` gives back exactly these, whichever origin is used), and all gauges are in one zone, that asked for if any. At every time stage is `zscale` times the height plus `mean_stage`, momentum is velocity times depth (stage less elevation), with the sign of the northern one turned as multiplexed files count southward velocities; a missing height counts as still water at the mean stage. Times are those of the multiplexed files, and so the stage stored for the time of a step is the weighted sum of the heights that all sources have for that step, scaled and raised.", "quantifier": "all files of the three quantities, weights, orders, zones, origins, scales and levels", "why_tests_cant": "A test compares a few gauges of generated files; whether order, window, weights and origin fit together for all of them is a statement about all files.", "anchors": ["anuga/file_conversion/urs2sts.py:25-320", "anuga/file/sts.py:25-93", "anuga/file/sts.py:257-293", "anuga/file/mux.py:24-124"]}
{"id": "C112", "title": "Assessments of damage to structures: depths, curves, collapse and losses", "statement": "`calc_max_depth_and_momentum` gives for every place the greatest height of water above the floor over all files and all times at which all values are known, at least minus the height of the floor, whatever the order of the files; the files read are those with a name that contains the base name and ends in `.sww`. `inundation_damage` succeeds exactly when no depth exceeds 1000 m. Whatever the random numbers, of the structures with the same probability p of collapse (by depth and distance from the shore) p times their number collapse, to the nearest whole number; one that has collapsed was in danger and is lost with its contents; any other has the damage of its curves at its depth, and none at all if the water did not reach the floor; deeper water never does less damage to a structure which stands; losses are these fractions of the values. Fractions are between 0 and 1 in water up to 2.14 m (contents) and 6.9 m (structures); from 2.15 m and 8 m on a structure which stands loses more than its value.", "quantifier": "all files, places, structures, values and random numbers", "why_tests_cant": "Which structures collapse is drawn at random; that the number is right and damage consistent for every draw cannot be seen from one. Tests of the curves use depths below those at which fractions exceed 1.", "anchors": ["anuga/damage_modelling/inundation_damage.py:51-110", "anuga/damage_modelling/inundation_damage.py:134-198", "anuga/damage_modelling/inundation_damage.py:200-460"]}
{"id": "C113", "title": "Tables in text form: columns, changes, saving, files of polygons", "statement": "Reading a table from a csv file succeeds exactly when the titles asked for are there and no row is shorter than the row of titles. If titles differ and there are rows, each title names the entries of its column in the order of the rows. Setting a column of an exposure table: a new one goes to the right end; an existing one is only changed if this is asked for, and keeps its place; the other columns stay as they are; a wrong number of values is refused. Saving writes every entry under its title, and reading the saved file gives the same table. `load_csv_as_polygons` takes a file of four columns exactly when the rows of each polygon stand together with the same value and numbers for coordinates; each polygon then has the points of its rows in their order and its value, and there are no others; heights of buildings are floors times height of a floor.", "quantifier": "all files of any size, titles, entries, and sequences of changes; all ids, numbers of rows and values", "why_tests_cant": "Tests read a few small files with distinct titles. Titles that occur twice, files without rows, interrupted polygons and round trips after changes need an argument over all tables; clipping and files without values, both documented, are never run.", "anchors": ["anuga/file/csv_file.py:19-76", "anuga/file/csv_file.py:241-395", "anuga/damage_modelling/exposure.py:177-275"]}
{"id": "C114", "title": "An area cut out of a grid of latitudes and longitudes covers what was asked for", "statement": "`get_min_max_indices` returns slices that contain every line of the grid within the bounds, reach beyond the bounds as far as the grid does, and hold at most one line below the lower bound and one at or above the upper bound; for longitudes from west to east, latitudes in either direction (if they descend, by more than a hundred-thousandth of the first one), and any of the four bounds left out. With bounds in order the slices are not empty, even if the area is outside the grid.", "quantifier": "all grids and bounds", "why_tests_cant": "Tests use a few grids of ten lines; coverage for every position of the bounds, on and between lines, inside and outside, needs an argument about binary search. That the order is found by comparison with a tolerance matters only for grids which tests do not use.", "anchors": ["anuga/file_conversion/file_conversion.py:258-330"]}
{"id": "C115", "title": "Time series from text give functions of time through the lines of the text", "statement": "`timefile2netcdf` converts a text exactly when its first line has two fields, every line a time and numbers, none more than the first line, times increase strictly and the names of the quantities differ. The file starts at the time of the first line; times and values are those of the lines, with zero where a line has fewer values. The function which `file_function` makes from this file gives at every time from the first line to the last one values on the broken lines through times and values of the lines, whatever was called before, and refuses other times.", "quantifier": "all texts, names and sequences of calls", "why_tests_cant": "Tests convert one text and look at a few times; that conversion and reading fit together for all texts (offsets of time are removed by one and added by the other) and what becomes of incomplete lines is not tested.", "anchors": ["anuga/file_conversion/file_conversion.py:89-216", "anuga/abstract_2d_finite_volumes/file_function.py:231-497"]}
{"id": "C116", "title": "Columns of several tables are put side by side under the right keys", "statement": "`merge_csv_key_values` succeeds exactly when there is a table, all tables have the columns of keys and data, and the keys of all are the same in the same order; it then writes a row with the key title and the new titles, and for every key one row with the key and the data of every table at this key, in the order of the tables. Rows which lack either entry do not count.", "quantifier": "any number of tables of any size", "why_tests_cant": "Tests merge two or three small files; that no data come to stand beside another key needs an argument over all tables.", "anchors": ["anuga/utilities/csv_tools.py:8-128"]}
{"id": "C117", "title": "Rasters put together hold at every place the greatest value of all files", "statement": "`MaxAsc` writes a file exactly when there is an input file, all input files have the same number of lines (at least six), the same six lines of header, and below the header every row has, in the files where it is not empty, the same number of values (and it is not empty in all files). The header written is the common one, there is one row for each row of the input, and the value at each place is one of the values there and not less than any of them.", "quantifier": "any number of files of any size", "why_tests_cant": "Tests use a few small files; that no value at any place of any number of files is greater than the one written is a statement over all of them, as are the conditions under which files are refused.", "anchors": ["anuga/lib/maxasc.py:25-95"]}
{"id": "C118", "title": "Ordering of boundary points keeps every point and walks to the nearest one", "statement": "`order_boundary` writes the rows of its input in another order: the first row stays first, no row is lost, doubled or changed, and each row is followed by the nearest one of those that come later, of several equally near ones by the one which was first in the input. A file without points, or with more points than Python allows calls within calls, is refused.", "quantifier": "all files of points", "why_tests_cant": "Tests order one file. That the walk leaves nothing out and never passes a nearer point is a statement about every step of it.", "anchors": ["anuga/lib/order_boundary.py:34-109"]}
{"id": "C119", "title": "Polygons of an ungenerate file come back with their corners and sides", "statement": "For a file in which every polygon has at least two points, `load_ungenerate` returns the corners of the polygons in order, without a last point which repeats the first, and the segments are exactly the sides of these polygons, each between two neighbouring corners of the same polygon, numbered as in the list of all points. A file is read only if each polygon is a line, points and `END`, with another `END` behind all. A polygon with a single point damages the polygon before it.", "quantifier": "all files and numbers of polygons", "why_tests_cant": "Tests read one file of two polygons. That numbers of points stay right when repeated points are taken out again, for any number of closed and open polygons, is not covered.", "anchors": ["anuga/file/ungenerate.py:3-93"]}
{"id": "C120", "title": "After a restart all processors go on from the same, the latest usable checkpoint", "statement": "`load_checkpoint_file` without a time: if no processor finds a directory without files and all files of its domain have a time in their names, then either every processor loads its own file of the same time, and this is the latest time for which all processors have a file that can be loaded, or there is no such time and all processors end with an exception. With a time given, every processor loads its file of this time, or all end with an exception if one of them cannot. If one processor finds a directory without files (also a subdirectory), it ends with an exception while the others wait for it.", "quantifier": "any number of processors, files and times; any set of damaged files", "why_tests_cant": "Tests run one processor with intact files. That processors which find different files and fail to load different ones agree on one time at the end is a statement about all combinations.", "anchors": ["anuga/shallow_water/checkpoint.py:26-121"]}
{"id": "C121", "title": "The recording points chosen along a boundary are those around it", "statement": "`calculate_boundary_points` with a positive spacing: for every side of the polygon, the closing side included, that is at least a metre long (or of length 0), and for every place in the box of its two ends in latitude and longitude, the result contains each of the four points of the grid around this place that lies within 157147.4112 times the spacing (in metres) of the straight line through the ends. Nothing else is returned than points of the grid less than two spacings from the box of a side, each of them once. The size of the grid is not taken into account, and around a side shorter than a metre near points may be left out.", "quantifier": "any polygon, grid, spacing and conversions between degrees and metres", "why_tests_cant": "Tests compare a few segments with counted points. That rounding of both ends never loses a needed row or column is a statement about all positions relative to the grid.", "anchors": ["anuga/file/urs.py:192-353"]}
{"id": "C122", "title": "All surface points of all cross sections are converted, or the file is refused", "statement": "`sdf2pts` reads a file whose lines after the header are cross sections (any lines, `SURFACE LINE`, points with any number of blank lines between, a line beginning with `END`) followed by lines without another surface: the points written are those of all surfaces, in order and nothing else, if there is at least one section and the header reports their number; otherwise there is an exception. Another line in a surface is refused. A last section without `END` is passed over in silence if the header does not count it.", "quantifier": "any number of sections, points and other lines", "why_tests_cant": "Tests read one file. That no point of any section is lost, doubled or moved to another one, however sections and other lines follow each other, is a statement about all files.", "anchors": ["anuga/file_conversion/sdf2pts.py:4-183"]}
{"id": "C123", "title": "Each value of a raster in degrees becomes one point at its place", "statement": "`llasc2pts` with a file that has the rows and columns its header says: for each value which is not missing, the file of points has one point with this elevation at the UTM position of its row (the lowest one at the latitude of the header, rows one cell size apart) and column, in absolute coordinates; nothing else is written. It is refused exactly if there is no value at all or the position of a value is not in the zone of the corner. Rows shorter than the header says are not refused, and their values are moved to other places. Headers with the corner and with the centre of the first cell are treated alike.", "quantifier": "any size, values, cell size, position and conversion to UTM", "why_tests_cant": "Tests convert one small raster. That rows and columns are not exchanged or turned round, for any size and any pattern of missing values, is a statement about all rasters.", "anchors": ["anuga/file_conversion/llasc2pts.py:42-205", "anuga/coordinate_transforms/redfearn.py:194-257"]}
{"id": "C124", "title": "Setting quantities on a region with a tag changes the triangles with this tag", "statement": "`set_tag_region` with any list of `Set_tag_region`, `Add_value_to_region` (with or without average) and `Add_quantities`, for a mesh whose triangles have any tags: the actions are done in the order of the list, whatever the order of tags. Each changes only the quantity it names, and does nothing if no triangle has its tag. Triangles with the tag get the new value: the number; their value plus the number; the mean over all their values plus the number; the sum of both quantities. Other triangles keep their values at vertices if values are set at vertices. If values are set at centroids, other triangles keep the values at centroids only: the quantity becomes constant in every triangle of the mesh.", "quantifier": "any mesh, tags, list of actions and values", "why_tests_cant": "Tests set one or two tags on small meshes. That no triangle with another tag is touched, for any interleaving of tags and any order of actions, is a statement about all meshes and lists.", "anchors": ["anuga/abstract_2d_finite_volumes/tag_region.py:14-157", "anuga/abstract_2d_finite_volumes/generic_domain.py:1061-1092", "anuga/abstract_2d_finite_volumes/pmesh2domain.py:148-164", "anuga/abstract_2d_finite_volumes/quantity.py:855-998"]}
{"id": "C125", "title": "Radar rain: slices in order of time, accumulated rain and volumes that add up", "statement": "`Calibrated_radar_rain` with any radar files, found in any order: the slices are those of the files whose time is not before the start and not after the end asked for, each once, in metres, in order of time and with their times; the accumulated rain is the sum of the slices in each cell; the greatest value is that over all slices (or 0). With different times and equal periods the result does not depend on the order of files. `accumulate_data_stats`: the volume over all times, in all cells or in those of a polygon, is the sum of the volumes of the slices; the area of all cells is that of the box from the first to the last centre, so that volumes are smaller than those of the cells.", "quantifier": "any number of files, values, times, cells and polygons", "why_tests_cant": "Tests read one directory. That sorting keeps slices with their times, for any order of files, and that volumes add up is a statement about all inputs.", "anchors": ["anuga/rain/calibrated_radar_rain.py:45-203", "anuga/rain/raster_time_slice_data.py:135-183"]}
