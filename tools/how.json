{
 "C01": "`_evolve_base` and `update_timestep` are a step machine driven by an arbitrary list of flux-limited timesteps (`Evolve/Model`). The list of yielded times is compared with an independently written list of expected times; induction over the steps. Completion is shown when the raw steps have a positive lower bound.",
 "C02": "Same machine; invariants of one internal step (never beyond the yield or final time, never above the maximum timestep), carried through a run by induction.",
 "C03": "Two consecutive calls of the machine, with the state the code carries over, against one call with the later final time.",
 "C04": "The counter of consecutive small steps and the order as components of the machine; induction over lists of steps.",
 "C05": "`_build_neighbour_structure` with its hash map as an association list; symmetry stated with directed edges between node numbers (`DirEdge`, `Across`).",
 "C06": "Same model: construction fails exactly if a directed edge occurs twice.",
 "C07": "`boundary_dictionary_construct` and `build_boundary_neighbours`: the enumeration is a bijection between tagged segments and numbers, sorted, and independent of the dictionary's order.",
 "C08": "`_average_vertex_values` as a fold over the inverted triangle structure, which is any sorted arrangement of the corners; the sum a node receives is compared with the sum over its corners.",
 "C09": "The loop of `_update`, including the state left behind by an error; the specification is the implicit equation solved for the new value.",
 "C10": "euler, rk2 and rk3 steps with an arbitrary rate function and an arbitrary repair of cells after each update; specification: the published combinations written out.",
 "C11": "The serial and OpenMP flux routines over a mesh of any size, with the marks for edges already done; finite sums regrouped edge by edge. The edge flux is the modelled one, not a parameter.",
 "C12": "The flux integral operator run after each step of the three integrators, over any history of steps, with the volume added by the repair of negative cells recorded separately.",
 "C13": "Distribution step, edge flux, bed slope terms and wall boundary composed: from a lake at rest all updates vanish, for any mesh and bed with dry land.",
 "C14": "Flux function with the state built by `Reflective_boundary`.",
 "C15": "`_protect_new` and the OpenMP loop per triangle, with the reported mass error as a sum.",
 "C16": "Friction coefficient (square root and power as functions with stated properties) composed with C09: momentum keeps direction and shrinks.",
 "C17": "The two-ended filling of the index array as a fold, for any classification of the points.",
 "C18": "Crossing count and on-edge test, compared with an even-odd rule stated without loops; consequences for triangles and rectangles.",
 "C19": "Shoelace sums on vertex lists: any base point, fans, chords, linear maps, translation, rotation and reversal of the list.",
 "C20": "`intersection` with its status codes and the table for collinear segments, against parametric definitions of meeting points.",
 "C21": "Dictionary as association list; each operation is compared with the dense matrix operation.",
 "C22": "The constructor loop; the exact condition (no empty row before a non-empty one) is proved in both directions.",
 "C23": "Python and C loops as recursion on the remaining iterations, with general symmetric positive definite matrices: residual invariants, conjugacy, termination in n steps, meaning of the reported error.",
 "C24": "Conversions between absolute and relative coordinates and between references, and the NetCDF/ASCII round trips, for all point arrays.",
 "C25": "`reconcile_zones` with the state of both objects after return and after raise.",
 "C26": "Boxes and the Python tree as an inductive type; insertion takes the available stack depth; search returns exactly what was inserted and contains the point.",
 "C27": "Tree of triangles: every point in a triangle is found, weights are the barycentric coordinates; convexity argument for the child boxes.",
 "C28": "Rate operator per triangle and as totals over index lists: booked volume equals the change of volume.",
 "C29": "Filling to a level: sort by stage and prefix sums, compared with the defining equation of the level.",
 "C30": "Decision logic of the inlet operator on top of C29, totals over histories.",
 "C31": "Transfer between two disjoint inlets with an arbitrary discharge: what one gains the other loses.",
 "C32": "`searchsorted` as a count; counts telescope to the number of samples.",
 "C33": "Fold over regions in order, with the aliasing of numpy arrays modelled.",
 "C34": "Setters of quantity, stage and elevation: which triangles and nodes change and to which value.",
 "C35": "State machine over histories of calls; the maxima are compared with the maximum over the visited states.",
 "C36": "Wet elements and the position of the highest wet triangle.",
 "C37": "`set_boundary` as state machine over histories of calls, with object identity of the dictionaries.",
 "C38": "Every limiter of quantity.c per triangle: bounds, average kept, unchanged where within bounds.",
 "C39": "Interpolation matrix from the tree of C27 and its product (C22): values of planes, range, blocks, kept matrix.",
 "C40": "Vertex, edge and centroid conversions as linear identities.",
 "C41": "`_gradient`, `_gradient2` and the least squares gradient of quantity.c on values of a plane.",
 "C42": "Both flux routines on the same mesh: equal updates, edge fluxes and timestep.",
 "C43": "Timestep as a minimum over edges, compared with the CFL condition of every wet edge.",
 "C44": "The static call counter over histories of steps; slots of boundary flux sums aligned with substeps.",
 "C45": "Distribution step: stage, depth and velocity at each edge against the range of the triangle and its neighbours.",
 "C46": "Distribution step: mean of edge values is the average; planes are reproduced.",
 "C47": "Parallel friction loops as interleavings of atomic reads and writes of the variables missing from the private clause.",
 "C48": "Both distribution routines on the same input.",
 "C49": "Triangles with two or three boundary edges get constant values (first order) up to 2e-100.",
 "C50": "`__is_inside_triangle` with tolerances against the half plane description of a triangle.",
 "C51": "`adjust_edgeflux_with_weir` with square root and power as functions with stated properties: range, thresholds, direction, bounds.",
 "C52": "`sparse_dok.c`: accumulated entries, ordering and conversion to compressed rows.",
 "C53": "Geospatial_data: sum, clip, sample and split of point sets with their references; drawn random numbers are an argument.",
 "C54": "Any list of rate, inlet and structure operators over any history; the flux step enters through its own balance (C12).",
 "C55": "Both evaluation routes of every boundary class on the same state.",
 "C56": "What each boundary class writes, per class, against the condition it is documented to impose.",
 "C57": "mean, cov, corr, err, norm over the reals; Cauchy–Schwarz.",
 "C58": "`angle`, `anglediff`: uniqueness up to full turns.",
 "C59": "`line_intersect`: exact set of triangles met.",
 "C60": "`Region` constructor: set of triangles for every selection, conflicts refused.",
 "C61": "`polygon_overlap`, same model as C59.",
 "C62": "`Interpolation_function` in time with its running index, over histories of calls.",
 "C63": "Assembly of the fitting system, block by block, shown to be the normal equations of the documented cost.",
 "C64": "Loops of the generators reduced to closed forms; tiling, areas and tags then follow in cell coordinates.",
 "C65": "Stable sorting by processor number: in the sorted list the entries below p come first, so block p of the new numbering is exactly processor p's triangles; the index maps are inverted.",
 "C66": "Induction on the number of layers: a neighbour of an older layer is already in the layers found.",
 "C67": "DirEdge of a local triangle corresponds to DirEdge of the serial one through the injective node map; tags follow from C07.",
 "C68": "Receive and send lists are the same increasing list of shared triangles; writing it puts the owner's value at each of them.",
 "C69": "Composes C65 to C68 with the models of distribution, flux, friction and time stepping. The flux through the edges of a triangle depends on values at most three edges away; by induction over the events, own triangles agree with the serial run and ghosts agree after each exchange.",
 "C70": "Real numbers with real powers and square roots, as the code is written. Specification: the published inlet formulas and the head loss equation; the discharge is shown to be the greatest element of the set they allow.",
 "C71": "discharge_routine with its state (smoothed energy difference and discharge), for an arbitrary discharge function with stated bounds, which the three structures are shown to meet; induction over calls.",
 "C72": "Construction and call of hecras_internal_boundary_function over columns with blanks. Specification: broken lines through points; an invariant of accepted tables, then the cases of the call.",
 "C73": "Constructor and call of pumping_station_function; induction over calls.",
 "C74": "Both discharge routines, the constructor and runs; implicit equation stated independently as the balance of the two levels.",
 "C75": "Assembly of the matrix row by row (with the sort of columns), multiplication, boundary term, solve (with the conjugate gradient model of C23) and the call. Specification: inflow through edges; summation by parts gives symmetry and sign, the largest entry gives the maximum principle.",
 "C76": "Same operator; a sign change of matrix and right hand side is shown not to change the run of the solver, which reduces to C23; a path to the boundary gives definiteness.",
 "C77": "Formulas of the constructor over the reals; the specification uses cross products, distances and signed heights. The incentre is given explicitly; any point further from all edges would give a larger area.",
 "C78": "Flux loop, time step fold, first order extrapolation, the three methods and runs. The update is rewritten as a combination of own and upstream values; the weights are not negative because one side of the flow has a single edge, which is at most half of the perimeter.",
 "C79": "Binary search, index arithmetic, weights and NaN handling of the code on lists; the specification is the bilinear form on the cell that contains the point. The search is shown to find a bracketing cell; cells that share the point give the same value.",
 "C80": "Readers and converters as functions on the parsed header and rows (no text parsing, no NetCDF layer). Both directions of the membership statement for points; index arithmetic for windows and stencils.",
 "C81": "The loops over triangles and edges with the segment intersection and point-in-polygon functions of the Polygon model. The specification is the interval of the line inside each closed triangle; intervals of different triangles have disjoint interiors or are equal, and cover the line, so sums over them telescope.",
 "C82": "The loops over walls, segments and edges, the table of parameters and the check of connectedness, with the state of domain and river wall object. Segments along an edge are described by coordinates along and across; the crest by the nearest point of the segment; gaps by places which are an end of just one edge.",
 "C83": "The search of the starting point and the walk along the dictionary of segments, with a number of rounds. As many boundary edges end at a point as begin there, since sums of antisymmetric functions over all edges of triangles reduce to the boundary; so the walk cannot return to any point but the first. The same reduction gives the area.",
 "C84": "Construction as a function of optional arguments to an error or the triangles and the exchange area, and the call as a function of the time, the rate, the default and the flag. Membership in a polygon is the model of C17; the area within the boundary is related to that of the mesh by C83.",
 "C85": "The loops over triangles, the gradient formula shared with the area Quantity, and the state of a stored series (index, two arrays) with its catch-up loop. Invariant: the arrays are the data at the two times around the index, and the first of these is not later than the reading time.",
 "C86": "The file as lists of times, rows and ranges; a call as a partial function of file, time and state; the loop of evolve as a function of the yields. Invariant over calls: all rows have one entry per time, and the ranges bound them.",
 "C87": "Files of the processors with their maps to global numbers, and the sequence of array assignments in their order. The specification speaks of owners; the lemma is that the last assignment to an entry is made by an owner, and that every entry has one.",
 "C88": "Induction over the files with the triangles seen as triples of corner records, so that numbers do not occur in the statement; the dictionary of points as the list of first occurrences; the two while loops with the position they end at.",
 "C89": "The outline as numbered vertices relative to an origin, segments, regions, holes; the specification is the picture in absolute coordinates, free of numbers. Each adding function is shown to extend the picture; acceptance is characterised function by function, independent of the outline reached.",
 "C90": "Codes as look-ups in the dictionary built by the loop; the removal loop with an invariant on the prefix seen and on the ends of the segments; the edge dictionary by induction on the last segment; then combined with C06 and C07.",
 "C91": "The loops as folds over lists; the index range of each triangle is shown to contain every grid point the test accepts, so an entry is that of the last accepting triangle. The weights are quotients of signed areas, hence the linear interpolant. The block loop by an invariant on the finished prefix. Reading back is C80.",
 "C92": "The array loop is shown to act on each point separately (a state of value, set and ever-missing per point); the point loop is then solved by induction over the pairs. Regions are decided by the library's polygon test, C18 and others.",
 "C93": "Folds over the neighbour list bounded by induction; weights are positive. For rasters the pair of pixels and the place between them are computed from the floor, giving a convex combination; exactness is an identity of polynomials.",
 "C94": "The clean-up is the one of setting the elevation; its node loop is solved by the lemmas of C34. Levels of a node are means, bounded by the bounds of their terms. Runs by induction. numpy's broadcasting of (n,3) with (n,) arrays is modelled by the length of the list.",
 "C95": "Monotonicity of exp and real powers; 1 + x ≤ exp x. Lists are written by the put lemma of C34.",
 "C96": "Invariant of the merge: everything taken lies below the current stage, everything else above, and the sums run over what was taken. The step is then compared with the operator of C30 by the uniqueness of the level. The parts of a region follow from C60: selection depends on one triangle only.",
 "C97": "The table made by the constructor is computed by induction over times and quantities with the interpolation theorems of C39 (the interpolator is passed on, so its invariant goes along); the slot of a call by the theorems of C62; shifts by corner and start are moved through planes, triangles and lines.",
 "C98": "At a stored time the function of C97 gives the stored values whatever was called before; the files written are followed with an invariant over gauges, times and files. The bearing follows from the uniqueness of the angle (C58).",
 "C99": "The neighbour of a selected gauge is the gauge at the next vertex around the polygon; the count of neighbours is right iff exactly one gauge has none. The loop over the sides replaces the value; all sides at the point agree. Time as in C97.",
 "C100": "Every array is a table of a function of time and node, or a fold over the times; the functions are compared with the values held by the file. Largest and furthest values by induction over the list.",
 "C101": "Induction over the files. The distance to the line, squared, times the squared length is the squared cross product, as is that to the foot. Triangles by C18; the first least value by induction.",
 "C102": "Invariant of the stored slots (a result with its code is right for all arguments of its name; or is right for the stored arguments) kept by every operation.",
 "C103": "The flags of the local domain are shown to be one exactly at own triangles; with C65 the files are the pieces of the mesh in the sense of C87; with C69 the values at own triangles are the serial ones.",
 "C104": "Real analysis: the coefficients of the series are differentiated along the meridian and compared with the equations of Cauchy and Riemann (Spec); the meridian distance by bounds on the binomial series and the mean value theorem; growth of eastings by bounds on the powers of the relative longitude; zones by floors.",
 "C105": "Invariant of the calls: counter is the number of calls after the start modulo the frequency and each array is the greatest element of the set of collected values; induction on the list of calls. Several processors through C65.",
 "C106": "Each row is shown to be read back from its line; counts of rows make the reader stop where the writer did; induction on the rows. A file cut off: adding lines at the end does not change what a reader has read, so a shorter file which is read would leave lines over.",
 "C107": "Each variable is followed from the dictionary to the file and back; tags padded with blanks trim to the same text because trimming is unique; the two forms are compared through C106.",
 "C108": "Processors are programs which send and receive; steps commute (diamond), so one complete run in which every message is handed over directly decides all executions. Such a run is put together from phases: reports to a master, announcements, sums over an inlet (C96_averages); the master's numbers are those of Culvert.routine and Ops.StructOp.call.",
 "C109": "Transition system in which reading a buffer is a step of its own, at any time after the send. An invariant says what each buffer, message and memory holds; progress follows from the processor with the fewest exchanges; steps are counted by a measure. The order of exchanges and collective operations is a list of events per setting, and C109_order says exactly which settings are safe; C109_race builds the wrong execution for every pair of processors.",
 "C110": "The data block is specified as the list of records of all steps; the walk through it is proved by induction on the steps with the number of records passed as invariant (fillLoop_ok). Sources are added by induction; least first and greatest last step give the window.",
 "C111": "The returned file is computed from what the three reads give; C111_stage puts it together with C110_read and C110_times.",
 "C112": "Maxima by induction over times and files; `interp1d` is proved to be the broken line through the points; the dictionary of probabilities is proved to hold for each probability the structures that have it, and draws without repetition give as many as asked for (collapse_spec).",
 "C113": "A loaded table is proved to have a normal form (titles zipped with columns), which setting columns keeps and from which saving and reading again are computed; for polygons an invariant of the loop over rows says which ids are past, current and what has been collected.",
 "C114": "Binary search is proved to find the first entry not below a value; covering follows for ascending entries and is carried over to descending ones by turning indices round.",
 "C115": "The converted file is computed from what the lines say (convert_iff) and shown to meet the hypotheses of C97_series, whose conclusion is then turned back into times and values of lines.",
 "C116": "Reading is characterised by positions of titles, merging by an equivalence: output if and only if keys agree, with every entry of the output given.",
 "C117": "Greatest values by induction over the files (`fold_greatest`), stated as `IsGreatest` of the set of values that occur at a place; acceptance is an equivalence with conditions on the files.",
 "C118": "The search for the nearest point is characterised with its ties; the walk by induction over the depth of recursion.",
 "C119": "The loop over lines is computed for files given as lists of polygons (C119_read); C119_sides says what the segments are without formulas; C119_taken is the converse.",
 "C120": "Common times are the intersection on every processor, so that the sorted lists are equal (sorted lists without repetitions and with the same members); the rounds then stop at the first time all can load, which is the greatest.",
 "C121": "Bounds of rounding to even by cases; the first row or column is at most the lower, the last one at least the upper line of the cell around any place between the ends; nearness by comparing squares, without roots; sides by list positions modulo the length.",
 "C122": "Induction over the lines in front of a surface (passed over), over its lines (points are collected) and over the sections.",
 "C123": "Position k of the flattened values is row k / ncols and column k % ncols (induction over rows); the list of places has the same shape; values and places taken at the same positions.",
 "C124": "The dictionary of tags, built by appending, has every tag once with its triangles in order (induction over the tags from the end); so each action meets its tag once. Assignments one after the other at different triangles equal a pointwise change.",
 "C125": "Sorting permutes the files (so sums and members stay) and is unique for different times; accumulation by induction over the files; sums over cells and slices exchanged."
}