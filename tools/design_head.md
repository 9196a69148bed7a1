# Formal model of anuga_core: design

All Lean sources live in `lean/Verif/`.  Each area `A` has

* `Verif/A/Model.lean` – transcription of the code, every definition citing file and lines in `/repo`, the simplifications at the top;
* `Verif/A/Spec.lean` – the independent vocabulary in which properties are stated;
* `Verif/A/Lemmas.lean` and the like – helper lemmas;
* `Verif/A/Props*.lean` – the property theorems (the names listed in `MANIFEST.json`) with examples showing that their hypotheses
  are met by concrete non-trivial cases.

`tools/mk_manifest.py` regenerates `MANIFEST.json`, `lean/Verif.lean` and this file from the sources, `tools/notes.json`,
`tools/how.json` and `tools/design_*.md`.  `seeded/LOG.jsonl` records the wrong programs on which the theorems were tried.

How to read that log.  `theorems_failed` lists the theorems whose proofs no longer check after the edit.  This shows that the proof
depends on what was edited; it does not by itself show that the statement became false.  Entries whose edit is harmless say so.
For the runs all files of an area are put into one file.  In Compose, Erode, PlotU, Interp and Check that file failed even without an
edit, because a tactic found its goal already closed, and the first three and Interp were logged before this was noticed: theorems
were listed that had failed without the edit, and some edits counted as caught that had survived.  The proofs were made robust, and
today's unedited files of every area pass.  Edits for which only such theorems were listed were run again: eleven had survived, nine
of them led to new theorems (C94_plain_level, C94_plain_continuous, C95_cut_off, C100_max_bed, C101_max_again), two still survive.
Entries with a remark that begins with CORRECTION were not run again.  Unedited files were not tried at the time of the earlier runs.

## Trusted base

* Lean 4.33.0's kernel, and Mathlib as installed.
* Axioms: every theorem depends at most on `propext`, `Classical.choice`, `Quot.sound`.  No own axioms, no `sorry`, no
  `native_decide`, no `bv_decide`.  Concrete examples are evaluated by the kernel (`decide +kernel`).
* The transcription from Python/C/C++/Cython to Lean is by hand and not machine checked.  Each definition cites its source lines.

## Modelling decisions that apply everywhere

* **Floating point.** Doubles are elements of an arbitrary linearly ordered field `K` (so theorems hold for ℚ and ℝ), or reals where
  the code needs `arccos` or real powers; `sqrt` and `pow` are parameters with stated properties, or `Real.sqrt`.  Round-off, NaN,
  infinities and overflow are not modelled unless a module says so: the theorems are about the algorithm, not its round-off.
* **Exceptions** are values.  Where Lean's `x / 0 = 0` or a list default could be reached, the error branch is modelled or the theorem
  carries the guard the code checks.
* **Arrays** are lists or functions; mutation is state passing; aliasing is modelled where it can be observed (C33, C37).
* **Uninitialised memory** (`num.empty`, `malloc`) is an arbitrary argument (C22, C52, C63, C64).
* **Unspecified orders** (argsort ties, sets, dictionaries) are arbitrary permutations.
* **Parallel loops.** The OpenMP flux, distribution, friction and protection routines are modelled and compared with the serial ones
  (C15, C42, C47, C48); where the loop is free of races its iterations are run in order, races are modelled as interleavings (C47) or
  as reads of a neighbour's old or new value (C48).

## What is modelled, and what is not

| area | source |
|---|---|
| Bdry | `shallow_water/boundaries.py`, `generic_boundary_conditions.py`, `set_boundary`, `update_boundary` |
| CG, Sparse | `utilities/cg_solve.py`, `cg.c`, `sparse.py`, `sparse.c`, `sparse_dok.c` |
| Evolve | evolve loop and timestep control of `generic_domain.py` |
| Extrap, Flux, Friction | `sw_domain_orig.c`, `sw_domain_openmp.c`: distribution, fluxes, weirs, protection, friction |
| Factory | `mesh_factory.py`, `mesh_factory_ext.pyx`: rectangular, cross and periodic meshes |
| Par | `parallel/distribute_mesh.py`, `sequential_distribute.py`, `parallel_generic_communications.py`: partition, ghost layers, local meshes, exchange |
| ParRun | whole runs on several processors: `parallel_shallow_water.py`, order of step, exchange and yield in `evolve`, composed from Par, Extrap, Flux, Friction, Quantity |
| Culvert, Gate | `structures/boyd_box_operator.py`, `boyd_pipe_operator.py`, `weir_orifice_trapezoid_operator.py`, `internal_boundary_operator.py`, `internal_boundary_functions.py` |
| Kv | `operators/kinematic_viscosity_operator.py`, `kinematic_viscosity_operator.c`, `elliptic_operator.py` |
| Geom, Adv | `abstract_2d_finite_volumes/general_mesh.py` (geometry), `advection/advection.c`, `advection/advection.py`, time stepping in `generic_domain.py` |
| Raster | `fit_interpolate/interpolate2d.py`, `file_conversion/grd2array.py`, `asc2dem.py`, `dem2array.py`, `dem2pts.py`, `dem2dem.py` |
| Cross | `abstract_2d_finite_volumes/neighbour_mesh.py` (intersecting segments), `shallow_water/forcing.py` (Cross_section), `shallow_water/sww_interrogate.py` (cross sections) |
| Wall | `structures/riverwall.py` |
| Loop | `abstract_2d_finite_volumes/neighbour_mesh.py` (boundary polygon), `utilities/numerical_tools.py` (angle) |
| Forcing | `shallow_water/forcing.py` (rain, inflow, wind, pressure, stored series) |
| Sww | `file/sww.py` (writing, reading back), `utilities/sww_merge.py`, output part of `shallow_water_domain.evolve` |
| Gen | `pmesh/mesh_interface.py`, outline and tag functions of `pmesh/mesh.py`, `mesh_engine.py` (repeated points), `pmesh2domain*` |
| Dem | `file_conversion/sww2dem.py`, `calc_grid_values.c` |
| Compose | `utilities/quantity_setting_functions.py`, `utilities/spatialInputUtil.py` (raster values) |
| Erode | `operators/erosion_operators.py`, `sanddune_erosion_operator.py`, `mannings_operator.py`, `set_friction_operators.py`, `set_w_uh_vh_operator.py` |
| ParInlet | `parallel/parallel_inlet.py`, `parallel_inlet_operator.py`, `parallel_operator_factory.py` (inlets, `allocate_inlet_procs`) |
| FileFn | `abstract_2d_finite_volumes/file_function.py`, `fit_interpolate/interpolate.py` (`Interpolation_function`), `File_boundary`, start times of the domain |
| Gauge | `abstract_2d_finite_volumes/gauge.py` (`sww2csv_gauges`), `util.py` (`calc_bearing`), `file_utils.py` (`get_all_swwfiles`), `interpolate.py` (`interpolate_sww2csv`) |
| Sts | `file_function.py` (gauges on a boundary polygon), `geometry/polygon.py` and `polygon.c` (`interpolate_polyline`) |
| PlotU | `utilities/plot_utils.py` (reading files at nodes and centroids, files put together, areas, volumes, transects, triangles) |
| Caching | `caching/caching.py` (hashing, comparison, lookup, storing, clearing) |
| ParFile | result files of a parallel run: `generic_domain.py` (`tri_full_flag`), `sww.py` (`store_connectivity`, `store_parallel_data`), joined to Par, ParRun and Sww |
| Proj | `coordinate_transforms/redfearn.py`, zones of `lat_long_UTM_conversion.py` |
| MaxOps | `operators/collect_max_quantities_operator.py`, `collect_max_stage_operator.py`, `Quantity.maximum`, the place of the operators in the time loop |
| MeshFile | `load_mesh/loadASCII.py` (`.tsh` and `.msh` files), `system_tools.py` (`string_to_char`), `geo_reference.py` (ASCII and NetCDF), `pmesh/mesh.py` (`Mesh2IODict`, `IOOutline2Mesh`) |
| ParStruct | `parallel/parallel_structure_operator.py`, `parallel_boyd_box_operator.py`, message passing between processors (`utilities/parallel_abstraction.py`) |
| ParGhost | `parallel/parallel_generic_communications.py` (exchange with messages that do not block, `Allreduce`), order of exchanges in `evolve` |
| Mux | `file/urs.c`, `file/urs_ext.pyx`, `file/mux.py`, `file_conversion/urs2sts.py`, `file/sts.py` (`store_header`, `create_sts_boundary`) |
| Damage | `damage_modelling/inundation_damage.py` |
| Csv | `file/csv_file.py`, `damage_modelling/exposure.py` (columns and saving), `utilities/csv_tools.py` |
| Cut | `file_conversion/file_conversion.py` (`get_min_max_indices`) |
| TimeFile | `file_conversion/file_conversion.py` (`timefile2netcdf`), with FileFn |
| Lib | `lib/maxasc.py`, `lib/order_boundary.py` |
| Ungen | `file/ungenerate.py` |
| Check | `shallow_water/checkpoint.py` |
| Urs | `file/urs.py` (choice of points; not `Read_urs`) |
| Sdf | `file_conversion/sdf2pts.py` (not the rest of the header) |
| Llasc | `file_conversion/llasc2pts.py`, `convert_from_latlon_to_utm` of `coordinate_transforms/redfearn.py` |
| TagRegion | `abstract_2d_finite_volumes/tag_region.py`, `set_tag_region` of `generic_domain.py`, `build_tagged_elements_dictionary` of `pmesh2domain.py` |
| Radar | `rain/calibrated_radar_rain.py`, `rain/raster_time_slice_data.py` (not plots and coordinates) |
| Fit, Interp, Quad | `fit_interpolate/`, `fitsmooth.c`, `quad_tree.c`, `geometry/quad.py`, `aabb.py` |
| GeoRef | `geo_reference.py`, parts of `geospatial_data.py` |
| Mesh, NodeAvg, Quantity | `neighbour_table.cpp`, `neighbour_mesh.py`, `general_mesh.py` (inverted structure), `quantity.c` |
| Ops | rate, inlet and structure operators, volume report |
| Polygon, PolyFun, Region | `geometry/polygon.c`, `polygon.py`, `polygon_function.py`, `region.py` |
| SetQ | setters, maximum collector, inundation queries |
| Tools | `numerical_tools.py`, histogram reports |
@@MORE@@

Not modelled: Python/NumPy runtime and Cython glue, CUDA and OpenACC variants, the NetCDF library and the remaining file formats, MPI transport and the
choice of the partition (Metis, Morton), caching, plotting, logging, mesh generation by triangle, damage and tsunami source models.

## Properties

For each property: what is modelled and how it is proved; then the limits.

