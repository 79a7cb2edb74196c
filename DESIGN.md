# Formal model of FRE-NCtools: design

Source: `/repo` (NOAA-GFDL/FRE-NCtools, pinned). The code was only read, never built or run.
The model is Lean 4 (4.33.0); everything under `lean/Verif`.

## Layout of the project

* `Verif/Model/*.lean`: the code, function by function, as total computable functions. Every
  definition cites file and lines.
* `Verif/Spec/*.lean`: small specifications that do not mention the model.
* `Verif/Lemmas/*.lean`: helper lemmas.
* `Verif/Props/*.lean`: the property theorems (names start with the property id) and, beside each,
  a concrete case meeting its hypotheses.

## Trusted base

* Lean's kernel, and the axioms `propext`, `Classical.choice`, `Quot.sound` (no others; no `sorry`,
  `native_decide`, `bv_decide`, own axioms).
* The reading of the C/Fortran sources recorded in the definitions' comments.

## General modelling decisions

* C `int`, `long`, `size_t` are unbounded integers (`Nat`/`Int`) unless a property is about a fixed
  width (C14: 8-bit counter). Integer overflow is therefore outside the model.
* `double`/`float` are an exact ordered field (`Rat`, or any linearly ordered field) unless a
  property is about rounding (C44). Rounding error is outside the model otherwise.
* Arrays are functions or lists; a read or write outside an array is an explicit failure
  (`none`/error constructor), never a default value, in the places where a property is about it.
* Calls that end the program (`mpp_error`, `exit`) are an error result.
* NetCDF is modelled by its contract: a file is a set of dimensions, variables and values; a write
  to a hyperslab followed by a read gives the written values. The netCDF library, the file system
  and MPI transport are not modelled beyond that contract.

## Per property

| id | what is modelled | how it is proved |
|----|------------------|------------------|
| C01-C03 | `mpp_compute_extent` (both copies) as a loop over a state with the mirrored tables | loop invariant for each half, closed form of the state |
| C04 | `mpp_define_layout` from the rounded guess on | induction on the decreasing search |
| C05 | `mpp_define_domain2d` owner map | from C01 for both axes |
| C06 | root/worker message protocol with per-channel FIFO queues, staggered extents | invariant over all schedules; pointwise value of the assembled array |
| C07 | `get_scatter_extents_iolayout` | from C01 |
| C08 | `hyperslabcopy`, tile definition | induction on the copy loops, offset arithmetic |
| C09 | composition of C08 and C10 models | uses the partition of C01/C07 |
| C10-C12, C15 | `process_vars` buffer writes, `flush_decomp`, skip rules, block loop of `process_file` | fold invariants over the list of files and records |
| C13, C14 | option/loop arithmetic of `main` | negation by witness plus the part that holds |
| C16, C17 | `get_scatter_dims`, `strlist.c` | list induction; negation by witness for order independence |
| C18 | strides + odometer of `nfu_compress.F90` | mixed-radix induction |
| C19-C21 | `combine-ncc`, `scatter-ncc` | merge-sort correctness incl. the overlaid arrays; permutation reasoning |
| C22 | `decompress-ncc` file loop | negation by witness with ocean value; positive theorem without |
| C23-C27 | interpolation routines over `Rat` | ordered-field reasoning |
| C28, C29 | the passes of `clip` and `clip_2dx2d` over an ordered field | invariant over the vertex scan; a line integral splits along a line; negation by witness for the tolerance |
| C30, C31 | block split, threads entering cells in shared arrays under any schedule, capacity checks of `create_xgrid_*`; what two cells have in common is a parameter | invariant over all interleavings; sublists per target cell; negation by witness |
| C32 | `pimod`, `fix_lon` (all its stages, on vertex lists), `lon_in_range` | recursion on the list; lift of a narrow cell to the line; negation by witness at the ends of the range |
| C33 | `insert_vtx`, `delete_vtx` as loops on arrays | loop invariants |
| C34 | `invert_matrix_3x3`, `mult`, `intersect_tri_with_line` over an ordered field | algebra, compared with Mathlib matrices |
| C35 | rotation matrix, `rotate_point`, `rotate_poly` with `latlon2xyz`, `xyz2latlon` over the reals | algebra and the argument of complex numbers |
| C36 | `tokenize` | scan invariant |
| C37 | `get_contact_index`, `get_align_contact` | scan invariants |
| C38 | `check_ocean_mask`, `check_land_mask` | halo field through the loops, mirrored halo as an involution on each data domain, C01; partial, see findings |
| C39 | `update_cubic_halo` | surface of a cube with integer points, case analysis over faces |
| C40 | `time_average.f90` accumulation | fold invariants; negation by witness |
| C41 | node and intersection pool of `mosaic_util.c` | refinement of an abstract machine over all histories of calls |
| C42 | `compute_grid_bound` and the spline behind it | invariants of the loops over an ordered field; partial, see findings |
| C43 | `is-compressed` | list reasoning about dimensions and attributes |
| C44 | `mpp_compute_extent` with rounding abstracted to a relative error bound | arithmetic over the reals |
| C45 | centroids of `setup_conserve_interp`, order 2 loop | grouping of a sum by source cell |
| C46 | monotonic branch of `do_scalar_conserve_interp` | scaling lemma, fold invariants; negation by witness |
| C47 | writing and reading of remap files | list reasoning |
| C48 | `poly_area`, `poly_area_no_adjust`, `box_area` over the reals | mean value of the sine, triangles of a convex polygon, C28 |
| C49 | `line_intersect_2D_3D`, `samePoint` over the reals | uniqueness of the solution of C34; negation by witness for opposite arcs and for the direction flag |
| C50 | contact strings of `make_solo_mosaic`, `read_mosaic_contact` | decimal round trip, C36, arithmetic |
| C51 | `compute_grid_bound_legacy`, `get_legacy_grid_size` over the reals | loop invariants; negation by witness for decreasing bounds and stretching |
| C52 | `inq_compressed_dim`, `inq_compressed_var` | recursion on the attribute text, list reasoning |
| C53 | `qsort_index` (loops with a step limit shown to be enough) | invariant of the partition, induction on the range |
| C54 | halo update, `calc_max_subA`, `calc_tocell` of `river_regrid.c` | naturality of the halo copy, C39 for the cube, scan invariants over the 8 neighbours |
| C55 | `calc_river_data`, `check_river_data` | well-founded network (C54), invariant of each pass |
| C56 | accumulation loop of `calc_river_data` | sum over the upstream set by descending travel; inflow across sides is found exactly once |
| C57 | `sort_basin` | C53 and the rank permutation |
| C58 | `filter_topo` of `make-topog/topog.c` | induction over the passes; the weights as a convex combination |
| C59 | `process_topo` with all it calls, one process | "depth fits level" as invariant of each step; it is closed under min and max because levels are monotone in depth |
| C60 | `remove_isolated_cells` in place, halo of `process_topo` | the least level at each corner is an invariant of the sweep, so the result depends on the field before the sweep only; the later steps are monotone in the level |
| C61 | `restrict_partial_cells`, `enforce_min_depth` | case analysis per cell under the invariant of C59 |
| C62 | `compute_pres_full`, `set_up_input_mask` of plevel | the mean is the identric mean, bounded by `log x < x - 1`; induction over levels |
| C63 | `pres_interp_init` (position), `pres_interp`, `mask_data` | specification of the search, convex combination |
| C64 | `compute_height`, `temp_extrap`, `q_extrap`, height part of `pres_interp_init`, `moisture_convert.F90` | algebra over the reals, induction from the surface up |
| C65 | sea level pressure loop of `interp_field_setup` | laws of real powers |
| C66 | the call of `pres_interp_init` for half levels | C63 with the `kbot` passed by the code |
| C67 | `process_data` of runoff_regrid, one time level | invariant of the in-place loop: targets are ocean and never moved |
| C68 | `nearest`, `distance` | invariant of the search; chord length as a function of the angle |
| C69 | row search of make_coupler_mosaic for atmosphere cells | the tests of the search imply each other; concatenation over processes |
| C70 | row search for land and wave cells against the ocean | same, where a point of the row lies in the band |
| C71 | exchange cells of one atmosphere cell, `main` 1410-1742; clipping by contract (`Spec.Tile.Pieces`) | sums over pieces, bounds on what each threshold drops |
| C72 | centroid sums 1868-2034 | exchange of sums |
| C73 | the row added in the south 852-891, 945-971, and the indices written | arithmetic of indices |
| C74 | masks and the check 1786-1841, 2057-2117, 3812-3819 | C71 summed over atmosphere cells |
| C75 | areas, masks and exchange cells of make_quick_mosaic 289-664 | sums with one non-zero element |
| C76 | `get_nest_contact` | invariant over the contacts |
| C77 | weights of `setup_bilinear_interp`, `do_c2l_interp`, `do_vector_bilinear_interp` for one point (Model/Bilinear) | trigonometric identity for the distance to a side, then convexity |
| C78 | `redu2x`, `do_latlon_coarsening` (Model/Bilinear) | convexity and sums for one step, induction on the number of steps |
| C79 | `a2b_ord2`, `get_edge`, `grad_c2l`, loop over levels (Model/Gradient) | case analysis over the edges, Green's theorem for one cell |
| C80 | `do_extrapolate`, `fill_boundaries` (Model/Extrapolate) | invariants of the relaxation, analysis of its last pass |
| C81 | edge copies and supergrid of `create_gnomonic_cubic_grid` (Model/CubeGrid) | every assignment as a list of index pairs; fold over the list compared with places on the cube (Spec/Cube) |
| C82 | `dx`, `dy` of the same (Model/CubeGrid), of nests (Model/NestLength) | the same, with two arrays |
| C83 | `gnomonic_ed`, `symm_ed`, `mirror_grid` (Model/Gnomonic) | closed form of the first tile by trigonometry, the other tiles as signed permutations; independent specification by projection of a cube (Spec/Gnomonic) |
| C84 | `direct_transform`, `cube_transform` (Model/CubeGrid) | half-angle formulas; the rotation as a matrix |
| C85 | `setup_aligned_nest`, `spherical_linear_interpolation` (Model/Nest) | spherical interpolation as division of an arc (Spec/Nest); induction-free, point by point |
| C86 | global refinement: `setup_aligned_nest` on each tile (Model/Nest) | interpolation along a line does not depend on its direction; places on the cube as in C81 |
| C87 | make_land_domain: areas per cell, tile counts, packed output (Model/LandDomain) | sums over exchange cells; file selection by `strstr` (Model/CString) |
| C88 | make_regional_mosaic: tile from the name, rounding, cutting (Model/Regional) | properties of `strstr` and decimal digits, floor arithmetic |
| C89 | `get_land_tile_info` (Model/RemapLand) | loop invariant: after n positions the arrays hold the tiles of the first n entries |
| C90 | `full_search_nearest`, `search_nearest_sface` (Model/RemapLand) | loop invariant of the minimum search |
| C91 | destination tiles in `main` of remap_land (Model/RemapDest) | flat arrays compared with the list of tiles of each cell (Spec/RemapLand), induction on cells |
| C92 | `compress_int_data`, `compress_double_data`, `tile_index` (Model/RemapDest) | the gathered parts as one filtered list, induction on the processes |
| C93 | `compute_dst_coho_idx`, its size, binary search, random quick sort, gathering (Model/RemapCohort) | invariant of `partition`, induction on the recursion depth for any random numbers; the result is characterised by its elements and its order |
| C94 | `set_regular_lonlat_grid`, `set_f_plane_grid`, `create_simple_cartesian_grid` (Model/LonLatGrid) | loops as lists of index pairs; areas by C34; telescoping sums |
| C95 | `create_tripolar_grid`, `tp_trans`, `bipolar_dist`, `spherical_dist` (Model/Tripolar) | image of a tilted sphere under a scaled stereographic projection (Spec/Tripolar); invariant over the columns for the branch of the longitude; scale factor from chord lengths |
| C96 | `create_spectral_grid`, Gaussian latitudes (Model/LonLatGrid) | Legendre recursion and derivative by induction on the degree; loop of Newton's method for any step; telescoping sums |
| C97 | list_ncvars.f90, list_ncvars.sh (Model/ListVars); memory before the arrays is a parameter | filter equality by induction on the variables; negations with two contents of memory |
| C98 | ncexists.c (Model/ListVars); getopt by contract | last-occurrence lemma for the loop over options, then decision logic |
| C99 | combine_restarts (Model/CombineRestarts); names as lists of characters, grep patterns as functions; the programs called are arbitrary | invariant over the loop on sets; negations by evaluation |
| C100 | iceberg_comb.sh (Model/RestartScripts); NetCDF operators by contract | decision logic for lists of any length; concatenation by induction |
| C101 | plevel.sh and its namelist file (Model/RestartScripts) | induction over histories of calls |
| C102 | following rivers in cp_river_vars and rmv_parallel_rivers (Model/Hydrog) | one river by induction over its path, all rivers by induction over the cells, against the sum over all cells upstream; rivers that never end by induction over the steps |
| C103 | halos, choice of directions and iterations of rmv_parallel_rivers (Model/Hydrog) | the halo of a neighbour is the cell to which a river flows; areas grow along every old and new river, so there is no circle; then C102 and C104 for the new network, and induction over iterations |
| C104 | basins of cp_river_vars (Model/Hydrog) | the sort is a permutation in order, outlets have different numbers, search in the sorted list |
| C105 | find_crossing_rivers and the correction (Model/HydrogCross) | pairs found are pairs that cross; a river crosses one other at most, so corrections do not touch each other; areas still grow along rivers |
| C106 | the loops of split_ncvars.pl over files and variables (Model/SplitVars); NCO by contract | one variable, then induction over variables and files with the content of the output directory as state |
| C107 | the same with an arbitrary pattern of failing calls | invariant: status 0 means that all calls so far succeeded and every output extends the earlier one |
| C108 | the searches in the header, the lists of variables, the single file (Model/SplitVars) | membership in the lists against an inductive description of what belongs to a variable |
| C109 | cleanup_dim_atts and ncatted (Model/SplitVars) | effect of the commands on one attribute, groups of commands that touch different attributes |
| C110 | copies from the archive (Model/SplitVars) | induction over files, also for runs that stop |
| C111 | the ocean supergrid of transfer_to_mosaic_grid (Model/TransferMosaic), arrays as memory with flat indices | each place is written in one turn of the loops: rule for loops that write a place once, then arithmetic of flat indices |
| C112 | contacts of the three mosaics (Model/TransferMosaic) | compared with the contact given by the specification of C50 for every size |
| C113 | interleaved loops for atmosphere, land and depth (Model/TransferMosaic) | the same rule with the first row or column as invariant |
| C114 | exchange grid files (Model/TransferMosaic) | cell by cell; induction for the total |
| C115 | the table of files and variables of mpp_io.c (Model/MppIo), files as lists of variables, NetCDF by contract | invariant over all histories of calls: each entry of the table agrees with the file; a second invariant for bounds and uniqueness of entries |
| C116 | the global `in_format` (Model/MppIo) | induction over the calls after the last opening for reading |
| C117 | mpp_set_deflation (Model/MppIo) | invariant of the loop over the output variables, on top of the invariant of C115 (the number in the table is the NetCDF id) |
| C118 | `setup_boundary`, `update_halo`, `init_halo` (Model/FregridHalo); tiles glued along edges (Spec/FregridHalo), contacts by C50 | copies as a list of steps whose sources are never targets; case analysis of pairs of sides for oriented contacts; cubed sphere and tripolar grid of every size as instances |
| C119 | `do_vector_conserve_interp` (Model/VectorRemap) over an ordered field | sums over the filtered exchange grid, rotation forth and back, Cauchy's inequality for the length |
| C120 | sampling of the supergrid in `get_input_grid`, `get_output_grid_from_mosaic` (Model/FregridInput) | loops as writes to distinct places; composition with C118 |
| C121 | `poly_ctrlat`, `poly_ctrlon`, `box_ctrlat`, `box_ctrlon` (Model/PolyCentroid) over the reals | antiderivative of the integrand, line integrals as interval integrals, additivity with C28, monotone integrand on triangles as in C48 |
| C122 | search of `setup_bilinear_interp`, `get_closest_index`, `sort_index`, `get_index` (Model/BilinearSearch) | cosine inequality turns the angle test into signs of determinants; invariant over the loops; Pluecker relations for opposite sectors |
| C123 | rows searched in `setup_conserve_interp` and its GPU version (Model/RowRange) | specification of the scan; rows outside have no close cell; slicing commutes with the search of Model/XGrid; witnesses for the GPU version |
| C124 | `get_upbound_nxcells_2dx2d_gpu`, `create_xgrid_2dx2d_order1_gpu`, `copy_data_to_interp_on_device_gpu` (Model/GpuXgrid) | invariant over schedules of iterations (each writes into its own section), then the list as a flatMap; compared with C123 |
| C125 | `do_scalar_conserve_interp_gpu`, `get_input_area_weight`, `interp_data_order1/2`, centroids of `create_xgrid_2dx2d_order2_gpu` (Model/GpuConserve) | accesses commute, so every order gives the fold of Model/Conserve; witnesses for the target grid option |
| C126 | `clip_2dx2d_great_circle`, `insertIntersect`, `addIntersect`, `setInbound`, `getFirstInbound`, `addEnd` with the geometry as parameters (Model/GreatCircleClip) | invariant of the loops over pairs of sides (vertices in order, sorted runs between them); walk by induction with a predicate of the visited nodes; count of nodes; squares in the plane as an example |
| C127 | `create_grid_from_file` with its five readers and the text file, sizes and places of the tiles in make_hgrid.c (Model/GridFromFile) | places of the loops by parity of row and column; each reader gives the corners; Lambert's projection and its inverse over the reals; rows loop by induction |
| C128 | `fill_cubic_grid_halo` and its calls (Model/HgridHalo) | value at each place of the framed array; compared with the contacts of the cubed sphere (Spec/FregridHalo) for each side |
| C129 | axes of fields in `get_input_metadata` and of the output in `set_output_metadata` (Model/FregridMeta) | invariant of the list of axes over dimensions and fields: names are distinct, old places stay, each axis is the part of a dimension that is asked for |
| C130 | main loop of fregrid.c with places and sizes of `get_input_data` and `write_field_data` (Model/FregridDrive) | list of calls as nested ranges; each place written occurs once and comes from its place; flags of dimensions by cases |
| C131 | unpacking and packing in `get_input_data` and `write_field_data` (Model/PackedData) | algebra over an ordered field with floor, by cases of attributes |
| C132 | `parse_string`, attributes in `get_input_metadata`, `opcode` in main (Model/FieldAtts) | round trip of entries through text by induction over entries; decision logic |
| C133 | `great_circle_area`, `spherical_angle`, `spherical_excess_area`, `insidePolygon`, `get_grid_great_circle_area`, test for convex cells (Model/GreatCircleArea) | angles of `InnerProductGeometry` between normals; additivity of angles of plane vectors gives cutting by induction over vertices; a triangle has an excess by the triangle inequality of angles; full turn by induction over the vertices |
| C134 | `set_remap_file` with reading and writing of remap files as changes of a disk (Model/RemapRuns) | state machine over runs; invariant: each file comes from an earlier run whose files are all there; kill points as prefixes of the changes |
| C135 | `get_output_grid_by_size`, `get_output_vgrid`, axes of `set_output_metadata` (Model/OutputAxes) | algebra over an ordered field; parts of processes by C01 |
| C136 | main of make_remap_file (Model/MakeRemap), read with `readRemap` and used by `scalarInterp` of Model/Conserve | positions of the loops as a list without repetition; sums over permutations; C27 for the result of fregrid |
| C137 | timavg.sh with getopts, word splitting, sed and tr, and the reading of the namelist by time_average (Model/TimavgScript) | round trip: options through getopts, file names through text and back; errors of the namelist by order of its objects |
| C138 | getmnsopts with getopt_long, names of the output files (Model/ScatterOptions), driver of mppnccombine (Model/CombineDriver) | options through getopt_long and back; value of decimal texts; induction over the loops of the driver |
| C139 | create_realistic_topog up to the filter, conserve_interp (Model/RealTopog) | window of rows by a fold over the bounds; sums over the exchange cells of one target cell as sums over all source cells |
| C140 | create_rectangular_topog, create_bowl_topog, create_gaussian_topog, create_box_channel_topog and the calls in main (Model/TopogShapes) | folds of minimum and maximum as extents; bounds of exponentials; rows written by a loop |
| C141 | set_depth and create_idealized_topog (Model/IdealTopog), nearest_index of C23 | induction over the rows with the ends as invariant; rounding within 1/2 and an integer between integers; invariant of depths over the list of trapezoids |
| C142 | create_dome_topog with the centres of the cells (Model/DomeTopog) | the lookup as a fold with the last centre below as invariant; linear inequalities |
| C143 | options, checks, loop over the tiles and definitions in main of make_topog (Model/TopogDriver) | decision logic as an equivalence; induction over the tiles; injectivity of decimal numbers for the names |
| C144 | the copy of argv in twelve programs and fregrid, print_provenance_gv_gca and get_great_circle_algorithm (Model/Provenance) | induction over the words; splitOn as inverse of intercalate |
| C145 | main of make_vgrid: options, lists, checks, file (Model/VgridMain), on top of the grids of C42 and C51 | round trip of the lists through strtok; composition with C42, C51, C138 and C144 |
| C146 | get_boundary_type on the mosaic which make_solo_mosaic writes for one tile (Model/BoundaryType), on top of the contacts of C36, C37 and the text of C50 | composition: contacts found, written, read, classified; cases of the three pairs of sides |
| C147 | create_conformal_cubic_grid.c: map of the square by the series, symmetric quadrant, mirror images, permutation (Model/ConformalGrid) | sides of the face lie in the planes of the cube for every positive value of the series; symmetry of the map; case analysis over pairs of tiles |
| C148 | calc_fvgrid, and where make_hgrid reads its arrays (Model/ConformalGrid) | mirror images keep arcs and angles; loop invariants; reflection of sums |
| C149 | calc_rotation_angle, calc_rotation_angle2 (Model/RotationAngle) | the point read across a side has the same place on the cube (case analysis over tiles); arguments of complex numbers; arc tangent is increasing |
| C150 | get_file_path, use in fregrid_util.c, get_file_dir_and_name (Model/FilePath) | lists of characters; parts of a path before and after the last slash |
| C151 | horiz_interp of cr_lake_files with bilinear weights, indp (Model/LakeInterp) | search by induction; weights as real numbers; memory of the output as an argument |
| C152 | masks of cr_lake_files after the interpolation (Model/LakeCells) | decision logic of one cell |
| C153 | affinity.c and its use in fregrid.c (Model/Affinity) | masks as functions, loops by induction; sched_setaffinity by contract |
| C154 | environment variable NC_BLKSZ in mpp_open (Model/BlockSize) | grammar of values; static variables as state of a list of calls |
| C155 | compute_es, sat_vapor_pres_init, lookup_es, conversions (Model/VaporTable, Model/Plevel) | real functions; floor and ceiling for `int` |
| C156 | copy_variable, copy_axis, put_missing_value, packing in read_variable and write_variable (Model/PlevelMeta) | lists of attributes by induction; real numbers and nint |
| C157 | set_mosaic_data_file and the default of output_file (Model/DataFiles) | lists of characters, induction over tiles |
| C158 | parse_comma_list, checks and sizes of nests in make_hgrid (Model/NestOptions) | text of decimal digits, induction over tokens, options and nests |
| C159 | write_output_time and how the time axis is read (Model/OutputTime) | arrays as places of 8 or 4 bytes, induction over steps |
| C160 | options of check_mask, get_ocean_mask, choice of the mask (Model/MaskOptions) | induction over the characters and words of an option, cases on the kinds of grid file |
| C161 | mpp_get_var_cart, mpp_get_var_bndname, mpp_get_var_dimname, get_input_vgrid (Model/AxisAtts) | cases on attributes, induction over the dimensions |
| C162 | poly_area with rotate_poly_flag, crosses_pole (Model/PolarArea) | bound of the rotated latitude by the addition theorem of the cosine |

## What is modelled and what is not

| area | modelled | not modelled |
|------|----------|--------------|
| `lib/libfrencutils/mpp.c`, `mpp_domain.c` | extents, layouts, domains, global field, gathers, message order | MPI itself, memory allocation, process groups |
| `mpp_io.c` | table of files and variables, formats, compression (C115 to C117); values by contract (write then read) | attributes, dimensions, define and data mode, `mpp_copy_data` |
| `mosaic_util.c`, `tool_util.c` | tokenizer, vertex lists, `fix_lon`, areas, node pool, rotation, grid bounds | `spherical_area`, `gs_grid` helpers |
| `create_xgrid.c` | `clip`, `clip_2dx2d`, `line_intersect_2D_3D`, thread split and capacity checks, first moments (C121), great circle clipping with the geometry as parameters (C126), areas of great circle cells and the inside test (C133) | that the great circle intersection test gives marks that fit together |
| `interp.c` | splines, linear vertical interpolation, order-1 conserve | `linear_spline` callers |
| `read_mosaic.c` | contacts, exchange grid files | grid sizes, history attributes |
| fregrid | conserve interpolation (order 1, 2, monotone), remap files, vertical weights, bilinear weights and coarsening (C77, C78), gradients (C79), extrapolation (C80), halo (C118), vectors (C119), grids (C120), axes, main loop, packed data and attributes of fields (C129 to C132, C135), remap files over several runs (C134) and of make_remap_file (C136), row range (C123), GPU version (C123 to C125) | global sweep of the search in `bilinear_interp.c` (only its parts, C122), bilinear vectors, metadata; GPU version: only C123 to C125 (not its remap files and bilinear part) |
| mppnccombine, mppncscatter | copy loops, record and block loops, dimension lists, option logic as far as C08-C17 and C138 say | netCDF attributes, header padding, memory estimates |
| combine-ncc, scatter-ncc, decompress-ncc, is-compressed, libnfu | compression index, merge sort, file loops, inquiries | attribute copying |
| check-mask, timeavg, make-solo-mosaic, river-regrid | the computation, see C37-C40, C50, C53-C57; the script timavg and its namelist (C137) | other command lines, output metadata, `celllength` of river-regrid |
| make-topog | smoothing and `process_topo` (C58-C61) | averaging of the source data (`set_depth`, conservative remapping), idealised shapes |
| plevel | column computations (C62-C66) | saturation vapour table, `wind_interp` (not called), packing and missing values of files, metadata |
| runoff-regrid | mask, map and one time level (C67, C68) | input mask, exchange grid, metadata |
| make-hgrid, gnomonic cubed sphere | corners, edges, stretching, supergrid, lengths (C81-C84), places of nests' lengths (C82), nested and refined tiles (C85, C86), halo of the output (C128) | areas, angles, `suggest_target_lats`, metadata |
| make-hgrid, straight lines, tripolar, spectral | points, lengths, areas (C94-C96), grids from files (C127) | areas and angles of the bipolar part, conformal cube, check of options |
| list-ncvars, nc-exists | all (C97, C98) | reading of the namelist by Fortran, help and version texts |
| combine-restarts | from l.114 on (C99) | check that the commands exist, messages |
| iceberg-comb | all but options for messages (C100) | `-c` by itself is `isIcebergs` |
| plevel.sh | life of the namelist file (C101) | translation of the options into the namelist |
| tools/simple_hydrog: cp_river_vars, rmv_parallel_rivers | halos, rivers, areas, travel, river length, basins, choice of directions, iterations, crossings (C102 to C105) | reading and writing of files, cell length, averages of coordinates, test for the end of the iterations, the report of crossings in cp_river_vars |
| src/split_ncvars/split_ncvars.pl.in | loops over files and variables, searches in the header, outputs and their names, failures, single file, attributes of dimensions, archive (C106 to C110) | text of ncdump, renaming of height, plev and lev, scalar_axis, dry run, README, messages |
| src/transfer-mosaic-grid/transfer_to_mosaic.c | ocean supergrid, grids of atmosphere and land, vertical grid, contacts, exchange grids (C111 to C114) | areas of the supergrid, topography (copied), attributes |
| make-coupler-mosaic | row search, thresholds, masks, centroids, southern row, nest (C69-C74, C76) | reading of grids, rotation and polar cells, clipping (contract in C71), wave exchange grids, metadata |
| make-quick-mosaic | areas, masks, exchange cells (C75) | file names, metadata |
| make-land-domain | areas, tile counts, packed lists (C87) | reading of mosaics, metadata |
| make-regional-mosaic | tile, range and points (C88) | names of axes, metadata |
| remap-land | reading of tiles, nearest points, destination tiles, compressed output, cohorts (C89-C93) | consistency checks of source files, remap file, copying of dimension variables, species names, fields with more than one dimension besides the tile (same code in loops), metadata |
| other tools | nothing unless a property names it | |

## Findings

Places where the code does not do what a user would expect. Where there is a theorem it ends in `_wrong` (or is named
here) and gives an input; the corresponding positive theorem states the condition needed.

* C01: the copy of `mpp_compute_extent` in mppncscatter does not refuse more divisions than points (`C01_scatter_*`).
* C06 `C06_3d_staggered_wrong`: `mpp_global_field_double_3D` uses the wrong extents for staggered data.
* C08 `C08_static_4d_wrong`: mppncscatter copies only a part of a 4-D variable without record dimension. By reading
  only: a 5-D record variable overflows `count[4]`; an existing `NumFilesInSet` overrides the new one.
* C11: mppnccombine divides by zero for files without records.
* C13, C14: mppnccombine can delete a file it never opened; 256 errors give exit status 0.
* C16: mppncscatter judges a dimension with a flag and a buffer left over from the preceding dimension.
* C18: packing with a negative index, and the integer pack routine, do not write.
* C22: decompress-ncc with an ocean fill value loses the points of all files but the last.
* C24 `C24_none_inside_wrong`: no clamping when no target level lies inside the source levels.
* C29 `C29_sliver_wrong`: the tolerance of `inside_edge` keeps slivers outside the clip cell.
* C30 `C30_order_wrong`, `C30_limit_wrong`: order of exchange cells and the capacity limit depend on the thread number.
* C31 `C31_serial_wrong`, `C31_limit_wrong`: the serial routines write one element past the end before the check;
  `--maxxgrid` accepts values that do not fit an int.
* C32 `C32_range_ends_wrong`; C35: the rotation of polar polygons is by 90 degrees, not 45 as the comment says.
* C36 `C36_trailing_wrong`, `C36_blank_wrong`: a separator at the end gives an empty word; a blank separator is ignored.
* C37: `*_wrong` in `Props/Contact.lean`: only end points are compared, single-cell contacts lose their direction,
  east-east contacts are not looked for, turned nested tiles, odd folds.
* C38 `C38_corner_wrong`, `C38_wide_halo_wrong`, `C38_obc_wrong`.
* C40 `C40_first_single_wrong`, `C40_instant_wrong`, `C40_no_bounds_wrong`. By reading only: `check_for_climo_avg` uses
  `dt(1)` for the period in days of the second time.
* C42 `C42_c_cell_wrong`; C51 `C51_decreasing_wrong`, `C51_stretch_wrong`.
* C44 `C44_scatter_wrong`: single precision ceiling gives a wrong decomposition for large sizes.
* C46 `C46_both_bounds_wrong`; by reading only: monotone limiting uses the sizes of the last tile for all.
* C48 `C48_wide_wrong`; C49 `C49_antipodal_wrong`, `C49_inbound_wrong`.
* C50 `C50_colon_wrong`; C52 `C52_missing_dim_wrong`.
* C54 `C54_y_cyclic_wrong`: halo loop with the wrong bound; C55 `C55_stops_early_wrong`: the loop over passes stops when
  the first pass finds nothing. By reading only: `subA_missing` is truncated to an int in `init_river_data`.
* C59 `C59_fits_wrong`: with `--fraction_full_cell 0` a level thinner than the first one gets a depth below its bottom.
* C60 `C60_closing_wrong`: `--dont_open_very_this_cell` closes cells after the search for isolated ones. The manual
  describes this option the wrong way round.
* C61 `C61_round_wrong`: rounding compares the bottom of the level, not the depth, with half the minimum depth.
* C62 `C62_short_wrong`: plevel reads outside the column if fewer than two levels are valid. C64 `C64_monotone_wrong`:
  heights on output levels jump at model levels. C65 `C65_wrong`: the reference level is taken from another column.
  C66 `C66_half_wrong`: fields on half levels are cut off above the surface (`kbot` instead of `kbot+1`). By reading only:
  `lookup_es` reads its table before it checks the index.
* C67 `C67_negative_wrong`: runoff_regrid leaves negative runoff on land, and loses it in the row added in the south.
  C68 `C68_opposite_wrong`. By reading only: missing values are looked for at the first time level only.
* C70 `C70_lost_wrong`: with several processes make_coupler_mosaic can miss land-ocean pairs, because ocean rows are
  chosen by points inside the latitude band of the process. C71 `C71_room_wrong`: the limit MX is tested after the write.
  C72 `C72_nest_wrong`; C73 `C73_reach_wrong`; C74 `C74_silent_wrong`: a wrong ocean mask is an error only with
  `--verbose`; C76 `C76_side_wrong`. By reading only: `cart_xocn`, `cart_yocn` are allocated with the number of land
  tiles (896-897); the land mask is computed with `area_atm` indexed by land cells (2117); the wave mask of order 1 is
  written through the uninitialised `w_area2` (3261, 3290); `--area_ratio_thresh` falls through to `--check` (465-469);
  `fix_lon` is called with n=4 on a polygon that may have more vertices (1683-1684).
* C75 `C75_topog_wrong`: make_quick_mosaic turns a cell with fractional ocean into land; `C75_frac_wrong`: land
  fractions outside 0 to 1 are accepted. By reading only: `strncpy` without terminator for land fractions of several
  tiles; the n-th exchange file is taken to belong to tile n; a tile without land gets an unlimited dimension.
* C77 `C77_vector_missing_wrong`: `do_vector_bilinear_interp` multiplies missing values by unit vectors before it looks
  for them; `C77_corner_missing_wrong`: at a corner of the cube the missing fourth cell holds 0. C78 `C78_missing_wrong`,
  `C78_row_missing_wrong`: line 1121 has `/=` (Fortran for "not equal") and divides by the missing value;
  `C78_shift_wrong`: coarse values are centred on the fine column `2 i`. C79 `C79_levels_wrong`: `get_input_data` writes the
  gradients of all levels to the first. C80 `C80_boundary_wrong`: values outside the grid are 0. C122
  `C122_sort_size_wrong`, `C122_sort_wrong`: `sort_index` in bilinear_interp.c allocates `index_sort` and `shortest_sort` with
  each other's sizes, and moves indices by one place instead of three, so cells are lost. By reading only: `get_index` takes
  the output point from the index of the input cell, uses `nx_fine` of the input grid, which is never set, and the sweep
  reads `grid_out[l]` for tiles after the first; the columns looked at neither wrap at 360 degrees nor widen towards the
  poles; with `--extrapolate` and bilinear interpolation only one level is computed; cells that touch a pole divide 0 by 0 in
  `normalize_vect`; later coarsening steps assume latitudes from pole to pole.
* GPU version of fregrid: C123 `C123_gpu_wrong`, `C123_gpu_lost_wrong`: `ref_min_lat`, `ref_max_lat` are `int`, so latitudes in
  radians lose their fraction and rows poleward of one radian are not searched. C124 `C124_uninit_wrong`: counts of source cells
  that are not processed are never set but are used; `C124_empty_wrong`: without close cells the structure of the tile is not
  filled but used. C125 `C125_tiles_wrong`: the scaling of `--target_grid` is inside of the loop over input tiles;
  `C125_race_wrong`: the areas are added without `acc atomic`; `C125_missing_wrong`, `C125_area_wrong`. By reading only: with
  `--extrapolate` only the first level is remapped; order 2 stores corners in arrays of 4 that `fix_lon_gpu` may overrun;
  `copy_xcentroid` is taken from the host copy of an array that is only set on the device; centroids of source cells are summed
  per output tile only; great circles end the program with status 0.
* C82 `C82_nest_wrong`: the places of `dy` are those of `dx`, so with several nests that are not square the lengths of
  one nest overwrite those of another. By reading only: `calc_rotation_angle2` multiplies radians by `D2R`, reads
  index -1 on three tiles and does not wrap at 360 degrees; a nest with halo 0 that ends at the edge of its parent is accepted
  and then refused; offsets for global refinement have one element less than needed (comment in the source).
* make_hgrid from a file and its halo: C127 `C127_halfturn_wrong`: `x1 > x2 + 180` is strict and needs two columns, otherwise the
  first cell has no width to the west; `C127_northern_wrong`: `grid_yt[0] > 0` is taken as a sign of rows from north to south;
  `C127_rows_wrong`: `for(j=0; i<nlat; j++)` tests `i`; `C127_southern_wrong`: `F` is not divided by `n` (518) but `rho` is negated for `n<0` (567), so `pow` has a negative base; `C127_form_wrong`: sizes and readers are chosen in a different order, and
  a file may be accepted of which nothing is read. C128 `C128_dx_wrong`, `C128_dy_wrong`: lengths in the halo are taken from wrong
  places where the neighbour is turned.
* Axes of fregrid: C129 `C129_stale_wrong`: `start[0]` of the last axis is used for a field that is not remapped; `C129_whole_wrong`:
  such a field gives the axis all levels although a range is asked for; `C129_lon_wrong`: with `--standard_dimension` two axes of columns
  both become "lon", the program ends; `C129_marks_wrong`: the loop for `is_axis_data` uses `field` as left by the loop before.
* Main loop of fregrid: C130 `C130_levels_wrong`: with `--KlevelBegin` greater than 1 the level of the input is used as the level of the
  output (fregrid.c 1085), so the last writes are out of range; `C130_vector_wrong`, `C130_norecords_wrong`, `C130_flat_wrong`,
  `C130_copied_wrong` as said in the manifest. C131 `C131_zero_wrong`: without a missing value a stored 0 gets no offset.
  C132 `C132_suffix_wrong`: `strstr` finds a name within a longer one; `C132_joint_wrong`: "area: time: mean" ends the program;
  `C132_extrapolate_wrong`: `start2` is -1; `C132_metric_wrong`: `opcode` is changed after `get_input_grid` (fregrid.c 754, 929).
* Great circle cells: C133 `C133_convex_wrong`: a positive area is taken for convexity (create_xgrid.c 1591), a cell with a dent has one too;
  `C133_antipode_wrong`: the angles at a point and at its antipode are the same, so `insidePolygon` alone cannot tell them apart.
* Remap files: C134 `C134_idle_wrong`: a tile without exchange cells gets no file, and the next run, which finds the files of the other tiles, leaves `interp[n].nxgrid`
  as it came from `malloc` (conserve_interp.c 62-64, fregrid.c 750); `C134_crash_wrong`: so it is after a killed run; `C134_grid_wrong`: nothing in a file tells its grids;
  `C134_length_wrong`: `remap_file[STRING]` overflows with one tile. C135 `C135_poles_wrong`, `C135_one_row_wrong`, `C135_fine_center_wrong`: fregrid_util.c 606-608, 627.
* make_remap_file.c: C136 `C136_coarse_area_wrong`: with a finer input grid every exchange cell has the area of the whole output cell (445-454), so that fregrid takes the plain
  mean and the integral is not kept; `C136_second_tile_wrong`: `n>1` instead of `n>0` in the comparison of sizes (297).
* timavg.sh and time_average.f90: C137 `C137_many_files_wrong`, `C137_bad_weight_wrong`: `read (*,input,end=1,err=1)` (100) passes over every error of the namelist, so that more
  than 200 files or a bad number silently lose files and options; `C137_blank_wrong`, `C137_commas_wrong`, `C137_dash_wrong`, `C137_quote_wrong`: names changed by the script (117, 143).
* mppncscatter opt.c: C138 `C138_prefix_wrong`: no `break` after the branch of `-p` (125-130); `C138_width_wrong`: files of `-w` other than 4 and 6 are not found by mppnccombine,
  which then ends with status 0 and an empty output file.
* topog.c, `create_realistic_topog`: C139 `C139_one_row_wrong`: if the part of the grid of a process lies within one row of the source file, `ny_now` is negative (437-449) and the
  program stops; `C139_fill_first_row_wrong`: `fill_first_row` acts on row 0 of every process (525-529); `C139_on_grid_processes_wrong`, `C139_on_grid_columns_wrong`: `--on_grid`
  copies all source cells of the window without regard to the size of `depth` (503-511).
* topog.c, formulas: C140 `C140_bowl_depth_wrong`: the bowl is deeper than `bottom_depth`, documented as the maximum; `C140_gaussian_column_wrong`,
  `C140_gaussian_extent_wrong`: the loops 129-134 begin with 1; `C140_channel_first_wrong`: the first row of an opening stays closed; `C140_channel_beyond_wrong`: rows beyond `ny`;
  `C140_processes_wrong`: make_topog.c 803-833 passes the size of the whole tile with arrays of a part.
* topog.c, `set_depth`: C141 `C141_two_rows_wrong`: the ends of row `j` are those of row `j-1` (338-346); `C141_east_end_wrong`, `C141_tall_wrong`: `ny` instead of `nx` in
  line 323.
* topog.c, `create_dome_topog`: C142 `C142_snap_wrong`: an edge on a centre is moved by a cell (1128-1133); `C142_negative_wrong`: the foot of the slope is moved to the south, but
  the slope stays (1142-1144, 1168), so that depths below that of the embayment and even negative ones occur.
* make_topog.c: C143 `C143_output_wrong`: `output_file[32]` (296, 460) takes a name of any length; `C143_great_circle_wrong`, `C143_first_tile_wrong`:
  `use_great_circle_algorithm_prev` is declared in the loop (697) and is 0 for every tile.
* C144 `C144_long_wrong`: `strcat(history, argv[i])` without a check, into 256 characters (make_vgrid.c 146), 512 (make_topog.c 664, make_solo_mosaic.c 89, make_quick_mosaic.c
  120, make_coupler_mosaic.c 371, make_regional_mosaic.c 79, make_remap_file.c 121) or more; `C144_fregrid_equals_wrong`: fregrid.c 685 looks at the word before only.
* make_vgrid.c: C145 `C145_no_sizes_wrong`, `C145_wrong_count_wrong`: `n3` is not set if `--dbnds` is not given, and the check of the numbers reads it;
  `C145_long_list_wrong`: `entry[512]` and the arrays of MAXBOUNDS elements are filled while the options are read; `C145_manual_wrong`: the first example of the manual.
* tool_util.c get_boundary_type: C146 `C146_one_column_wrong`, `C146_one_row_wrong`, `C146_two_columns_wrong`: lines 722-735 tell the sides by comparing model indices, so that a
  side of one cell is taken for a line of the other direction; `C146_fold_odd_wrong`: the two halves of a fold of an odd number of columns end inside a cell, read_mosaic.c 678 refuses them.
* create_conformal_cubic_grid.c: C147 `C147_odd_wrong`: 184-187 set the last row of the quadrant to the equator also when no row lies there (odd nlon), the mirror image is a second row at
  latitude 0 and the cells between have no height. C148 `C148_other_tiles_wrong`: calc_fvgrid stores `dx`, `dy`, `area` of the first tile only; make_hgrid.c writes six tiles from the
  arrays it got from malloc. `C148_odd_wrong`: the middle column is copied from itself (619-623).
* C149: calc_rotation_angle (create_conformal_cubic_grid.c 778) and calc_rotation_angle2 take column `ny-j-1` of the next tile where `nx-j` is the shared point, at the last row the
  position is before the row and lies in the tile before (`C149_east_side`). No care for longitudes which start again from 0 (`C149_start_again_wrong`: 180 for a row that goes east).
  create_gnomonic_cubic_grid.c 700, 1140 call with radians, multiplied by D2R once more, so that the factor of the longitudes is nearly 1 at all latitudes (`C149_radians_wrong`).
* C150 `C150_coupler_wrong`: make_coupler_mosaic.c 175 copies the directory with `strncpy` of exactly its length into an array on the stack and adds no zero byte; `atm_mosaic_dir` etc. of
  the mosaic (3758-3788) have `strlen` of it. `C150_long_wrong`: fregrid_util.c 191, 477: `grid_file[256]` takes `dir[256]`, a slash and `filename[256]`.
* C151 `C151_not_called_wrong`, `C151_lake_wrong`: horiz_interp.F90 455-460: `case(BILINEAR)` of `horiz_interp_base_2d` has no statement; with the modules of the directory (WITHOUT_EXTERN_FMS in
  lakes/Makefile.am) `horiz_interp_bilinear` is never called and cr_lake_files writes uninitialised memory as lake fraction.
* C152 `C152_missing_wrong`: cr_lake_files.F90 701-708 multiplies the missing value by the area of the cell and only cells of the ocean are set back to missing.
* C153 `C153_cpuset_wrong`: affinity.c 112 tests `count > fsz` after the place `fsz` may have been written. `C153_affinity_wrong`, `C153_ranks_wrong`, `C153_outside_wrong`: get_cpu_affinity returns
  the first core of the mask although its comment says -1, and fregrid.c 698-700 binds thread `k` to this core plus `k`, whether the mask has it or not; unbound processes on a node all take 0, 1, ...
* C154 `C154_empty_wrong`: mpp_io.c 112 reads `blkstr[len-1]` of an empty value. `C154_long_wrong`: 98-106 `sprintf` of the value into `errmsg[512]`. `C154_no_number_wrong`: K is accepted as 0.
* C155 `C155_stop_wrong`, `C155_low_wrong`: moisture_convert.F90 310-314 reads the tables before it tests the position, and `int` of a number between -1 and 0 is 0. `C155_thin_air_wrong`: `e_to_mixrat`
  divides by pressure minus saturation vapour pressure, which is negative near the stratopause.
* C156 `C156_zero_wrong`: run_pressure_interp.F90 1386-1388 gives `missval_out`, which is 0 without a missing value in the input (1317), to `copy_variable`, while 1008 masks only if there was one.
  `C156_default_wrong`: 1012-1014 and 1539-1551 write missing values as they were read, though `use_default_missing_value` (option -m) has changed the attribute. `C156_fill_wrong`:
  pinterp_utilities.F90 285-302 copies `_FillValue` of the input over the one just written. `C156_bounds_wrong`, `C156_both_wrong`: 169-176 uses `bounds` only if there are `edges` too, and then as the
  name of a dimension.
* C157 `C157_overwrite_wrong`: fregrid.c 634-636 uses the name of the input for the output; with one tile on both sides, or the same names of tiles, and no directories both are the same file.
  `C157_one_tile_wrong`: fregrid_util.c 95 has no test of the length. `C157_slash_wrong`: 70 forgets `/`, so a directory and a name of together 254 characters fill 256 bytes of `str2[255]`.
  `C157_short_wrong`: 64 reads `filename+len-3`.
* C158 `C158_parent_wrong`: make_hgrid.c 968 takes a missing parent for 0 (global refinement), so `ntiles` is smaller than 6 + `nest_grids` and 1096-1099 read `nxl` beyond its end.
  `C158_repeat_wrong`: 444 starts at `i+1`, not `i`. `C158_empty_wrong`: `strtok` skips empty entries. `C158_many_wrong`: 965 has no bound `MAX_NESTS`.
* C159 `C159_int_wrong`, `C159_int_bounds_wrong`: fregrid_util.c 2019-2020 gives `&data[level]`, an address of a `double`, to `nc_put_vara_int`, while 1316 read `int`s of 4 bytes into the array.
  `C159_edges_wrong`: 2021-2024 treats edges of one dimension (bndtype 1) as bounds of two.
* C160 `C160_sea_level_wrong`: check_mask.c 265 reads the `double` sea level with `atoi`. `C160_layout_wrong`, `C160_boundaries_wrong`: `get_int_entry` fills arrays of 2 or 4 numbers without bound.
* C161 `C161_five_wrong`: mpp_io.c 695 has `dims[4]`, and `nc_inq_vardimid` writes all ids of the field; fregrid_util.c 931 accepts 5 dimensions. `C161_cart_wrong`: 748-749 read a text into one `char`.
* C162 `C162_half_wrong`: mosaic_util.c 490-492 ends the program if a side spans half a turn of longitude and no vertex is near a pole. `C162_many_wrong`: 495-497. `C162_far_wrong`: 501-503.
* C87 `C87_one_face_wrong`: `strcpy` with its arguments in wrong order, the program fails for one face;
  `C87_ten_faces_wrong`: face 1 takes the areas of face 10. C88 `C88_inner_wrong`: only the ends of an axis are checked.
* C89 `C89_one_more_wrong`: `>` for `>=` in the check of the number of tiles. C90 `C90_face_search_wrong`: for vegetation the
  program stops if the source face with the same number has no soil, although the result is not used. C91
  `C91_room_wrong`: the room for tiles of a destination cell is that of the source file and may be too small;
  `C91_fire_wrong`: for `fire` positions are counted within each kind but all kinds are written. C92 `C92_fill_wrong`: a value
  equal to the fill value is dropped and moves all later values. By reading only: the number of destination faces is
  passed as that of source faces to `compute_dst_coho_idx`; `idx > nidx_src[n]` in a check for `>=`; without `cohort_index`
  before the variables on cohorts in the file the positions used for sorting are not initialised; cohort arrays are not
  allocated if only the cold restart file has cohorts.
* C95 `C95_start_wrong`: a start of longitude below -360 degrees is moved by one turn; `C95_straddle_wrong`: an edge with ends
  on both sides of the second pole can have length 0; `C95_great_circle_wrong`: with `--great_circle_algorithm`
  Cartesian coordinates take the place of longitude and latitude, so areas do not depend on the sign of a latitude.
* C96 `C96_limit_wrong`: the limit of ten rounds is never applied; `C96_odd_wrong`, `C96_odd_columns_wrong`: values which are
  never set for odd numbers; `C96_bounds_wrong`: `sum_wts` is used without a first value.
* C97 `C97_scalar_wrong`: `dimids(0)` is read for variables without dimensions; `C97_short_wrong`: names shorter than the
  endings are read before their first letter; `C97_rank_wrong`: ranks from 5 on are always listed; `C97_dimension_wrong`:
  dimension variables are listed, against the manual; `C97_nothing_asked_wrong`: `.false` for `.false.` makes both checks of the
  script void.
* C98 `C98_both_wrong`: with `-g` and `-v` the variable is not looked at.
* C99 `C99_dot_wrong`: the dot in names is a pattern, so pieces of another set are combined and removed; `C99_dryrun_wrong`: `-n`
  removes output files; `C99_old_output_wrong`: the old output is lost if mppnccombine fails; `C99_five_digits_wrong`.
* C100 `C100_twice_wrong`: the same piece twice passes for a set of two; `C100_single_wrong`: a set of one file is refused.
* C101 `C101_stale_wrong`: after a failure the namelist file is left, and all later calls use the options of the one that failed;
  `C101_status_wrong`: the exit status is always 0.
* C102 `C102_length_wrong`: `rivlen` takes latitudes and longitudes in the tile where the river starts also after the river has come
  to another tile (cp_river_vars.F90 l.580-584); `C102_room_wrong`: the arrays for outlets are smaller than the number of cells and
  are not checked; `C102_order_wrong`: whether the own area of a missing outlet is counted depends on the order of the cells.
* C103 `C103_tie_wrong`: with scaled areas two neighbours at the coast with the same area are led to each other, and the next loop
  never ends; `C103_ocean_const_wrong`: the same with `add_ocean_const`.
* C105 `C105_stale_wrong`: areas, travel and basins are not computed again after crossings were corrected; `C105_equal_wrong`:
  crossings of rivers with the same area are reported as fixed and kept; `C105_edge_wrong`: crossings at the date line and at the
  edges of tiles are not found, as the halo of the new network is missing.
* C106 `C106_tile_wrong`, `C106_tiles_mixed_wrong`: the name of a tile is one digit (split_ncvars.pl.in l.170), so tile 10 is added to tile 1;
  `C106_extension_wrong`: for files with a number after `.nc` the test for an old output (l.380) looks at another name than the
  one written (l.482), so later files replace earlier ones.
* C107 `C107_loss_wrong`: if `ncrcat` fails, the earlier output is removed (l.387-393); `C107_unreadable_wrong`: files that cannot be
  read are left out with status 0 (l.185); `C107_later_wrong`: the list of variables is made from the first file only (l.189).
* C108 `C108_onefile_wrong`: a variable with the bounds of time resets the list for the single file (l.348-352);
  `C108_pressure_wrong`: the search for dimensions also finds longer names with the same end (l.593).
* C109 `C109_calendar_wrong`: `lc($cal)` in l.845 should be `lc($calt)`: the calendar is lost.
* C110 `C110_archive_wrong`: `unlink $file` (l.528) is meant for the copy, but `$file` is by then the name in the archive (l.182).
* C111 `C111_regional_wrong`, `C111_around_partial`: "here cyclic boundary condition is assumed, just a quick fix" (transfer_to_mosaic.c
  l.395): the west side of every ocean grid is its east side minus 360 degrees. `C111_unread_wrong`: with `ds_21_22_T` but without
  `ds_20_21_T` in the file the first row of east sides uses `ds_10_11_C` (l.355), which is only read if `ds_21_22_T` is absent (l.236).
* C112 `C112_ocean_wrong`: contacts of the ocean are fixed as 360 by 180 supergrid cells (l.927 to 942). `C112_land_wrong`: the contact
  of the land is in model cells (l.838), wrong for every grid and refused by the reader for an odd number of rows. `C112_atmos_wrong`: the atmosphere has no contact.
* C113 `C113_vgrid_wrong`: the lengths of `zt` and `zb` are not compared (l.675).
* C114 `C114_distance_wrong`: `tile2_distance` is defined and never written. `C114_named_wrong`: `mosaic.nc` names files that were not
  written.
* C115 `C115_stale_wrong`: variables of a closed file stay in the table, also after the file was replaced and opened again; `C115_alias_wrong`:
  `a` and `a.nc` are two entries for one file, and creating both empties it silently; `C115_suffix_wrong`: `strstr(file, ".nc")` also finds
  `.nc` in a directory name (mpp_io.c l.119); `C115_nonroot_wrong`: `files[-1]` is read on other processors (l.338).
* C117 `C117_stale_wrong`, `C117_uninitialised_wrong`: nc_inq_var_deflate does not set the level of a variable without compression, so
  `deflation_in` has the value of an earlier variable, or none (l.1069); `C117_skipped_wrong`: variables that are not in the input are skipped
  even if the user gave a level; `C117_classic_wrong`: the format tested is that of the input, so with classic input `--format netcdf4
  --deflation 7` compresses nothing; `C117_format_wrong`: netCDF-4 input with `--format classic` stops; `C117_shuffle_wrong`;
  `C117_name_wrong`: names of 64 characters and more overrun `varname`.
* C118 `C118_same_side_wrong`: contacts between two western (eastern, southern) sides are read in the wrong direction (l.2554 to 2559 know only
  north with north); `C118_size_wrong`: the last column of a neighbour is looked for at the width of the tile itself (l.2537, 2553);
  `C118_one_cell_wrong`: a contact along one cell stops; `C118_narrow_wrong`: the east of a tile one cell wide is taken for its west.
* C119 `C119_no_missing_wrong`: without an attribute the missing value is 0 and vectors with a zero component are left out;
  `C119_second_missing_wrong`: the missing value of the second component is not looked at; `C119_order2_wrong`: second-order data have a
  halo but are read without. In `main` (fregrid.c l.1105 to 1110) the index `n` and `level_z` of the loops before are used for vectors.
* C120 `C120_angle_wrong`: the index of the angle in the input grid (l.262) points to another place, and beyond the array for the last cell;
  `C120_angle_out_wrong`: in the output grid the angle of the corner is taken (l.541); `C120_tripolar_column_wrong` (l.519 to 528).
* C121 `C121_lon_wrong`: `poly_ctrlon` takes the trapezoidal rule along slanted sides; the moments of the pieces of a cell do not add up.

## Axioms of each theorem

Found with `Lean.collectAxioms` for all 971 property theorems (namespace `Verif`).

* no axioms: `C01_scatter_too_many_unchecked`, `C01_too_many_divisions_refused`, `RestartScripts.C101_status_wrong`, `C13_no_first_file`, `C154_empty_wrong`, `C154_no_number_wrong`, `C160_source`, `C161_bounds_wrong`, `C161_cart_partial`, `C161_empty_wrong`, `C76_side_wrong`, `NestLength.C82_nest_wrong`.

* `propext`: `C03_bound_attained`, `RestartScripts.C100_output`, `RestartScripts.C100_single_wrong`, `RestartScripts.C100_twice_wrong`, `TransferMosaic.C112_atmos_wrong`, `MppIo.C117_untouched`, `FregridHalo.C118_case`, `FregridHalo.C118_narrow_wrong`, `FregridHalo.C118_one_cell_wrong`, `FregridHalo.C118_same_side_wrong`, `FregridHalo.C118_size_wrong`, `FregridInput.C120_case`, `C122_sort_wrong`, `GridFromFile.C127_form_wrong`, `FregridMeta.C129_lon_wrong`, `FregridMeta.C129_stale_wrong`, `FregridMeta.C129_whole_wrong`, `FregridDrive.C130_copied_wrong`, `FregridDrive.C130_flat_wrong`, `FregridDrive.C130_memory_partial`, `FregridDrive.C130_norecords_wrong`, `FregridDrive.C130_places`, `FieldAtts.C132_extrapolate_wrong`, `FieldAtts.C132_place`, `C145_list`, `C14_input_errors_wrap`, `C14_output_errors_wrap`, `C153_affinity_partial`, `C153_affinity_wrong`, `C157_overwrite_wrong`, `C157_short_wrong`, `C158_empty_wrong`, `C158_many_wrong`, `C158_parent_wrong`, `C158_repeat_wrong`, `C161_cart_wrong`, `C161_five_wrong`, `C17_membership`, `C18_pack_negative`, `C22_ocean_loses_points`, `XGrid.C30_limit_wrong`, `XGrid.C30_order_wrong`, `Tokenize.C36_blank_wrong`, `C90_face_search_wrong`.

* `Quot.sound`, `propext`: `C04_layout_uses_every_processor`, `C06_3d_staggered_wrong`, `C08_static_4d_wrong`, `C09_no_coordinate_variable`, `Hydrog.C105_edge_wrong`, `C107_loss_wrong`, `C108_cmip`, `C109_calendar_partial`, `TransferMosaic.C111_accepts`, `TransferMosaic.C112_land_wrong`, `TransferMosaic.C113_product`, `TransferMosaic.C113_vgrid`, `TransferMosaic.C113_vgrid_wrong`, `TransferMosaic.C114_distance_wrong`, `TransferMosaic.C114_xgrid`, `MppIo.C115_path`, `VectorRemap.C119_mean_partial`, `VectorRemap.C119_missing`, `VectorRemap.C119_stored`, `C11_zero_records_crash`, `FregridInput.C120_axes`, `FregridInput.C120_tripolar_column_wrong`, `C122_sort_size_wrong`, `GridFromFile.C127_increasing`, `GridFromFile.C127_lengths`, `GridFromFile.C127_rows_wrong`, `GridFromFile.C127_text`, `GridFromFile.C127_tiles`, `FregridMeta.C129_marks_partial`, `FregridMeta.C129_marks_wrong`, `FregridMeta.C129_names`, `FregridMeta.C129_names_standard`, `FregridMeta.C129_output`, `FregridMeta.C129_settings`, `FregridDrive.C130_accepted`, `FregridDrive.C130_settings`, `FregridDrive.C130_vector_wrong`, `PackedData.C131_flag`, `FieldAtts.C132_value_partial`, `RemapRuns.C134_good_name`, `RemapRuns.C134_length_wrong`, `RemapRuns.C134_names`, `OutputAxes.C135_bndtype`, `OutputAxes.C135_bounds`, `OutputAxes.C135_copied`, `OutputAxes.C135_even_refused`, `C137_blank_wrong`, `C137_commas_wrong`, `C137_dash_wrong`, `C137_quote_wrong`, `C138_base`, `C139_one_point_wrong`, `C13_list`, `C13_no_end_deletes_uncombined`, `C13_range_deletes_uncombined`, `C144_history_partial`, `C144_long_wrong`, `C144_round_trip`, `C14_no_errors_partial`, `C14_status_zero`, `C150_coupler_partial`, `C150_long_wrong`, `C150_same_directory`, `C153_cpuset_partial`, `C153_cpuset_wrong`, `C153_not_permitted`, `C154_all_files`, `C154_error_partial`, `C154_large_wrong`, `C154_long_wrong`, `C154_number_partial`, `C157_distinct`, `C157_names_partial`, `C157_one_tile_wrong`, `C157_slash_wrong`, `C158_list`, `C158_missing`, `C158_nests_partial`, `C159_bounds_partial`, `C159_edges_wrong`, `C159_int_bounds_wrong`, `C159_int_wrong`, `C159_time_partial`, `C160_boundaries_partial`, `C160_boundaries_wrong`, `C160_layout_partial`, `C160_layout_wrong`, `C161_dimname_partial`, `C161_levels_partial`, `C161_numbers`, `C17_append`, `C17_comma_list`, `C17_copy`, `C17_count`, `C17_difference`, `C18_put_int_no_effect`, `C20_merge_overlay`, `C23_one_element_oob`, `C23_rejects`, `C24_refuses`, `C24_same_levels`, `C25_rejects`, `C28_fits`, `C28_unchanged`, `XGrid.C31_serial_partial`, `XGrid.C31_serial_wrong`, `Lon.C32_fix_turns`, `Contact.C37_one_cell_wrong`, `CheckMask.C38_layout`, `CheckMask.C39_rest`, `TimeAvg.C40_record`, `TimeAvg.C40_record_no_missing`, `NodePool.C41_polygon`, `River.C54_y_cyclic_wrong`, `C58_edge`, `C58_land`, `C58_not_deeper`, `C62_kbot`, `C73_cells_kept`, `C75_depth_mask`, `C90_face_search`, `C90_full_search`, `C91_fire_wrong`, `C93_order_needed`, `ListVars.C97_rank_wrong`, `ListVars.C98_both_wrong`, `ListVars.C98_global`, `ListVars.C98_refused`, `ListVars.C98_variable`, `CombineRestarts.C99_five_digits_wrong`, `CombineRestarts.C99_removed`.
* `propext`, `Classical.choice`, `Quot.sound`: the other 784 theorems.
