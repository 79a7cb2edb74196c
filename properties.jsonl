{"id": "C01", "title": "1-D domain decomposition is an exact ordered partition", "statement": "For 1 <= ndivs <= npts the extents returned for the ndivs divisions are non-empty, in increasing order, contiguous, start at the first point and end at the last one: every point 0..npts-1 lies in exactly one division, and neither of the two error exits of the routine is reached. If ndivs > npts the library version reports an error instead of returning extents.", "quantifier": "all npts >= 1 and all ndivs >= 1", "why_tests_cant": "The loop carries a shrinking range and a mirrored write-ahead table; whether the two halves meet exactly depends on the parity and size of both arguments, an infinite family.", "anchors": ["lib/libfrencutils/mpp_domain.c:mpp_compute_extent", "src/mpp-ncscatter/mppncscatter.c:mpp_compute_extent"]}
{"id": "C02", "title": "1-D domain decomposition is mirror symmetric when parity allows", "statement": "When npts and ndivs have the same parity, or ndivs is odd, npts even and ndivs < npts/2, division k and division ndivs-1-k are mirror images: begin(ndivs-1-k) = npts-1-end(k).", "quantifier": "all npts, ndivs with 1 <= ndivs <= npts satisfying the parity condition", "why_tests_cant": "Bit-reproducibility of models depends on the symmetry for every resolution and processor count; a test fixes one pair.", "anchors": ["lib/libfrencutils/mpp_domain.c:mpp_compute_extent", "src/mpp-ncscatter/mppncscatter.c:mpp_compute_extent"]}
{"id": "C03", "title": "1-D domain decomposition is balanced", "statement": "Any two divisions differ in size by at most one point when the decomposition is not symmetrised and by at most two points when it is; the bound two is attained.", "quantifier": "all npts, ndivs with 1 <= ndivs <= npts, all pairs of divisions", "why_tests_cant": "Load balance is a bound over all divisions of all inputs; the worst case (7 points on 3 processors gives 3,1,3) is easy to miss.", "anchors": ["lib/libfrencutils/mpp_domain.c:mpp_compute_extent"]}
{"id": "C04", "title": "The automatic layout uses every processor", "statement": "mpp_define_layout terminates and returns idiv >= 1, jdiv >= 1 with idiv*jdiv = ndivs, whatever the aspect ratio; idiv is the largest divisor of ndivs not exceeding the rounded aspect-ratio guess.", "quantifier": "all ndivs >= 1 and any value of the (floating point) initial guess", "why_tests_cant": "The search loop's exit depends on the divisors of ndivs and a rounded square root.", "anchors": ["lib/libfrencutils/mpp_domain.c:mpp_define_layout"]}
{"id": "C05", "title": "The 2-D decomposition gives every grid cell exactly one owner", "statement": "For layout (nx_div, ny_div) every global cell (i,j) lies in the compute domain of exactly one processor, the processor number computed from its division indices is unique, and the number of processors equals the layout product.", "quantifier": "all ni, nj, all layouts with 1 <= layout <= size", "why_tests_cant": "Ownership is a statement about all cells and all layouts at once.", "anchors": ["lib/libfrencutils/mpp_domain.c:mpp_define_domain2d", "mpp_define_domain_1d"]}
{"id": "C06", "title": "Gathering a distributed field reproduces the global field on any number of processors and any message timing", "statement": "If each processor holds its part of a global field (cell-centred, no halo), the array the root obtains from mpp_global_field equals the global field, independent of the number of processors and of the order in which messages arrive; for staggered fields the shared rows/columns agree as long as the processors agree on them. The 3-D variant does this only when the staggering is the same in x and y.", "quantifier": "all grid sizes, layouts, fields, and all interleavings of sends and receives", "why_tests_cant": "A test runs one processor count and sees one interleaving; the 3-D variant uses the x shift for the y extent, which only shows for asymmetric staggering.", "anchors": ["lib/libfrencutils/mpp_domain.c:mpp_global_field_double,mpp_global_field_double_3D", "lib/libfrencutils/mpp.c:mpp_send_double,mpp_recv_double"]}
{"id": "C07", "title": "Writing with an I/O layout still partitions the axis", "statement": "When the I/O division count divides the compute division count, the coarsened extents used for the files form an exact ordered partition of the axis, and each I/O division is the union of consecutive compute divisions.", "quantifier": "all sizes, division counts and I/O division counts with ndivs % ndivs_io = 0", "why_tests_cant": "Depends on two independent division counts and the irregular extents of C01.", "anchors": ["src/mpp-ncscatter/mppncscatter.c:get_scatter_extents_iolayout"]}
{"id": "C08", "title": "Each scattered file holds exactly its part of every variable", "statement": "The file written for tile (x,y) contains, for every variable with scattered dimensions, exactly the rectangular block of the input whose indices lie in that tile's extents, and the complete data for variables without scattered dimensions.", "quantifier": "all variable shapes up to 4 dimensions, all data, all layouts, all tiles", "why_tests_cant": "The copy loops are specialised by rank and stride; a test covers a few shapes. The 4-D non-record case copies only the first slab.", "anchors": ["src/mpp-ncscatter/mppncscatter.c:hyperslabcopy,put_var"]}
{"id": "C09", "title": "Scatter followed by combine gives back the original data", "statement": "Splitting a file with mppncscatter and joining the pieces with mppnccombine reproduces every variable value of the input.", "quantifier": "all files of decomposed and non-decomposed variables, all layouts and I/O layouts, all data, all blocking factors", "why_tests_cant": "A round trip over two programs with irregular tile sizes; tests use one file and one layout.", "anchors": ["src/mpp-ncscatter/mppncscatter.c", "src/mpp-nccombine/mppnccombine.c"]}
{"id": "C10", "title": "A combined value comes from the file that owns the point", "statement": "For a decomposed variable the combined file holds at every global point the value of the last input file whose extents contain that point, and the fill/missing value at points no file contains; nothing is written outside the global extent.", "quantifier": "all sets of input files with in-range extents, all data, all points", "why_tests_cant": "Depends on the offsets of every file and on the order of writes into a shared buffer.", "anchors": ["src/mpp-nccombine/mppnccombine.c:process_vars,flush_decomp"]}
{"id": "C11", "title": "The blocking factor does not change the combined file", "statement": "The combined file is the same for every number of records combined at once (option -k): every record is flushed exactly once, with its own data, whatever the blocking factor, including a last partial block.", "quantifier": "all record counts >= 1, all blocking factors >= 1, all data", "why_tests_cant": "Buffers are reused modulo the blocking factor; an off-by-one appears only when the record count is not a multiple of it.", "anchors": ["src/mpp-nccombine/mppnccombine.c:process_file,process_vars,flush_decomp"]}
{"id": "C12", "title": "The order of the input files does not matter when tiles are disjoint", "statement": "If the extents of the input files are pairwise disjoint the combined data of decomposed variables is the same for every order in which the files are processed.", "quantifier": "all permutations of all families of pairwise disjoint tiles", "why_tests_cant": "n! orders.", "anchors": ["src/mpp-nccombine/mppnccombine.c:process_vars"]}
{"id": "C13", "title": "Removing inputs after combining never deletes a file that was not combined", "statement": "With -r and a successful exit every file removed has been read into the output.", "quantifier": "all start/end numbers, all numbers of files in the set, all sets of files present on disk", "why_tests_cant": "Needs a file one past the set to exist on disk; the removal loop bound differs from the combine loop bound.", "anchors": ["src/mpp-nccombine/mppnccombine.c:main"]}
{"id": "C14", "title": "Exit status 0 means that no input failed", "statement": "mppnccombine exits with status 0 (and removes inputs under -r) only if no processing error was counted.", "quantifier": "all sequences of per-file/per-block error codes", "why_tests_cant": "The error count is kept in an 8-bit counter, which wraps after 256 errors; tests never produce that many.", "anchors": ["src/mpp-nccombine/mppnccombine.c:main,outfileerrors"]}
{"id": "C15", "title": "Variables without decomposed dimensions are taken from the first file and written once", "statement": "For a non-decomposed variable the combined file holds the first input file's data for every record, regardless of the contents of the other files; a decomposed or record variable is never skipped.", "quantifier": "all variables, records, and files", "why_tests_cant": "The skip rules depend on four conditions and on the record and file counters.", "anchors": ["src/mpp-nccombine/mppnccombine.c:process_vars"]}
{"id": "C16", "title": "Which dimensions are scattered depends only on that dimension's own metadata", "statement": "mppncscatter classifies each dimension as x, y or not scattered from the user lists, else from its coordinate variable's units, else from its cartesian_axis; the result for a dimension does not depend on which other dimensions precede it.", "quantifier": "all lists of dimensions with arbitrary metadata", "why_tests_cant": "A flag that is not reset between dimensions makes the answer order dependent; only particular mixtures of metadata show it.", "anchors": ["src/mpp-ncscatter/mppncscatter.c:get_scatter_dims"]}
{"id": "C17", "title": "String-list operations are set operations", "statement": "Union contains exactly the members of both lists without introducing duplicates, difference contains exactly the members of the first list not in the second, order is preserved and membership tests agree with contents.", "quantifier": "all lists of strings", "why_tests_cant": "Infinite domain; fixed-size pointer arrays with NULL terminators.", "anchors": ["src/mpp-ncscatter/strlist.c"]}
{"id": "C18", "title": "Compression by gathering: unpacking puts every stored value at its own grid point and nothing elsewhere", "statement": "Reading a compressed variable stores each value at the grid point named by its index (negative indices are ignored), leaves all other points untouched and reports exactly the written points in the mask; packing afterwards with the same index returns the stored values.", "quantifier": "all ranks, dimension sizes, index lists and data", "why_tests_cant": "Index arithmetic with strides over arbitrary ranks and an odometer loop.", "anchors": ["lib/libnfu/nfu_compress.F90:nfu_get_compressed_var_r8,nfu_put_compressed_var_r8"]}
{"id": "C19", "title": "Combining compressed land files keeps every valid point with its own data, sorted by grid index", "statement": "combine-ncc writes the valid (non-negative) indices of all input files in ascending order, each exactly as often as it occurs in the inputs, and every variable value stays attached to its index.", "quantifier": "all families of input files, index lists and data", "why_tests_cant": "Sorting plus dropping of a variable number of negative entries.", "anchors": ["src/land_utils/combine-ncc.F90:reorder_compressed_index,rank_ascending"]}
{"id": "C20", "title": "The in-place merge sort used for ranking is a stable sort", "statement": "The rank array produced is a permutation of the input positions, the ranked values are non-decreasing and equal values keep their original order; the merge whose work array overlays its output never reads an overwritten element.", "quantifier": "all integer arrays of any length", "why_tests_cant": "Overlaying source and destination is safe only by an ordering invariant between two cursors.", "anchors": ["src/land_utils/combine-ncc.F90:mergerank,merge"]}
{"id": "C21", "title": "Scattering and recombining compressed land files gives back the same points and data", "statement": "scatter-ncc distributes each valid point to exactly one file, the one whose block of the lat-lon grid contains it; combine-ncc of the resulting files gives back the ascending list of valid points with their data.", "quantifier": "all grid sizes divisible by the I/O layout, all index lists without repeats, all data", "why_tests_cant": "Composition of two programs over arbitrary masks, including empty files.", "anchors": ["src/land_utils/scatter-ncc.F90", "src/land_utils/combine-ncc.F90"]}
{"id": "C22", "title": "Decompressing several files merges their points", "statement": "decompress-ncc of several files with disjoint points gives at each grid point the value from the file containing it and the missing (or ocean) value where no file has data, independent of file order.", "quantifier": "all families of files with disjoint indices, with or without an ocean fill value", "why_tests_cant": "Shows only with more than one file and an ocean fill value: each file overwrites the points of the earlier ones.", "anchors": ["src/land_utils/decompress-ncc.F90", "lib/libnfu/nfu_compress.F90:nfu_get_compressed_var_r8"]}
{"id": "C23", "title": "nearest_index returns an index of a nearest element", "statement": "For a monotonically increasing array nearest_index returns an in-range index whose element is at minimal distance from the value; out-of-range values give the nearer end; a non-monotonic array is rejected.", "quantifier": "all increasing arrays of length >= 2, all values", "why_tests_cant": "Optimality over all positions of all arrays.", "anchors": ["lib/libfrencutils/mosaic_util.c:nearest_index"]}
{"id": "C24", "title": "Vertical linear interpolation is exact at levels, bounded and monotone", "statement": "Each output value lies between the two data values of the enclosing levels, equals the data value when the target level is a source level, reproduces linear profiles, and monotone profiles stay monotone; the routine refuses targets outside the source range; the caller in fregrid gives targets above and below the source levels the end values.", "quantifier": "all increasing source levels, all target levels, all data", "why_tests_cant": "Real-valued inequality over all inputs.", "anchors": ["lib/libfrencutils/interp.c:linear_vertical_interp", "src/fre-grid/fregrid_util.c:setup_vertical_interp,do_vertical_interp"]}
{"id": "C25", "title": "The monotone cubic spline passes through its nodes and stays within the data", "statement": "cubic_spline_sp reproduces the node values at the nodes, and between two nodes stays between their values when the interval slopes are all non-zero or the flat intervals are interior; this fails for a flat first or last interval.", "quantifier": "all increasing nodes, all data, all targets in range", "why_tests_cant": "Shape preservation is a polynomial inequality over a continuum; the violation appears only for flat end intervals.", "anchors": ["lib/libfrencutils/interp.c:cubic_spline_sp"]}
{"id": "C26", "title": "The natural cubic spline interpolates its nodes and is affine-exact", "statement": "cubic_spline evaluates the cubic spline through the nodes: cubics joined twice continuously differentiably with the requested end conditions, which is unique; it returns the node value at every node and reproduces affine data exactly.", "quantifier": "all increasing nodes (>= 3), all data", "why_tests_cant": "Solution of a tridiagonal system of arbitrary size.", "anchors": ["lib/libfrencutils/interp.c:cubic_spline"]}
{"id": "C27", "title": "First order conservative interpolation conserves and preserves constants", "statement": "conserve_interp gives every target cell the area-weighted mean of the source values overlapping it: constants are preserved, values stay within the range of the contributing source values, and the area integral over the overlap is the same on both grids; cells with no overlap do not divide by zero.", "quantifier": "all exchange cell lists, masks and fields", "why_tests_cant": "Sums over arbitrary lists.", "anchors": ["lib/libfrencutils/interp.c:conserve_interp", "src/fre-grid/conserve_interp.c"]}
{"id": "C28", "title": "Clipping a polygon to a lat-lon box gives exactly the part inside", "statement": "Every vertex returned lies within the box and in the hull of the polygon; a polygon inside the box is returned unchanged; a polygon strictly on one side gives an empty result; a convex polygon gives a convex one; the pieces over the cells of a rectangular grid have together the area (and every other boundary integral) of the polygon; the work arrays are never overrun for polygons of up to 10 vertices.", "quantifier": "all polygons of any size, all boxes, all rectangular grids", "why_tests_cant": "Geometric invariant over a continuum and four passes.", "anchors": ["lib/libfrencutils/create_xgrid.c:clip"]}
{"id": "C29", "title": "Clipping a polygon to a convex polygon gives a polygon inside both", "statement": "Every vertex returned by clip_2dx2d lies on the inner side of every edge of the clipping polygon and in the hull of the subject polygon; a convex subject gives a convex result; a subject inside is unchanged; cutting along an edge in both directions loses no area. (The tolerance of the inside test breaks this for vertices within 1e-12 outside an edge.)", "quantifier": "all polygons", "why_tests_cant": "Geometric invariant over a continuum; an edge handled with the wrong orientation passes symmetric test cases; the failure needs a vertex in a strip of 1e-12.", "anchors": ["lib/libfrencutils/create_xgrid.c:clip_2dx2d,inside_edge"]}
{"id": "C30", "title": "The exchange grid does not depend on the number of threads", "statement": "When it succeeds, create_xgrid_2dx2d delivers the same exchange cells for every number of threads and every interleaving of the threads; the cells of one target cell come in the same order, so remapped values agree to the last operation. If it succeeds with several threads it succeeds with one. (The order of the whole list, and whether the size limit is hit, do depend on the number of threads.)", "quantifier": "all grid sizes, all block counts >= 1, any clipping result", "why_tests_cant": "Schedules and block counts are unbounded; a test sees one.", "anchors": ["lib/libfrencutils/create_xgrid.c:create_xgrid_2dx2d_order1,create_xgrid_2dx2d_order2"]}
{"id": "C31", "title": "Exchange grid arrays are never written beyond their capacity", "statement": "When more exchange cells are found than the configured maximum the program stops with an error before writing outside its arrays.", "quantifier": "all numbers of exchange cells and all capacities", "why_tests_cant": "Needs exactly capacity+1 cells; three of the five routines check after the write.", "anchors": ["lib/libfrencutils/create_xgrid.c:create_xgrid_1dx2d_order1,create_xgrid_2dx1d_order1,create_xgrid_great_circle,create_xgrid_2dx2d_order1"]}
{"id": "C32", "title": "Longitude adjustment changes longitudes only by whole turns and lands in the required range", "statement": "pimod keeps the meridian and brings longitudes within three half turns of zero into one turn, further ones not. lon_in_range ends and delivers a longitude in the requested range on the same meridian, or the start of the range when within the tolerance of one of its ends. fix_lon changes longitudes of cells away from the poles by whole turns so that a cell narrower than half a turn is in one piece near the requested longitude; a pole vertex and a side over a pole are replaced by two vertices on the meridians of the neighbours; at most 2n+2 vertices result.", "quantifier": "all real longitudes", "why_tests_cant": "Continuum of inputs; boundary values at exactly +-pi.", "anchors": ["lib/libfrencutils/create_xgrid.c:pimod", "lib/libfrencutils/tool_util.c:lon_in_range", "lib/libfrencutils/mosaic_util.c:fix_lon"]}
{"id": "C33", "title": "Vertex insertion and deletion are inverse list edits", "statement": "insert_vtx at a position followed by delete_vtx at that position restores the polygon; the other vertices keep their order.", "quantifier": "all polygons and positions", "why_tests_cant": "Overlapping array moves.", "anchors": ["lib/libfrencutils/mosaic_util.c:insert_vtx,delete_vtx"]}
{"id": "C34", "title": "3x3 inversion returns the inverse or refuses", "statement": "When invert_matrix_3x3 succeeds the product with the input is the identity; it refuses exactly when the determinant is below the threshold.", "quantifier": "all 3x3 matrices", "why_tests_cant": "Polynomial identity over 9 real variables.", "anchors": ["lib/libfrencutils/mosaic_util.c:invert_matrix_3x3,mult"]}
{"id": "C35", "title": "Pole rotation is an isometry", "statement": "The rotation applied to polygons near the poles preserves all pairwise distances, hence areas of spherical polygons are computed on a congruent polygon.", "quantifier": "all vectors", "why_tests_cant": "Polynomial identity over reals.", "anchors": ["lib/libfrencutils/mosaic_util.c:set_the_rotation_matrix,rotate_point,rotate_poly"]}
{"id": "C36", "title": "Tokenising returns the separated words", "statement": "tokenize splits a string at the separators, skipping empty words: joining the words back and splitting again is stable; no token contains a separator. Trailing separators produce a spurious empty token.", "quantifier": "all strings and separator sets", "why_tests_cant": "Infinite input domain.", "anchors": ["lib/libfrencutils/mosaic_util.c:tokenize"]}
{"id": "C37", "title": "Reported tile contacts are genuine", "statement": "When two tile edges are reported as aligned, the reported start and end points coincide geometrically and the index ranges are inside both tiles and have the direction of the matching; when the common points of two sides follow each other in the same or the opposite order, a contact between A and B is found from both sides. A folded northern side is reported exactly when its points meet their mirror images, and a reported overlap is a rectangle of both tiles with the same corners.", "quantifier": "all tile sizes and all coordinates", "why_tests_cant": "All coordinate arrays; only end points are checked by the code.", "anchors": ["src/make-solo-mosaic/get_contact.c:get_align_contact,get_contact_index"]}
{"id": "C38", "title": "Masked-out processors hold no ocean", "statement": "check_mask lists exactly the layout cells whose compute domain plus halo contains no ocean point, each once; every ocean cell is owned by a processor that is kept; used + masked = total.", "quantifier": "all masks, grid sizes, layouts, halos, and boundary types", "why_tests_cant": "All masks and layouts.", "anchors": ["src/check-mask/check_mask.c:check_ocean_mask"]}
{"id": "C39", "title": "Cubed-sphere halo exchange is a consistent adjacency", "statement": "In the halo update of the six-face cube, if cell B is seen in the halo of A then A is seen in the halo of B; each halo cell comes from an interior cell of a different face, whatever the face size.", "quantifier": "all face sizes n >= 1, all edge cells of all faces", "why_tests_cant": "Orientation errors show only on asymmetric data.", "anchors": ["src/check-mask/check_mask.c:update_cubic_halo"]}
{"id": "C40", "title": "Time averages are weighted means of the valid data", "statement": "time_average writes the time-weighted mean of the non-missing values, missing where the valid fraction is not above the requested fraction; means lie between the extremes of the valid data and constants are preserved. For a later file with several time levels after a first file with a single level missing values are averaged as if they were data.", "quantifier": "all data, weights, numbers of time levels and files", "why_tests_cant": "Depends on how many levels the first file has.", "anchors": ["src/timeavg/time_average.f90"]}
{"id": "C41", "title": "The polygon node pool never hands out a node twice nor overruns", "statement": "Between two rewinds every node returned is distinct; the request after the last node stops the program; vertices appended to a list are kept in order and coinciding vertices are not duplicated.", "quantifier": "all sequences of requests", "why_tests_cant": "Histories of arbitrary length.", "anchors": ["lib/libfrencutils/mosaic_util.c:rewindList,getNext,addEnd"]}
{"id": "C42", "title": "Grid lines generated from bounds hit the bounds", "statement": "compute_grid_bound returns a grid whose lines include all given bounds and whose number of cells is the requested total.", "quantifier": "all bound lists and cell counts", "why_tests_cant": "All lists.", "anchors": ["lib/libfrencutils/tool_util.c:compute_grid_bound"]}
{"id": "C43", "title": "Compressed-file detection is exact", "statement": "is-compressed succeeds exactly if some dimension has a coordinate variable of the same name carrying a compress attribute.", "quantifier": "all files", "why_tests_cant": "All file structures.", "anchors": ["src/land_utils/is-compressed.c"]}
{"id": "C44", "title": "Floating-point ceiling in the decomposition is exact for practical sizes", "statement": "The double precision quotient and ceiling used by the library give the exact integer ceiling for all sizes below 2^31 under any rounding with relative error 2^-53; the single precision one used by mppncscatter does not for sizes above 2^24.", "quantifier": "all point counts below 2^31, all division counts, every rounding function with the stated relative error", "why_tests_cant": "Rounding behaviour over 2^62 pairs.", "anchors": ["lib/libfrencutils/mpp_domain.c:mpp_compute_extent", "src/mpp-ncscatter/mppncscatter.c:mpp_compute_extent"]}
{"id": "C45", "title": "Second order conservative remapping conserves", "statement": "With order 2 and source cells covered by the target grid, the gradient terms contribute nothing to the integral: the integral of the output over the target grid is the sum of source value times exchange area, with missing values, weights and cell measures as in first order.", "quantifier": "all exchange grids, gradients, masks, weights and fields", "why_tests_cant": "The cancellation is an identity over all exchange cells of each source cell, of any number.", "anchors": ["src/fre-grid/conserve_interp.c:setup_conserve_interp,do_scalar_conserve_interp"]}
{"id": "C46", "title": "The monotonic limiter keeps the data range and conserves", "statement": "With the monotonic option every output value stays between the smallest and largest source value of the contributing cells and their neighbours, the program does not stop, and the integral is conserved. (The code restores only one bound when a source cell violates both.)", "quantifier": "all exchange grids, gradients and fields", "why_tests_cant": "Inequalities over all fields; the failure needs a cell that exceeds both bounds.", "anchors": ["src/fre-grid/conserve_interp.c:do_scalar_conserve_interp"]}
{"id": "C47", "title": "A remap file gives back the exchange cells on any number of processors", "statement": "Reading a remap file written by fregrid gives each processor exactly the exchange cells of its target domain, in file order, with all fields as written, whatever the decomposition at writing; with the same decomposition each processor gets back its own list; disjoint readers that cover the grid lose and duplicate nothing.", "quantifier": "all exchange grids, all decompositions at writing and reading", "why_tests_cant": "Two independent decompositions of arbitrary grids.", "anchors": ["src/fre-grid/conserve_interp.c:setup_conserve_interp", "lib/libfrencutils/read_mosaic.c:read_mosaic_xgrid_order1,read_mosaic_xgrid_order2"]}
{"id": "C48", "title": "Exchange cell areas on the sphere add up", "statement": "The areas that poly_area gives to the pieces of a convex grid cell clipped to a lat-lon grid add up to the area it gives to the cell; for lat-lon cells poly_area, poly_area_no_adjust and box_area agree with the exact spherical area; the cells of a global lat-lon grid have together the area of the sphere.", "quantifier": "all convex cells narrower than half a turn, all lat-lon grids, no side with a latitude change strictly between 0 and 1e-10", "why_tests_cant": "Trigonometric identity over a continuum of shapes; tests compare a few grids within a tolerance.", "anchors": ["lib/libfrencutils/mosaic_util.c:poly_area,poly_area_no_adjust,box_area", "lib/libfrencutils/create_xgrid.c:clip"]}
{"id": "C49", "title": "Great circle arcs are intersected where they meet", "statement": "line_intersect_2D_3D reports a crossing of two arcs exactly when they meet (up to the thresholds for nearly parallel arcs); the point returned is on the unit sphere and on both arcs, and the direction flag tells whether the first arc enters the side of the third vertex. For arcs on opposite sides of the sphere a crossing is reported where there is none, and the direction flag, computed from chords, can be wrong.", "quantifier": "all pairs of arcs on the sphere", "why_tests_cant": "Continuum of inputs; degenerate and nearly degenerate positions.", "anchors": ["lib/libfrencutils/create_xgrid.c:line_intersect_2D_3D", "lib/libfrencutils/mosaic_util.c:intersect_tri_with_line"]}
{"id": "C50", "title": "Contacts in a mosaic file are read back as written", "statement": "A contact written by make_solo_mosaic between two tiles of the mosaic is read by read_mosaic_contact as the same pair of tiles and, in model cells, the same cells in the same direction, for line contacts and overlaps. A colon in the name of the mosaic makes every contact unreadable.", "quantifier": "all tile lists with distinct plain names, all contacts with indices on model cell limits, all strings shorter than a row", "why_tests_cant": "Strings and numbers of any length; tests use the shipped cubed-sphere mosaics.", "anchors": ["src/make-solo-mosaic/make_solo_mosaic.c:main", "lib/libfrencutils/read_mosaic.c:read_mosaic_contact,transfer_to_model_index", "lib/libfrencutils/mosaic_util.c:tokenize"]}
{"id": "C51", "title": "Legacy grid lines from increasing bounds", "statement": "For increasing bounds, a grid accepted by compute_grid_bound_legacy increases, starts every region at its bound up to 1e-5 of a cell per region, and has exactly the number of cells get_legacy_grid_size reports (make_hgrid allocates from the latter). Regions holding a whole number of cells are accepted and hit their bounds exactly.", "quantifier": "all increasing bounds, all positive cell sizes, both centre modes", "why_tests_cant": "Sums of unboundedly many cell sizes over a continuum of bounds.", "anchors": ["lib/libfrencutils/tool_util.c:compute_grid_bound_legacy,get_legacy_grid_size"]}
{"id": "C52", "title": "Compressed dimensions are expanded as their attribute says", "statement": "The libnfu inquiry about a variable reports its dimensions with each dimension compressed by gathering replaced by the dimensions its compress attribute names, fastest first, however the names are spaced; total and record sizes are the products of the reported lengths; the variable is reported as compressed exactly if a dimension was replaced, and then is-compressed accepts the file.", "quantifier": "all files with unique names, all attribute texts, all variables", "why_tests_cant": "All file structures and strings; tests have one attribute format.", "anchors": ["lib/libnfu/nfu_compress.F90:inq_compressed_dim_i,inq_compressed_var_i", "lib/libnfu/nfu.F90:inq_dim_n"]}
{"id": "C53", "title": "qsort_index sorts and remembers where elements were", "statement": "qsort_index ends for every array and every range, leaves the elements in the range in ascending order, changes nothing outside, and rearranges the companion array in the same way, so that called with 0,1,...,n-1 the companion array is a permutation that says where each element was.", "quantifier": "for all arrays, all values (also with ties) and all ranges, for the Hoare partition as written", "why_tests_cant": "a partition loop that runs past the end or never ends shows up only for particular arrangements of values; the number of arrangements is factorial", "anchors": ["src/river-regrid/river_regrid.c:qsort_index, swap"]}
{"id": "C54", "title": "river_regrid: flow directions are right on every tile and across sides", "statement": "On mosaics without contacts, with one tile cyclic in columns, one square tile cyclic in rows or both, and on the cubed sphere: after the halo update each place beside a tile holds the value of the cell that is there; tocell of each cell is missing for ocean, 0 for coast cells and cells without a neighbour of larger drained area, and else the power of two of the direction of the neighbour that has the largest drained area (for large rivers the largest land neighbour first); the check for a power of two never fails; and water never comes back to the same cell.", "quantifier": "for all grid sizes, land fractions, source data and all cells, including those at the sides and corners of the tiles", "why_tests_cant": "depends on the mosaic type, the position at a side and the data of eight neighbours; tests run one or two mosaics", "anchors": ["src/river-regrid/river_regrid.c:update_halo_double, update_halo_int, calc_max_subA, calc_tocell"]}
{"id": "C55", "title": "river_regrid: travel and basins describe the network that is written", "statement": "Whenever the tool writes a network: ocean cells have missing values; each land cell drains to exactly one last point, travel is the number of steps to it, and the cell has the basin of this point; two land cells have the same basin if and only if they drain to the same last point; basins are numbered 1, 2, ... with exactly one last point each. The loops always end, and the tool refuses a network only if no cell flows into a cell without outflow although there are rivers of more than one cell.", "quantifier": "for all grids of the kinds supported, all land fractions and source data", "why_tests_cant": "a property of whole networks of any depth; tests have a few networks", "anchors": ["src/river-regrid/river_regrid.c:calc_river_data, check_river_data"]}
{"id": "C56", "title": "river_regrid: drained areas are sums over all upstream land", "statement": "Whenever the tool writes a network, subA of a land cell is the sum of cell area times land fraction over all cells whose water passes through it, also across the sides of cubed-sphere tiles, and the sum over all last points is the total area of the land.", "quantifier": "for all grids of the kinds supported, all areas, land fractions and source data", "why_tests_cant": "the accumulation goes from the largest travel down, and is right only if every inflow is complete when it is used, and if inflow across tile sides is found exactly once", "anchors": ["src/river-regrid/river_regrid.c:calc_river_data, update_halo_int"]}
{"id": "C57", "title": "river_regrid: basins are ordered by size", "statement": "Whenever the tool writes a network, of two basins the one whose last point drains the larger area has the smaller number.", "quantifier": "for all networks", "why_tests_cant": "depends on the sort, the ranks and the renumbering together", "anchors": ["src/river-regrid/river_regrid.c:sort_basin, qsort_index"]}
{"id": "C58", "title": "make_topog: what smoothing the depths can do", "statement": "However many passes --filter_topog makes, land stays land and ocean stays ocean, the outermost rows and columns do not change, no cell gets deeper unless --smooth_topo_allow_deepening is given, and the depths of ocean cells stay within the range of the ocean depths given; in open ocean an even slope is not changed and a pattern alternating from cell to cell is removed by one pass with deepening.", "quantifier": "for all grids, depths and numbers of passes", "why_tests_cant": "the number of passes and the coastline are arbitrary; a wrong mask or weight shows only at some coast or after many passes", "anchors": ["src/make-topog/topog.c:filter_topo"]}
{"id": "C59", "title": "make_topog: depth and number of levels fit each other", "statement": "Whatever the depths and the options, in the file written the number of levels of each cell fits its depth: land has no level, and in the ocean the floor lies in the last level counted. The run never reads outside the array of level depths.", "quantifier": "for all grids, depths, vertical grids and options", "why_tests_cant": "depends on how five successive adjustments interact in each cell", "anchors": ["src/make-topog/topog.c:process_topo,remove_isolated_cells,restrict_partial_cells,enforce_min_depth"]}
{"id": "C60", "title": "make_topog: no isolated cells are left", "statement": "After the adjustment of the topography each ocean cell, at each of its levels, has a corner with water in all four cells around it, across cyclic edges too; the removal only takes levels away and takes no more than needed; with --dont_change_landmask it keeps land and sea apart and leaves only cells which have land at each corner.", "quantifier": "for all grids, depths and topologies of the grid", "why_tests_cant": "the field is changed in place in a single sweep with a halo that is not refreshed, so that it is not evident that one sweep is enough for all patterns", "anchors": ["src/make-topog/topog.c:remove_isolated_cells,process_topo,hmin,kmin"]}
{"id": "C61", "title": "make_topog: thin bottom cells and shallow columns", "statement": "After the adjustment every column is land or has at least kmt_min levels, and the bottom cell of a column of two levels or more has the least thickness asked for; deepening makes no ocean cell land and fills nothing, filling deepens no cell, and rounding makes a shallow cell land exactly if it is shallower than half the minimum depth.", "quantifier": "for all grids, depths and options", "why_tests_cant": "the limits must hold for every depth, also after the steps have changed each other's results", "anchors": ["src/make-topog/topog.c:restrict_partial_cells,enforce_min_depth"]}
{"id": "C62", "title": "plevel: the levels of a column", "statement": "The full levels lie strictly between the half levels around them, so that their pressures increase; the lowest valid level of a column is the last one above its missing values, whatever the neighbouring columns hold; and every output level of every column gets a value without reading outside the column.", "quantifier": "for all vertical coordinates, surface pressures, patterns of missing values and output pressures", "why_tests_cant": "the mean used for the full levels is transcendental, and the columns with few valid levels are rare", "anchors": ["src/plevel/run_pressure_interp.F90:compute_pres_full,set_up_input_mask,interp_field_setup", "src/plevel/pressure_interp.F90:pres_interp_init"]}
{"id": "C63", "title": "plevel: interpolated values", "statement": "At the pressure of a model level the value of that level is written; between the top and the lowest level the value is interpolated linearly in the logarithm of the pressure between the two neighbouring levels and lies between them; beyond the ends it moves by at most half the difference of the two outermost levels; constants and fields linear in the logarithm of the pressure are reproduced; with mask_extrap the missing value appears exactly below the lowest level.", "quantifier": "for all columns, fields and output pressures", "why_tests_cant": "holds at every pressure, including those equal to a level and beyond both ends", "anchors": ["src/plevel/pressure_interp.F90:pres_interp,pres_interp_init", "src/plevel/run_pressure_interp.F90:interp_field,mask_data"]}
{"id": "C64", "title": "plevel: temperature, humidity and height", "statement": "Heights of the levels satisfy the hydrostatic equation and decrease with the pressure, also on the output levels; temperature, humidity and height are exact at model levels; a column of constant temperature gets exactly the hydrostatic heights; below the lowest level the temperature follows a lapse rate of 6.5 K/km and the relative humidity is kept.", "quantifier": "for all columns, surface heights and output pressures", "why_tests_cant": "is about all pairs of pressures and all temperature profiles", "anchors": ["src/plevel/run_pressure_interp.F90:compute_height,interp_field_setup", "src/plevel/pressure_interp.F90:pres_interp_init,temp_extrap,q_extrap", "src/plevel/moisture_convert.F90:sphum_to_rh,rh_to_sphum"]}
{"id": "C65", "title": "plevel: sea level pressure", "statement": "Where the surface is at height 0 the sea level pressure is the surface pressure; in an atmosphere of constant lapse rate it is exactly the pressure at height 0, for surfaces above and below it; each column is computed from its own temperatures.", "quantifier": "for all columns and surface heights", "why_tests_cant": "exactness is a statement about all atmospheres of that kind; a stale reference level shows only for unusual vertical grids", "anchors": ["src/plevel/run_pressure_interp.F90:interp_field_setup"]}
{"id": "C66", "title": "plevel: fields on half levels", "statement": "A field on half levels is reproduced at the pressures of all its half levels, down to the one below the lowest valid full level (the surface), and is masked only below that.", "quantifier": "for all columns and fields", "why_tests_cant": "a wrong last level shows only at output pressures near the ground", "anchors": ["src/plevel/run_pressure_interp.F90:interp_field_setup", "src/plevel/pressure_interp.F90:pres_interp_init"]}
{"id": "C67", "title": "runoff_regrid: all runoff reaches the ocean", "statement": "In the field written there is nothing on land; each ocean cell gets, per area, what is regridded into it and into the land cells nearest to it; the total over the file is the total of the exchange grid, although the row added in the south is not written.", "quantifier": "for all grids, masks and runoff fields", "why_tests_cant": "the move is made in place, and a cell moved twice or lost shows only for particular coastlines", "anchors": ["src/runoff-regrid/runoff_regrid.c:process_data,setup_remap,get_output_grid"]}
{"id": "C68", "title": "runoff_regrid: the nearest ocean cell", "statement": "The cell to which the runoff of a land cell goes is an ocean cell nearest to it on the sphere, the first in file order among equally near ones; there always is one if there is any ocean.", "quantifier": "for all masks and positions of cells", "why_tests_cant": "ties and points opposite to each other are special positions", "anchors": ["src/runoff-regrid/runoff_regrid.c:nearest,distance,setup_remap"]}
{"id": "C69", "title": "make_coupler_mosaic: no atmosphere pair is missed", "statement": "The pairs of an atmosphere cell and a land, ocean or wave cell that reach the clipping are exactly the pairs whose latitude ranges overlap, each once, whatever number of processes divides the atmosphere cells.", "quantifier": "for all grids and all numbers of processes", "why_tests_cant": "a row search that cuts off a row shows only for curved grids or particular process counts", "anchors": ["src/make-coupler-mosaic/make_coupler_mosaic.c:main,get_global_grid"]}
{"id": "C70", "title": "make_coupler_mosaic: no land or wave pair is missed", "statement": "The pairs of a land (or wave) cell and an ocean cell that reach the clipping are exactly the pairs whose latitude ranges overlap, whatever number of processes divides the cells.", "quantifier": "for all grids and all numbers of processes", "why_tests_cant": "the search selects ocean rows by points inside the band of the process, and fails only when the band is narrow compared with the ocean cells", "anchors": ["src/make-coupler-mosaic/make_coupler_mosaic.c:main"]}
{"id": "C71", "title": "make_coupler_mosaic: the exchange cells tile the atmosphere cell", "statement": "The exchange cells of an atmosphere cell with land and ocean never cover more than the cell, and cover all of it up to the area thresholds; each exchange cell has the area of the land or ocean part of the overlap with its parent. They are computed whenever the internal arrays are long enough.", "quantifier": "for all grids, masks and thresholds, given that clipping of polygons is right", "why_tests_cant": "the sum over all cells depends on every threshold and mask decision; a lost sliver is within tolerance of any single test", "anchors": ["src/make-coupler-mosaic/make_coupler_mosaic.c:main"]}
{"id": "C72", "title": "make_coupler_mosaic: distance to the parent centroid", "statement": "The distances written with second order exchange cells are relative to the centroid of the parent cell, so that weighted with the area they add up to zero over the exchange cells that fill the parent.", "quantifier": "for all grids and masks", "why_tests_cant": "a centroid taken over other cells changes results only by second order terms", "anchors": ["src/make-coupler-mosaic/make_coupler_mosaic.c:main"]}
{"id": "C73", "title": "make_coupler_mosaic: the row added in the south", "statement": "An ocean grid that does not reach the south pole gets one row of land up to the pole; the cells of the ocean file keep their corners and mask, and the indices written refer to cells of the file.", "quantifier": "for all ocean grids", "why_tests_cant": "an offset by one row gives plausible indices", "anchors": ["src/make-coupler-mosaic/make_coupler_mosaic.c:main"]}
{"id": "C74", "title": "make_coupler_mosaic: land and ocean masks", "statement": "If the atmosphere covers the ocean, the ocean mask written agrees with the one read up to the area thresholds and the land mask is between 0 and 1; if it does not agree, the program ends with an error.", "quantifier": "for all grids and masks", "why_tests_cant": "the check depends on areas of all exchange cells and on options of the run", "anchors": ["src/make-coupler-mosaic/make_coupler_mosaic.c:main"]}
{"id": "C75", "title": "make_quick_mosaic: land and ocean make up the cell", "statement": "For each cell of the grid the atmosphere-land and atmosphere-ocean exchange cells written have that cell as parent on both sides, positive areas, and areas that add up to the cell, in the proportion given by the topography, the land fraction or the coupler mosaic; input that contradicts this ends the program.", "quantifier": "for all grids and masks", "why_tests_cant": "fractions outside the tested values, such as missing values, are accepted silently", "anchors": ["src/make-quick-mosaic/make_quick_mosaic.c:main"]}
{"id": "C76", "title": "make_coupler_mosaic: nested tile", "statement": "At most one contact of the atmosphere mosaic says that one tile lies inside another; then the nest is the tile that lies wholly inside the other, and it refines its part of the parent by whole numbers; otherwise there is no nest.", "quantifier": "for all mosaics", "why_tests_cant": "which side is the nest is decided by sizes, and fails only for unusual sizes", "anchors": ["src/make-coupler-mosaic/make_coupler_mosaic.c:get_nest_contact"]}
{"id": "C77", "title": "fregrid: bilinear interpolation is a mean of the surrounding cells", "statement": "With --interp_method bilinear a value of the output grid is a mean of the four cells around the point (three at a corner of the cube), with weights from the angular distances to the sides: it lies within their range, is exact at the centre of a cell, and is missing exactly when one of the cells is; the interpolated wind is never faster than the fastest of the cells.", "quantifier": "for all positions of cells and points not on the lines through opposite sides, all values, all tolerances", "why_tests_cant": "weights come from spherical trigonometry with special cases at the corners of the cube; a wrong order of weights changes smooth fields only slightly", "anchors": ["src/fre-grid/bilinear_interp.c:setup_bilinear_interp,do_c2l_interp,do_vector_bilinear_interp,dist2side,max_weight_index", "lib/libfrencutils/mosaic_util.c:spherical_angle"]}
{"id": "C78", "title": "fregrid: coarsening after bilinear interpolation keeps range, mean and position", "statement": "When the output grid is computed on a finer grid (--finer_step) and coarsened, the coarse field stays within the range of the fine field, keeps its mean over the inner rows, keeps missing points missing and other points valid, and is not displaced.", "quantifier": "for all grids, fields and numbers of steps", "why_tests_cant": "a displacement by a quarter of a cell or a wrong branch for missing values is not seen on smooth fields without missing values", "anchors": ["src/fre-grid/bilinear_interp.c:do_latlon_coarsening,redu2x", "src/fre-grid/fregrid_util.c:get_output_grid_by_size"]}
{"id": "C79", "title": "fregrid: gradient for second order interpolation", "statement": "The gradient of a field on a tile of the cube is computed from values at all corners, each within the range of the cells that touch it, is linear in the field, exact for linear fields on a flat grid and 0 for a constant where the edges close; every level gets its own gradient.", "quantifier": "for all tile sizes, edges, metrics, fields and numbers of levels", "why_tests_cant": "the corners at the edges and corners of a tile have separate formulas for each combination of edges", "anchors": ["lib/libfrencutils/gradient_c2l.c:grad_c2l,a2b_ord2,get_edge", "src/fre-grid/fregrid_util.c:get_input_data"]}
{"id": "C80", "title": "fregrid: extrapolation of missing values", "statement": "With --extrapolate, cells that are not missing keep their values and missing cells get values within the range of the data, which solve Laplace's equation up to the stopping criterion; a constant field is filled with the constant.", "quantifier": "for all grids between the poles, fields, patterns of missing cells, levels and numbers of passes", "why_tests_cant": "the result depends on an iteration over an arbitrary pattern of missing cells", "anchors": ["src/fre-grid/fregrid_util.c:do_extrapolate,fill_boundaries"]}
{"id": "C81", "title": "make_hgrid: tiles of a cubed sphere fit together", "statement": "On all twelve edges and eight corners of a cubed sphere grid the points of the adjoining tiles have exactly the same longitude and latitude, in the supergrid as it is written, with and without stretching; making the edges equal never writes outside the arrays and never changes the first tile.", "quantifier": "for all numbers of cells, all coordinates before the edges are made equal, all pairs of points that are the same place of the cube", "why_tests_cant": "thirteen index formulas with reversed edges copy each other in sequence; an error shows only on one edge or at one corner", "anchors": ["src/make-hgrid/create_gnomonic_cubic_grid.c:create_gnomonic_cubic_grid,cell_center,cell_east,cell_north"]}
{"id": "C82", "title": "make_hgrid: lengths of cell sides agree between tiles", "statement": "A side of a cell that belongs to two tiles has the same length in both, and every length of a stretched grid is the great circle distance of its end points; without stretching the lengths along columns are those along rows mirrored at the diagonal. Nested tiles get the distances of their own points.", "quantifier": "for all numbers of cells, all radii, all transformations, all sizes of nests", "why_tests_cant": "lengths are copied between arrays dx and dy of different tiles with reversed indices and strides that differ by one", "anchors": ["src/make-hgrid/create_gnomonic_cubic_grid.c:create_gnomonic_cubic_grid", "lib/libfrencutils/mosaic_util.c:great_circle_distance"]}
{"id": "C83", "title": "make_hgrid: corners of a cubed sphere grid are the gnomonic projection of a cube", "statement": "The corners of the six tiles are the projection to the sphere of points of the cube whose edges are divided under equal angles: the tiles are rotations of each other, all twelve edges are divided evenly, no two different corners coincide; the shift turns the grid by 10 degrees.", "quantifier": "for all numbers of cells below 4e9, all tiles and all corners", "why_tests_cant": "construction by mirror images, averaging and rotations with forced values on the middle lines; errors by reflection keep all distances", "anchors": ["src/make-hgrid/create_gnomonic_cubic_grid.c:gnomonic_ed,mirror_latlon,symm_ed,mirror_grid,rot_3d,cartesian_to_spherical,spherical_to_cartesian"]}
{"id": "C84", "title": "make_hgrid: stretching of a cubed sphere grid", "statement": "Schmidt stretching multiplies the distance from the pole in the stereographic projection by the factor, keeps order and poles, and composes multiplicatively; the rotation that follows is a rotation of the sphere which takes the south pole to the target point; results are longitudes in [0,360) and latitudes in [-90,90], and points are moved by the threshold at the poles by less than its root.", "quantifier": "for all factors, targets and points", "why_tests_cant": "the conformal property and the composition law hold for all points at once; tests compare single grids", "anchors": ["src/make-hgrid/create_gnomonic_cubic_grid.c:direct_transform,cube_transform"]}
{"id": "C85", "title": "make_hgrid: points of a nested tile", "statement": "A nest is accepted if and only if it lies inside its parent together with its halo; it has refine ratio times as many cells as the parent cells it covers; every r-th point is a corner of the parent, and the others divide the sides of the parent cells, and the arcs between opposite sides, in equal ratios along great circles.", "quantifier": "for all parents, refine ratios, halos and index ranges, with neighbouring corners apart", "why_tests_cant": "spherical interpolation with wrapped longitudes, one-based Fortran-like index ranges and a special case at the east edge", "anchors": ["src/make-hgrid/create_gnomonic_cubic_grid.c:setup_aligned_nest,spherical_linear_interpolation"]}
{"id": "C86", "title": "make_hgrid: global refinement keeps tiles matched", "statement": "A refined cubed sphere grid has r times as many cells along each side, keeps all corners of the coarse grid, and tiles which share an edge of the cube have identical points on this edge.", "quantifier": "for all numbers of cells, refine ratios, transformations, tiles and points", "why_tests_cant": "twelve edges, half of them with reversed direction, interpolated by different code for rows and columns", "anchors": ["src/make-hgrid/create_gnomonic_cubic_grid.c:setup_aligned_nest,create_gnomonic_cubic_grid"]}
{"id": "C87", "title": "make_land_domain: the list of land points is complete", "statement": "The program accepts its input if and only if the cells which have land tiles in the restart files are exactly the cells with a positive exchange area; the points listed for a face are then exactly these cells in order, each with its number of tiles.", "quantifier": "for all mosaics with more than one face, exchange grids and restart files", "why_tests_cant": "areas are summed over several exchange grid files chosen by parts of names; an error shows only for some numbers of faces", "anchors": ["src/make-land-domain/make_land_domain.c:main,get_land_grid"]}
{"id": "C88", "title": "make_regional_mosaic: the region is cut out of the right tile", "statement": "From a regional file the program finds the tile and the range of cells, and writes exactly the supergrid points of these cells; a region that is not inside the tile or has gaps is refused.", "quantifier": "for all names of files, tiles, axes with increasing indices and grids", "why_tests_cant": "axes are real numbers rounded to indices, the supergrid has two cells for each cell, and the tile is taken from the name", "anchors": ["src/make-regional-mosaic/make_regional_mosaic.c:main"]}
{"id": "C89", "title": "remap_land: tiles read from a restart file belong to their cells", "statement": "The tiles of each cell are those of the file with the index of the cell, in their order, with fraction, tags, number and position; a file with more tiles in a cell than the dimension allows is refused.", "quantifier": "for all files, grid sizes, numbers of tiles and ranges of cells", "why_tests_cant": "the arrays are flat and the number of tiles in a cell varies; an excess is stored in the next cell", "anchors": ["src/remap-land/remap_land.c:get_land_tile_info"]}
{"id": "C90", "title": "remap_land: every point gets the nearest source point of its kind", "statement": "The full search gives face and index of the first of the nearest source points that have the kind of tile, and fails if and only if there is none; the search on one face gives the first of the nearest points of this face, whether it searches or uses the result of the full search.", "quantifier": "for all numbers of faces and points, masks and distances", "why_tests_cant": "ties and masks on all faces; two searches must agree", "anchors": ["src/remap-land/remap_land.c:full_search_nearest,search_nearest_sface"]}
{"id": "C91", "title": "remap_land: tiles and fractions of the destination grid", "statement": "Each destination cell gets the soil tiles of its source cell, then a glacier, then a lake; a tile has the same number in the files of all types; the fractions of a cell add up to those of the cold restart file; a source cell without exactly one glacier or lake stops the program.", "quantifier": "for all types of files, numbers of cells and tiles", "why_tests_cant": "files are made in separate runs of the program, and land models join them by tile number", "anchors": ["src/remap-land/remap_land.c:main"]}
{"id": "C92", "title": "remap_land: variables are written in the order of tile_index", "statement": "tile_index of a new file is strictly increasing, names every tile of the file once and decodes to its cell and number; the k-th value of every variable belongs to the tile of the k-th index; the file does not depend on the number of processes.", "quantifier": "for all types of files, cells, distributions of points and variables", "why_tests_cant": "local and global compression with counters that must agree on all processes", "anchors": ["src/remap-land/remap_land.c:compress_int_data,compress_double_data,main"]}
{"id": "C93", "title": "remap_land: cohorts of the vegetation file", "statement": "cohort_index of a new file is strictly increasing and has exactly the cohorts whose source tile has the cohort; every value is that of the source cohort; the sizes agree and the checks do not fail, for every number of processes and all random pivots of the sort.", "quantifier": "for all maps, source indices in increasing order, distributions of points and sequences of random numbers", "why_tests_cant": "a random sort rearranges two arrays together; results must not depend on time or processes", "anchors": ["src/remap-land/remap_land.c:compute_dst_coho_idx,compute_dst_coho_idx_size,binary_search,quick_sort,partition,partition_rp,gather_sort_compressed_int_data"]}
{"id": "C94", "title": "make_hgrid: lengths and areas of grids with straight lines", "statement": "For a latitude-longitude grid every length is that of the arc of parallel or meridian between its ends, every area that between its lines, and for the whole globe they add up to the circumference, the meridian and the sphere; on an f-plane all rows have the lengths of the latitude of the plane and areas are products of lengths; a Cartesian grid has equally spaced lines and the given lengths.", "quantifier": "for all grid lines, radii, numbers of cells and parts of the grid computed by a process", "why_tests_cant": "flat arrays with several strides filled by parts; sums over all cells hold only for all grid lines at once", "anchors": ["src/make-hgrid/create_lonlat_grid.c:create_regular_lonlat_grid,set_regular_lonlat_grid,set_f_plane_grid,create_simple_cartesian_grid", "lib/libfrencutils/tool_util.c:spherical_dist", "lib/libfrencutils/mosaic_util.c:box_area"]}
{"id": "C95", "title": "make_hgrid: the tripolar grid is a stereographic image of a tilted grid", "statement": "North of the join the points of a tripolar grid are the images of the grid lines of a sphere with its poles on the equator, scaled in the stereographic projection so that the equator falls on the parallel of the join; longitudes increase along each row, the join row is continued without gap, the last row is folded onto itself between two poles, and lengths are the scale factors of this map times the arcs; south of the join the grid is a latitude-longitude grid.", "quantifier": "for all grid lines over one turn, starts of longitude, joins and rows", "why_tests_cant": "a loop with a state over columns picks the branch of an arc tangent for each point; folds and joins hold between points far apart", "anchors": ["src/make-hgrid/create_lonlat_grid.c:create_tripolar_grid", "lib/libfrencutils/tool_util.c:tp_trans,lon_in_range,lon_fix,spherical_dist,bipolar_dist,distant,bp_lam,bp_phi"]}
{"id": "C96", "title": "make_hgrid: latitudes of the spectral grid are Gaussian latitudes", "statement": "The latitudes are zeros of the Legendre polynomial found by Newton's method, symmetric about the equator; the bounds between them start and end at the poles, increase, and enclose areas in proportion to the Gauss weights; longitudes divide one turn evenly.", "quantifier": "for all numbers of rows and columns", "why_tests_cant": "the recursion for polynomial and slope must be right for every degree; an uninitialised sum is often zero in tests", "anchors": ["src/make-hgrid/create_lonlat_grid.c:create_spectral_grid"]}
{"id": "C97", "title": "list_ncvars lists the variables of the kinds and ranks asked for", "statement": "For each file, list_ncvars.sh prints the names of exactly those variables that are static or not, and of a rank, as asked for by the options, without character variables and the times of averaging; in the order of the file, each once.", "quantifier": "for all files, options in any order, and contents of memory", "why_tests_cant": "array indices before the first element make the result depend on memory; ranks and names are unbounded", "anchors": ["src/list-ncvars/list_ncvars.f90:list_ncvars", "src/list-ncvars/list_ncvars.sh.in:getopts"]}
{"id": "C98", "title": "ncexists says whether an attribute or a variable exists", "statement": "ncexists prints 1 if and only if the global attribute, the variable or the attribute of the variable asked for is in the file, 0 if and only if it is not, and nothing for a file that cannot be read or a question that is not complete.", "quantifier": "for all files, options in any order and repeated options", "why_tests_cant": "decision over all combinations and repetitions of options", "anchors": ["src/nc-exists/ncexists.c:main"]}
{"id": "C99", "title": "combine_restarts loses no file and mixes no sets", "statement": "A piece is removed only after the command that has it as input has succeeded; each command has all pieces of one set and no others as inputs; if the script succeeds, every set of restart pieces was combined, once; an option to only print does not change the directory.", "quantifier": "for all directories, results of the programs called, and points of failure", "why_tests_cant": "names of files are patterns of grep; a failure can occur at every step", "anchors": ["src/combine-restarts/combine_restarts.in:restartFiles,inputFiles"]}
{"id": "C100", "title": "iceberg_comb.sh joins complete sets of iceberg files", "statement": "The script writes a file if and only if its inputs are iceberg files of one set, all files of the set are given and the output does not exist; the output has the icebergs of all inputs, in order, each once, and is not itself taken for a part of a set.", "quantifier": "for all files and numbers of files", "why_tests_cant": "decision over the attributes of any number of files; empty files are treated apart", "anchors": ["src/iceberg-comb/iceberg_comb.sh.in:checkIfIcebergs,checkValidFileVersion,get_NumFilesInSet,has_icebergs"]}
{"id": "C101", "title": "plevel.sh uses the options it was given", "statement": "Each call of plevel.sh interpolates the file with the options of this call and reports failure, whatever calls were made in the directory before.", "quantifier": "for all sequences of calls and failures", "why_tests_cant": "a file left by a call that failed changes later calls: only histories show it", "anchors": ["src/plevel/plevel.sh.in:namelist", "src/plevel/run_pressure_interp.F90:run_pressure_interp"]}
{"id": "C102", "title": "cp_river_vars: areas, travel and lengths of rivers", "statement": "For a network in which every river ends in an outlet, the area of each cell is the sum of the areas of the cells whose water flows through it, travel is the number of steps to the outlet, the length is that of the way to the outlet, and missing cells get missing values; for a river that does not end the program does not end.", "quantifier": "for all networks on one tile or a cubed sphere, areas and parts of land", "why_tests_cant": "each river is followed through tiles over an unbounded number of steps; sums over all cells upstream", "anchors": ["tools/simple_hydrog/postp/cp_river_vars.F90:cp_river_vars,create_halo", "tools/simple_hydrog/rmvpr/rmv_parallel_rivers.F90:rmv_parallel_rivers,create_halo"]}
{"id": "C103", "title": "rmv_parallel_rivers: iterations end and keep the network right", "statement": "In each iteration a river is led to the neighbour with the largest area in the same basin or at the coast, and the new network has no circles: every iteration ends, and its areas, travel and basins are those of the new network, after any number of iterations.", "quantifier": "for all networks with consistent areas and basins, numbers of iterations, one tile or a cubed sphere", "why_tests_cant": "a local choice for each cell must not make a circle anywhere, in any later iteration", "anchors": ["tools/simple_hydrog/rmvpr/rmv_parallel_rivers.F90:rmv_parallel_rivers,create_halo"]}
{"id": "C104", "title": "cp_river_vars: numbers of basins", "statement": "Two cells have the same number of a basin if and only if their water comes to the same outlet; larger basins have smaller numbers, numbers start at 1, and a basin is marked as internal if and only if its outlet is full of land.", "quantifier": "for all networks in which every river ends", "why_tests_cant": "numbers follow from a sort of all basins and a search through the sorted list", "anchors": ["tools/simple_hydrog/postp/cp_river_vars.F90:cp_river_vars"]}
{"id": "C105", "title": "rmv_parallel_rivers: crossing rivers", "statement": "All pairs of neighbours that flow along the two diagonals of a square are found, each once; of two crossing rivers the one that flows to the smaller river is led to the cell of the other; no new crossing is made, no river crosses after that, every river still ends, and what is written belongs to the corrected network.", "quantifier": "for all consistent networks, one tile or a cubed sphere", "why_tests_cant": "corrections are made one after the other in a list and could disturb each other or make a circle", "anchors": ["tools/simple_hydrog/rmvpr/rmv_parallel_rivers.F90:find_crossing_rivers,rmv_parallel_rivers"]}
{"id": "C106", "title": "split_ncvars: records of a series", "statement": "For input files of one series the output file of each variable and tile holds, after the records that it held before, the records of all input files of this tile in the order of the command line, each once, for the variable and for all variables copied with it; other files stay as they are.", "quantifier": "for all lists of input files, variables and tiles, and all contents of the output directory", "why_tests_cant": "outputs are appended to over the whole history of files; tests use one or two files of one tile", "anchors": ["src/split_ncvars/split_ncvars.pl.in:file loop, variable loop"]}
{"id": "C107", "title": "split_ncvars: status 0 means that nothing was lost", "statement": "If the script ends with status 0, no call of ncks or ncrcat has failed, all input files and variables were processed, and no record of an output file that existed before was lost; if a call fails, records written earlier stay.", "quantifier": "for all inputs, options and all patterns of failing calls", "why_tests_cant": "every call of an operator can fail, at every place in the history", "anchors": ["src/split_ncvars/split_ncvars.pl.in:file loop, variable loop"]}
{"id": "C108", "title": "split_ncvars: variables that belong together", "statement": "The output of a variable has exactly the variables that belong to it: geographic coordinates, bounds of its axes, the variables of its attribute coordinates with their bounds, static terms of formulas, averages, bounds of time, and on demand the surface pressure; this does not depend on the other variables processed. With one output file, all variables of the list are in it.", "quantifier": "for all headers, lists of variables and options", "why_tests_cant": "the lists are collected in variables that live over the loop and found by text search in the header", "anchors": ["src/split_ncvars/split_ncvars.pl.in:variable loop", "src/split_ncvars/split_ncvars.pl.in:get_variable_bounds,get_dimension_bounds,get_variables_from_att,get_formula_terms,get_variable_dimensions,is_static"]}
{"id": "C109", "title": "split_ncvars: attributes for CMIP", "statement": "The corrections for CMIP keep what the attributes say: the axis, the calendar (in small letters), units and standard names, and no other attribute is changed.", "quantifier": "for all sets of attributes", "why_tests_cant": "depends on which attributes are there; tests have few combinations", "anchors": ["src/split_ncvars/split_ncvars.pl.in:cleanup_dim_atts"]}
{"id": "C110", "title": "split_ncvars: inputs are kept", "statement": "No input file is removed.", "quantifier": "for all runs, also those that stop with an error", "why_tests_cant": "copies from the archive are removed at the end of each turn; tests have no archive", "anchors": ["src/split_ncvars/split_ncvars.pl.in:file loop"]}
{"id": "C111", "title": "transfer_to_mosaic_grid: ocean supergrid", "statement": "Every point of the ocean supergrid is the point of the old grid at this place (centres, east and north sides, corners), so the four corners of each cell are its vertices in the old file; the lengths of the sides are those of the old file and halves add up to their side; every value that is written to the file was set.", "quantifier": "for all sizes of the grid, all values and all combinations of optional variables", "why_tests_cant": "arrays are filled by index arithmetic over two loops with special cases at the first row and column; optional variables change the code path", "anchors": ["src/transfer-mosaic-grid/transfer_to_mosaic.c:main"]}
{"id": "C112", "title": "transfer_to_mosaic_grid: contacts", "statement": "The contact of a grid that is cyclic along x joins its last to its first column over all rows, the contact of a grid folded in the north joins the two halves of its last row, in cells of the supergrid; other boundaries get no contact.", "quantifier": "for all sizes of the ocean and land grids and all boundary types", "why_tests_cant": "depends on the size of the grid; tests have one grid", "anchors": ["src/transfer-mosaic-grid/transfer_to_mosaic.c:main"]}
{"id": "C113", "title": "transfer_to_mosaic_grid: grids of atmosphere and land, vertical grid", "statement": "With one more boundary than centres along each axis, every point of the supergrid of atmosphere or land has the boundary or centre of its column and row; with as many lower boundaries as levels, zeta is 0 and then for each level its depth and lower boundary.", "quantifier": "for all sizes and values", "why_tests_cant": "interleaved loops with strides, which copy from rows and columns written before", "anchors": ["src/transfer-mosaic-grid/transfer_to_mosaic.c:main"]}
{"id": "C114", "title": "transfer_to_mosaic_grid: exchange grids", "statement": "Each exchange cell keeps its parent cells, its area in square metres and its distances to both parents; the total area is the old one times the area of the sphere; the exchange grid files named in mosaic.nc exist.", "quantifier": "for all exchange grids, orders of interpolation and values", "why_tests_cant": "columns are written in separate blocks; empty exchange grids and second order are further paths", "anchors": ["src/transfer-mosaic-grid/transfer_to_mosaic.c:main"]}
{"id": "C115", "title": "mpp_io: handles of files and variables", "statement": "A handle from mpp_get_varid or mpp_def_var stands for the variable of that name of that file at every later time; handles of a file are equal exactly if the names are; the tables stay in their bounds; an open file cannot be opened again for the same purpose, a created one not created again.", "quantifier": "for all files, names and histories of calls of mpp_open, mpp_close, mpp_get_varid and mpp_def_var", "why_tests_cant": "the table is a cache with its own numbers; the number of histories is not bounded", "anchors": ["lib/libfrencutils/mpp_io.c:mpp_open", "lib/libfrencutils/mpp_io.c:mpp_close", "lib/libfrencutils/mpp_io.c:mpp_get_varid", "lib/libfrencutils/mpp_io.c:mpp_def_var"]}
{"id": "C116", "title": "Format of created files", "statement": "Output files of fregrid have the format of --format, or else of the first input file, whatever is opened in between; in other tools a created file has the format of the file that was opened last for reading.", "quantifier": "for all formats, lists of input files and further calls", "why_tests_cant": "the format is a global variable that every opening changes", "anchors": ["lib/libfrencutils/mpp_io.c:mpp_open", "lib/libfrencutils/mpp_io.c:set_in_format", "lib/libfrencutils/mpp_io.c:reset_in_format", "src/fre-grid/fregrid.c:main"]}
{"id": "C117", "title": "Compression of output files", "statement": "mpp_set_deflation gives every output variable the deflation level and shuffle flag of the user, or where the user gave none those of the input variable of the same name, and changes nothing else.", "quantifier": "for all files, settings, orders of the variables and histories before", "why_tests_cant": "the settings of a variable can depend on the variables before it", "anchors": ["lib/libfrencutils/mpp_io.c:mpp_set_deflation", "lib/libfrencutils/mpp_io.c:mpp_get_varname", "lib/libfrencutils/mpp_io.c:mpp_var_exist"]}
{"id": "C118", "title": "Halo of the input tiles of fregrid", "statement": "For a mosaic of glued tiles every point next to a side of a tile, outside of it, has after the update of the halo the value that the neighbouring tile has at the same place inside, seen from both sides of each contact and for reversed and rotated contacts; all other values are unchanged, all indices lie inside the arrays, and the program stops exactly if the two edges of a contact have different lengths.", "quantifier": "for all sizes, numbers of tiles and levels, contacts, values; centres and corners; cubed spheres and tripolar grids of every size", "why_tests_cant": "a wrong order shows only for asymmetric data along rotated contacts, one case for each pair of sides and direction", "anchors": ["src/fre-grid/fregrid_util.c:get_contact_direction", "src/fre-grid/fregrid_util.c:setup_boundary", "src/fre-grid/fregrid_util.c:update_halo", "src/fre-grid/fregrid_util.c:init_halo"]}
{"id": "C119", "title": "Vectors are remapped as vectors", "statement": "The result of the conservative interpolation of a vector field holds, along the axes of each output cell, the components of the area-weighted mean of the vectors of the input cells that have data: a uniform vector stays uniform whatever the axes of the cells, no vector becomes longer than the longest input vector, and a cell without data is missing.", "quantifier": "for all fields, angles, exchange grids and missing cells", "why_tests_cant": "tests use a few fields; a wrong sign of a rotation is invisible on unrotated grids", "anchors": ["src/fre-grid/conserve_interp.c:do_vector_conserve_interp", "src/fre-grid/fregrid_util.c:get_field_attribute", "src/fre-grid/fregrid_util.c:get_input_data"]}
{"id": "C120", "title": "Grids of fregrid from supergrids", "statement": "The centres and corners of the cells of the input and output grids are the odd and even points of the supergrid, at the same place on each process; around each tile lie the centres of the neighbouring cells; an odd supergrid is refused.", "quantifier": "for all sizes, supergrids and parts of a process", "why_tests_cant": "index arithmetic in flat arrays with and without halo, for every size", "anchors": ["src/fre-grid/fregrid_util.c:get_input_grid", "src/fre-grid/fregrid_util.c:get_output_grid_from_mosaic"]}
{"id": "C121", "title": "First moments of exchange cells", "statement": "poly_ctrlat of a polygon is the line integral whose value is the integral of the latitude over it: the moments of the pieces of a clipped cell add up to that of the cell, the centroid of a convex cell is between the smallest and largest latitude of its corners, and for lat-lon cells poly_ctrlat, box_ctrlat, poly_ctrlon and box_ctrlon are the integrals over the cell. Adding a turn to the longitude of a corner changes nothing.", "quantifier": "for all polygons, grids, radii and corners", "why_tests_cant": "the closed formula for a side is only right together with the trigonometric identities behind it; values of tests are compared with earlier output", "anchors": ["lib/libfrencutils/create_xgrid.c:poly_ctrlat", "lib/libfrencutils/create_xgrid.c:poly_ctrlon", "lib/libfrencutils/create_xgrid.c:box_ctrlat", "lib/libfrencutils/create_xgrid.c:box_ctrlon"]}
{"id": "C122", "title": "Search for the cell of an output point", "statement": "Whatever cell setup_bilinear_interp records for an output point holds the point: the angle tests of get_closest_index accept exactly the points on the inner sides of the great circles through the centres, the tile exists and the indices are in range. An output point strictly inside a cell is found whenever it is among the points looked at for the cell, the rows looked at are all those that can be reached, and entries once recorded never change.", "quantifier": "for all tiles whose cells are convex with angles below 120 degrees, output grids, numbers of tiles and points", "why_tests_cant": "correctness of the angle test is a statement about all triples of directions on the sphere; the order in which cells are visited decides which cell wins, and a test grid exercises a handful of them", "anchors": ["src/fre-grid/bilinear_interp.c:setup_bilinear_interp", "src/fre-grid/bilinear_interp.c:get_closest_index", "src/fre-grid/bilinear_interp.c:sort_index"]}
{"id": "C123", "title": "Rows searched for exchange cells", "statement": "setup_conserve_interp searches only the rows of the source tile that can reach the target grid. A row that is left out contributes no exchange cell, so the exchange grid is the one of a search over all rows, for any number of threads in any order. The GPU version has the same rows.", "quantifier": "for all grids, latitudes in any order, clipping results, numbers of threads and schedules", "why_tests_cant": "whether a row is needed depends on the latitudes of all corners of both grids; test grids that are ordered and do not reach the poles never show a lost row", "anchors": ["src/fre-grid/conserve_interp.c:setup_conserve_interp", "src/fregrid-gpu/conserve_interp_gpu.c:setup_conserve_interp_gpu"]}
{"id": "C124", "title": "Exchange grid on the GPU", "statement": "create_xgrid_2dx2d_gpu: for every order in which the iterations of the parallel loops take place, no store is outside of its array, and the result is the list of exchange cells in the order of a plain double loop, the same that the CPU version makes.", "quantifier": "for all grids, masks, row ranges, clipping results and orders of the iterations", "why_tests_cant": "the places at which the iterations store are computed from bounds that other loops leave behind; a test runs one schedule on one device with memory that happens to be zero", "anchors": ["lib/libfrencutils_gpu/create_xgrid_gpu.c:get_upbound_nxcells_2dx2d_gpu", "lib/libfrencutils_gpu/create_xgrid_gpu.c:create_xgrid_2dx2d_order1_gpu", "lib/libfrencutils_gpu/create_xgrid_utils_gpu.c:copy_data_to_interp_on_device_gpu"]}
{"id": "C125", "title": "Remapping on the GPU", "statement": "do_scalar_conserve_interp_gpu gives the field that do_scalar_conserve_interp gives, for every order of the accesses of the parallel loops: order 1 and 2, weights, cell measures, sums and missing values. The distances of order 2 agree. With the target grid option as well.", "quantifier": "for all exchange grids, data, options and orders of the accesses", "why_tests_cant": "a race shows up only under some schedules, and a test with one input tile does not see what happens once per tile", "anchors": ["src/fregrid-gpu/conserve_interp_gpu.c:do_scalar_conserve_interp_gpu", "src/fregrid-gpu/conserve_interp_gpu.c:interp_data_order1", "src/fregrid-gpu/conserve_interp_gpu.c:interp_data_order2", "lib/libfrencutils_gpu/create_xgrid_gpu.c:create_xgrid_2dx2d_order2_gpu"]}
{"id": "C126", "title": "Clipping two great circle cells joins their lists of vertices correctly", "statement": "When a cell is clipped by a cell with clip_2dx2d_great_circle, every intersection of a pair of sides is kept once, is put into the lists of both cells behind its side's first vertex in the order of the places along the side, and vertices are replaced only by intersections at them. The walk along the lists never fails to find an intersection in the other list, never runs out of the 100 preallocated nodes for cells with four corners, and returns a polygon of at least three different points, all intersections or vertices inside the other cell.", "quantifier": "for all cells, all results of the side by side intersection test with distinct points, all pool sizes, all marks", "why_tests_cant": "the order of insertion, the crossings at vertices and the number of nodes depend on the geometry of two cells; tests see a few pairs of grids", "anchors": ["lib/libfrencutils/create_xgrid.c:clip_2dx2d_great_circle", "lib/libfrencutils/mosaic_util.c:insertIntersect", "lib/libfrencutils/mosaic_util.c:addIntersect", "lib/libfrencutils/mosaic_util.c:setInbound", "lib/libfrencutils/mosaic_util.c:addEnd"]}
{"id": "C127", "title": "A grid made from a file has the points of the file", "statement": "make_hgrid --grid_type from_file writes a supergrid whose points are the corners and centres of the file and the middles of the sides of the cells: level with the centres for rectangular centres, otherwise the mean of the angles with --angular_midpoint, otherwise the point half way on the great circle; lengths are distances of neighbouring points. Files with four vertices per cell, with bounds, with centres only and with centres on Lambert's projection give the corners they describe, and centres lie within their cells.", "quantifier": "for all sizes, corners, centres and forms of the file, all numbers of tiles", "why_tests_cant": "the interleaving, the four layouts of corners and the choice of the layout depend on the dimensions of the file; tests have one small file of one form", "anchors": ["src/make-hgrid/create_grid_from_file.c:create_grid_from_file", "src/make-hgrid/create_grid_from_file.c:create_grid_from_text_file", "src/make-hgrid/create_grid_from_file.c:get_grid_v2", "src/make-hgrid/create_grid_from_file.c:get_grid_v3", "src/make-hgrid/create_grid_from_file.c:get_grid_v4", "src/make-hgrid/create_grid_from_file.c:get_grid_v5", "src/make-hgrid/make_hgrid.c:main"]}
{"id": "C128", "title": "The halo written by make_hgrid continues the grid over the edges of a cubed sphere", "statement": "With --out_halo 1 make_hgrid writes each tile of a cubed sphere with one more row and column on each side. Inside are the tile's own values; on each side are the values of the neighbouring tile at the places that lie next to the edge, with lengths in x-direction exchanged with those in y-direction where the neighbour is turned.", "quantifier": "for all sizes of tiles, all values, all six tiles and four sides", "why_tests_cant": "each of the 24 sides has its own index formula for four kinds of arrays; a test would have to compare every side of every tile", "anchors": ["src/make-hgrid/make_hgrid.c:fill_cubic_grid_halo", "src/make-hgrid/make_hgrid.c:main"]}
{"id": "C129", "title": "Fields of fregrid keep their axes, with the levels and times asked for", "statement": "For each field fregrid reads the axes of its dimensions once per name, each field has the axes of its dimensions in their order, and an axis has the levels or times of --KlevelBegin/--KlevelEnd and --LstepBegin/--LstepEnd (all without them), with their bounds; nothing is read past the end of an axis. In the output file columns and rows are those of the output grid with the edges of its cells as bounds, levels those of the output levels if given, all others are copied, and the dimensions can be defined.", "quantifier": "for all lists of fields, dimensions, options and grids", "why_tests_cant": "fields share axes, so the result depends on the order of the fields; tests have one field or fields with the same dimensions", "anchors": ["src/fre-grid/fregrid_util.c:get_input_metadata", "src/fre-grid/fregrid_util.c:set_output_metadata"]}
{"id": "C130", "title": "fregrid remaps each slab of each field once and writes it to its place", "statement": "For each field that is remapped, each time step, place on the fourth axis and level of the output is written exactly once, from the input at the chosen time step and level; fields without time are written once; nothing outside of the output field is written, and as many levels are written as there is memory for.", "quantifier": "for all lists of fields, numbers of times and levels, choices of levels and times, with and without --extrapolate", "why_tests_cant": "depends on the combination of axes of several fields with the options for levels and times; tests use whole fields", "anchors": ["src/fre-grid/fregrid.c:main", "src/fre-grid/fregrid_util.c:get_input_data", "src/fre-grid/fregrid_util.c:write_field_data"]}
{"id": "C131", "title": "Packed data keep their meaning through fregrid", "statement": "A stored value x other than the missing value stands for x*scale_factor+add_offset; fregrid takes it for that value and takes exactly the missing values for missing. A value that is remapped to itself is stored as it was, any value is stored to within one unit of the scale.", "quantifier": "for all stored values, scales, offsets and missing values, over any ordered field", "why_tests_cant": "collisions with the missing value depend on single values of the data; tests have unpacked data", "anchors": ["src/fre-grid/fregrid_util.c:get_field_attribute", "src/fre-grid/fregrid_util.c:get_input_data", "src/fre-grid/fregrid_util.c:write_field_data"]}
{"id": "C132", "title": "Attributes of a field choose its way of remapping", "statement": "fregrid finds in cell_methods, cell_measures and associated_files the value of the entry asked for, uses sums or means and areas or volumes accordingly, reads the measure from the right file, time and level, and remaps each field by its interp_method (else by that of the command line), never mixing bilinear and conservative fields, with all that second order needs.", "quantifier": "for all attributes made of entries, any number of blanks, names and values, all lists of fields", "why_tests_cant": "the attributes are free text and each field has its own; tests have one attribute", "anchors": ["src/fre-grid/fregrid_util.c:parse_string", "src/fre-grid/fregrid_util.c:get_input_metadata", "src/fre-grid/fregrid.c:main"]}
{"id": "C133", "title": "Areas and the inside test of the great circle algorithm are those of the sphere", "statement": "The area of a cell with great circle sides depends on its shape alone, is positive for convex cells of either orientation, is the sum of the areas of the two parts on cutting the cell and of the triangles of its fan; a cell is taken for convex only if it is; a point is found inside a convex cell if and only if it is on the inner side of all sides, in whichever sense the vertices go round.", "quantifier": "for all points of space and numbers of vertices, over the reals, with the tolerances of the code as parameters", "why_tests_cant": "cells and points form a continuum; tests have a few cells with known areas", "anchors": ["lib/libfrencutils/mosaic_util.c:great_circle_area", "lib/libfrencutils/mosaic_util.c:spherical_angle", "lib/libfrencutils/mosaic_util.c:insidePolygon", "lib/libfrencutils/mosaic_util.c:spherical_excess_area", "lib/libfrencutils/create_xgrid.c:get_grid_great_circle_area"]}
{"id": "C134", "title": "Remap files change nothing but the time", "statement": "With --remap_file fregrid uses for each tile what it would compute without, after any history of runs with this and other remap files, also after runs that were killed; otherwise it stops with a message. Each tile has its own file and a run changes no others.", "quantifier": "for all histories of runs, grids, methods, names of files and tiles, and points at which a run is killed", "why_tests_cant": "what a run does depends on the files left by others; tests begin with an empty directory or with a complete set", "anchors": ["src/fre-grid/fregrid_util.c:set_remap_file", "src/fre-grid/conserve_interp.c:setup_conserve_interp", "src/fre-grid/bilinear_interp.c:setup_bilinear_interp", "src/fre-grid/fregrid.c:main"]}
{"id": "C135", "title": "Axes of an output grid given by its size", "statement": "With --nlon and --nlat the output has cells of equal size that cover the range asked for exactly, the axis values are their middles and the bounds in the file their edges; the rows are divided among the processes without gap; levels of --dst_vgrid lie between their bounds; other axes are copied.", "quantifier": "for all ranges, sizes, refinements, numbers of processes and layouts of bounds, over any ordered field", "why_tests_cant": "the sizes and ranges are free; tests have one or two global grids", "anchors": ["src/fre-grid/fregrid_util.c:get_output_grid_by_size", "src/fre-grid/fregrid_util.c:get_output_vgrid", "src/fre-grid/fregrid_util.c:set_output_metadata"]}
{"id": "C136", "title": "Remap files between nested grids", "statement": "make_remap_file writes for each tile a file with which fregrid conserves: if the output grid is finer, every output cell gets the value of the input cell around it, and with second order the mean over an input cell is kept for every gradient; if it is coarser, an output cell is the mean of the input cells in it by area. Grids that do not fit are refused.", "quantifier": "for all grids, ratios, tile counts, data and missing values, over any ordered field", "why_tests_cant": "depends on the index arithmetic for every ratio and on sums over all cells; tests have one pair of grids", "anchors": ["src/cubic_utils/make_remap_file.c:main"]}
{"id": "C137", "title": "Calls of timavg", "statement": "timavg averages exactly the files of the call, in their order, into the file of the last -o and with the options of the call; of an option given several times the last one counts. Unreadable files, unknown options and missing arguments end the call with status 1 before anything is written.", "quantifier": "for all option groups in all spellings, all numbers of files, all names, all readers of numbers", "why_tests_cant": "depends on word splitting, sed, tr and the reading of the namelist for every name and every number of files; tests call the script with a few plain names", "anchors": ["src/timeavg/timavg.sh.in", "src/timeavg/time_average.f90:input"]}
{"id": "C138", "title": "Options of mppncscatter and names of its files", "statement": "mppncscatter takes options in short or long form before or after the input file, the last value counts. The files are called prefix/name.NNNN with consecutive numbers from the value of -s and are all different, and mppnccombine started with the same name and first number takes exactly these files in their order.", "quantifier": "for all command lines, numbers, widths, prefixes, names and numbers of files", "why_tests_cant": "depends on every order and spelling of options and on the formats of two programs for every number; tests use one command line", "anchors": ["src/mpp-ncscatter/opt.c:getmnsopts", "src/mpp-ncscatter/mppncscatter.c:mppncscatter", "src/mpp-nccombine/mppnccombine.c:main"]}
{"id": "C139", "title": "Depth of model cells from a topography file", "statement": "make_topog with topog_type realistic gives every model cell the mean depth, by area, of the ocean cells of the source file in it; land and missing cells do not count, a cell without ocean gets 0. The result does not depend on the number of processes, on the direction of the rows in the file or on the rows read. With on_grid every cell gets the value of its source cell; with fill_first_row the first row of the grid is land.", "quantifier": "for all source files, model grids, parts of the grid of a process and scale factors, over any ordered field", "why_tests_cant": "the rows read depend on the latitudes of the part of the grid that a process has; tests use one grid and one process", "anchors": ["src/make-topog/topog.c:create_realistic_topog", "lib/libfrencutils/interp.c:conserve_interp", "src/make-topog/make_topog.c:main"]}
{"id": "C140", "title": "Shapes of topography from formulas", "statement": "make_topog with topog_type rectangular_basin, bowl, gaussian or box_channel fills every cell of the grid with the depth of its formula at the centre of the cell: the bowl is between min_depth and bottom_depth, the gaussian bump is at least min_depth and at most the slope allows, the channel is open exactly in the rows asked for. The result does not depend on the number of processes.", "quantifier": "for all grids, corner coordinates and parameters, over the reals", "why_tests_cant": "the range depends on the formula over a continuum of coordinates; tests have one grid and one process", "anchors": ["src/make-topog/topog.c:create_bowl_topog", "src/make-topog/topog.c:create_gaussian_topog", "src/make-topog/topog.c:create_box_channel_topog", "src/make-topog/make_topog.c:main"]}
{"id": "C141", "title": "Idealized topography", "statement": "make_topog with topog_type idealized: a trapezoid given by two latitudes and two longitudes at each of them gets its depth in exactly the cells between its edges, in any order of the longitudes, and no other cell changes; after all continents and ridges every cell is land or has a depth between half of bottom_depth and bottom_depth (or min_depth, if that is larger).", "quantifier": "for all grids with ordered coordinates, all trapezoids and depths", "why_tests_cant": "the cells depend on rounding of straight lines for every size of grid; tests have one grid", "anchors": ["src/make-topog/topog.c:create_idealized_topog", "src/make-topog/topog.c:set_depth", "lib/libfrencutils/interp.c:nearest_index"]}
{"id": "C142", "title": "Dome topography", "statement": "make_topog with topog_type dome: a flat bottom in the south, a slope which rises to the depth of the embayment, land as a shelf in the north, and in it an embayment of constant depth in the columns between its edges. Every cell which is not land has a depth between that of the embayment and that of the bottom.", "quantifier": "for all regular grids, edges and slopes, over the reals", "why_tests_cant": "the edges are moved to the grid, and the range of depths depends on the distance of all rows; tests have one grid", "anchors": ["src/make-topog/topog.c:create_dome_topog", "src/make-topog/make_topog.c:main"]}
{"id": "C143", "title": "Tiles and definitions of make_topog", "statement": "make_topog accepts exactly the kinds of topography of the manual with the options which they need, and mosaics with even supergrids whose tiles agree on the great circle algorithm. The output file has one depth for each tile of half the size of its supergrid, no name twice, and the flag of the grid.", "quantifier": "for all options, numbers of tiles, sizes and attributes", "why_tests_cant": "unit tests have a few option sets and mosaics; names and agreement concern any number of tiles", "anchors": ["src/make-topog/make_topog.c:main", "lib/libfrencutils/mpp_io.c:get_great_circle_algorithm"]}
{"id": "C144", "title": "Command line in the output files", "statement": "The attribute history of an output file is the command line, word by word, so that the run can be repeated; fregrid replaces lists of fields of more than 512 characters by a note. The flag for the great circle algorithm written by one program is the one which the next one reads.", "quantifier": "for all command lines and all programs which write history", "why_tests_cant": "overflow and ambiguity depend on the length and on the words; tests have short command lines", "anchors": ["lib/libfrencutils/tool_util.c:print_provenance_gv_gca", "lib/libfrencutils/mpp_io.c:get_great_circle_algorithm", "src/fre-grid/fregrid.c:main", "src/make-vgrid/make_vgrid.c:main", "src/make-topog/make_topog.c:main"]}
{"id": "C145", "title": "Command line of make_vgrid", "statement": "make_vgrid with the bounds and the numbers of cells as lists with commas writes a file with one line more than the total of the cells, from the first bound to the last one, increasing if the bounds increase, with the name and the command line; it accepts exactly the requests which can be met. With resolutions in place of numbers the file has the lines of the older algorithm, all of them.", "quantifier": "for all lists of numbers, names and command lines, over the reals", "why_tests_cant": "unit tests have a few command lines; the lists can have any length and the arrays do not", "anchors": ["src/make-vgrid/make_vgrid.c:main", "src/make-vgrid/create_vgrid.c:create_vgrid", "lib/libfrencutils/tool_util.c:get_double_entry", "lib/libfrencutils/tool_util.c:get_int_entry"]}
{"id": "C146", "title": "Boundary conditions of a mosaic of one tile", "statement": "make_topog and check_mask see the boundary conditions of the grid from which make_solo_mosaic made the mosaic: cyclic in x exactly if the eastern and the western side of the tile meet, cyclic in y exactly if the southern and the northern side meet, tripolar exactly if the northern side is folded.", "quantifier": "for all tiles of any size whose sides meet in all points or in none, all periods and names, over ordered fields", "why_tests_cant": "the conditions go through three programs and text in a file; unit tests have a few grids of usual sizes", "anchors": ["lib/libfrencutils/tool_util.c:get_boundary_type", "lib/libfrencutils/read_mosaic.c:read_mosaic_contact", "src/make-solo-mosaic/make_solo_mosaic.c:main", "src/make-solo-mosaic/get_contact.c:get_align_contact"]}
{"id": "C147", "title": "Tiles of the conformal cubic grid fit together", "statement": "The six tiles which make_hgrid writes for grid_type conformal_cubic_grid form a closed surface: points of two tiles at the same place of the cube have the same latitude and the same longitude up to one turn, the corners of the cube, the poles, the equator and the meridians between tiles are where they belong, and no coordinate is left unset.", "quantifier": "for all numbers of cells and all contents of the memory before, over the reals", "why_tests_cant": "tiles are filled by mirror images of one quadrant, with a permutation and branches of the arc tangent; a test has one size and compares with stored numbers", "anchors": ["src/make-hgrid/create_conformal_cubic_grid.c:calc_geocoords_centerpole", "src/make-hgrid/create_conformal_cubic_grid.c:conformal_map_coords2xyz", "src/make-hgrid/create_conformal_cubic_grid.c:map_xyz2lonlat", "src/make-hgrid/create_conformal_cubic_grid.c:rotate_about_xaxis", "src/make-hgrid/create_conformal_cubic_grid.c:permutiles"]}
{"id": "C148", "title": "Lengths and areas of the conformal cubic grid", "statement": "The lengths dx and dy which make_hgrid writes for a tile of a conformal cubic grid are sums of the great-circle arcs along the sides of its cells, nratio for each side, and the areas are sums of the spherical areas of nratio times nratio fine cells.", "quantifier": "for all tiles, numbers of cells, ratios, rows and columns, over the reals", "why_tests_cant": "which numbers of the arrays were never stored cannot be seen in one run, memory may hold anything; tests have even sizes", "anchors": ["src/make-hgrid/create_conformal_cubic_grid.c:calc_fvgrid", "src/make-hgrid/create_conformal_cubic_grid.c:angle_between_vectors", "src/make-hgrid/create_conformal_cubic_grid.c:excess_of_quad", "src/make-hgrid/create_conformal_cubic_grid.c:plane_normal", "src/make-hgrid/make_hgrid.c:main"]}
{"id": "C149", "title": "Rotation angles of cubic grids", "statement": "angle_dx and angle_dy, which make_hgrid writes for cubic grids, are the angles in degrees between east and the direction of the row and of the column at each point, also at sides and corners of tiles.", "quantifier": "for all numbers of cells and all coordinates which agree where tiles meet, over the reals", "why_tests_cant": "a wrong neighbour across one kind of side, a wrong factor and the jump of longitude give plausible numbers; a test compares with stored output", "anchors": ["src/make-hgrid/create_conformal_cubic_grid.c:calc_rotation_angle", "src/make-hgrid/create_gnomonic_cubic_grid.c:calc_rotation_angle2"]}
{"id": "C150", "title": "Files next to a mosaic", "statement": "The grid file of a tile is looked for in the directory of the mosaic file, whether the mosaic is given with an absolute path, a relative path or a bare name; the directory and the name that make_coupler_mosaic stores for a mosaic together mean the file that was given.", "quantifier": "for all paths, names, current directories and contents of the arrays before", "why_tests_cant": "tests run with short paths in the current directory; what a stack array holds before is not under the control of a test", "anchors": ["lib/libfrencutils/tool_util.c:get_file_path", "src/fre-grid/fregrid_util.c:get_input_grid", "src/fre-grid/fregrid_util.c:get_output_grid_from_mosaic", "src/make-coupler-mosaic/make_coupler_mosaic.c:get_file_dir_and_name"]}
{"id": "C151", "title": "Interpolation of lake data", "statement": "The lake fraction of a model cell is interpolated between the four data cells around its centre: the weights lie between 0 and 1, the weighted coordinates are those of the centre up to whole turns, masked data has no influence, and the interpolation is carried out.", "quantifier": "for all increasing source grids, target points, data and masks", "why_tests_cant": "the result depends on uninitialised memory; a test that happens to see plausible values cannot tell", "anchors": ["tools/simple_hydrog/lakes/cr_lake_files.F90:cr_lake_files", "tools/simple_hydrog/lakes/horiz_interp.F90:horiz_interp_solo_1d_src", "tools/simple_hydrog/lakes/horiz_interp.F90:horiz_interp_base_2d", "tools/simple_hydrog/lakes/horiz_interp_bilinear.F90:horiz_interp_bilinear_new_1d", "tools/simple_hydrog/lakes/horiz_interp_bilinear.F90:horiz_interp_bilinear"]}
{"id": "C152", "title": "Cells with lakes", "statement": "cr_lake_files writes missing values in the ocean, no lake at the coast, in ice regions and near river mouths, and the interpolated lake fraction elsewhere; the lake area is the fraction of the area of the cell, and missing exactly where the fraction is.", "quantifier": "for all cells and options", "why_tests_cant": "tests compare a few cells of one grid; the order of the masks matters for each combination", "anchors": ["tools/simple_hydrog/lakes/cr_lake_files.F90:cr_lake_files"]}
{"id": "C153", "title": "Cores of threads", "statement": "get_cpu_affinity gives the core of a thread that is bound to one and -1 otherwise; get_cpuset lists the cores of a thread, or gives -1 if the array is too short; fregrid gives each thread a core of its own out of those of the process.", "quantifier": "for all masks, arrays and numbers of threads", "why_tests_cant": "the mask is given by the batch system; tests run with one or with the full mask and do not see which core a thread is on", "anchors": ["lib/libfrencutils/affinity.c:get_cpu_affinity", "lib/libfrencutils/affinity.c:get_cpuset", "lib/libfrencutils/affinity.c:set_cpu_affinity", "src/fre-grid/fregrid.c:main"]}
{"id": "C154", "title": "Block size of files", "statement": "NC_BLKSZ may be a number of bytes, perhaps followed by K or M; this is the block size of all files of a run, and any other value ends the program with a message.", "quantifier": "for all values of the variable and all sequences of calls of mpp_open", "why_tests_cant": "tests try a few values; empty, long and large values go beyond arrays or int", "anchors": ["lib/libfrencutils/mpp_io.c:mpp_open"]}
{"id": "C155", "title": "Moisture conversions of plevel", "statement": "The saturation vapour pressure is positive and continuous, over ice below -20 degrees, over water above 0 degrees and a mean of both between; the table gives it exactly at its entries and uses the nearest entry elsewhere, and temperatures outside the table end with a message; specific humidity, mixing ratio, vapour pressure and relative humidity are converted consistently back and forth.", "quantifier": "for all temperatures, pressures and humidities", "why_tests_cant": "the table has 2601 entries and the formula three branches; tests with a few profiles do not reach their limits", "anchors": ["src/plevel/moisture_convert.F90:compute_es", "src/plevel/moisture_convert.F90:sat_vapor_pres_init", "src/plevel/moisture_convert.F90:lookup_es", "src/plevel/moisture_convert.F90:sphum_to_rh", "src/plevel/moisture_convert.F90:rh_to_sphum", "src/plevel/moisture_convert.F90:e_to_sphum"]}
{"id": "C156", "title": "Attributes and missing values of plevel", "statement": "The output of plevel has all attributes of the input fields; missing_value and _FillValue agree with each other and with the values that stand for missing data, in copied fields and below the ground in interpolated ones; other data is not declared missing; edges and bounds of the axes are written with them.", "quantifier": "for all lists of attributes, values, scales and options", "why_tests_cant": "tests use files of one program, in which the order of the attributes and the missing values are always the same", "anchors": ["src/plevel/pinterp_utilities.F90:copy_variable", "src/plevel/pinterp_utilities.F90:copy_axis", "src/plevel/pinterp_utilities.F90:put_missing_value", "src/plevel/run_pressure_interp.F90:copy_variable_information", "src/plevel/run_pressure_interp.F90:get_input_variable_info", "src/plevel/run_pressure_interp.F90:read_variable", "src/plevel/run_pressure_interp.F90:write_variable"]}
{"id": "C157", "title": "Names of the data files of fregrid", "statement": "The data of a tile is read from and written to the file DIR/NAME.TILE.nc, or DIR/NAME.nc for a grid of one tile, whether NAME was given with or without .nc; tiles have different files; names that are too long end the program with a message; a run does not write to the files it reads.", "quantifier": "for all directories, names, and lists of tiles", "why_tests_cant": "tests use short names and give --output_file", "anchors": ["src/fre-grid/fregrid_util.c:set_mosaic_data_file", "src/fre-grid/fregrid.c:main"]}
{"id": "C158", "title": "Options of nests of make_hgrid", "statement": "Comma separated lists of numbers are read as these numbers, in any order of the options; each nest gets one tile, whose size is that of its region in the parent tile times the refinement ratio; a number that is missing ends the program with a message; an option that is given again replaces the first.", "quantifier": "for all lists of numbers, orders of options, and numbers of nests", "why_tests_cant": "tests give one or two complete nests", "anchors": ["src/make-hgrid/make_hgrid.c:parse_comma_list", "src/make-hgrid/make_hgrid.c:main"]}
{"id": "C159", "title": "Times of the output of fregrid", "statement": "Each time step of the output has the time, and the bounds or edges of the time interval, of the step of the input whose data was remapped to it, whatever the type of the axis and the part of the steps that is asked for.", "quantifier": "for all times, types of the axis, and ranges of steps", "why_tests_cant": "tests have real times with bounds of two dimensions, and compare few steps", "anchors": ["src/fre-grid/fregrid_util.c:write_output_time", "src/fre-grid/fregrid_util.c:get_input_metadata", "src/fre-grid/fregrid_util.c:set_output_metadata", "lib/libfrencutils/mpp_io.c:mpp_put_var_value_block", "lib/libfrencutils/mpp_io.c:mpp_get_var_value_block"]}
{"id": "C160", "title": "Options of check_mask", "statement": "A point of the ocean grid is ocean if it is deeper than the sea level that is asked for, and land if not; the layout and the open boundaries are those of the options, or the program ends with a message; the mask comes from the field wet, the topography or the land mosaic, depending on the grid file and the model.", "quantifier": "for all decimal sea levels, depths, lists of numbers and words, and kinds of grid file", "why_tests_cant": "tests use the default sea level and no open boundaries", "anchors": ["src/check-mask/check_mask.c:main", "src/check-mask/check_mask.c:get_ocean_mask", "src/check-mask/check_mask.c:get_text_entry", "lib/libfrencutils/tool_util.c:get_int_entry"]}
{"id": "C161", "title": "Attributes of axes", "statement": "The kind of an axis is the letter of its attribute cartesian_axis, or else axis, or else N; its bounds are the variable that climatology, bounds or edges names, in this order; the levels of a field are the values of its Z axis, and without one the program ends with a message.", "quantifier": "for all attributes, names and fields with any number of dimensions", "why_tests_cant": "tests have files of few models, whose attributes all have one character, and fields of at most four dimensions", "anchors": ["lib/libfrencutils/mpp_io.c:mpp_get_var_cart", "lib/libfrencutils/mpp_io.c:mpp_get_var_bndname", "lib/libfrencutils/mpp_io.c:mpp_get_var_dimname", "src/fre-grid/fregrid_util.c:get_input_vgrid"]}
{"id": "C162", "title": "Areas with the rotation at the poles", "statement": "With option rotate_poly a polygon with a vertex close to a pole gets the area that is computed for its image under a rotation of the sphere, which is away from the poles; any other polygon has the same area as without the option.", "quantifier": "for all polygons, thresholds and tolerances", "why_tests_cant": "tests compare a few cells; whether the image is away from the poles is a question of all longitudes", "anchors": ["lib/libfrencutils/mosaic_util.c:poly_area", "lib/libfrencutils/mosaic_util.c:crosses_pole", "lib/libfrencutils/mosaic_util.c:is_near_pole", "lib/libfrencutils/mosaic_util.c:rotate_poly"]}
