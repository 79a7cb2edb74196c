{
 "claims": [
  {
   "property": "C01",
   "status": "proved",
   "theorems": [
    "Verif.C01_every_point_once",
    "Verif.C01_extents_partition",
    "Verif.C01_scatter_extents_partition",
    "Verif.C01_scatter_too_many_unchecked",
    "Verif.C01_too_many_divisions_refused"
   ],
   "note": "library and mppncscatter versions; the latter does not refuse ndivs > n (witness theorem)"
  },
  {
   "property": "C02",
   "status": "proved",
   "theorems": [
    "Verif.C02_mirror_symmetry"
   ],
   "note": ""
  },
  {
   "property": "C03",
   "status": "proved",
   "theorems": [
    "Verif.C03_balance",
    "Verif.C03_bound_attained"
   ],
   "note": "bound 2 in the symmetric case is attained"
  },
  {
   "property": "C04",
   "status": "proved",
   "theorems": [
    "Verif.C04_layout_uses_every_processor"
   ],
   "note": "the floating-point guess is an arbitrary integer"
  },
  {
   "property": "C05",
   "status": "proved",
   "theorems": [
    "Verif.C05_every_cell_one_owner"
   ],
   "note": ""
  },
  {
   "property": "C06",
   "status": "proved",
   "theorems": [
    "Verif.C06_3d_staggered_wrong",
    "Verif.C06_gather_all",
    "Verif.C06_gather_root",
    "Verif.C06_global_field",
    "Verif.C06_global_field_all",
    "Verif.C06_global_field_levels",
    "Verif.C06_halo_out_of_bounds"
   ],
   "note": "2-D and 3-D routines and the gathers, every schedule; the statement itself limits the 3-D routine to equal staggering (witness of the failure included); final barrier of the 3-D routine not modelled"
  },
  {
   "property": "C07",
   "status": "proved",
   "theorems": [
    "Verif.C07_io_layout_partition",
    "Verif.C07_io_layout_refused"
   ],
   "note": ""
  },
  {
   "property": "C08",
   "status": "partial",
   "theorems": [
    "Verif.C08_static_4d_not_copied",
    "Verif.C08_static_4d_wrong",
    "Verif.C08_tile_contents_partial"
   ],
   "note": "all shapes up to 3 dimensions, and 4 with the record dimension or a dimension of length 1 first; the code does not copy 4-D variables without record dimension (two theorems show it)"
  },
  {
   "property": "C09",
   "status": "partial",
   "theorems": [
    "Verif.C09_no_coordinate_variable",
    "Verif.C09_scatter_combine_partial",
    "Verif.C09_two_x_dims"
   ],
   "note": "proved for input files whose scattered dimensions have coordinate variables, with at most one x and one y dimension per variable, at least one record, and no 4-D variable without record dimension; two theorems show that the first two restrictions are needed"
  },
  {
   "property": "C10",
   "status": "proved",
   "theorems": [
    "Verif.C10_value_of_owner"
   ],
   "note": "variables of up to 4 dimensions, at least one record"
  },
  {
   "property": "C11",
   "status": "proved",
   "theorems": [
    "Verif.C11_blocking_factor",
    "Verif.C11_zero_records_crash"
   ],
   "note": "at least one record; without records the program divides by zero (theorem)"
  },
  {
   "property": "C12",
   "status": "proved",
   "theorems": [
    "Verif.C12_file_order"
   ],
   "note": "also for overlapping tiles that agree"
  },
  {
   "property": "C13",
   "status": "partial",
   "theorems": [
    "Verif.C13_list",
    "Verif.C13_no_end_deletes_uncombined",
    "Verif.C13_no_end_partial",
    "Verif.C13_no_first_file",
    "Verif.C13_range_deletes_uncombined",
    "Verif.C13_range_partial"
   ],
   "note": "proved for input files named on the command line; numbered files only under conditions that are shown to be needed by runs that delete a file never opened"
  },
  {
   "property": "C14",
   "status": "partial",
   "theorems": [
    "Verif.C14_input_errors_wrap",
    "Verif.C14_list_converse",
    "Verif.C14_no_errors_partial",
    "Verif.C14_output_errors_wrap",
    "Verif.C14_status_zero"
   ],
   "note": "exact meaning of status 0 proved; implies the absence of errors when fewer than 256 are counted; two theorems show runs with 256 errors and status 0"
  },
  {
   "property": "C15",
   "status": "proved",
   "theorems": [
    "Verif.C15_first_file"
   ],
   "note": ""
  },
  {
   "property": "C16",
   "status": "partial",
   "theorems": [
    "Verif.C16_own_metadata_partial",
    "Verif.C16_stale_flag",
    "Verif.C16_stale_text",
    "Verif.C16_total"
   ],
   "note": "proved for every dimension that is listed by the user, is the record dimension, has no coordinate variable, or has complete text units; two theorems show that a stale flag and a stale buffer make other cases depend on the preceding dimension"
  },
  {
   "property": "C17",
   "status": "proved",
   "theorems": [
    "Verif.C17_add",
    "Verif.C17_append",
    "Verif.C17_comma_list",
    "Verif.C17_copy",
    "Verif.C17_count",
    "Verif.C17_difference",
    "Verif.C17_membership",
    "Verif.C17_union_members",
    "Verif.C17_union_order",
    "Verif.C17_union_safe"
   ],
   "note": ""
  },
  {
   "property": "C18",
   "status": "partial",
   "theorems": [
    "Verif.C18_pack_after_unpack_partial",
    "Verif.C18_pack_negative",
    "Verif.C18_put_int_no_effect",
    "Verif.C18_unpack"
   ],
   "note": "unpacking proved in full; packing proved for indices that are not negative; two theorems show that packing fails with a negative index and that the integer routine writes nothing"
  },
  {
   "property": "C19",
   "status": "proved",
   "theorems": [
    "Verif.C19_combine",
    "Verif.C19_index"
   ],
   "note": ""
  },
  {
   "property": "C20",
   "status": "proved",
   "theorems": [
    "Verif.C20_merge_overlay",
    "Verif.C20_rank"
   ],
   "note": ""
  },
  {
   "property": "C21",
   "status": "proved",
   "theorems": [
    "Verif.C21_dim_len",
    "Verif.C21_round_trip",
    "Verif.C21_scatter"
   ],
   "note": ""
  },
  {
   "property": "C22",
   "status": "partial",
   "theorems": [
    "Verif.C22_merge_partial",
    "Verif.C22_ocean_last_only",
    "Verif.C22_ocean_loses_points",
    "Verif.C22_ocean_one_file_partial",
    "Verif.C22_order_partial"
   ],
   "note": "proved without ocean fill value and for one file with it; two theorems show that with an ocean fill value the points of all files but the last are lost"
  },
  {
   "property": "C23",
   "status": "proved",
   "theorems": [
    "Verif.C23_ends",
    "Verif.C23_nearest",
    "Verif.C23_one_element_oob",
    "Verif.C23_rejects"
   ],
   "note": ""
  },
  {
   "property": "C24",
   "status": "partial",
   "theorems": [
    "Verif.C24_affine",
    "Verif.C24_all_below_oob",
    "Verif.C24_at_level",
    "Verif.C24_bounded",
    "Verif.C24_clamp_partial",
    "Verif.C24_interp",
    "Verif.C24_monotone",
    "Verif.C24_none_inside_wrong",
    "Verif.C24_refuses",
    "Verif.C24_same_levels"
   ],
   "note": "the interpolation is proved exact, bounded, monotone; the behaviour outside the source levels fails when no target level lies inside (C24_none_inside_wrong, C24_all_below_oob), clamping proved otherwise"
  },
  {
   "property": "C25",
   "status": "proved",
   "theorems": [
    "Verif.C25_between",
    "Verif.C25_flat_end_overshoot",
    "Verif.C25_monotone",
    "Verif.C25_nodes",
    "Verif.C25_rejects",
    "Verif.C25_spline",
    "Verif.C25_strict"
   ],
   "note": ""
  },
  {
   "property": "C26",
   "status": "proved",
   "theorems": [
    "Verif.C26_affine",
    "Verif.C26_nodes",
    "Verif.C26_spline",
    "Verif.C26_two_nodes",
    "Verif.C26_unique",
    "Verif.C26_zero_is_not_natural"
   ],
   "note": ""
  },
  {
   "property": "C27",
   "status": "proved",
   "theorems": [
    "Verif.C27_conserves",
    "Verif.C27_fregrid",
    "Verif.C27_fregrid_conserves",
    "Verif.C27_fregrid_plain",
    "Verif.C27_fregrid_range",
    "Verif.C27_fregrid_sum",
    "Verif.C27_fregrid_target",
    "Verif.C27_mean",
    "Verif.C27_range"
   ],
   "note": ""
  },
  {
   "property": "C28",
   "status": "proved",
   "theorems": [
    "Verif.C28_area",
    "Verif.C28_convex",
    "Verif.C28_fits",
    "Verif.C28_inside",
    "Verif.C28_outside",
    "Verif.C28_tiling",
    "Verif.C28_unchanged"
   ],
   "note": ""
  },
  {
   "property": "C29",
   "status": "partial",
   "theorems": [
    "Verif.C29_convex_partial",
    "Verif.C29_inside_partial",
    "Verif.C29_sliver_wrong",
    "Verif.C29_split",
    "Verif.C29_tolerance",
    "Verif.C29_unchanged"
   ],
   "note": "proved for runs in which no vertex is in the strip of the tolerance; C29_sliver_wrong shows the claim fails otherwise; C29_tolerance and C29_unchanged hold for all runs"
  },
  {
   "property": "C30",
   "status": "proved",
   "theorems": [
    "Verif.XGrid.C30_cells",
    "Verif.XGrid.C30_fewer_threads",
    "Verif.XGrid.C30_limit_wrong",
    "Verif.XGrid.C30_one_thread",
    "Verif.XGrid.C30_order_wrong",
    "Verif.XGrid.C30_remap",
    "Verif.XGrid.C30_schedule",
    "Verif.XGrid.C30_threads"
   ],
   "note": "for any function of the two cells as the result of clipping; C30_order_wrong and C30_limit_wrong record what does depend on the number of threads"
  },
  {
   "property": "C31",
   "status": "partial",
   "theorems": [
    "Verif.XGrid.C31_limit",
    "Verif.XGrid.C31_limit_wrong",
    "Verif.XGrid.C31_serial_partial",
    "Verif.XGrid.C31_serial_wrong",
    "Verif.XGrid.C31_threads_inside",
    "Verif.XGrid.C31_threads_stop"
   ],
   "note": "proved for the threaded routines; the routines without threads write one element too many (C31_serial_wrong) and the option accepts limits that do not fit an int (C31_limit_wrong)"
  },
  {
   "property": "C32",
   "status": "proved",
   "theorems": [
    "Verif.Lon.C32_fix_cell",
    "Verif.Lon.C32_fix_size",
    "Verif.Lon.C32_fix_turns",
    "Verif.Lon.C32_in_range",
    "Verif.Lon.C32_over_pole",
    "Verif.Lon.C32_pimod",
    "Verif.Lon.C32_pimod_once",
    "Verif.Lon.C32_pole",
    "Verif.Lon.C32_range_ends_wrong"
   ],
   "note": "for the ranges stated; C32_pimod_once and C32_range_ends_wrong record where the routines do not give one representative"
  },
  {
   "property": "C33",
   "status": "proved",
   "theorems": [
    "Verif.Lon.C33_delete",
    "Verif.Lon.C33_delete_insert",
    "Verif.Lon.C33_insert",
    "Verif.Lon.C33_insert_delete"
   ],
   "note": "on arrays as functions, with the elements outside the polygon left as they are"
  },
  {
   "property": "C34",
   "status": "proved",
   "theorems": [
    "Verif.Vec3.C34_invert",
    "Verif.Vec3.C34_line_plane"
   ],
   "note": "in exact arithmetic over an ordered field"
  },
  {
   "property": "C35",
   "status": "proved",
   "theorems": [
    "Verif.Vec3.C35_away",
    "Verif.Vec3.C35_isometry",
    "Verif.Vec3.C35_lonlat",
    "Verif.Vec3.C35_lonlat_pole",
    "Verif.Vec3.C35_poly",
    "Verif.Vec3.C35_right_angle"
   ],
   "note": "over the reals; C35_right_angle records that the rotation is by 90 degrees, not by 45 as the comment says"
  },
  {
   "property": "C36",
   "status": "proved",
   "theorems": [
    "Verif.Tokenize.C36_blank_wrong",
    "Verif.Tokenize.C36_clean",
    "Verif.Tokenize.C36_join",
    "Verif.Tokenize.C36_trailing_wrong",
    "Verif.Tokenize.C36_words"
   ],
   "note": "C36_trailing_wrong and C36_blank_wrong record the spurious empty word and that a blank separator has no effect"
  },
  {
   "property": "C37",
   "status": "proved",
   "theorems": [
    "Verif.Contact.C37_both_sides",
    "Verif.Contact.C37_both_sides_wrong",
    "Verif.Contact.C37_east_east_wrong",
    "Verif.Contact.C37_fold",
    "Verif.Contact.C37_fold_halves",
    "Verif.Contact.C37_fold_odd_wrong",
    "Verif.Contact.C37_found",
    "Verif.Contact.C37_genuine",
    "Verif.Contact.C37_inside",
    "Verif.Contact.C37_interior_wrong",
    "Verif.Contact.C37_one_cell_wrong",
    "Verif.Contact.C37_overlap",
    "Verif.Contact.C37_overlap_turned_wrong",
    "Verif.Contact.C37_self"
   ],
   "note": "limits recorded as theorems: only end points are compared (C37_interior_wrong), contacts of one cell lose their direction, east-east contacts are not looked for, a nested tile turned by a half turn gets wrong cells, folding with an odd number of cells, asymmetric search when points coincide within a side"
  },
  {
   "property": "C38",
   "status": "partial",
   "theorems": [
    "Verif.CheckMask.C38_corner_wrong",
    "Verif.CheckMask.C38_exact_partial",
    "Verif.CheckMask.C38_halo1_partial",
    "Verif.CheckMask.C38_land",
    "Verif.CheckMask.C38_layout",
    "Verif.CheckMask.C38_obc_wrong",
    "Verif.CheckMask.C38_ocean_kept",
    "Verif.CheckMask.C38_used_and_masked",
    "Verif.CheckMask.C38_wide_halo_wrong"
   ],
   "note": "ocean kept, counts and land proved in full; exactness proved for grids that are not doubly cyclic and processors no narrower than the halo; C38_corner_wrong and C38_wide_halo_wrong show that it fails beyond; C38_obc_wrong records the open boundary check"
  },
  {
   "property": "C39",
   "status": "proved",
   "theorems": [
    "Verif.CheckMask.C39_neighbour",
    "Verif.CheckMask.C39_rest",
    "Verif.CheckMask.C39_symmetric",
    "Verif.CheckMask.C39_unique"
   ],
   "note": "with uniqueness of the neighbouring cell"
  },
  {
   "property": "C40",
   "status": "proved",
   "theorems": [
    "Verif.TimeAvg.C40_between",
    "Verif.TimeAvg.C40_first_single_wrong",
    "Verif.TimeAvg.C40_fraction",
    "Verif.TimeAvg.C40_instant_wrong",
    "Verif.TimeAvg.C40_integer",
    "Verif.TimeAvg.C40_integer_missing",
    "Verif.TimeAvg.C40_no_bounds_wrong",
    "Verif.TimeAvg.C40_range",
    "Verif.TimeAvg.C40_record",
    "Verif.TimeAvg.C40_record_no_missing",
    "Verif.TimeAvg.C40_time",
    "Verif.TimeAvg.C40_two_stages"
   ],
   "note": "for one variable point by point; C40_first_single_wrong, C40_instant_wrong and C40_no_bounds_wrong record where averages and times are not as expected"
  },
  {
   "property": "C41",
   "status": "proved",
   "theorems": [
    "Verif.NodePool.C41_history",
    "Verif.NodePool.C41_intersections",
    "Verif.NodePool.C41_polygon",
    "Verif.NodePool.C41_read"
   ],
   "note": "refinement of an abstract machine over all histories, also the list of intersections"
  },
  {
   "property": "C42",
   "status": "partial",
   "theorems": [
    "Verif.GridBound.C42_accepts",
    "Verif.GridBound.C42_bounds_partial",
    "Verif.GridBound.C42_c_cell_wrong",
    "Verif.GridBound.C42_cells",
    "Verif.GridBound.C42_centred",
    "Verif.GridBound.C42_constant",
    "Verif.GridBound.C42_monotone"
   ],
   "note": "cell count, monotony, centring and acceptance in full; all bounds are hit without c_cell, the two outer ones with it; C42_c_cell_wrong shows an inner bound missed with c_cell"
  },
  {
   "property": "C43",
   "status": "proved",
   "theorems": [
    "Verif.CompressedDim.C43_exact",
    "Verif.CompressedDim.C43_unreadable"
   ],
   "note": "also that a file that cannot be opened is never reported as compressed"
  },
  {
   "property": "C44",
   "status": "proved",
   "theorems": [
    "Verif.FloatExtent.C44_ceil",
    "Verif.FloatExtent.C44_library",
    "Verif.FloatExtent.C44_scatter",
    "Verif.FloatExtent.C44_scatter_wrong"
   ],
   "note": "for every rounding function within the stated relative error; roundNearest_rounds shows such a function exists"
  },
  {
   "property": "C45",
   "status": "proved",
   "theorems": [
    "Verif.C45_centroid",
    "Verif.C45_conserves"
   ],
   "note": "for source cells covered by the exchange cells up to the ratio the code tests"
  },
  {
   "property": "C46",
   "status": "partial",
   "theorems": [
    "Verif.C46_both_bounds_wrong",
    "Verif.C46_bounds_partial",
    "Verif.C46_conserves",
    "Verif.C46_no_error",
    "Verif.C46_range_partial"
   ],
   "note": "conservation, upper bound and absence of errors proved; the lower bound holds unless a source cell violates both bounds, C46_both_bounds_wrong shows it fails then; tiles of one size"
  },
  {
   "property": "C47",
   "status": "proved",
   "theorems": [
    "Verif.C47_any_reader",
    "Verif.C47_no_loss",
    "Verif.C47_round_trip"
   ],
   "note": ""
  },
  {
   "property": "C48",
   "status": "proved",
   "theorems": [
    "Verif.C48_box",
    "Verif.C48_pieces",
    "Verif.C48_sphere",
    "Verif.C48_wide_wrong"
   ],
   "note": "over the reals, with the real sine and cosine; for sides that run along a parallel or change latitude by at least SMALL_VALUE"
  },
  {
   "property": "C49",
   "status": "partial",
   "theorems": [
    "Verif.Vec3.C49_antipodal_wrong",
    "Verif.Vec3.C49_common_end",
    "Verif.Vec3.C49_found",
    "Verif.Vec3.C49_inbound_wrong",
    "Verif.Vec3.C49_point_partial"
   ],
   "note": "position proved for crossings in the interior of both arcs with end points in one half of space; C49_antipodal_wrong and C49_inbound_wrong show where the claim fails; parameters moved to an end by the tolerance are not covered"
  },
  {
   "property": "C50",
   "status": "proved",
   "theorems": [
    "Verif.MosaicContact.C50_colon_wrong",
    "Verif.MosaicContact.C50_round_trip"
   ],
   "note": "C50_colon_wrong records that a colon in the mosaic name makes contacts unreadable"
  },
  {
   "property": "C51",
   "status": "proved",
   "theorems": [
    "Verif.GridLegacy.C51_decreasing_wrong",
    "Verif.GridLegacy.C51_exact",
    "Verif.GridLegacy.C51_increasing",
    "Verif.GridLegacy.C51_lines",
    "Verif.GridLegacy.C51_size",
    "Verif.GridLegacy.C51_stretch_wrong"
   ],
   "note": "increasing bounds; C51_decreasing_wrong and C51_stretch_wrong record what the code does with decreasing bounds and stretching"
  },
  {
   "property": "C52",
   "status": "proved",
   "theorems": [
    "Verif.CompressedDim.C52_detected",
    "Verif.CompressedDim.C52_dims",
    "Verif.CompressedDim.C52_missing_dim_wrong",
    "Verif.CompressedDim.C52_unique"
   ],
   "note": "attributes of any length; C52_missing_dim_wrong shows that the two tools disagree if a named dimension is missing"
  },
  {
   "property": "C53",
   "status": "proved",
   "theorems": [
    "Verif.QSort.C53_index",
    "Verif.QSort.C53_sorts"
   ],
   "note": "any array and any range, with ties; the loop limits of the model are shown to be enough"
  },
  {
   "property": "C54",
   "status": "proved",
   "theorems": [
    "Verif.River.C54_acyclic",
    "Verif.River.C54_directions",
    "Verif.River.C54_halo",
    "Verif.River.C54_no_error",
    "Verif.River.C54_y_cyclic_wrong"
   ],
   "note": "C54_y_cyclic_wrong: on a tile cyclic in rows that is not square the halo is not filled, so that the theorems require a square tile"
  },
  {
   "property": "C55",
   "status": "proved",
   "theorems": [
    "Verif.River.C55_accepts",
    "Verif.River.C55_ends",
    "Verif.River.C55_numbers",
    "Verif.River.C55_ocean",
    "Verif.River.C55_same_basin",
    "Verif.River.C55_stops_early_wrong",
    "Verif.River.C55_travel",
    "Verif.River.C55_unique"
   ],
   "note": "C55_accepts says exactly which networks are accepted; C55_stops_early_wrong is a network that is refused although each cell drains to the ocean"
  },
  {
   "property": "C56",
   "status": "proved",
   "theorems": [
    "Verif.River.C56_area",
    "Verif.River.C56_total"
   ],
   "note": "exact arithmetic"
  },
  {
   "property": "C57",
   "status": "proved",
   "theorems": [
    "Verif.River.C57_order"
   ],
   "note": ""
  },
  {
   "property": "C58",
   "status": "proved",
   "theorems": [
    "Verif.C58_edge",
    "Verif.C58_land",
    "Verif.C58_noise",
    "Verif.C58_not_deeper",
    "Verif.C58_ocean",
    "Verif.C58_range",
    "Verif.C58_slope"
   ],
   "note": "depths not negative where the claim needs it"
  },
  {
   "property": "C59",
   "status": "partial",
   "theorems": [
    "Verif.C59_depth",
    "Verif.C59_fits_partial",
    "Verif.C59_fits_wrong",
    "Verif.C59_succeeds"
   ],
   "note": "needs levels at least as thick as the least thickness asked for; C59_fits_wrong shows that the code breaks the claim otherwise"
  },
  {
   "property": "C60",
   "status": "partial",
   "theorems": [
    "Verif.C60_closing_wrong",
    "Verif.C60_connected_partial",
    "Verif.C60_landmask",
    "Verif.C60_largest",
    "Verif.C60_only_fills"
   ],
   "note": "with the default opening of thin cells in full; C60_closing_wrong shows that closing them isolates cells again; the last row of a tripolar grid is not looked at by the code"
  },
  {
   "property": "C61",
   "status": "partial",
   "theorems": [
    "Verif.C61_deepen",
    "Verif.C61_fill",
    "Verif.C61_min_levels",
    "Verif.C61_round_partial",
    "Verif.C61_round_wrong",
    "Verif.C61_thickness"
   ],
   "note": "all but the rounding rule in full; C61_round_wrong shows that rounding looks at the bottom of the level instead of the depth"
  },
  {
   "property": "C62",
   "status": "partial",
   "theorems": [
    "Verif.C62_defined_partial",
    "Verif.C62_full_between",
    "Verif.C62_full_increasing",
    "Verif.C62_kbot",
    "Verif.C62_pressure_levels",
    "Verif.C62_short_wrong",
    "Verif.C62_sigma_levels"
   ],
   "note": "columns with at least two valid levels; C62_short_wrong shows that the program reads outside the column otherwise"
  },
  {
   "property": "C63",
   "status": "proved",
   "theorems": [
    "Verif.C63_between",
    "Verif.C63_constant",
    "Verif.C63_exact",
    "Verif.C63_limited",
    "Verif.C63_loglinear",
    "Verif.C63_masked"
   ],
   "note": "over the reals, fields on full levels"
  },
  {
   "property": "C64",
   "status": "partial",
   "theorems": [
    "Verif.C64_heights_decrease",
    "Verif.C64_humidity",
    "Verif.C64_hydrostatic",
    "Verif.C64_isothermal",
    "Verif.C64_lapse",
    "Verif.C64_layer_partial",
    "Verif.C64_level",
    "Verif.C64_monotone_wrong"
   ],
   "note": "heights on output levels are monotone within a layer (dry air), but not across levels (C64_monotone_wrong); the rest in full, with the saturation vapour pressure as an arbitrary function"
  },
  {
   "property": "C65",
   "status": "partial",
   "theorems": [
    "Verif.C65_flat",
    "Verif.C65_found",
    "Verif.C65_lapse_partial",
    "Verif.C65_wrong"
   ],
   "note": "for columns with a level above 0.8 of the surface pressure; C65_wrong shows a column without one"
  },
  {
   "property": "C66",
   "status": "partial",
   "theorems": [
    "Verif.C66_half_partial",
    "Verif.C66_half_wrong"
   ],
   "note": "down to the half level above the lowest valid full level; C66_half_wrong shows that the half level below it is never used"
  },
  {
   "property": "C67",
   "status": "partial",
   "theorems": [
    "Verif.C67_cells_partial",
    "Verif.C67_depth_partial",
    "Verif.C67_negative_wrong",
    "Verif.C67_total_partial"
   ],
   "note": "runoff that is not negative; C67_negative_wrong shows that negative runoff on land is lost"
  },
  {
   "property": "C68",
   "status": "partial",
   "theorems": [
    "Verif.C68_nearest_partial",
    "Verif.C68_opposite_wrong"
   ],
   "note": "C68_opposite_wrong: no cell is found if all ocean cells are exactly opposite"
  },
  {
   "property": "C69",
   "status": "proved",
   "theorems": [
    "Verif.C69_pairs",
    "Verif.C69_processes"
   ],
   "note": "comparison of latitudes; the clipping that follows is C01 and C46"
  },
  {
   "property": "C70",
   "status": "partial",
   "theorems": [
    "Verif.C70_lost_wrong",
    "Verif.C70_pairs_partial",
    "Verif.C70_regular_partial"
   ],
   "note": "ocean cells with a corner inside the latitude band of the process; C70_lost_wrong shows pairs lost when there is none, depending on the number of processes"
  },
  {
   "property": "C71",
   "status": "proved",
   "theorems": [
    "Verif.C71_exact",
    "Verif.C71_parents",
    "Verif.C71_room",
    "Verif.C71_room_wrong",
    "Verif.C71_tiling"
   ],
   "note": "with clipping as a contract; C71_room_wrong records that the limit of the arrays is tested only after they are written"
  },
  {
   "property": "C72",
   "status": "partial",
   "theorems": [
    "Verif.C72_centroid_partial",
    "Verif.C72_nest_wrong"
   ],
   "note": "without a nested tile; C72_nest_wrong shows that the centroid of a parent of the nest is taken over other cells"
  },
  {
   "property": "C73",
   "status": "partial",
   "theorems": [
    "Verif.C73_cells_kept",
    "Verif.C73_indices",
    "Verif.C73_reach_partial",
    "Verif.C73_reach_wrong"
   ],
   "note": "cells and indices in full; the added row reaches the pole if the southern row has constant latitude, C73_reach_wrong otherwise"
  },
  {
   "property": "C74",
   "status": "partial",
   "theorems": [
    "Verif.C74_land_mask",
    "Verif.C74_no_bad_cell_partial",
    "Verif.C74_ocean_mask",
    "Verif.C74_silent_wrong"
   ],
   "note": "masks in full; C74_silent_wrong shows that a partly covered ocean cell ends the program only with --verbose"
  },
  {
   "property": "C75",
   "status": "partial",
   "theorems": [
    "Verif.C75_coupler",
    "Verif.C75_coupler_stops",
    "Verif.C75_depth_mask",
    "Verif.C75_frac",
    "Verif.C75_frac_wrong",
    "Verif.C75_listed",
    "Verif.C75_masks",
    "Verif.C75_topog_partial",
    "Verif.C75_topog_wrong"
   ],
   "note": "masks 0 or 1 and land fractions within 0 and 1; C75_topog_wrong and C75_frac_wrong show what happens otherwise"
  },
  {
   "property": "C76",
   "status": "partial",
   "theorems": [
    "Verif.C76_found",
    "Verif.C76_nest_partial",
    "Verif.C76_side_wrong"
   ],
   "note": "all but which side is the nest; C76_side_wrong shows a mosaic with the sides exchanged"
  },
  {
   "property": "C77",
   "status": "partial",
   "theorems": [
    "Verif.C77_at_cell",
    "Verif.C77_at_centre",
    "Verif.C77_corner_missing_wrong",
    "Verif.C77_distance",
    "Verif.C77_missing",
    "Verif.C77_value",
    "Verif.C77_vector",
    "Verif.C77_vector_missing_wrong",
    "Verif.C77_weights",
    "Verif.C77_weights_corner"
   ],
   "note": "weights, values, missing points and speed of vectors; C77_vector_missing_wrong and C77_corner_missing_wrong record that missing values of vectors are not noticed and that a missing value of 0 makes points at the corners of the cube missing; the search for the cell of a point is not modelled"
  },
  {
   "property": "C78",
   "status": "partial",
   "theorems": [
    "Verif.C78_mean",
    "Verif.C78_missing_wrong",
    "Verif.C78_poles",
    "Verif.C78_range",
    "Verif.C78_row_missing_wrong",
    "Verif.C78_shift_wrong"
   ],
   "note": "range, mean and pole rows without a missing value; C78_missing_wrong, C78_all_missing_wrong and C78_shift_wrong show that a missing value divides the field and that the result is displaced by a quarter of a column"
  },
  {
   "property": "C79",
   "status": "partial",
   "theorems": [
    "Verif.C79_constant",
    "Verif.C79_corners",
    "Verif.C79_edge_linear",
    "Verif.C79_equal_shares",
    "Verif.C79_flat",
    "Verif.C79_levels_wrong",
    "Verif.C79_linear"
   ],
   "note": "one level in full; C79_levels_wrong shows that all levels are written to the first"
  },
  {
   "property": "C80",
   "status": "partial",
   "theorems": [
    "Verif.C80_boundary_wrong",
    "Verif.C80_laplace",
    "Verif.C80_mean",
    "Verif.C80_range",
    "Verif.C80_stops",
    "Verif.C80_valid"
   ],
   "note": "all but the filling with a constant at the rim of the grid, C80_boundary_wrong"
  },
  {
   "property": "C81",
   "status": "proved",
   "theorems": [
    "Verif.CubeGrid.C81_corner_kept",
    "Verif.CubeGrid.C81_corners_agree",
    "Verif.CubeGrid.C81_in_bounds",
    "Verif.CubeGrid.C81_supergrid_agrees"
   ],
   "note": ""
  },
  {
   "property": "C82",
   "status": "partial",
   "theorems": [
    "Verif.CubeGrid.C82_distance",
    "Verif.CubeGrid.C82_lengths_agree",
    "Verif.CubeGrid.C82_lengths_right",
    "Verif.CubeGrid.C82_mirrored",
    "Verif.NestLength.C82_nest_partial",
    "Verif.NestLength.C82_nest_wrong"
   ],
   "note": "all six tiles in full; for nests only if all tiles but the last are square, C82_nest_wrong shows that otherwise dy of a nest is read from a wrong place"
  },
  {
   "property": "C83",
   "status": "proved",
   "theorems": [
    "Verif.CubeGrid.C83_between",
    "Verif.Gnomonic.C83_corners",
    "Verif.Gnomonic.C83_distinct",
    "Verif.Gnomonic.C83_equal_edges",
    "Verif.Gnomonic.C83_rotations",
    "Verif.Gnomonic.C83_shifted"
   ],
   "note": ""
  },
  {
   "property": "C84",
   "status": "proved",
   "theorems": [
    "Verif.CubeGrid.C84_compose",
    "Verif.CubeGrid.C84_no_stretching",
    "Verif.CubeGrid.C84_options",
    "Verif.CubeGrid.C84_order",
    "Verif.CubeGrid.C84_poles",
    "Verif.CubeGrid.C84_range",
    "Verif.CubeGrid.C84_rotation",
    "Verif.CubeGrid.C84_stereographic",
    "Verif.CubeGrid.C84_target"
   ],
   "note": ""
  },
  {
   "property": "C85",
   "status": "proved",
   "theorems": [
    "Verif.C85_accepts",
    "Verif.C85_aligned",
    "Verif.C85_points",
    "Verif.C85_size"
   ],
   "note": ""
  },
  {
   "property": "C86",
   "status": "proved",
   "theorems": [
    "Verif.C86_aligned",
    "Verif.C86_edges_agree",
    "Verif.C86_refined_grid"
   ],
   "note": ""
  },
  {
   "property": "C87",
   "status": "partial",
   "theorems": [
    "Verif.C87_accepts_partial",
    "Verif.C87_one_face_wrong",
    "Verif.C87_points_partial",
    "Verif.C87_ten_faces_wrong"
   ],
   "note": "the mosaic has 2 to 9 faces; one face and ten faces are defects of the program"
  },
  {
   "property": "C88",
   "status": "proved",
   "theorems": [
    "Verif.C88_inner_wrong",
    "Verif.C88_only",
    "Verif.C88_region",
    "Verif.C88_round",
    "Verif.C88_tile"
   ],
   "note": "values inside an axis are not checked by the program, see C88_inner_wrong"
  },
  {
   "property": "C89",
   "status": "partial",
   "theorems": [
    "Verif.C89_one_more_wrong",
    "Verif.C89_rejected_partial",
    "Verif.C89_tiles_partial"
   ],
   "note": "one tile too many in a cell is accepted by the program and stored in the next cell"
  },
  {
   "property": "C90",
   "status": "proved",
   "theorems": [
    "Verif.C90_face_search",
    "Verif.C90_face_search_wrong",
    "Verif.C90_full_search"
   ],
   "note": "a defect: the search on one face stops the program although its result is not used"
  },
  {
   "property": "C91",
   "status": "partial",
   "theorems": [
    "Verif.C91_fire_wrong",
    "Verif.C91_fractions_partial",
    "Verif.C91_rejected",
    "Verif.C91_room_wrong",
    "Verif.C91_tiles_partial"
   ],
   "note": "cells with at most as many tiles as the source file has room for; more is a defect of the program"
  },
  {
   "property": "C92",
   "status": "partial",
   "theorems": [
    "Verif.C92_fill_wrong",
    "Verif.C92_increasing",
    "Verif.C92_index_partial",
    "Verif.C92_values_partial"
   ],
   "note": "as C91; in files of one kind the values must not be equal to the fill value, a defect of the program"
  },
  {
   "property": "C93",
   "status": "proved",
   "theorems": [
    "Verif.C93_cohorts",
    "Verif.C93_order_needed",
    "Verif.C93_search",
    "Verif.C93_sort"
   ],
   "note": ""
  },
  {
   "property": "C94",
   "status": "proved",
   "theorems": [
    "Verif.LonLatGrid.C94_cartesian",
    "Verif.LonLatGrid.C94_fplane",
    "Verif.LonLatGrid.C94_globe",
    "Verif.LonLatGrid.C94_lonlat"
   ],
   "note": "box_area for columns of at most half a turn"
  },
  {
   "property": "C95",
   "status": "partial",
   "theorems": [
    "Verif.Tripolar.C95_dx",
    "Verif.Tripolar.C95_dy",
    "Verif.Tripolar.C95_fold",
    "Verif.Tripolar.C95_great_circle_wrong",
    "Verif.Tripolar.C95_join",
    "Verif.Tripolar.C95_join_row",
    "Verif.Tripolar.C95_lengths_south",
    "Verif.Tripolar.C95_rows",
    "Verif.Tripolar.C95_scale",
    "Verif.Tripolar.C95_south",
    "Verif.Tripolar.C95_start_wrong",
    "Verif.Tripolar.C95_straddle_wrong"
   ],
   "note": "starts below -360 degrees, edges across a pole of the grid and the option for great circles are defects of the program; areas and angles of the bipolar part are not modelled"
  },
  {
   "property": "C96",
   "status": "partial",
   "theorems": [
    "Verif.LonLatGrid.C96_bounds_partial",
    "Verif.LonLatGrid.C96_bounds_wrong",
    "Verif.LonLatGrid.C96_converged",
    "Verif.LonLatGrid.C96_limit_wrong",
    "Verif.LonLatGrid.C96_lon",
    "Verif.LonLatGrid.C96_newton",
    "Verif.LonLatGrid.C96_odd_columns_wrong",
    "Verif.LonLatGrid.C96_odd_wrong",
    "Verif.LonLatGrid.C96_symmetric"
   ],
   "note": "the bounds need sum_wts to be zero at the start, which the program does not set; that the Newton iteration converges to the right zero is not proved"
  },
  {
   "property": "C97",
   "status": "partial",
   "theorems": [
    "Verif.ListVars.C97_dimension_wrong",
    "Verif.ListVars.C97_list_partial",
    "Verif.ListVars.C97_nothing_asked_wrong",
    "Verif.ListVars.C97_rank_wrong",
    "Verif.ListVars.C97_scalar_wrong",
    "Verif.ListVars.C97_script",
    "Verif.ListVars.C97_short_wrong"
   ],
   "note": "variables without dimensions, names of one or two letters, ranks above 4 and dimension variables are defects of the program"
  },
  {
   "property": "C98",
   "status": "proved",
   "theorems": [
    "Verif.ListVars.C98_both_wrong",
    "Verif.ListVars.C98_global",
    "Verif.ListVars.C98_refused",
    "Verif.ListVars.C98_variable"
   ],
   "note": "if a global attribute and a variable are both asked for, only the first is looked at"
  },
  {
   "property": "C99",
   "status": "partial",
   "theorems": [
    "Verif.CombineRestarts.C99_dot_wrong",
    "Verif.CombineRestarts.C99_dryrun_wrong",
    "Verif.CombineRestarts.C99_five_digits_wrong",
    "Verif.CombineRestarts.C99_old_output_wrong",
    "Verif.CombineRestarts.C99_removed",
    "Verif.CombineRestarts.C99_sets_partial"
   ],
   "note": "names that differ in a dot only, the option -n and numbers of five digits are defects of the program"
  },
  {
   "property": "C100",
   "status": "partial",
   "theorems": [
    "Verif.RestartScripts.C100_combine",
    "Verif.RestartScripts.C100_output",
    "Verif.RestartScripts.C100_single_wrong",
    "Verif.RestartScripts.C100_twice_wrong"
   ],
   "note": "the same file given twice and sets of one file are defects of the program"
  },
  {
   "property": "C101",
   "status": "partial",
   "theorems": [
    "Verif.RestartScripts.C101_own_options_partial",
    "Verif.RestartScripts.C101_stale_wrong",
    "Verif.RestartScripts.C101_status_wrong"
   ],
   "note": "the property holds as long as earlier calls succeeded; otherwise a defect of the program"
  },
  {
   "property": "C102",
   "status": "partial",
   "theorems": [
    "Verif.Hydrog.C102_cube",
    "Verif.Hydrog.C102_endless",
    "Verif.Hydrog.C102_follow",
    "Verif.Hydrog.C102_length",
    "Verif.Hydrog.C102_length_wrong",
    "Verif.Hydrog.C102_missing_partial",
    "Verif.Hydrog.C102_order_wrong",
    "Verif.Hydrog.C102_room_wrong"
   ],
   "note": "lengths of rivers that come to another tile and the size of the arrays for outlets are defects of the program; for rivers that flow to a missing cell one river is covered (C102_missing_partial), the sum is not, as it depends on the order of the cells (C102_order_wrong)"
  },
  {
   "property": "C103",
   "status": "partial",
   "theorems": [
    "Verif.Hydrog.C103_choice",
    "Verif.Hydrog.C103_iteration",
    "Verif.Hydrog.C103_iterations",
    "Verif.Hydrog.C103_ocean_const_wrong",
    "Verif.Hydrog.C103_start",
    "Verif.Hydrog.C103_tie_wrong"
   ],
   "note": "cells must have a positive area and add_ocean_const must be false: otherwise circles are possible, a defect of the program"
  },
  {
   "property": "C104",
   "status": "proved",
   "theorems": [
    "Verif.Hydrog.C104_basins"
   ],
   "note": "basins of the same area are in some order"
  },
  {
   "property": "C105",
   "status": "partial",
   "theorems": [
    "Verif.Hydrog.C105_complete",
    "Verif.Hydrog.C105_crossings",
    "Verif.Hydrog.C105_drains",
    "Verif.Hydrog.C105_edge_wrong",
    "Verif.Hydrog.C105_equal_wrong",
    "Verif.Hydrog.C105_fix",
    "Verif.Hydrog.C105_remaining",
    "Verif.Hydrog.C105_stale_wrong"
   ],
   "note": "crossings over edges of tiles and the date line, rivers of the same area, and areas after the correction are defects of the program"
  },
  {
   "property": "C106",
   "status": "partial",
   "theorems": [
    "Verif.C106_extension_wrong",
    "Verif.C106_records",
    "Verif.C106_tile",
    "Verif.C106_tile_wrong",
    "Verif.C106_tiles_mixed_wrong"
   ],
   "note": "tiles with numbers of two digits and names with a number after .nc are defects of the program; outputs of the operators NCO by contract"
  },
  {
   "property": "C107",
   "status": "partial",
   "theorems": [
    "Verif.C107_later_wrong",
    "Verif.C107_loss_wrong",
    "Verif.C107_status",
    "Verif.C107_unreadable_wrong"
   ],
   "note": "a failing call removes the earlier records, files that cannot be read and variables that are not in the first file are left out: defects of the program"
  },
  {
   "property": "C108",
   "status": "partial",
   "theorems": [
    "Verif.C108_cmip",
    "Verif.C108_onefile",
    "Verif.C108_onefile_wrong",
    "Verif.C108_pressure",
    "Verif.C108_pressure_wrong",
    "Verif.C108_variable"
   ],
   "note": "with one output file a variable with bounds of time removes those before it, and names with the same end are mixed up: defects of the program; the renaming of coordinates is not modelled"
  },
  {
   "property": "C109",
   "status": "partial",
   "theorems": [
    "Verif.C109_calendar_partial",
    "Verif.C109_calendar_wrong",
    "Verif.C109_cleaned"
   ],
   "note": "a calendar in calendar_type is lost, a defect of the program"
  },
  {
   "property": "C110",
   "status": "partial",
   "theorems": [
    "Verif.C110_archive_wrong",
    "Verif.C110_inputs"
   ],
   "note": "files in the archive are removed, a defect of the program"
  },
  {
   "property": "C111",
   "status": "partial",
   "theorems": [
    "Verif.TransferMosaic.C111_accepts",
    "Verif.TransferMosaic.C111_around_partial",
    "Verif.TransferMosaic.C111_corners",
    "Verif.TransferMosaic.C111_lengths",
    "Verif.TransferMosaic.C111_points",
    "Verif.TransferMosaic.C111_regional_wrong",
    "Verif.TransferMosaic.C111_sides",
    "Verif.TransferMosaic.C111_unread_wrong",
    "Verif.TransferMosaic.C111_written_partial"
   ],
   "note": "the west side is taken from the east side also for regional grids, and one combination of optional variables uses memory that was not read: defects of the program; areas are not modelled here"
  },
  {
   "property": "C112",
   "status": "partial",
   "theorems": [
    "Verif.TransferMosaic.C112_atmos_wrong",
    "Verif.TransferMosaic.C112_land_wrong",
    "Verif.TransferMosaic.C112_ocean_partial",
    "Verif.TransferMosaic.C112_ocean_wrong"
   ],
   "note": "the numbers of the ocean contacts are fixed for one grid size, those of the land contact are not in supergrid cells: defects of the program"
  },
  {
   "property": "C113",
   "status": "proved",
   "theorems": [
    "Verif.TransferMosaic.C113_product",
    "Verif.TransferMosaic.C113_vgrid",
    "Verif.TransferMosaic.C113_vgrid_wrong"
   ],
   "note": "with other lengths the program does not stop but writes memory that was not set (C113_vgrid_wrong)"
  },
  {
   "property": "C114",
   "status": "partial",
   "theorems": [
    "Verif.TransferMosaic.C114_distance_wrong",
    "Verif.TransferMosaic.C114_named_partial",
    "Verif.TransferMosaic.C114_named_wrong",
    "Verif.TransferMosaic.C114_xgrid"
   ],
   "note": "distances to the second parent are never written, files of empty exchange grids are named: defects of the program"
  },
  {
   "property": "C115",
   "status": "partial",
   "theorems": [
    "Verif.MppIo.C115_alias_wrong",
    "Verif.MppIo.C115_defined_partial",
    "Verif.MppIo.C115_handles_partial",
    "Verif.MppIo.C115_limits",
    "Verif.MppIo.C115_nonroot_wrong",
    "Verif.MppIo.C115_once",
    "Verif.MppIo.C115_path",
    "Verif.MppIo.C115_same_partial",
    "Verif.MppIo.C115_stale_wrong",
    "Verif.MppIo.C115_suffix_wrong"
   ],
   "note": "files that another program replaces, two names of one file and handles of processors that do not write are defects of the program"
  },
  {
   "property": "C116",
   "status": "proved",
   "theorems": [
    "Verif.MppIo.C116_default",
    "Verif.MppIo.C116_fregrid",
    "Verif.MppIo.C116_last",
    "Verif.MppIo.C116_stops"
   ],
   "note": "the default of the library and the format of the first input file; contract of nc_inq_format"
  },
  {
   "property": "C117",
   "status": "partial",
   "theorems": [
    "Verif.MppIo.C117_classic_wrong",
    "Verif.MppIo.C117_format_wrong",
    "Verif.MppIo.C117_name_wrong",
    "Verif.MppIo.C117_settings_partial",
    "Verif.MppIo.C117_shuffle_wrong",
    "Verif.MppIo.C117_skipped_wrong",
    "Verif.MppIo.C117_stale_wrong",
    "Verif.MppIo.C117_uninitialised_wrong",
    "Verif.MppIo.C117_untouched"
   ],
   "note": "input variables without compression, one of the two options alone, classic input and long names are defects of the program"
  },
  {
   "property": "C118",
   "status": "partial",
   "theorems": [
    "Verif.FregridHalo.C118_accepts",
    "Verif.FregridHalo.C118_bounds",
    "Verif.FregridHalo.C118_case",
    "Verif.FregridHalo.C118_consistent",
    "Verif.FregridHalo.C118_cube",
    "Verif.FregridHalo.C118_halo_partial",
    "Verif.FregridHalo.C118_init",
    "Verif.FregridHalo.C118_narrow_wrong",
    "Verif.FregridHalo.C118_one_cell_wrong",
    "Verif.FregridHalo.C118_same_side_wrong",
    "Verif.FregridHalo.C118_size_wrong",
    "Verif.FregridHalo.C118_tripolar"
   ],
   "note": "contacts between two western, two eastern or two southern sides, tiles of different size, edges of one cell and tiles one cell wide are defects of the program"
  },
  {
   "property": "C119",
   "status": "partial",
   "theorems": [
    "Verif.VectorRemap.C119_case",
    "Verif.VectorRemap.C119_length_partial",
    "Verif.VectorRemap.C119_mean_partial",
    "Verif.VectorRemap.C119_missing",
    "Verif.VectorRemap.C119_no_missing_wrong",
    "Verif.VectorRemap.C119_order2_wrong",
    "Verif.VectorRemap.C119_rotates",
    "Verif.VectorRemap.C119_second_missing_wrong",
    "Verif.VectorRemap.C119_stored",
    "Verif.VectorRemap.C119_uniform_partial"
   ],
   "note": "components that are by chance the missing value (0 if the variable has none), a second missing value, and second-order data are defects of the program"
  },
  {
   "property": "C120",
   "status": "partial",
   "theorems": [
    "Verif.FregridInput.C120_angle_out_wrong",
    "Verif.FregridInput.C120_angle_wrong",
    "Verif.FregridInput.C120_axes",
    "Verif.FregridInput.C120_case",
    "Verif.FregridInput.C120_cube",
    "Verif.FregridInput.C120_cube_corners",
    "Verif.FregridInput.C120_even",
    "Verif.FregridInput.C120_output",
    "Verif.FregridInput.C120_points",
    "Verif.FregridInput.C120_sizes",
    "Verif.FregridInput.C120_tripolar_column_wrong"
   ],
   "note": "angles of vectors and latitudes of a tripolar output grid are taken from the wrong points"
  },
  {
   "property": "C121",
   "status": "partial",
   "theorems": [
    "Verif.C121_between",
    "Verif.C121_box",
    "Verif.C121_line",
    "Verif.C121_lon_box",
    "Verif.C121_lon_wrong",
    "Verif.C121_pieces",
    "Verif.C121_turn"
   ],
   "note": "along slanted sides the moment in longitude is an approximation that is not additive (C121_lon_wrong); sides that are almost parallel to the equator are left out as in C48"
  },
  {
   "property": "C122",
   "status": "partial",
   "theorems": [
    "Verif.C122_complete",
    "Verif.C122_found",
    "Verif.C122_nearest",
    "Verif.C122_rows",
    "Verif.C122_search",
    "Verif.C122_sort_size_wrong",
    "Verif.C122_sort_wrong",
    "Verif.C122_sound"
   ],
   "note": "the global sweep for points that were not found is wrong: sort_index writes outside of its array and loses cells (C122_sort_size_wrong, C122_sort_wrong); that the columns looked at cover the cell is a hypothesis of C122_found; angles of 120 degrees and more are left out"
  },
  {
   "property": "C123",
   "status": "partial",
   "theorems": [
    "Verif.RowRange.C123_gpu_lost_wrong",
    "Verif.RowRange.C123_gpu_partial",
    "Verif.RowRange.C123_gpu_wrong",
    "Verif.RowRange.C123_nonempty",
    "Verif.RowRange.C123_rows",
    "Verif.RowRange.C123_setup",
    "Verif.RowRange.C123_unused"
   ],
   "note": "the GPU version keeps the bounds of the target grid in whole radians and loses rows near the poles (C123_gpu_wrong, C123_gpu_lost_wrong); C123_gpu_partial is for target grids on one side of the equator"
  },
  {
   "property": "C124",
   "status": "partial",
   "theorems": [
    "Verif.GpuXgrid.C124_cpu_partial",
    "Verif.GpuXgrid.C124_empty_wrong",
    "Verif.GpuXgrid.C124_partial",
    "Verif.GpuXgrid.C124_schedule",
    "Verif.GpuXgrid.C124_uninit_wrong"
   ],
   "note": "entries of cells outside of the row range or masked out are not initialised and lead to stores outside of the arrays (C124_uninit_wrong); a tile without close cells is left without a result (C124_empty_wrong); equality with the CPU version needs the row range of C123_gpu_partial"
  },
  {
   "property": "C125",
   "status": "partial",
   "theorems": [
    "Verif.C125_area_wrong",
    "Verif.C125_centroid_partial",
    "Verif.C125_missing_wrong",
    "Verif.C125_order",
    "Verif.C125_partial",
    "Verif.C125_race_wrong",
    "Verif.C125_target_partial",
    "Verif.C125_tiles_wrong"
   ],
   "note": "the target grid option scales once per input tile and adds areas without protection (C125_tiles_wrong, C125_race_wrong); -MAXVAL is taken as missing (C125_missing_wrong); missing areas are not noticed (C125_area_wrong); centroids for one output tile"
  },
  {
   "property": "C126",
   "status": "partial",
   "theorems": [
    "Verif.GcClip.C126_found",
    "Verif.GcClip.C126_lists",
    "Verif.GcClip.C126_marks",
    "Verif.GcClip.C126_no_hits",
    "Verif.GcClip.C126_nodes",
    "Verif.GcClip.C126_polygon",
    "Verif.GcClip.C126_safe_partial"
   ],
   "note": "the intersection test, the inside test and the area are parameters; asked for are distinct points (Fresh) and, for the polygon, marks that fit together (Consistent). That the walk visits all intersections and comes back is not proved: the errors noNext, noReturn, left and the endless loop of insertIntersect remain in C126_safe_partial"
  },
  {
   "property": "C127",
   "status": "partial",
   "theorems": [
    "Verif.GridFromFile.C127_bounds",
    "Verif.GridFromFile.C127_centres_partial",
    "Verif.GridFromFile.C127_edges",
    "Verif.GridFromFile.C127_form_partial",
    "Verif.GridFromFile.C127_form_wrong",
    "Verif.GridFromFile.C127_halfturn_wrong",
    "Verif.GridFromFile.C127_increasing",
    "Verif.GridFromFile.C127_lambert",
    "Verif.GridFromFile.C127_lambert_back",
    "Verif.GridFromFile.C127_lengths",
    "Verif.GridFromFile.C127_northern_wrong",
    "Verif.GridFromFile.C127_points",
    "Verif.GridFromFile.C127_rows_wrong",
    "Verif.GridFromFile.C127_southern_wrong",
    "Verif.GridFromFile.C127_text",
    "Verif.GridFromFile.C127_tiles",
    "Verif.GridFromFile.C127_vertices"
   ],
   "note": "the great circle middle and the distance are parameters, areas are left out. The code is wrong for two centres half a turn apart or one column (C127_halfturn_wrong), for latitudes that increase within the northern half (C127_northern_wrong), in the check of the rows of form 4 (C127_rows_wrong), for cones with standard parallels south of the equator (C127_southern_wrong) and in the choice of the form for files with several sets of dimensions (C127_form_wrong)"
  },
  {
   "property": "C128",
   "status": "partial",
   "theorems": [
    "Verif.HgridHalo.C128_dx_wrong",
    "Verif.HgridHalo.C128_dy_wrong",
    "Verif.HgridHalo.C128_halo_partial",
    "Verif.HgridHalo.C128_inside",
    "Verif.HgridHalo.C128_points"
   ],
   "note": "proved for points, angles and areas on all sides, and for lengths where the code is right. The lengths of the western halo of tiles 1, 3 and 5 and of the eastern halo of dy of tiles 2, 4 and 6 are taken from wrong places (C128_dx_wrong, C128_dy_wrong)"
  },
  {
   "property": "C129",
   "status": "partial",
   "theorems": [
    "Verif.FregridMeta.C129_accepted",
    "Verif.FregridMeta.C129_index",
    "Verif.FregridMeta.C129_lon_wrong",
    "Verif.FregridMeta.C129_marks_partial",
    "Verif.FregridMeta.C129_marks_wrong",
    "Verif.FregridMeta.C129_names",
    "Verif.FregridMeta.C129_names_standard",
    "Verif.FregridMeta.C129_output",
    "Verif.FregridMeta.C129_parts_partial",
    "Verif.FregridMeta.C129_settings",
    "Verif.FregridMeta.C129_stale_wrong",
    "Verif.FregridMeta.C129_whole_wrong"
   ],
   "note": "proved if all fields are remapped or no levels and times are chosen. Otherwise the code is wrong: a stale start index (C129_stale_wrong) and axes with all levels (C129_whole_wrong). With --standard_dimension two axes of columns get the same name (C129_lon_wrong); with vectors memory behind an array is written (C129_marks_wrong)"
  },
  {
   "property": "C130",
   "status": "partial",
   "theorems": [
    "Verif.FregridDrive.C130_accepted",
    "Verif.FregridDrive.C130_copied_wrong",
    "Verif.FregridDrive.C130_flat_wrong",
    "Verif.FregridDrive.C130_levels_wrong",
    "Verif.FregridDrive.C130_memory_partial",
    "Verif.FregridDrive.C130_norecords_wrong",
    "Verif.FregridDrive.C130_once",
    "Verif.FregridDrive.C130_places",
    "Verif.FregridDrive.C130_settings",
    "Verif.FregridDrive.C130_slabs_partial",
    "Verif.FregridDrive.C130_vector_wrong"
   ],
   "note": "proved with --extrapolate or if the levels begin with the first. Otherwise the level of the input is used in the output (C130_levels_wrong). Vectors use the level behind the last (C130_vector_wrong), fields without time are lost if there are no time steps (C130_norecords_wrong), memory with --dst_vgrid is too small for fields without levels (C130_flat_wrong) or with chosen levels (C130_copied_wrong)"
  },
  {
   "property": "C131",
   "status": "partial",
   "theorems": [
    "Verif.PackedData.C131_back_int_partial",
    "Verif.PackedData.C131_back_partial",
    "Verif.PackedData.C131_flag",
    "Verif.PackedData.C131_meets_wrong",
    "Verif.PackedData.C131_nearest_wrong",
    "Verif.PackedData.C131_precision",
    "Verif.PackedData.C131_unpack_partial",
    "Verif.PackedData.C131_zero_wrong"
   ],
   "note": "proved where no value meets the missing value on the way. The code fails otherwise (C131_meets_wrong), for a stored 0 if there is no missing value (C131_zero_wrong), and cuts off instead of rounding (C131_nearest_wrong). Numbers are exact; casts out of range are left out"
  },
  {
   "property": "C132",
   "status": "partial",
   "theorems": [
    "Verif.FieldAtts.C132_extrapolate_wrong",
    "Verif.FieldAtts.C132_file_partial",
    "Verif.FieldAtts.C132_joint_wrong",
    "Verif.FieldAtts.C132_measures_partial",
    "Verif.FieldAtts.C132_methods_partial",
    "Verif.FieldAtts.C132_metric_wrong",
    "Verif.FieldAtts.C132_place",
    "Verif.FieldAtts.C132_second_partial",
    "Verif.FieldAtts.C132_suffix_wrong",
    "Verif.FieldAtts.C132_tile_name",
    "Verif.FieldAtts.C132_value_partial",
    "Verif.FieldAtts.C132_way"
   ],
   "note": "proved where no name of an entry ends with the name looked for (C132_suffix_wrong) and entries do not share values (C132_joint_wrong). Measures with levels are read at level -1 with --extrapolate (C132_extrapolate_wrong); an attribute conserve_order2 with conserve_order1 on the command line lacks the metric of the grid and the checks (C132_metric_wrong)"
  },
  {
   "property": "C133",
   "status": "partial",
   "theorems": [
    "Verif.GcArea.C133_angle",
    "Verif.GcArea.C133_antipode_wrong",
    "Verif.GcArea.C133_cell",
    "Verif.GcArea.C133_convex_many",
    "Verif.GcArea.C133_convex_partial",
    "Verif.GcArea.C133_convex_wrong",
    "Verif.GcArea.C133_excess",
    "Verif.GcArea.C133_fan",
    "Verif.GcArea.C133_inside",
    "Verif.GcArea.C133_positive",
    "Verif.GcArea.C133_rotate",
    "Verif.GcArea.C133_split",
    "Verif.GcArea.C133_tolerance",
    "Verif.GcArea.C133_triangle",
    "Verif.GcArea.C133_triangle_sum"
   ],
   "note": "areas are proved, also with the tolerances of the code; points inside a convex cell are found. The test for convex cells lets a cell with a dent pass (C133_convex_wrong) and the antipode of each point inside is found inside too (C133_antipode_wrong). That no other point is found inside is proved for triangles (C133_triangle_sum). Numbers are real numbers"
  },
  {
   "property": "C134",
   "status": "partial",
   "theorems": [
    "Verif.RemapRuns.C134_crash_wrong",
    "Verif.RemapRuns.C134_good_name",
    "Verif.RemapRuns.C134_grid_wrong",
    "Verif.RemapRuns.C134_idle_wrong",
    "Verif.RemapRuns.C134_length_wrong",
    "Verif.RemapRuns.C134_names",
    "Verif.RemapRuns.C134_never_wrong_partial",
    "Verif.RemapRuns.C134_only_own",
    "Verif.RemapRuns.C134_order2_refused",
    "Verif.RemapRuns.C134_refresh",
    "Verif.RemapRuns.C134_reuse_partial"
   ],
   "note": "proved for histories of complete runs in which runs that share a file have the same grids and every tile has exchange cells; a run without --input_file makes good any state of the files (C134_refresh). Otherwise memory that was never set or the weights of other grids are used (C134_idle_wrong, C134_crash_wrong, C134_grid_wrong); names of less than 3 or from 252 characters on are not checked (C134_length_wrong)"
  },
  {
   "property": "C135",
   "status": "partial",
   "theorems": [
    "Verif.OutputAxes.C135_bndtype",
    "Verif.OutputAxes.C135_bounds",
    "Verif.OutputAxes.C135_copied",
    "Verif.OutputAxes.C135_even_refused",
    "Verif.OutputAxes.C135_fine",
    "Verif.OutputAxes.C135_fine_center_wrong",
    "Verif.OutputAxes.C135_latitude",
    "Verif.OutputAxes.C135_levels",
    "Verif.OutputAxes.C135_longitude",
    "Verif.OutputAxes.C135_one_row_wrong",
    "Verif.OutputAxes.C135_parts",
    "Verif.OutputAxes.C135_poles_wrong",
    "Verif.OutputAxes.C135_rows"
   ],
   "note": "proved for conservative methods and with --center_y. The bounds for the bilinear method reach beyond the poles (C135_poles_wrong), one row is divided by zero (C135_one_row_wrong), and --center_y does not fit --finer_step (C135_fine_center_wrong)"
  },
  {
   "property": "C136",
   "status": "partial",
   "theorems": [
    "Verif.C136_accepts",
    "Verif.C136_coarse_area_wrong",
    "Verif.C136_coarse_partial",
    "Verif.C136_coarse_value_partial",
    "Verif.C136_corners",
    "Verif.C136_fine",
    "Verif.C136_fine_case",
    "Verif.C136_fine_order2",
    "Verif.C136_fine_value",
    "Verif.C136_names",
    "Verif.C136_refuses",
    "Verif.C136_second_tile_wrong",
    "Verif.C136_sizes"
   ],
   "note": "proved for a finer output grid (C136_fine, C136_fine_value, C136_fine_order2), for the acceptance of grids and for the indices of a coarser output grid. For a coarser output grid the areas in the file are those of the output cell, so the result is the plain mean and not the mean by area (C136_coarse_value_partial, C136_coarse_area_wrong); a second output tile larger than the first is not refused and overflows the arrays (C136_second_tile_wrong); the files are found by fregrid only for tiles named tile1, tile2, ... (C136_names)"
  },
  {
   "property": "C137",
   "status": "partial",
   "theorems": [
    "Verif.C137_bad_weight_wrong",
    "Verif.C137_blank_wrong",
    "Verif.C137_commas_wrong",
    "Verif.C137_dash_wrong",
    "Verif.C137_help",
    "Verif.C137_job",
    "Verif.C137_many_files_wrong",
    "Verif.C137_missing_argument",
    "Verif.C137_quote_wrong",
    "Verif.C137_range",
    "Verif.C137_unknown_option",
    "Verif.C137_unreadable"
   ],
   "note": "proved for plain names, up to 200 files and numbers that can be read (C137_job), with the refusals in full. With more than 200 files only the first 200 are averaged and all options but -o are lost, with status 0 (C137_many_files_wrong); a bad value of -w is passed over together with -z and -s (C137_bad_weight_wrong); names with blanks, two commas side by side, and -n in the first place are changed (C137_blank_wrong, C137_commas_wrong, C137_dash_wrong); a quote in the output name stops the program (C137_quote_wrong)"
  },
  {
   "property": "C138",
   "status": "partial",
   "theorems": [
    "Verif.C138_base",
    "Verif.C138_found",
    "Verif.C138_help_version",
    "Verif.C138_long_refused",
    "Verif.C138_names",
    "Verif.C138_negative",
    "Verif.C138_no_file",
    "Verif.C138_number",
    "Verif.C138_options_partial",
    "Verif.C138_prefix_wrong",
    "Verif.C138_refused",
    "Verif.C138_start",
    "Verif.C138_width_wrong"
   ],
   "note": "proved for command lines without -p, for the names, and for mppnccombine with widths 4 and 6. The branch of -p goes on in that of -s, so that the path is taken as the first number and -s before -p is lost (C138_start, C138_prefix_wrong); with any other width mppnccombine finds no file and ends with status 0 (C138_width_wrong)"
  },
  {
   "property": "C139",
   "status": "partial",
   "theorems": [
    "Verif.C139_depth_partial",
    "Verif.C139_edges",
    "Verif.C139_example",
    "Verif.C139_example_on_grid",
    "Verif.C139_example_one_row",
    "Verif.C139_fill_first_row_wrong",
    "Verif.C139_on_grid_columns_wrong",
    "Verif.C139_on_grid_partial",
    "Verif.C139_on_grid_processes_wrong",
    "Verif.C139_one_point_wrong",
    "Verif.C139_one_row_wrong",
    "Verif.C139_range",
    "Verif.C139_two_rows_wrong"
   ],
   "note": "proved: the depth is the mean over the whole file for every part of the grid which has a bound of a source row strictly between its latitudes (C139_depth_partial), with its range (C139_range) and the bounds of the source cells (C139_edges). Without such a bound the program stops (C139_one_row_wrong); fill_first_row fills the first row of every process (C139_fill_first_row_wrong); on_grid works in one process (C139_on_grid_partial) and writes outside the array in several (C139_on_grid_processes_wrong, C139_on_grid_columns_wrong). The great circle version is not modelled; filter and levels are C58 to C60"
  },
  {
   "property": "C140",
   "status": "partial",
   "theorems": [
    "Verif.C140_bowl",
    "Verif.C140_bowl_depth_wrong",
    "Verif.C140_channel_beyond_wrong",
    "Verif.C140_channel_first_wrong",
    "Verif.C140_channel_partial",
    "Verif.C140_channel_refused",
    "Verif.C140_example_regular",
    "Verif.C140_gaussian_column_wrong",
    "Verif.C140_gaussian_extent_wrong",
    "Verif.C140_gaussian_partial",
    "Verif.C140_gaussian_range_partial",
    "Verif.C140_one_process",
    "Verif.C140_processes_wrong"
   ],
   "note": "proved: bowl formula and range with its true maximum (C140_bowl), gaussian bump for grids of at least two columns and rows (C140_gaussian_partial, C140_gaussian_range_partial), channel with walls (C140_channel_partial), refused parameters (C140_channel_refused), one process (C140_one_process). Defects: the bowl gets deeper than bottom_depth (C140_bowl_depth_wrong); one column (C140_gaussian_column_wrong); the extent leaves out the first row and column (C140_gaussian_extent_wrong); the first row of an opening stays closed (C140_channel_first_wrong); an opening beyond the grid writes outside the array (C140_channel_beyond_wrong); with several processes the routines write outside the array (C140_processes_wrong)"
  },
  {
   "property": "C141",
   "status": "partial",
   "theorems": [
    "Verif.C141_east_end_wrong",
    "Verif.C141_idealized_partial",
    "Verif.C141_line",
    "Verif.C141_set_depth_partial",
    "Verif.C141_tall_wrong",
    "Verif.C141_two_rows_wrong"
   ],
   "note": "proved: the straight line of an edge (C141_line), the cells of a trapezoid on grids not higher than wide, with the lag of one row as in the code (C141_set_depth_partial), the range of depths and that all writes are in the array (C141_idealized_partial). Defects: the ends are computed after a row is filled, so a trapezoid of two rows ignores its northern longitudes (C141_two_rows_wrong); the last longitude is looked up among ny columns, which cuts off the northern edge on a wide grid (C141_east_end_wrong) and reads outside the array on a high one (C141_tall_wrong)"
  },
  {
   "property": "C142",
   "status": "partial",
   "theorems": [
    "Verif.C142_depth",
    "Verif.C142_example",
    "Verif.C142_negative_wrong",
    "Verif.C142_range_partial",
    "Verif.C142_snap",
    "Verif.C142_snap_wrong"
   ],
   "note": "proved: the edges on the grid (C142_snap), the depth of every cell of a regular grid with the embayment in the grid (C142_depth), the range for rows at the same distance (C142_range_partial). Defects: an edge on the centre of a cell goes to the centre before (C142_snap_wrong); with rows at different distances the slope can rise above the surface of the sea (C142_negative_wrong)"
  },
  {
   "property": "C143",
   "status": "partial",
   "theorems": [
    "Verif.C143_defs",
    "Verif.C143_example",
    "Verif.C143_first_tile_wrong",
    "Verif.C143_flag",
    "Verif.C143_great_circle_wrong",
    "Verif.C143_names",
    "Verif.C143_one_tile",
    "Verif.C143_options_partial",
    "Verif.C143_output_wrong",
    "Verif.C143_tiles_partial"
   ],
   "note": "proved: options (C143_options_partial), tiles without great circle algorithm (C143_tiles_partial), definitions and names (C143_defs, C143_names), flag of the output (C143_flag, C143_one_tile). Defects: a name of the output file with 32 or more characters is copied beyond its array (C143_output_wrong); several tiles with the great circle algorithm are refused (C143_great_circle_wrong); tiles which differ in the first one only are accepted (C143_first_tile_wrong)"
  },
  {
   "property": "C144",
   "status": "partial",
   "theorems": [
    "Verif.C144_fregrid_equals_wrong",
    "Verif.C144_fregrid_partial",
    "Verif.C144_fregrid_refused",
    "Verif.C144_great_circle",
    "Verif.C144_great_circle_refused",
    "Verif.C144_history_partial",
    "Verif.C144_long_wrong",
    "Verif.C144_round_trip"
   ],
   "note": "proved for command lines which fit in the array of the program (C144_history_partial, C144_round_trip, C144_fregrid_partial, C144_fregrid_refused), and for the flag (C144_great_circle, C144_great_circle_refused). Defects: longer command lines are written outside the array (C144_long_wrong), 256 characters for make_vgrid and 512 for most; fregrid refuses long lists in the form --scalar_field=... (C144_fregrid_equals_wrong)"
  },
  {
   "property": "C145",
   "status": "partial",
   "theorems": [
    "Verif.C145_legacy_partial",
    "Verif.C145_list",
    "Verif.C145_long_list_wrong",
    "Verif.C145_manual_wrong",
    "Verif.C145_no_sizes_wrong",
    "Verif.C145_spline_partial",
    "Verif.C145_wrong_count_wrong"
   ],
   "note": "proved for lists of at most 511 characters and 100 numbers, names of at most 124 and command lines of at most 255 characters (C145_list, C145_spline_partial, C145_legacy_partial). Defects: the number of resolutions is not set without --dbnds, so that a missing or wrong --nz gives undefined behaviour in place of the message (C145_no_sizes_wrong, C145_wrong_count_wrong); longer lists are written outside the arrays before any check (C145_long_list_wrong); the first example of the manual makes 30 supergrid cells, not 60 (C145_manual_wrong)"
  },
  {
   "property": "C146",
   "status": "partial",
   "theorems": [
    "Verif.BoundaryType.C146_boundary_partial",
    "Verif.BoundaryType.C146_fold_odd_wrong",
    "Verif.BoundaryType.C146_kinds",
    "Verif.BoundaryType.C146_one_column_wrong",
    "Verif.BoundaryType.C146_one_row_wrong",
    "Verif.BoundaryType.C146_three_refused",
    "Verif.BoundaryType.C146_two_columns_wrong"
   ],
   "note": "proved for grids of at least 2 times 2 cells, folds of an even number (at least 4) of columns, and at most two contacts (C146_boundary_partial); three contacts are refused (C146_three_refused). Defects: a grid of one column cyclic in y is taken as cyclic in x (C146_one_column_wrong); a grid of one row cyclic in y as tripolar (C146_one_row_wrong); a fold of two columns as cyclic in x (C146_two_columns_wrong); a fold of an odd number of columns is refused (C146_fold_odd_wrong)"
  },
  {
   "property": "C147",
   "status": "partial",
   "theorems": [
    "Verif.ConformalGrid.C147_all_set",
    "Verif.ConformalGrid.C147_corners",
    "Verif.ConformalGrid.C147_meridians",
    "Verif.ConformalGrid.C147_odd_wrong",
    "Verif.ConformalGrid.C147_poles_equator",
    "Verif.ConformalGrid.C147_tiles_fit"
   ],
   "note": "closed surface (C147_tiles_fit), corners, meridians and independence of the memory before for every number of cells; poles and equator for even numbers (C147_poles_equator). Interior points are not compared with an exact conformal map. Defect: with an odd number of cells two lines of points of the tiles at the equator are the same (C147_odd_wrong)"
  },
  {
   "property": "C148",
   "status": "partial",
   "theorems": [
    "Verif.ConformalGrid.C148_first_tile_partial",
    "Verif.ConformalGrid.C148_odd_wrong",
    "Verif.ConformalGrid.C148_other_tiles_wrong"
   ],
   "note": "proved for the first tile and even numbers of cells, with angles between vectors as in Mathlib (C148_first_tile_partial). Defects: lengths and areas of tiles 2 to 6 are never stored (C148_other_tiles_wrong); with an odd number of cells the middle row and column of the first tile are not stored (C148_odd_wrong)"
  },
  {
   "property": "C149",
   "status": "partial",
   "theorems": [
    "Verif.C149_degrees_partial",
    "Verif.C149_east_side",
    "Verif.C149_east_side_wrong",
    "Verif.C149_radians_wrong",
    "Verif.C149_start_again_wrong"
   ],
   "note": "proved for coordinates in degrees where the two longitudes differ by less than 180 and, for angle_dx, not on the eastern side of tiles 2, 4, 6 (C149_degrees_partial). Defects: on that side a point one row higher is used (C149_east_side, C149_east_side_wrong); 180 instead of 0 where longitudes start again from 0 (C149_start_again_wrong); gnomonic grids take the cosine of radians converted to radians again (C149_radians_wrong)"
  },
  {
   "property": "C150",
   "status": "partial",
   "theorems": [
    "Verif.C150_coupler_partial",
    "Verif.C150_coupler_wrong",
    "Verif.C150_long_wrong",
    "Verif.C150_same_directory"
   ],
   "note": "proved if the arrays are long enough and, for make_coupler_mosaic with a path, if the byte behind the directory was zero. Defects: a directory and a name that fit alone overflow the array of both (C150_long_wrong); strncpy without a zero byte (C150_coupler_wrong)"
  },
  {
   "property": "C151",
   "status": "partial",
   "theorems": [
    "Verif.C151_bilinear",
    "Verif.C151_lake_wrong",
    "Verif.C151_latitude",
    "Verif.C151_longitude",
    "Verif.C151_not_called_wrong",
    "Verif.C151_one_column_wrong"
   ],
   "note": "indices and weights (C151_latitude, C151_longitude) and the interpolation (C151_bilinear) are proved; the interpolation is not carried out. Defects: the case BILINEAR of horiz_interp_base_2d has no statement, so the lake fraction is whatever was in memory (C151_not_called_wrong, C151_lake_wrong); one column reads behind the array (C151_one_column_wrong). Partial also because points more than one turn away and the missing-value options are left out"
  },
  {
   "property": "C152",
   "status": "partial",
   "theorems": [
    "Verif.C152_coast",
    "Verif.C152_land",
    "Verif.C152_missing_wrong",
    "Verif.C152_ocean",
    "Verif.C152_whole_lake"
   ],
   "note": "everything is proved except that the lake area is missing where the fraction is: on land without data it is -9999 times the area of the cell (C152_missing_wrong)"
  },
  {
   "property": "C153",
   "status": "partial",
   "theorems": [
    "Verif.C153_affinity_partial",
    "Verif.C153_affinity_wrong",
    "Verif.C153_cpuset_partial",
    "Verif.C153_cpuset_wrong",
    "Verif.C153_not_permitted",
    "Verif.C153_outside_wrong",
    "Verif.C153_ranks_wrong",
    "Verif.C153_threads_partial"
   ],
   "note": "proved for a thread with one core, for an array with room, and for neighbouring cores. Defects: the first of several cores instead of -1 (C153_affinity_wrong), so that processes that are not bound share cores (C153_ranks_wrong); a write behind the array (C153_cpuset_wrong); cores outside the mask (C153_outside_wrong)"
  },
  {
   "property": "C154",
   "status": "partial",
   "theorems": [
    "Verif.C154_all_files",
    "Verif.C154_empty_wrong",
    "Verif.C154_error_partial",
    "Verif.C154_large_wrong",
    "Verif.C154_long_wrong",
    "Verif.C154_no_number_wrong",
    "Verif.C154_number_partial"
   ],
   "note": "proved for numbers that are an int and for short values. Defects: an empty value reads the byte before it (C154_empty_wrong), K alone is 0 (C154_no_number_wrong), the message of a long value overflows its array (C154_long_wrong), numbers above 2147483647 (C154_large_wrong)"
  },
  {
   "property": "C155",
   "status": "partial",
   "theorems": [
    "Verif.C155_blend",
    "Verif.C155_continuous",
    "Verif.C155_exact",
    "Verif.C155_goff_gratch",
    "Verif.C155_low_wrong",
    "Verif.C155_nearest",
    "Verif.C155_positive",
    "Verif.C155_round_trip",
    "Verif.C155_stop_wrong",
    "Verif.C155_thin_air_wrong",
    "Verif.C155_vapor"
   ],
   "note": "proved except for temperatures outside the table: a tenth of a degree more is accepted below (C155_low_wrong) and the tables are read outside before the test (C155_stop_wrong); the relative humidity is negative where the pressure is less than the saturation vapour pressure (C155_thin_air_wrong)"
  },
  {
   "property": "C156",
   "status": "partial",
   "theorems": [
    "Verif.C156_attributes",
    "Verif.C156_both_wrong",
    "Verif.C156_bounds_wrong",
    "Verif.C156_copied_partial",
    "Verif.C156_default_wrong",
    "Verif.C156_edges_partial",
    "Verif.C156_fill_partial",
    "Verif.C156_fill_wrong",
    "Verif.C156_kept",
    "Verif.C156_masked_partial",
    "Verif.C156_missing_value",
    "Verif.C156_no_missing",
    "Verif.C156_zero_wrong"
   ],
   "note": "proved for attributes, for fields that keep their missing value and for edges. Defects: _FillValue behind missing_value comes back (C156_fill_wrong); with -m missing values of fields without vertical axis are not changed to the default (C156_default_wrong); 0 becomes the missing value of fields that have none, and they are not masked (C156_zero_wrong); bounds are left out or end the program (C156_bounds_wrong, C156_both_wrong)"
  },
  {
   "property": "C157",
   "status": "partial",
   "theorems": [
    "Verif.C157_distinct",
    "Verif.C157_long",
    "Verif.C157_names_partial",
    "Verif.C157_one_tile_wrong",
    "Verif.C157_overwrite_wrong",
    "Verif.C157_short_wrong",
    "Verif.C157_slash_wrong"
   ],
   "note": "proved for names of at least 3 characters that fit; of several tiles too long names end the program. Defects: one tile has no test of the length (C157_one_tile_wrong), the test with a directory forgets the slash (C157_slash_wrong), shorter names are read before their start (C157_short_wrong), without --output_file output can have the names of the input (C157_overwrite_wrong)"
  },
  {
   "property": "C158",
   "status": "partial",
   "theorems": [
    "Verif.C158_empty_wrong",
    "Verif.C158_list",
    "Verif.C158_many_wrong",
    "Verif.C158_missing",
    "Verif.C158_nests_partial",
    "Verif.C158_parent_wrong",
    "Verif.C158_repeat_wrong"
   ],
   "note": "proved for at most 128 nests with options given once. Defects: a missing parent is not noticed and arrays are read beyond their end (C158_parent_wrong), an option given again keeps one old number (C158_repeat_wrong), an empty entry shifts the numbers to other nests (C158_empty_wrong), the number of nests is not limited (C158_many_wrong)"
  },
  {
   "property": "C159",
   "status": "partial",
   "theorems": [
    "Verif.C159_bounds_partial",
    "Verif.C159_edges_wrong",
    "Verif.C159_int_bounds_wrong",
    "Verif.C159_int_wrong",
    "Verif.C159_time_partial"
   ],
   "note": "proved for real times and bounds of two dimensions. Defects: with an int axis each step gets the time of step 2 m, or none (C159_int_wrong, C159_int_bounds_wrong); edges of one dimension are taken from 2 m, and the last is never written (C159_edges_wrong)"
  },
  {
   "property": "C160",
   "status": "partial",
   "theorems": [
    "Verif.C160_boundaries_partial",
    "Verif.C160_boundaries_wrong",
    "Verif.C160_layout_partial",
    "Verif.C160_layout_wrong",
    "Verif.C160_sea_level_partial",
    "Verif.C160_sea_level_wrong",
    "Verif.C160_source"
   ],
   "note": "proved for whole sea levels, at most 4 boundaries and at most 2 numbers of a layout. Defects: digits after the point of the sea level are ignored (C160_sea_level_wrong); longer lists are written beyond the arrays before they are counted (C160_layout_wrong, C160_boundaries_wrong)"
  },
  {
   "property": "C161",
   "status": "partial",
   "theorems": [
    "Verif.C161_bounds_partial",
    "Verif.C161_bounds_wrong",
    "Verif.C161_cart_partial",
    "Verif.C161_cart_wrong",
    "Verif.C161_dimname_partial",
    "Verif.C161_empty_wrong",
    "Verif.C161_five_wrong",
    "Verif.C161_levels_partial",
    "Verif.C161_numbers"
   ],
   "note": "proved for letters of one character, names that fit and at most four dimensions. Defects: longer texts are written beyond one character (C161_cart_wrong) or beyond the buffer (C161_bounds_wrong); an empty cartesian_axis hides axis (C161_empty_wrong); five dimensions, which fregrid accepts, are written to an array of four (C161_five_wrong)"
  },
  {
   "property": "C162",
   "status": "partial",
   "theorems": [
    "Verif.C162_away_partial",
    "Verif.C162_far_wrong",
    "Verif.C162_half_wrong",
    "Verif.C162_many_wrong",
    "Verif.C162_polar_partial"
   ],
   "note": "proved for polygons at a pole of at most 8 vertices that do not reach the latitude of 30 degrees and the threshold, and for other polygons without a side of half a turn. Defects: the program ends at a cell away from the poles that is half a turn wide (C162_half_wrong) and at a polar polygon of more than 8 vertices (C162_many_wrong), and at a polar polygon with a vertex that is rotated to the pole (C162_far_wrong). Missing: other polar polygons that reach latitude 30"
  }
 ]
}