{
 "claims": [
  {
   "property": "C01",
   "status": "proved",
   "theorems": [
    "Goosli.C01_schedule",
    "Goosli.C01_no_deadlock",
    "Goosli.C01_worker_total",
    "Goosli.C01_slice",
    "Goosli.C01_arrival"
   ],
   "note": "every interleaving of the goroutines and every number of workers; every arithmetic"
  },
  {
   "property": "C02",
   "status": "proved",
   "theorems": [
    "Goosli.C02_fill",
    "Goosli.C02_quiet",
    "Goosli.C02_no_race",
    "Goosli.C02_terminates",
    "Goosli.C02_copy",
    "Goosli.C02_decode"
   ],
   "note": "every interleaving of the goroutines and every number of workers; every arithmetic"
  },
  {
   "property": "C03",
   "status": "proved",
   "theorems": [
    "Goosli.C03_round_trip",
    "Goosli.C03_second_trip",
    "Goosli.C03_too_many"
   ],
   "note": "on the bytes of the file; every arithmetic"
  },
  {
   "property": "C04",
   "status": "proved",
   "theorems": [
    "Goosli.C04_short",
    "Goosli.C04_binary",
    "Goosli.C04_ascii",
    "Goosli.C04_total"
   ],
   "note": "on the bytes of the file; every arithmetic"
  },
  {
   "property": "C05",
   "status": "proved",
   "theorems": [
    "Goosli.C05_any_text",
    "Goosli.C05_document"
   ],
   "note": "on the bytes of the file; every arithmetic and every number parser"
  },
  {
   "property": "C06",
   "status": "proved",
   "theorems": [
    "Goosli.C06_newTriangle",
    "Goosli.C06_shift",
    "Goosli.C06_mesh_rotate",
    "Goosli.C06_mesh_shift",
    "Goosli.C06_simplify",
    "Goosli.C06_cutMesh",
    "Goosli.C06_loadSTL",
    "Goosli.C06_all_meshes",
    "Goosli.C06_file_normal_ignored"
   ],
   "note": "every arithmetic"
  },
  {
   "property": "C07",
   "status": "proved",
   "theorems": [
    "Goosli.C07_when",
    "Goosli.C07_exact",
    "Goosli.C07_symm"
   ],
   "note": "exact arithmetic"
  },
  {
   "property": "C08",
   "status": "proved",
   "theorems": [
    "Goosli.C08_sound"
   ],
   "note": "exact arithmetic"
  },
  {
   "property": "C09",
   "status": "proved",
   "theorems": [
    "Goosli.C09_not_lost"
   ],
   "note": "exact arithmetic"
  },
  {
   "property": "C10",
   "status": "proved",
   "theorems": [
    "Goosli.C10_sweep",
    "Goosli.C10_layers"
   ],
   "note": "exact arithmetic; every order the unstable sort may return"
  },
  {
   "property": "C11",
   "status": "proved",
   "theorems": [
    "Goosli.C11_planes",
    "Goosli.C11_dropped"
   ],
   "note": "exact arithmetic; C11_dropped for every arithmetic"
  },
  {
   "property": "C12",
   "status": "proved",
   "theorems": [
    "Goosli.C12_empty",
    "Goosli.C12_returns",
    "Goosli.C12_flat_panics",
    "Goosli.C12_zero_layer_height_panics",
    "Goosli.C12_negative_layer_height_panics"
   ],
   "note": "exact arithmetic; C12_empty for every arithmetic; the last three prove the panics"
  },
  {
   "property": "C13",
   "status": "proved",
   "theorems": [
    "Goosli.C13_join_conserves",
    "Goosli.C13_empty_path_panics"
   ],
   "note": "every arithmetic, every permutation returned by sort.Slice"
  },
  {
   "property": "C14",
   "status": "proved",
   "theorems": [
    "Goosli.C14_loops_close",
    "Goosli.C14_loops"
   ],
   "note": "C14_loops: every arithmetic on points it tells apart; C14_loops_close: exact arithmetic"
  },
  {
   "property": "C15",
   "status": "proved",
   "theorems": [
    "Goosli.C15_closed",
    "Goosli.C15_layer"
   ],
   "note": "exact arithmetic; every order the unstable sort may return"
  },
  {
   "property": "C16",
   "status": "partial",
   "theorems": [
    "Goosli.C16_join2_partial",
    "Goosli.C16_join2_loops",
    "Goosli.C16_join2_violated"
   ],
   "note": "conservation, termination and loop closing for every map order; that no joinable pair is left is proved false"
  },
  {
   "property": "C17",
   "status": "proved",
   "theorems": [
    "Goosli.C17_no_new_points",
    "Goosli.C17_open_keeps_ends",
    "Goosli.C17_short_unchanged",
    "Goosli.C17_closed_stays_closed",
    "Goosli.C17_turning_unchanged"
   ],
   "note": "first three for every arithmetic, the others in exact arithmetic"
  },
  {
   "property": "C18",
   "status": "proved",
   "theorems": [
    "Goosli.C18_bound",
    "Goosli.C18_segment_violated"
   ],
   "note": "exact arithmetic; the bound is shown to be about lines only, not segments"
  },
  {
   "property": "C19",
   "status": "proved",
   "theorems": [
    "Goosli.C19_terminates",
    "Goosli.C19_empty_panics",
    "Goosli.C19_negative_diverges"
   ],
   "note": "termination for every arithmetic"
  },
  {
   "property": "C20",
   "status": "partial",
   "theorems": [
    "Goosli.C20_separated_partial",
    "Goosli.C20_coarse",
    "Goosli.C20_passed_through",
    "Goosli.C20_violated"
   ],
   "note": "exact arithmetic; up to 0.5e-8 if the vertices of each triangle are 1e-6 apart, up to 1e-6 always; the sharper bound is proved false for close vertices"
  },
  {
   "property": "C21",
   "status": "partial",
   "theorems": [
    "Goosli.C21_area_partial",
    "Goosli.C21_touching_dropped",
    "Goosli.C21_long_edge_violated"
   ],
   "note": "exact arithmetic; holds for cleanly cut triangles; touching triangles are proved to be dropped and long edges to give overlapping pieces"
  },
  {
   "property": "C22",
   "status": "proved",
   "theorems": [
    "Goosli.C22_caps",
    "Goosli.C22_nil"
   ],
   "note": "exact arithmetic"
  },
  {
   "property": "C23",
   "status": "proved",
   "theorems": [
    "Goosli.C23_rotate_X",
    "Goosli.C23_rotate_Z"
   ],
   "note": "exact arithmetic"
  },
  {
   "property": "C24",
   "status": "proved",
   "theorems": [
    "Goosli.C24_shift",
    "Goosli.C24_shift_comp",
    "Goosli.C24_nil"
   ],
   "note": "exact arithmetic"
  },
  {
   "property": "C25",
   "status": "proved",
   "theorems": [
    "Goosli.C25_tight",
    "Goosli.C25_empty"
   ],
   "note": "exact arithmetic"
  },
  {
   "property": "C26",
   "status": "proved",
   "theorems": [
    "Goosli.C26_normalize",
    "Goosli.C26_vector_on_plane",
    "Goosli.C26_point_on_line",
    "Goosli.C26_point_on_plane",
    "Goosli.C26_zero_normal"
   ],
   "note": "exact arithmetic"
  },
  {
   "property": "C27",
   "status": "proved",
   "theorems": [
    "Goosli.C27_angle",
    "Goosli.C27_extremes",
    "Goosli.C27_zero",
    "Goosli.C27_out_of_range"
   ],
   "note": "exact arithmetic; C27_out_of_range shows what the code returns if rounding pushes the cosine below -1"
  },
  {
   "property": "C28",
   "status": "proved",
   "theorems": [
    "Goosli.C28_flags",
    "Goosli.C28_filter",
    "Goosli.C28_meaning",
    "Goosli.C28_degenerate",
    "Goosli.C28_zero_direction",
    "Goosli.C28_scale"
   ],
   "note": "flags and filter for every arithmetic, the meaning in exact arithmetic"
  },
  {
   "property": "C29",
   "status": "proved",
   "theorems": [
    "Goosli.C29_centroid",
    "Goosli.C29_moves_along"
   ],
   "note": "exact arithmetic"
  },
  {
   "property": "C30",
   "status": "proved",
   "theorems": [
    "Goosli.C30_winding_is_area",
    "Goosli.C30_winding_invariant",
    "Goosli.C30_reverse_flips",
    "Goosli.C30_empty_panics"
   ],
   "note": "exact arithmetic"
  },
  {
   "property": "C31",
   "status": "proved",
   "theorems": [
    "Goosli.C31_reverse",
    "Goosli.C31_close_prefix",
    "Goosli.C31_close_closes"
   ],
   "note": "closedness needs exact arithmetic, the rest holds for every arithmetic"
  },
  {
   "property": "C32",
   "status": "proved",
   "theorems": [
    "Goosli.C32_layer_numbering"
   ],
   "note": "on the text of the output; every arithmetic"
  },
  {
   "property": "C33",
   "status": "proved",
   "theorems": [
    "Goosli.C33_filament"
   ],
   "note": "exact arithmetic, any correctly rounded three-decimal format; printer machine runs the text"
  },
  {
   "property": "C34",
   "status": "proved",
   "theorems": [
    "Goosli.C34_extruder_monotone"
   ],
   "note": "exact arithmetic, any correctly rounded three-decimal format"
  },
  {
   "property": "C35",
   "status": "proved",
   "theorems": [
    "Goosli.C35_fan_state",
    "Goosli.C35_fan_switched_once"
   ],
   "note": "on the text of the output; every arithmetic"
  },
  {
   "property": "C36",
   "status": "partial",
   "theorems": [
    "Goosli.C36_speed_partial",
    "Goosli.C36_speed_violated_by_rotation",
    "Goosli.C36_speed_violated_by_retraction"
   ],
   "note": "holds without retraction and without axis-driving bed commands; both exceptions are proved to violate the claim"
  },
  {
   "property": "C37",
   "status": "proved",
   "theorems": [
    "Goosli.C37_axes",
    "Goosli.C37_register_restored"
   ],
   "note": "every arithmetic whose format prints 0 and 60 readably"
  },
  {
   "property": "C38",
   "status": "partial",
   "theorems": [
    "Goosli.C38_nozzle_partial",
    "Goosli.C38_printed_near",
    "Goosli.C38_nozzle_violated"
   ],
   "note": "holds when coordinates change by 0 or at least 0.001 per segment; otherwise the drift is proved unbounded"
  },
  {
   "property": "C39",
   "status": "proved",
   "theorems": [
    "Goosli.C39_retraction_amount",
    "Goosli.C39_retraction_violated"
   ],
   "note": "the claim as relied on is false; proved: exact amount pulled by every retraction, and that it exceeds every bound"
  },
  {
   "property": "C40",
   "status": "proved",
   "theorems": [
    "Goosli.C40_flow_ignored",
    "Goosli.C40_flow_violated"
   ],
   "note": "the claim as relied on is false; proved: the text is the same for every flow"
  },
  {
   "property": "C41",
   "status": "proved",
   "theorems": [
    "Goosli.C41_fill",
    "Goosli.C41_templates",
    "Goosli.C41_order_independent",
    "Goosli.C41_unreadable",
    "Goosli.C41_output",
    "Goosli.C41_nested_violated"
   ],
   "note": "every alphabet and every arithmetic; C41_nested_violated proves the exception named in the statement"
  },
  {
   "property": "C42",
   "status": "proved",
   "theorems": [
    "Goosli.C42_fill"
   ],
   "note": "every arithmetic"
  },
  {
   "property": "C43",
   "status": "proved",
   "theorems": [
    "Goosli.C43_cut",
    "Goosli.C43_segments",
    "Goosli.C43_key_separates"
   ],
   "note": "exact arithmetic, every sorting routine"
  },
  {
   "property": "C44",
   "status": "proved",
   "theorems": [
    "Goosli.C44_tour",
    "Goosli.C44_perm",
    "Goosli.C44_real"
   ],
   "note": "greedy tour for every arithmetic in which the distances are below MaxFloat32; C44_real shows finite coordinates below 1e37 suffice"
  },
  {
   "property": "C45",
   "status": "proved",
   "theorems": [
    "Goosli.C45_grid",
    "Goosli.C45_lines_cover",
    "Goosli.C45_diagonal_uncovered"
   ],
   "note": "exact arithmetic; C45_diagonal_uncovered proves that the rotated patterns do not cover the corners of the model"
  },
  {
   "property": "C46",
   "status": "partial",
   "theorems": [
    "Goosli.C46_planes_partial",
    "Goosli.C46_low_density_violated"
   ],
   "note": "exact arithmetic; proved false for Squares at density 1 and Triangles at 1 and 2"
  },
  {
   "property": "C47",
   "status": "proved",
   "theorems": [
    "Goosli.C47_walls",
    "Goosli.C47_count"
   ],
   "note": "every arithmetic; the wall count over the reals"
  },
  {
   "property": "C48",
   "status": "proved",
   "theorems": [
    "Goosli.C48_skirt",
    "Goosli.C48_keeps"
   ],
   "note": "every arithmetic"
  },
  {
   "property": "C49",
   "status": "partial",
   "theorems": [
    "Goosli.C49_side",
    "Goosli.C49_inwards",
    "Goosli.C49_open",
    "Goosli.C49_corners",
    "Goosli.C49_closed_partial",
    "Goosli.C49_closed_violated"
   ],
   "note": "closed contours get one wrong corner in the code; contours whose corners are too flat or too long are not covered"
  },
  {
   "property": "C50",
   "status": "proved",
   "theorems": [
    "Goosli.C50_program",
    "Goosli.C50_end",
    "Goosli.C50_fails_only_slicing"
   ],
   "note": "every arithmetic"
  },
  {
   "property": "C51",
   "status": "proved",
   "theorems": [
    "Goosli.C51_planes",
    "Goosli.C51_rounds"
   ],
   "note": "every arithmetic"
  },
  {
   "property": "C52",
   "status": "partial",
   "theorems": [
    "Goosli.C52_line",
    "Goosli.C52_file",
    "Goosli.C52_same_plane_partial",
    "Goosli.C52_flat",
    "Goosli.C52_mirrored_violated",
    "Goosli.C52_horizontal_violated",
    "Goosli.C52_short_line_panics",
    "Goosli.C52_empty_line_panics"
   ],
   "note": "text for every arithmetic whose numbers print without blanks; the plane in exact arithmetic for normals with y >= 0, proved mirrored for y < 0"
  },
  {
   "property": "C53",
   "status": "proved",
   "theorems": [
    "Goosli.C53_middle"
   ],
   "note": "exact arithmetic"
  },
  {
   "property": "C54",
   "status": "proved",
   "theorems": [
    "Goosli.C54_undoubled",
    "Goosli.C54_delete_internal"
   ],
   "note": "exact arithmetic without NaN"
  },
  {
   "property": "C55",
   "status": "proved",
   "theorems": [
    "Goosli.C55_accepts",
    "Goosli.C55_rejects",
    "Goosli.C55_vertical"
   ],
   "note": "exact arithmetic; C55_vertical proves the defect named in the statement"
  },
  {
   "property": "C56",
   "status": "proved",
   "theorems": [
    "Goosli.C56_crossing",
    "Goosli.C56_inside",
    "Goosli.C56_finite"
   ],
   "note": "exact arithmetic with NaN and infinities"
  },
  {
   "property": "C57",
   "status": "proved",
   "theorems": [
    "Goosli.C57_nil",
    "Goosli.C57_small",
    "Goosli.C57_reduced"
   ],
   "note": "every arithmetic and every reduction routine"
  },
  {
   "property": "C58",
   "status": "proved",
   "theorems": [
    "Goosli.C58_round",
    "Goosli.C58_overflow",
    "Goosli.C58_equal"
   ],
   "note": "exact arithmetic"
  },
  {
   "property": "C59",
   "status": "partial",
   "theorems": [
    "Goosli.C59_fan_partial",
    "Goosli.C59_at_least",
    "Goosli.C59_concave_violated"
   ],
   "note": "exact arithmetic; holds for contours seen in one sense from their first point, proved false for a concave contour"
  },
  {
   "property": "C60",
   "status": "partial",
   "theorems": [
    "Goosli.C60_inside_partial",
    "Goosli.C60_vertex_violated"
   ],
   "note": "exact arithmetic; holds for planes through no vertex, proved false for a plane through a vertex"
  },
  {
   "property": "C61",
   "status": "proved",
   "theorems": [
    "Goosli.C61_file"
   ],
   "note": "every arithmetic; reading the template files is an input of the model"
  },
  {
   "property": "C62",
   "status": "proved",
   "theorems": [
    "Goosli.C62_analyze_panics"
   ],
   "note": "exact arithmetic; proves the negation with a concrete model"
  },
  {
   "property": "C63",
   "status": "proved",
   "theorems": [
    "Goosli.C63_rotation",
    "Goosli.C63_zero_axis",
    "Goosli.C63_opposite"
   ],
   "note": "exact arithmetic"
  },
  {
   "property": "C64",
   "status": "partial",
   "theorems": [
    "Goosli.C64_planes",
    "Goosli.C64_profile_partial",
    "Goosli.C64_tilted_partial",
    "Goosli.C64_back",
    "Goosli.C64_five",
    "Goosli.C64_default",
    "Goosli.C64_profile_violated",
    "Goosli.C64_tilted_violated",
    "Goosli.C64_vertical_violated",
    "Goosli.C64_bridge_violated"
   ],
   "note": "exact arithmetic; the steps of the programs for every arithmetic; proved false for directions with negative y, vertical profiles and bridges"
  },
  {
   "property": "C65",
   "status": "proved",
   "theorems": [
    "Goosli.C65_slicers",
    "Goosli.C65_reproducible"
   ],
   "note": "every arithmetic; one sorting routine, the same in both runs"
  },
  {
   "property": "C66",
   "status": "proved",
   "theorems": [
    "Goosli.C66_unreadable",
    "Goosli.C66_cutter",
    "Goosli.C66_simplifier",
    "Goosli.C66_colorizer",
    "Goosli.C66_no_panic"
   ],
   "note": "every arithmetic; flag parsing, partial disk writes and the decimation of fogleman/simplify are inputs of the model"
  },
  {
   "property": "C67",
   "status": "proved",
   "theorems": [
    "Goosli.C67_planes_file",
    "Goosli.C67_pipeline",
    "Goosli.C67_center_ignored"
   ],
   "note": "every arithmetic whose numbers print without blanks in at most 10000 characters"
  },
  {
   "property": "C68",
   "status": "partial",
   "theorems": [
    "Goosli.C68_commands",
    "Goosli.C68_settings",
    "Goosli.C68_unsupported",
    "Goosli.C68_run",
    "Goosli.C68_speed_partial"
   ],
   "note": "every arithmetic; the feed rate of the moves in the file only without retraction and not for the vip slicer (C36 has the violations)"
  },
  {
   "property": "C69",
   "status": "partial",
   "theorems": [
    "Goosli.C69_default",
    "Goosli.C69_five",
    "Goosli.C69_profile",
    "Goosli.C69_home_partial",
    "Goosli.C69_planes",
    "Goosli.C69_home_violated"
   ],
   "note": "every arithmetic; the level end is proved for three slicers and refuted for SliceByPlanes"
  },
  {
   "property": "C70",
   "status": "partial",
   "theorems": [
    "Goosli.C70_crashes",
    "Goosli.C70_bridge_no_overhang",
    "Goosli.C70_bridge_deck",
    "Goosli.C70_rotation_no_overhang",
    "Goosli.C70_violated",
    "Goosli.C70_bridge_partial"
   ],
   "note": "every arithmetic; the crashes are proved, and that an overhanging bridge is printed"
  },
  {
   "property": "C71",
   "status": "partial",
   "theorems": [
    "Goosli.C71_default_partial",
    "Goosli.C71_five_partial",
    "Goosli.C71_default_one_layer",
    "Goosli.C71_five_one_layer",
    "Goosli.C71_vip_one_layer",
    "Goosli.C71_violated"
   ],
   "note": "every arithmetic; proved false for models with fewer than two layers"
  },
  {
   "property": "C72",
   "status": "proved",
   "theorems": [
    "Goosli.C72_bridge",
    "Goosli.C72_rotation",
    "Goosli.C72_default",
    "Goosli.C72_five",
    "Goosli.C72_profile"
   ],
   "note": "every arithmetic; runs that end"
  },
  {
   "property": "C73",
   "status": "partial",
   "theorems": [
    "Goosli.C73_hole",
    "Goosli.C73_outside",
    "Goosli.C73_outside_partial",
    "Goosli.C73_violated"
   ],
   "note": "exact arithmetic; proved for contours that run around their centroid at their first corner, refuted for a U"
  },
  {
   "property": "C74",
   "status": "proved",
   "theorems": [
    "Goosli.C74_type",
    "Goosli.C74_vip",
    "Goosli.C74_round"
   ],
   "note": "every arithmetic; roundness in exact arithmetic"
  },
  {
   "property": "C75",
   "status": "proved",
   "theorems": [
    "Goosli.C75_layers",
    "Goosli.C75_layers_no_supports",
    "Goosli.C75_contours_only",
    "Goosli.C75_no_walls"
   ],
   "note": "every arithmetic"
  },
  {
   "property": "C76",
   "status": "partial",
   "theorems": [
    "Goosli.C76_report",
    "Goosli.C76_layer",
    "Goosli.C76_below",
    "Goosli.C76_island",
    "Goosli.C76_nothing_below",
    "Goosli.C76_leg",
    "Goosli.C76_rotation",
    "Goosli.C76_upright",
    "Goosli.C76_violated"
   ],
   "note": "exact arithmetic; the exact set of reports is proved; the property is refuted by pyramids, because inward slopes are reported as well"
  },
  {
   "property": "C77",
   "status": "partial",
   "theorems": [
    "Goosli.C77_ray",
    "Goosli.C77_inside_partial",
    "Goosli.C77_line",
    "Goosli.within_triangle",
    "Goosli.C77_violated"
   ],
   "note": "exact arithmetic; proved outside of the named coincidences, refuted by an L, a pentagon and thin squares"
  },
  {
   "property": "C78",
   "status": "partial",
   "theorems": [
    "Goosli.C78_planes",
    "Goosli.C78_contours",
    "Goosli.C78_three_axes",
    "Goosli.C78_walls_partial",
    "Goosli.C78_upwards",
    "Goosli.C78_rotation",
    "Goosli.C78_violated"
   ],
   "note": "exact arithmetic; proved for slicing along the z axis, refuted for SliceRotation (for all models, with a witness run in rational arithmetic)"
  },
  {
   "property": "C79",
   "status": "partial",
   "theorems": [
    "Goosli.C79_test",
    "Goosli.C79_supports",
    "Goosli.C79_meets",
    "Goosli.C79_exact_partial",
    "Goosli.C79_wall",
    "Goosli.C79_violated",
    "Goosli.RatToy.C79_violated_supports"
   ],
   "note": "exact arithmetic; proved for triangles in general position that are not vertical, refuted for walls along an axis"
  },
  {
   "property": "C80",
   "status": "partial",
   "theorems": [
    "Goosli.C80_centroid",
    "Goosli.C80_degenerate",
    "Goosli.C80_violated_speck",
    "Goosli.C80_center",
    "Goosli.C80_center_partial",
    "Goosli.C80_violated_hole"
   ],
   "note": "exact arithmetic; proved for contours with visible area and for layers with one contour, refuted by a tiny contour and a hole"
  },
  {
   "property": "C81",
   "status": "partial",
   "theorems": [
    "Goosli.C81_box",
    "Goosli.C81_on_segment",
    "Goosli.C81_sound",
    "Goosli.C81_complete",
    "Goosli.C81_segments_partial",
    "Goosli.C81_violated"
   ],
   "note": "exact arithmetic; proved for segments in clear position, refuted for segments of a thousandth"
  },
  {
   "property": "C82",
   "status": "partial",
   "theorems": [
    "Goosli.C82_all_or_nothing",
    "Goosli.C82_isInside_partial",
    "Goosli.C82_violated"
   ],
   "note": "exact arithmetic; proved in clear position, refuted for contours of a quarter of a thousandth"
  },
  {
   "property": "C83",
   "status": "proved",
   "theorems": [
    "Goosli.C83_contours",
    "Goosli.C83_cross_section",
    "Goosli.C83_any_ray",
    "Goosli.C83_layer"
   ],
   "note": "exact arithmetic; the enclosing is stated for the exact corners, the code stores them rounded to eight decimals and without collinear points"
  },
  {
   "property": "C84",
   "status": "partial",
   "theorems": [
    "Goosli.C84_fill_exact_partial",
    "Goosli.C84_violated"
   ],
   "note": "exact arithmetic; planes through a corner of a contour are left out, there the property is refuted"
  },
  {
   "property": "C85",
   "status": "partial",
   "theorems": [
    "Goosli.C85_stl",
    "Goosli.C85_planes_violated"
   ],
   "note": "every number type; exact for STL files, refuted for files of planes"
  },
  {
   "property": "C86",
   "status": "proved",
   "theorems": [
    "Goosli.C86_plane_meets",
    "Goosli.C86_section_meets",
    "Goosli.C86_path_equal",
    "Goosli.C86_path_equal_not_transitive"
   ],
   "note": "exact arithmetic; C86_section_meets for small coordinates (the corners of the section are rounded)"
  },
  {
   "property": "C87",
   "status": "proved",
   "theorems": [
    "Goosli.C87_moved",
    "Goosli.C87_rounded",
    "Goosli.C87_cross_section"
   ],
   "note": "exact arithmetic; C87_cross_section under the conditions of C83"
  },
  {
   "property": "C88",
   "status": "partial",
   "theorems": [
    "Goosli.C88_inside_partial",
    "Goosli.C88_violated"
   ],
   "note": "exact arithmetic; points in slim triangles are excluded, where it is false"
  },
  {
   "property": "C89",
   "status": "partial",
   "theorems": [
    "Goosli.C89_contours",
    "Goosli.C89_fill_partial",
    "Goosli.C89_layer"
   ],
   "note": "exact arithmetic; vertical slicing direction; fill planes through a stored corner and points in slim triangles are excluded (C84_violated, C88_violated)"
  },
  {
   "property": "C90",
   "status": "partial",
   "theorems": [
    "Goosli.C90_print_partial"
   ],
   "note": "exact arithmetic; vertical direction, supports off, levels in good position; exclusions of C84 and C88"
  },
  {
   "property": "C91",
   "status": "partial",
   "theorems": [
    "Goosli.C91_file_partial"
   ],
   "note": "exact arithmetic with correctly rounded printed decimals; all levels in good position; short lines are excluded (C38_nozzle_violated)"
  },
  {
   "property": "C92",
   "status": "proved",
   "theorems": [
    "Goosli.C92_sections",
    "Goosli.C92_cross_section"
   ],
   "note": "C92_sections for every number type; C92_cross_section in exact arithmetic under the conditions of C83"
  },
  {
   "property": "C93",
   "status": "partial",
   "theorems": [
    "Goosli.C93_segment_partial",
    "Goosli.C93_corner",
    "Goosli.C93_violated"
   ],
   "note": "exact arithmetic; general position, refuted at corners"
  },
  {
   "property": "C94",
   "status": "proved",
   "theorems": [
    "Goosli.C94_segments",
    "Goosli.C94_closed"
   ],
   "note": "IEEE binary64 (model B64); horizontal planes; the distances are hypotheses"
  },
  {
   "property": "C95",
   "status": "proved",
   "theorems": [
    "Goosli.C95_planes",
    "Goosli.C95_layer",
    "Goosli.C95_slice"
   ],
   "note": "IEEE binary64; vertical direction, supports off; the distances of C94 are hypotheses"
  },
  {
   "property": "C96",
   "status": "partial",
   "theorems": [
    "Goosli.C96_exact",
    "Goosli.C96_layers_partial",
    "Goosli.C96_violated"
   ],
   "note": "IEEE binary64; exact multiples get k layers, otherwise k or k+1, refuted for 0.3 / 0.1"
  },
  {
   "property": "C97",
   "status": "proved",
   "theorems": [
    "Goosli.C97_load",
    "Goosli.C97_bytes",
    "Goosli.C97_save",
    "Goosli.C97_stable"
   ],
   "note": "IEEE binary32 and binary64; the sign of zero and the payload of a NaN are left out"
  },
  {
   "property": "C98",
   "status": "proved",
   "theorems": [
    "Goosli.C98_printed",
    "Goosli.C98_order",
    "Goosli.C98_read",
    "Goosli.C98_ascii",
    "Goosli.C98_reread",
    "Goosli.C98_special",
    "Goosli.C98_same_text",
    "Goosli.C98_planes"
   ],
   "note": "IEEE binary64 with a model of strconv.FormatFloat and ParseFloat; the sign of zero is left out"
  },
  {
   "property": "C99",
   "status": "proved",
   "theorems": [
    "Goosli.C99_monotone",
    "Goosli.C99_filament"
   ],
   "note": "IEEE binary64; retraction off; bounds on settings, coordinates and (for the filament) total length and number of points"
  },
  {
   "property": "C100",
   "status": "proved",
   "theorems": [
    "Goosli.C100_moves",
    "Goosli.C100_path",
    "Goosli.C100_float64"
   ],
   "note": "For every arithmetic with clean printing: the print moves an interpreter of the text sees (layer, section, from, to) are the moves of the paths, in order; in float64 the points rounded to thousandths."
  },
  {
   "property": "C101",
   "status": "proved",
   "theorems": [
    "Goosli.C101_contours",
    "Goosli.C101_bound",
    "Goosli.C101_slice"
   ],
   "note": "IEEE binary64; supports off; planes that keep the distances of FloatSafe; points near the surface and in thin triangles left open"
  },
  {
   "property": "C102",
   "status": "proved",
   "theorems": [
    "Goosli.C102_lines",
    "Goosli.C102_fill"
   ],
   "note": "IEEE binary64; fill planes with |normal.x| at least 1/2 (all the program uses); points near contours, near the surface and in thin triangles left open"
  },
  {
   "property": "C103",
   "status": "proved",
   "theorems": [
    "Goosli.C103_planes",
    "Goosli.C103_cover",
    "Goosli.C103_slice"
   ],
   "note": "IEEE binary64; supports off; planes that keep the distances of FloatSafe; points near contours, near the surface and in thin triangles left open; coverage proved along X (solid layers, pattern Lines)"
  },
  {
   "property": "C104",
   "status": "proved",
   "theorems": [
    "Goosli.C104_deviation",
    "Goosli.C104_exact",
    "Goosli.C104_height",
    "Goosli.C104_file",
    "Goosli.C104_program"
   ],
   "note": "IEEE binary64; type 3axes, supports off; as C103; loading is a hypothesis that C97_load and C98_ascii provide; header and footer texts are left open"
  },
  {
   "property": "C105",
   "status": "proved",
   "theorems": [
    "Goosli.C105_file",
    "Goosli.C105_program"
   ],
   "note": "the templates are constants compared with data/*.txt by eye; lengths in millimetres; a print move is a G1 with E and without F on tool 0; C105_program as C104"
  },
  {
   "property": "C106",
   "status": "proved",
   "theorems": [
    "Goosli.C106_fan_violated"
   ],
   "note": "negation: after every program with two layers the fan is on; the heaters are off"
  },
  {
   "property": "C107",
   "status": "proved",
   "theorems": [
    "Goosli.C107_literal",
    "Goosli.C107_overflow",
    "Goosli.C107_words",
    "Goosli.C107_other",
    "Goosli.C107_comma"
   ],
   "note": "every text; the value of a literal is claimed for exponents below 10000 (strconv stops counting there)"
  },
  {
   "property": "C108",
   "status": "proved",
   "theorems": [
    "Goosli.C108_document",
    "Goosli.C108_rejected_violated"
   ],
   "note": "negation: documents with unreadable coordinates are loaded without an error"
  },
  {
   "property": "C109",
   "status": "proved",
   "theorems": [
    "Goosli.C109_safe",
    "Goosli.C109_levels",
    "Goosli.C109_program"
   ],
   "note": "IEEE binary64; as C104, with the conditions of FloatSafe derived from the grid; even layers: the product of step and number is exact, which is proved for powers of two (even_pow2) and for up to 48 layers (even_upto48)"
  },
  {
   "property": "C110",
   "status": "proved",
   "theorems": [
    "Goosli.C110_contours",
    "Goosli.C110_corners",
    "Goosli.C110_program"
   ],
   "note": "IEEE binary64; as C109, for the twelve triangles of brick; the fill is stated as in C104"
  },
  {
   "property": "C111",
   "status": "proved",
   "theorems": [
    "Goosli.C111_chord",
    "Goosli.C111_wall",
    "Goosli.C111_solid",
    "Goosli.C111_program"
   ],
   "note": "Fill planes that hit the diagonal of a side (where a contour may have a corner on the plane) are excluded: there the lines can be wrong, C60_vertex_violated."
  },
  {
   "property": "C112",
   "status": "partial",
   "theorems": [
    "Goosli.C112_off_partial",
    "Goosli.C112_emptied",
    "Goosli.C112_off_violated",
    "Goosli.C112_no_config"
   ],
   "note": "violated: RecreateFile does not look at the flag, so every slicer but 3axes empties (or creates) the debug file with debugging switched off; the partial theorem says that nothing else happens"
  },
  {
   "property": "C113",
   "status": "proved",
   "theorems": [
    "Goosli.C113_drawn",
    "Goosli.C113_panic",
    "Goosli.seen_f64"
   ],
   "note": "file system reduced to contents and permissions; the yaml parser is not modelled; which shapes a slicer draws is left open (all lists)"
  },
  {
   "property": "C114",
   "status": "partial",
   "theorems": [
    "Goosli.C114_ends_partial",
    "Goosli.C114_outcome",
    "Goosli.C114_broken",
    "Goosli.C114_violated",
    "Goosli.C114_written"
   ],
   "note": "How a vertical run ends, for every arithmetic: written, log.Fatal, make of a negative size, index out of range, with the condition of each; the claim fails for a single coordinate that is not finite; in float64 finite models of two layers or more are written."
  },
  {
   "property": "C115",
   "status": "proved",
   "theorems": [
    "Goosli.C115_program",
    "Goosli.C115_path",
    "Goosli.C115_from",
    "Goosli.C115_drift"
   ],
   "note": "Vertical slicing in float64 without supports, hypotheses of C105; C115_drift shows that inside the box no better bound on the deviation from the path holds."
  },
  {
   "property": "C116",
   "status": "proved",
   "theorems": [
    "Goosli.C116_program",
    "Goosli.C116_file",
    "Goosli.C116_lines"
   ],
   "note": "C116_lines and C116_file in any arithmetic for programs of level paths in ascending heights, C116_program for vertical slicing in float64 without supports, hypotheses of C105."
  },
  {
   "property": "C117",
   "status": "proved",
   "theorems": [
    "Goosli.C117_program",
    "Goosli.C117_layer",
    "Goosli.C102_fill"
   ],
   "note": "Boxes in float64, hypotheses of C110. Solid layers of every pattern; sparse layers of patterns with one direction only. The sum of the moves is taken along Y, and every move may be off by 0.002."
  },
  {
   "property": "C118",
   "status": "proved",
   "theorems": [
    "Goosli.C118_program",
    "Goosli.C118_slice",
    "Goosli.rect_run"
   ],
   "note": "Boxes in float64, hypotheses of C110, slicing type 3axes without supports; C118_slice is about the layers that all slicing types start from."
  },
  {
   "property": "C119",
   "status": "proved",
   "theorems": [
    "Goosli.C119_program",
    "Goosli.C119_flat",
    "Goosli.C119_same",
    "Goosli.C119_contours",
    "Goosli.C119_five",
    "Goosli.box_no_fail"
   ],
   "note": "Boxes in float64, hypotheses of C118, no planes file, no supports. With thicker walls C119_flat gives the layers and contours; the walls themselves are not described."
  },
  {
   "property": "C120",
   "status": "proved",
   "theorems": [
    "Goosli.C120_program",
    "Goosli.C120_upright",
    "Goosli.C120_box",
    "Goosli.box_profile",
    "Goosli.turn_broken"
   ],
   "note": "A fault of the code, proved for every upright profile of one step and for every box. int(NaN) is negative as on amd64 (section 2 of DESIGN.md)."
  },
  {
   "property": "C121",
   "status": "partial",
   "theorems": [
    "Goosli.C121_lines_partial",
    "Goosli.C121_nearly",
    "Goosli.C121_violated",
    "Goosli.lines_of_count"
   ],
   "note": "Fails where the rounded quotient is below k, as with the default flags (C121_violated); proved where the quotient is exactly k, and that at most one line is lost."
  },
  {
   "property": "C122",
   "status": "partial",
   "theorems": [
    "Goosli.C122_inside_partial",
    "Goosli.C122_violated",
    "Goosli.rect_wall",
    "Goosli.rect_wall_in",
    "Goosli.strip_wall",
    "Goosli.strip_wall'"
   ],
   "note": "Fails for strips thinner than a line (C122_violated). Rectangles in exact arithmetic, one wall beside the contour, sides not within a thousandth of one or two line widths; other contours are covered by C49 only."
  },
  {
   "property": "C123",
   "status": "proved",
   "theorems": [
    "Goosli.C123_same",
    "Goosli.C123_whole",
    "Goosli.C123_program",
    "Goosli.C123_box",
    "Goosli.C123_default",
    "Goosli.sweep_front",
    "Goosli.supports_low",
    "Goosli.proj_bottom",
    "Goosli.angle_up",
    "Goosli.overhangs_stand"
   ],
   "note": "float64 with correctly rounded functions (see the trusted base for acos). Direction of overhangs straight down; for whole models the faces must not be degenerate."
  },
  {
   "property": "C124",
   "status": "partial",
   "theorems": [
    "Goosli.C124_colours_partial",
    "Goosli.C124_models",
    "Goosli.C124_violated",
    "Goosli.painted_up",
    "Goosli.sqrt_sq_ge",
    "Goosli.length_ordinary",
    "Goosli.angle_ordinary",
    "Goosli.angle_opposite"
   ],
   "note": "Fails for the direction (1,1,1) (C124_violated). Proved for overhangs counted from straight up, the default; other directions in which the length is not rounded down are not treated. float64 with correctly rounded acos."
  },
  {
   "property": "C125",
   "status": "partial",
   "theorems": [
    "Goosli.C125_open_partial",
    "Goosli.C125_violated",
    "Goosli.open_edges"
   ],
   "note": "Fails for triangles that touch the plane with a vertex from behind (C125_violated). Exact arithmetic; that the caps close the halves in the plane is not claimed."
  },
  {
   "property": "C126",
   "status": "partial",
   "theorems": [
    "Goosli.C126_supports_partial",
    "Goosli.C126_violated",
    "Goosli.supports_exact",
    "Goosli.legs_wall",
    "Goosli.free_of_sides",
    "Goosli.undoubled_sides",
    "Goosli.overhang_filter",
    "Goosli.plate_side_dropped"
   ],
   "note": "Fails for every plate on a column (C126_violated). Proved: which walls are kept in terms of the test IntersectTriangles, and that a wall is complete where the test finds it free. Exact arithmetic."
  },
  {
   "property": "C127",
   "status": "partial",
   "theorems": [
    "Goosli.C127_place_partial",
    "Goosli.C127_violated",
    "Goosli.section_move",
    "Goosli.round8_move",
    "Goosli.joinPaths3_map",
    "Goosli.sortByMinZ_move",
    "Goosli.sweep_move",
    "Goosli.insertion_natural",
    "Goosli.tieTri_slice"
   ],
   "note": "Fails when a point of a section is in the middle between two multiples of 1e-8 (C127_violated). Proved otherwise, with supports off. Exact arithmetic."
  },
  {
   "property": "C128",
   "status": "partial",
   "theorems": [
    "Goosli.C128_place_partial",
    "Goosli.C128_violated",
    "Goosli.grid_fill",
    "Goosli.byPlane_move",
    "Goosli.sortFill_map",
    "Goosli.slice_plain",
    "Goosli.fill_at_whole",
    "Goosli.tetra_line"
   ],
   "note": "Fails for displacements that are not whole line distances (C128_violated). Proved for the others with the pattern of lines and supports off. Exact arithmetic."
  },
  {
   "property": "C129",
   "status": "proved",
   "theorems": [
    "Goosli.C129_closed_iff",
    "Goosli.C129_orientation",
    "Goosli.closed_balanced",
    "Goosli.closed_matched",
    "Goosli.matched_closed",
    "Goosli.open_stays_open"
   ],
   "note": "Exact arithmetic with the rounding of sections; crossing points well separated. C129_orientation is the instance of a watertight tetrahedron with one facet turned over."
  },
  {
   "property": "C130",
   "status": "proved",
   "theorems": [
    "Goosli.C130_same_part",
    "Goosli.printed_material",
    "Goosli.same_material",
    "Goosli.same_odd",
    "Goosli.same_edges",
    "Goosli.sameAs_on"
   ],
   "note": "Exact arithmetic with the rounding of sections, at good levels, like C90 from which it follows. The second part of the conclusion says that the region is the material."
  },
  {
   "property": "C131",
   "status": "proved",
   "theorems": [
    "Goosli.C131_mapped_part",
    "Goosli.LevelMap.material",
    "Goosli.LevelMap.odd",
    "Goosli.LevelMap.cross",
    "Goosli.turnMap_rigid"
   ],
   "note": "Exact arithmetic with the rounding of sections, at levels that are good for both models (the distances of crossing points change with the map, so this is a hypothesis on both)."
  },
  {
   "property": "C132",
   "status": "proved",
   "theorems": [
    "Goosli.C132_same_part",
    "Goosli.C132_mapped_part",
    "Goosli.printed_materialF",
    "Goosli.same_safe"
   ],
   "note": "B64 arithmetic under the conditions of C103 (FloatSafe at every level). That the image of the model has float64 coordinates is a hypothesis of C132_mapped_part."
  },
  {
   "property": "C133",
   "status": "proved",
   "theorems": [
    "Goosli.C133_program",
    "Goosli.enclosed_material",
    "Goosli.same_moved",
    "Goosli.outTetra_loads"
   ],
   "note": "The program of C104 in B64 arithmetic under its conditions (FloatSafe at every level of the model moved by the origin)."
  },
  {
   "property": "C134",
   "status": "proved",
   "theorems": [
    "Goosli.C134_stretched_part",
    "Goosli.zStretch_material",
    "Goosli.zStretch_good",
    "Goosli.zStretch_far",
    "Goosli.zStretch_slim",
    "Goosli.zLayer_level"
   ],
   "note": "Exact arithmetic with the rounding of sections, at good levels, like C90. Here the conditions on the image follow from those on the model, as only heights change."
  },
  {
   "property": "C135",
   "status": "partial",
   "theorems": [
    "Goosli.C135_two_bodies_partial",
    "Goosli.C135_float_partial",
    "Goosli.C135_violated",
    "Goosli.material_append",
    "Goosli.twoTetra_good",
    "Goosli.twoTetra_slim"
   ],
   "note": "The part that holds: away from overlaps both bodies are printed, and on an overlap nothing is (exclusive or). C135_violated: a tetrahedron and its copy moved by half a millimetre; a point inside both is outside of the printed contours, for every sorter and arrival order."
  },
  {
   "property": "C136",
   "status": "proved",
   "theorems": [
    "Goosli.C136_side_by_side",
    "Goosli.C136_float",
    "Goosli.C136_boxes",
    "Goosli.material_side",
    "Goosli.SideBySide.apart",
    "Goosli.SideBySide.grid"
   ],
   "note": "C136_side_by_side in exact arithmetic with the rounding of sections, at good levels, like C90; C136_float in B64 arithmetic with no condition on crossing points, for models on a grid (C109)."
  },
  {
   "property": "C137",
   "status": "proved",
   "theorems": [
    "Goosli.C137_cavity",
    "Goosli.C137_box",
    "Goosli.C137_program",
    "Goosli.hollow_box",
    "Goosli.hollow_material",
    "Goosli.whole_loads"
   ],
   "note": "C137_cavity in exact arithmetic with the rounding of sections, at good levels, like C90; C137_box and C137_program (from the STL file to the moves of the written file) in B64 arithmetic with no condition on crossing points. In all, points in slim triangles of crossing points are left out."
  },
  {
   "property": "C138",
   "status": "proved",
   "theorems": [
    "Goosli.C138_bodies",
    "Goosli.C138_float",
    "Goosli.material_flatten",
    "Goosli.oddBodies_disjoint",
    "Goosli.odd_flatten"
   ],
   "note": "C138_bodies in exact arithmetic with the rounding of sections, at good levels, like C90; C138_float in B64 arithmetic under the conditions of C103 (FloatSafe at every level)."
  },
  {
   "property": "C139",
   "status": "proved",
   "theorems": [
    "Goosli.C139_program",
    "Goosli.material_flatten",
    "Goosli.whole_loads",
    "Goosli.oddBodies_pair"
   ],
   "note": "The program of C109 (B64 arithmetic, models on a grid, even layers), so without conditions on crossing points."
  },
  {
   "property": "C140",
   "status": "proved",
   "theorems": [
    "Goosli.C140_independent",
    "Goosli.C140_float",
    "Goosli.SideBySide.clear"
   ],
   "note": "That the second body is not lower or higher is needed: the levels are placed between the lowest and the highest vertex of the whole file."
  },
  {
   "property": "C141",
   "status": "proved",
   "theorems": [
    "Goosli.C141_stacked",
    "Goosli.C141_float",
    "Goosli.material_misses",
    "Goosli.oddBodies_misses"
   ],
   "note": "C141_stacked in exact arithmetic with the rounding of sections, at good levels, like C90; C141_float in B64 arithmetic under the conditions of C103 (FloatSafe at every level)."
  },
  {
   "property": "C142",
   "status": "proved",
   "theorems": [
    "Goosli.C142_hull",
    "Goosli.C142_float",
    "Goosli.material_hull"
   ],
   "note": "C142_hull in exact arithmetic with the rounding of sections, at good levels, like C90; C142_float in B64 arithmetic under the conditions of C103 (FloatSafe at every level)."
  },
  {
   "property": "C143",
   "status": "proved",
   "theorems": [
    "Goosli.C143_finer",
    "Goosli.C143_float",
    "Goosli.finer_level"
   ],
   "note": "C143_finer in exact arithmetic with the rounding of sections, at good levels, like C90, when the height of the model is a whole number of layer heights; C143_float in B64 arithmetic for models on a grid (C109) cut into even layers."
  },
  {
   "property": "C144",
   "status": "proved",
   "theorems": [
    "Goosli.C144_local",
    "Goosli.C144_float",
    "Goosli.material_local",
    "Goosli.frustum_good",
    "Goosli.frustum_watertight"
   ],
   "note": "C144_local in exact arithmetic with the rounding of sections, at levels that are good for both models, like C90; C144_float in B64 arithmetic under the conditions of C103 (FloatSafe at every level). That the extent in height is the same is needed: the levels are placed between the lowest and the highest vertex."
  },
  {
   "property": "C145",
   "status": "proved",
   "theorems": [
    "Goosli.C145_level",
    "Goosli.C145_float",
    "Goosli.SameAt.material",
    "Goosli.SameAt.good",
    "Goosli.facetsAt_odd",
    "Goosli.frustum_same",
    "Goosli.frustum_topGood"
   ],
   "note": "C145_level in exact arithmetic with the rounding of sections, at good levels, like C90; the conditions on level and points are those of one of the models. C145_float in B64 arithmetic under the conditions of C103 (FloatSafe at every level of both)."
  },
  {
   "property": "C146",
   "status": "proved",
   "theorems": [
    "Goosli.C146_taller",
    "Goosli.C146_float",
    "Goosli.printed_grid"
   ],
   "note": "C146_taller in exact arithmetic with the rounding of sections, at good levels, like C90; C146_float in B64 arithmetic for models on a grid (C109) cut into even layers. That the heights are whole numbers of layer heights is needed: otherwise the layers are made a little thinner, differently for the two models."
  },
  {
   "property": "C147",
   "status": "proved",
   "theorems": [
    "Goosli.C147_program",
    "Goosli.grid_enclosed"
   ],
   "note": "The whole program in B64 arithmetic, from the STL file to the moves in the G-code file, for models on a grid (C109) cut into even layers; the contours of a layer are compared by the points they enclose, the fill lines are not compared."
  }
 ]
}