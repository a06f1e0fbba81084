# (property, status, theorems, note)
CLAIMS = [
 ('C01', 'proved', ['C01_schedule', 'C01_no_deadlock', 'C01_worker_total', 'C01_slice', 'C01_arrival'],
  'every interleaving of the goroutines and every number of workers; every arithmetic'),
 ('C02', 'proved', ['C02_fill', 'C02_quiet', 'C02_no_race', 'C02_terminates', 'C02_copy', 'C02_decode'],
  'every interleaving of the goroutines and every number of workers; every arithmetic'),
 ('C03', 'proved', ['C03_round_trip', 'C03_second_trip', 'C03_too_many'], 'on the bytes of the file; every arithmetic'),
 ('C04', 'proved', ['C04_short', 'C04_binary', 'C04_ascii', 'C04_total'], 'on the bytes of the file; every arithmetic'),
 ('C05', 'proved', ['C05_any_text', 'C05_document'], 'on the bytes of the file; every arithmetic and every number parser'),
 ('C07', 'proved', ['C07_when', 'C07_exact', 'C07_symm'], 'exact arithmetic'),
 ('C08', 'proved', ['C08_sound'], 'exact arithmetic'),
 ('C09', 'proved', ['C09_not_lost'], 'exact arithmetic'),
 ('C10', 'proved', ['C10_sweep', 'C10_layers'], 'exact arithmetic; every order the unstable sort may return'),
 ('C11', 'proved', ['C11_planes', 'C11_dropped'], 'exact arithmetic; C11_dropped for every arithmetic'),
 ('C12', 'proved', ['C12_empty', 'C12_returns', 'C12_flat_panics', 'C12_zero_layer_height_panics', 'C12_negative_layer_height_panics'],
  'exact arithmetic; C12_empty for every arithmetic; the last three prove the panics'),
 ('C13', 'proved', ['C13_join_conserves', 'C13_empty_path_panics'], 'every arithmetic, every permutation returned by sort.Slice'),
 ('C14', 'proved', ['C14_loops_close','C14_loops'], 'C14_loops: every arithmetic on points it tells apart; C14_loops_close: exact arithmetic'),
 ('C15', 'proved', ['C15_closed', 'C15_layer'], 'exact arithmetic; every order the unstable sort may return'),
 ('C16', 'partial', ['C16_join2_partial', 'C16_join2_loops', 'C16_join2_violated'],
  'conservation, termination and loop closing for every map order; that no joinable pair is left is proved false'),
 ('C17', 'proved', ['C17_no_new_points', 'C17_open_keeps_ends', 'C17_short_unchanged', 'C17_closed_stays_closed', 'C17_turning_unchanged'],
  'first three for every arithmetic, the others in exact arithmetic'),
 ('C23', 'proved', ['C23_rotate_X', 'C23_rotate_Z'], 'exact arithmetic'),
 ('C24', 'proved', ['C24_shift', 'C24_shift_comp', 'C24_nil'], 'exact arithmetic'),
 ('C25', 'proved', ['C25_tight', 'C25_empty'], 'exact arithmetic'),
 ('C26', 'proved', ['C26_normalize', 'C26_vector_on_plane', 'C26_point_on_line', 'C26_point_on_plane', 'C26_zero_normal'], 'exact arithmetic'),
 ('C27', 'proved', ['C27_angle', 'C27_extremes', 'C27_zero', 'C27_out_of_range'],
  'exact arithmetic; C27_out_of_range shows what the code returns if rounding pushes the cosine below -1'),
 ('C29', 'proved', ['C29_centroid', 'C29_moves_along'], 'exact arithmetic'),
 ('C30', 'proved', ['C30_winding_is_area', 'C30_winding_invariant', 'C30_reverse_flips', 'C30_empty_panics'], 'exact arithmetic'),
 ('C31', 'proved', ['C31_reverse', 'C31_close_prefix', 'C31_close_closes'], 'closedness needs exact arithmetic, the rest holds for every arithmetic'),
 ('C32', 'proved', ['C32_layer_numbering'], 'on the text of the output; every arithmetic'),
 ('C33', 'proved', ['C33_filament'], 'exact arithmetic, any correctly rounded three-decimal format; printer machine runs the text'),
 ('C34', 'proved', ['C34_extruder_monotone'], 'exact arithmetic, any correctly rounded three-decimal format'),
 ('C35', 'proved', ['C35_fan_state', 'C35_fan_switched_once'], 'on the text of the output; every arithmetic'),
 ('C36', 'partial', ['C36_speed_partial', 'C36_speed_violated_by_rotation', 'C36_speed_violated_by_retraction'],
  'holds without retraction and without axis-driving bed commands; both exceptions are proved to violate the claim'),
 ('C37', 'proved', ['C37_axes', 'C37_register_restored'], 'every arithmetic whose format prints 0 and 60 readably'),
 ('C38', 'partial', ['C38_nozzle_partial', 'C38_printed_near', 'C38_nozzle_violated'],
  'holds when coordinates change by 0 or at least 0.001 per segment; otherwise the drift is proved unbounded'),
 ('C39', 'proved', ['C39_retraction_amount', 'C39_retraction_violated'],
  'the claim as relied on is false; proved: exact amount pulled by every retraction, and that it exceeds every bound'),
 ('C40', 'proved', ['C40_flow_ignored', 'C40_flow_violated'],
  'the claim as relied on is false; proved: the text is the same for every flow'),
 ('C55', 'proved', ['C55_accepts', 'C55_rejects', 'C55_vertical'], 'exact arithmetic; C55_vertical proves the defect named in the statement'),
 ('C56', 'proved', ['C56_crossing', 'C56_inside', 'C56_finite'], 'exact arithmetic with NaN and infinities'),
 ('C58', 'proved', ['C58_round', 'C58_overflow', 'C58_equal'], 'exact arithmetic'),
 ('C06', 'proved', ['C06_newTriangle', 'C06_shift', 'C06_mesh_rotate', 'C06_mesh_shift', 'C06_simplify', 'C06_cutMesh', 'C06_loadSTL',
   'C06_all_meshes', 'C06_file_normal_ignored'], 'every arithmetic'),
 ('C18', 'proved', ['C18_bound', 'C18_segment_violated'], 'exact arithmetic; the bound is shown to be about lines only, not segments'),
 ('C19', 'proved', ['C19_terminates', 'C19_empty_panics', 'C19_negative_diverges'], 'termination for every arithmetic'),
 ('C22', 'proved', ['C22_caps', 'C22_nil'], 'exact arithmetic'),
 ('C28', 'proved', ['C28_flags', 'C28_filter', 'C28_meaning', 'C28_degenerate', 'C28_zero_direction', 'C28_scale'],
  'flags and filter for every arithmetic, the meaning in exact arithmetic'),
 ('C54', 'proved', ['C54_undoubled', 'C54_delete_internal'], 'exact arithmetic without NaN'),
 ('C57', 'proved', ['C57_nil', 'C57_small', 'C57_reduced'], 'every arithmetic and every reduction routine'),
 ('C20', 'partial', ['C20_separated_partial', 'C20_coarse', 'C20_passed_through', 'C20_violated'],
  'exact arithmetic; up to 0.5e-8 if the vertices of each triangle are 1e-6 apart, up to 1e-6 always; the sharper bound is proved false for close vertices'),
 ('C21', 'partial', ['C21_area_partial', 'C21_touching_dropped', 'C21_long_edge_violated'],
  'exact arithmetic; holds for cleanly cut triangles; touching triangles are proved to be dropped and long edges to give overlapping pieces'),
 ('C59', 'partial', ['C59_fan_partial', 'C59_at_least', 'C59_concave_violated'],
  'exact arithmetic; holds for contours seen in one sense from their first point, proved false for a concave contour'),
 ('C42', 'proved', ['C42_fill'], 'every arithmetic'),
 ('C43', 'proved', ['C43_cut', 'C43_segments', 'C43_key_separates'], 'exact arithmetic, every sorting routine'),
 ('C44', 'proved', ['C44_tour', 'C44_perm', 'C44_real'], 'greedy tour for every arithmetic in which the distances are below MaxFloat32; C44_real shows finite coordinates below 1e37 suffice'),
 ('C45', 'proved', ['C45_grid', 'C45_lines_cover', 'C45_diagonal_uncovered'],
  'exact arithmetic; C45_diagonal_uncovered proves that the rotated patterns do not cover the corners of the model'),
 ('C46', 'partial', ['C46_planes_partial', 'C46_low_density_violated'], 'exact arithmetic; proved false for Squares at density 1 and Triangles at 1 and 2'),
 ('C60', 'partial', ['C60_inside_partial', 'C60_vertex_violated'], 'exact arithmetic; holds for planes through no vertex, proved false for a plane through a vertex'),
 ('C41', 'proved', ['C41_fill', 'C41_templates', 'C41_order_independent', 'C41_unreadable', 'C41_output', 'C41_nested_violated'],
  'every alphabet and every arithmetic; C41_nested_violated proves the exception named in the statement'),
 ('C53', 'proved', ['C53_middle'], 'exact arithmetic'),
 ('C61', 'proved', ['C61_file'], 'every arithmetic; reading the template files is an input of the model'),
 ('C47', 'proved', ['C47_walls', 'C47_count'], 'every arithmetic; the wall count over the reals'),
 ('C48', 'proved', ['C48_skirt', 'C48_keeps'], 'every arithmetic'),
 ('C49', 'partial', ['C49_side', 'C49_inwards', 'C49_open', 'C49_corners', 'C49_closed_partial', 'C49_closed_violated'],
     'closed contours get one wrong corner in the code; contours whose corners are too flat or too long are not covered'),
 ('C50', 'proved', ['C50_program', 'C50_end', 'C50_fails_only_slicing'], 'every arithmetic'),
 ('C51', 'proved', ['C51_planes', 'C51_rounds'], 'every arithmetic'),
 ('C52', 'partial', ['C52_line', 'C52_file', 'C52_same_plane_partial', 'C52_flat', 'C52_mirrored_violated', 'C52_horizontal_violated',
   'C52_short_line_panics', 'C52_empty_line_panics'],
  'text for every arithmetic whose numbers print without blanks; the plane in exact arithmetic for normals with y >= 0, proved mirrored for y < 0'),
 ('C62', 'proved', ['C62_analyze_panics'], 'exact arithmetic; proves the negation with a concrete model'),
 ('C63', 'proved', ['C63_rotation', 'C63_zero_axis', 'C63_opposite'], 'exact arithmetic'),
 ('C64', 'partial', ['C64_planes', 'C64_profile_partial', 'C64_tilted_partial', 'C64_back', 'C64_five', 'C64_default', 'C64_profile_violated',
   'C64_tilted_violated', 'C64_vertical_violated', 'C64_bridge_violated'],
  'exact arithmetic; the steps of the programs for every arithmetic; proved false for directions with negative y, vertical profiles and bridges'),
 ('C65', 'proved', ['C65_slicers', 'C65_reproducible'], 'every arithmetic; one sorting routine, the same in both runs'),
 ('C66', 'proved', ['C66_unreadable', 'C66_cutter', 'C66_simplifier', 'C66_colorizer', 'C66_no_panic'],
  'every arithmetic; flag parsing, partial disk writes and the decimation of fogleman/simplify are inputs of the model'),
 ('C67', 'proved', ['C67_planes_file', 'C67_pipeline', 'C67_center_ignored'], 'every arithmetic whose numbers print without blanks in at most 10000 characters'),
 ('C68', 'partial', ['C68_commands', 'C68_settings', 'C68_unsupported', 'C68_run', 'C68_speed_partial'],
  'every arithmetic; the feed rate of the moves in the file only without retraction and not for the vip slicer (C36 has the violations)'),
 ('C69', 'partial', ['C69_default', 'C69_five', 'C69_profile', 'C69_home_partial', 'C69_planes', 'C69_home_violated'],
  'every arithmetic; the level end is proved for three slicers and refuted for SliceByPlanes'),
 ('C70', 'partial', ['C70_crashes', 'C70_bridge_no_overhang', 'C70_bridge_deck', 'C70_rotation_no_overhang', 'C70_violated', 'C70_bridge_partial'],
  'every arithmetic; the crashes are proved, and that an overhanging bridge is printed'),
 ('C71', 'partial', ['C71_default_partial', 'C71_five_partial', 'C71_default_one_layer', 'C71_five_one_layer', 'C71_vip_one_layer', 'C71_violated'],
  'every arithmetic; proved false for models with fewer than two layers'),
 ('C72', 'proved', ['C72_bridge', 'C72_rotation', 'C72_default', 'C72_five', 'C72_profile'], 'every arithmetic; runs that end'),
 ('C73', 'partial', ['C73_hole', 'C73_outside', 'C73_outside_partial', 'C73_violated'],
  'exact arithmetic; proved for contours that run around their centroid at their first corner, refuted for a U'),
 ('C74', 'proved', ['C74_type', 'C74_vip', 'C74_round'], 'every arithmetic; roundness in exact arithmetic'),
 ('C75', 'proved', ['C75_layers', 'C75_layers_no_supports', 'C75_contours_only', 'C75_no_walls'], 'every arithmetic'),
 ('C76', 'partial', ['C76_report', 'C76_layer', 'C76_below', 'C76_island', 'C76_nothing_below', 'C76_leg', 'C76_rotation', 'C76_upright', 'C76_violated'],
  'exact arithmetic; the exact set of reports is proved; the property is refuted by pyramids, because inward slopes are reported as well'),
 ('C77', 'partial', ['C77_ray', 'C77_inside_partial', 'C77_line', 'within_triangle', 'C77_violated'],
  'exact arithmetic; proved outside of the named coincidences, refuted by an L, a pentagon and thin squares'),
 ('C78', 'partial', ['C78_planes', 'C78_contours', 'C78_three_axes', 'C78_walls_partial', 'C78_upwards', 'C78_rotation', 'C78_violated'],
  'exact arithmetic; proved for slicing along the z axis, refuted for SliceRotation (for all models, with a witness run in rational arithmetic)'),
 ('C79', 'partial', ['C79_test', 'C79_supports', 'C79_meets', 'C79_exact_partial', 'C79_wall', 'C79_violated', 'RatToy.C79_violated_supports'],
  'exact arithmetic; proved for triangles in general position that are not vertical, refuted for walls along an axis'),
 ('C80', 'partial', ['C80_centroid', 'C80_degenerate', 'C80_violated_speck', 'C80_center', 'C80_center_partial', 'C80_violated_hole'],
  'exact arithmetic; proved for contours with visible area and for layers with one contour, refuted by a tiny contour and a hole'),
 ('C81', 'partial', ['C81_box', 'C81_on_segment', 'C81_sound', 'C81_complete', 'C81_segments_partial', 'C81_violated'],
  'exact arithmetic; proved for segments in clear position, refuted for segments of a thousandth'),
 ('C82', 'partial', ['C82_all_or_nothing', 'C82_isInside_partial', 'C82_violated'],
  'exact arithmetic; proved in clear position, refuted for contours of a quarter of a thousandth'),
 ('C83', 'proved', ['C83_contours', 'C83_cross_section', 'C83_any_ray', 'C83_layer'],
  'exact arithmetic; the enclosing is stated for the exact corners, the code stores them rounded to eight decimals and without collinear points'),
 ('C84', 'partial', ['C84_fill_exact_partial', 'C84_violated'],
  'exact arithmetic; planes through a corner of a contour are left out, there the property is refuted'),
 ('C85', 'partial', ['C85_stl', 'C85_planes_violated'],
  'every number type; exact for STL files, refuted for files of planes'),
 ('C86', 'proved', ['C86_plane_meets', 'C86_section_meets', 'C86_path_equal', 'C86_path_equal_not_transitive'],
  'exact arithmetic; C86_section_meets for small coordinates (the corners of the section are rounded)'),
 ('C87', 'proved', ['C87_moved', 'C87_rounded', 'C87_cross_section'],
  'exact arithmetic; C87_cross_section under the conditions of C83'),
 ('C88', 'partial', ['C88_inside_partial', 'C88_violated'],
  'exact arithmetic; points in slim triangles are excluded, where it is false'),
 ('C89', 'partial', ['C89_contours', 'C89_fill_partial', 'C89_layer'],
  'exact arithmetic; vertical slicing direction; fill planes through a stored corner and points in slim triangles are excluded (C84_violated, C88_violated)'),
 ('C90', 'partial', ['C90_print_partial'],
  'exact arithmetic; vertical direction, supports off, levels in good position; exclusions of C84 and C88'),
 ('C91', 'partial', ['C91_file_partial'],
  'exact arithmetic with correctly rounded printed decimals; all levels in good position; short lines are excluded (C38_nozzle_violated)'),
 ('C92', 'proved', ['C92_sections', 'C92_cross_section'],
  'C92_sections for every number type; C92_cross_section in exact arithmetic under the conditions of C83'),
 ('C93', 'partial', ['C93_segment_partial', 'C93_corner', 'C93_violated'],
  'exact arithmetic; general position, refuted at corners'),
 ('C94', 'proved', ['C94_segments', 'C94_closed'],
  'IEEE binary64 (model B64); horizontal planes; the distances are hypotheses'),
 ('C95', 'proved', ['C95_planes', 'C95_layer', 'C95_slice'],
  'IEEE binary64; vertical direction, supports off; the distances of C94 are hypotheses'),
 ('C96', 'partial', ['C96_exact', 'C96_layers_partial', 'C96_violated'],
  'IEEE binary64; exact multiples get k layers, otherwise k or k+1, refuted for 0.3 / 0.1'),
 ('C97', 'proved', ['C97_load', 'C97_bytes', 'C97_save', 'C97_stable'],
  'IEEE binary32 and binary64; the sign of zero and the payload of a NaN are left out'),
 ('C98', 'proved', ['C98_printed', 'C98_order', 'C98_read', 'C98_ascii', 'C98_reread', 'C98_special', 'C98_same_text', 'C98_planes'],
  'IEEE binary64 with a model of strconv.FormatFloat and ParseFloat; the sign of zero is left out'),
 ('C99', 'proved', ['C99_monotone', 'C99_filament'],
  'IEEE binary64; retraction off; bounds on settings, coordinates and (for the filament) total length and number of points'),
 ('C100', 'proved', ['C100_moves', 'C100_path', 'C100_float64'],
  'For every arithmetic with clean printing: the print moves an interpreter of the text sees (layer, section, from, to) are the moves of the paths, in order; in float64 the points rounded to thousandths.'),
 ('C101', 'proved', ['C101_contours', 'C101_bound', 'C101_slice'],
  'IEEE binary64; supports off; planes that keep the distances of FloatSafe; points near the surface and in thin triangles left open'),
 ('C102', 'proved', ['C102_lines', 'C102_fill'],
  'IEEE binary64; fill planes with |normal.x| at least 1/2 (all the program uses); points near contours, near the surface and in thin triangles left open'),
 ('C103', 'proved', ['C103_planes', 'C103_cover', 'C103_slice'],
  'IEEE binary64; supports off; planes that keep the distances of FloatSafe; points near contours, near the surface and in thin triangles left open; coverage proved along X (solid layers, pattern Lines)'),
 ('C104', 'proved', ['C104_deviation', 'C104_exact', 'C104_height', 'C104_file', 'C104_program'],
  'IEEE binary64; type 3axes, supports off; as C103; loading is a hypothesis that C97_load and C98_ascii provide; header and footer texts are left open'),
 ('C105', 'proved', ['C105_file', 'C105_program'],
  'the templates are constants compared with data/*.txt by eye; lengths in millimetres; a print move is a G1 with E and without F on tool 0; C105_program as C104'),
 ('C106', 'proved', ['C106_fan_violated'],
  'negation: after every program with two layers the fan is on; the heaters are off'),
 ('C107', 'proved', ['C107_literal', 'C107_overflow', 'C107_words', 'C107_other', 'C107_comma'],
  'every text; the value of a literal is claimed for exponents below 10000 (strconv stops counting there)'),
 ('C108', 'proved', ['C108_document', 'C108_rejected_violated'],
  'negation: documents with unreadable coordinates are loaded without an error'),
 ('C109', 'proved', ['C109_safe', 'C109_levels', 'C109_program'],
  'IEEE binary64; as C104, with the conditions of FloatSafe derived from the grid; even layers: the product of step and number is exact, which is proved for powers of two (even_pow2) and for up to 48 layers (even_upto48)'),
 ('C110', 'proved', ['C110_contours', 'C110_corners', 'C110_program'],
  'IEEE binary64; as C109, for the twelve triangles of brick; the fill is stated as in C104'),
 ('C111', 'proved', ['C111_chord', 'C111_wall', 'C111_solid', 'C111_program'],
  "Fill planes that hit the diagonal of a side (where a contour may have a corner on the plane) are excluded: there the lines can be wrong, C60_vertex_violated."),
 ('C112', 'partial', ['C112_off_partial', 'C112_emptied', 'C112_off_violated', 'C112_no_config'],
  'violated: RecreateFile does not look at the flag, so every slicer but 3axes empties (or creates) the debug file with debugging switched off; the partial theorem says that nothing else happens'),
 ('C113', 'proved', ['C113_drawn', 'C113_panic', 'seen_f64'],
  'file system reduced to contents and permissions; the yaml parser is not modelled; which shapes a slicer draws is left open (all lists)'),
 ('C114', 'partial', ['C114_ends_partial', 'C114_outcome', 'C114_broken', 'C114_violated', 'C114_written'],
  'How a vertical run ends, for every arithmetic: written, log.Fatal, make of a negative size, index out of range, with the condition of each; the claim fails for a single coordinate that is not finite; in float64 finite models of two layers or more are written.'),
 ('C115', 'proved', ['C115_program', 'C115_path', 'C115_from', 'C115_drift'],
  'Vertical slicing in float64 without supports, hypotheses of C105; C115_drift shows that inside the box no better bound on the deviation from the path holds.'),
 ('C116', 'proved', ['C116_program', 'C116_file', 'C116_lines'],
  'C116_lines and C116_file in any arithmetic for programs of level paths in ascending heights, C116_program for vertical slicing in float64 without supports, hypotheses of C105.'),
 ('C117', 'proved', ['C117_program', 'C117_layer', 'C102_fill'],
  'Boxes in float64, hypotheses of C110. Solid layers of every pattern; sparse layers of patterns with one direction only. The sum of the moves is taken along Y, and every move may be off by 0.002.'),
 ('C118', 'proved', ['C118_program', 'C118_slice', 'rect_run'],
  'Boxes in float64, hypotheses of C110, slicing type 3axes without supports; C118_slice is about the layers that all slicing types start from.'),
 ('C119', 'proved', ['C119_program', 'C119_flat', 'C119_same', 'C119_contours', 'C119_five', 'box_no_fail'],
  'Boxes in float64, hypotheses of C118, no planes file, no supports. With thicker walls C119_flat gives the layers and contours; the walls themselves are not described.'),
 ('C120', 'proved', ['C120_program', 'C120_upright', 'C120_box', 'box_profile', 'turn_broken'],
  'A fault of the code, proved for every upright profile of one step and for every box. int(NaN) is negative as on amd64 (section 2 of DESIGN.md).'),
 ('C121', 'partial', ['C121_lines_partial', 'C121_nearly', 'C121_violated', 'lines_of_count'],
  'Fails where the rounded quotient is below k, as with the default flags (C121_violated); proved where the quotient is exactly k, and that at most one line is lost.'),
 ('C122', 'partial', ['C122_inside_partial', 'C122_violated', 'rect_wall', 'rect_wall_in', 'strip_wall', "strip_wall'"],
  'Fails for strips thinner than a line (C122_violated). Rectangles in exact arithmetic, one wall beside the contour, sides not within a thousandth of one or two line widths; other contours are covered by C49 only.'),
 ('C123', 'proved', ['C123_same', 'C123_whole', 'C123_program', 'C123_box', 'C123_default', 'sweep_front', 'supports_low', 'proj_bottom', 'angle_up', 'overhangs_stand'],
  'float64 with correctly rounded functions (see the trusted base for acos). Direction of overhangs straight down; for whole models the faces must not be degenerate.'),
 ('C124', 'partial', ['C124_colours_partial', 'C124_models', 'C124_violated', 'painted_up', 'sqrt_sq_ge', 'length_ordinary', 'angle_ordinary', 'angle_opposite'],
  'Fails for the direction (1,1,1) (C124_violated). Proved for overhangs counted from straight up, the default; other directions in which the length is not rounded down are not treated. float64 with correctly rounded acos.'),
 ('C125', 'partial', ['C125_open_partial', 'C125_violated', 'open_edges'],
  'Fails for triangles that touch the plane with a vertex from behind (C125_violated). Exact arithmetic; that the caps close the halves in the plane is not claimed.'),
 ('C126', 'partial', ['C126_supports_partial', 'C126_violated', 'supports_exact', 'legs_wall', 'free_of_sides', 'undoubled_sides', 'overhang_filter', 'plate_side_dropped'],
  'Fails for every plate on a column (C126_violated). Proved: which walls are kept in terms of the test IntersectTriangles, and that a wall is complete where the test finds it free. Exact arithmetic.'),
 ('C127', 'partial', ['C127_place_partial', 'C127_violated', 'section_move', 'round8_move', 'joinPaths3_map', 'sortByMinZ_move', 'sweep_move', 'insertion_natural', 'tieTri_slice'],
  'Fails when a point of a section is in the middle between two multiples of 1e-8 (C127_violated). Proved otherwise, with supports off. Exact arithmetic.'),
 ('C128', 'partial', ['C128_place_partial', 'C128_violated', 'grid_fill', 'byPlane_move', 'sortFill_map', 'slice_plain', 'fill_at_whole', 'tetra_line'],
  'Fails for displacements that are not whole line distances (C128_violated). Proved for the others with the pattern of lines and supports off. Exact arithmetic.'),
 ('C129', 'proved', ['C129_closed_iff', 'C129_orientation', 'closed_balanced', 'closed_matched', 'matched_closed', 'open_stays_open'],
  'Exact arithmetic with the rounding of sections; crossing points well separated. C129_orientation is the instance of a watertight tetrahedron with one facet turned over.'),
 ('C130', 'proved', ['C130_same_part', 'printed_material', 'same_material', 'same_odd', 'same_edges', 'sameAs_on'],
  'Exact arithmetic with the rounding of sections, at good levels, like C90 from which it follows. The second part of the conclusion says that the region is the material.'),
 ('C131', 'proved', ['C131_mapped_part', 'LevelMap.material', 'LevelMap.odd', 'LevelMap.cross', 'turnMap_rigid'],
  'Exact arithmetic with the rounding of sections, at levels that are good for both models (the distances of crossing points change with the map, so this is a hypothesis on both).'),
 ('C132', 'proved', ['C132_same_part', 'C132_mapped_part', 'printed_materialF', 'same_safe'],
  'B64 arithmetic under the conditions of C103 (FloatSafe at every level). That the image of the model has float64 coordinates is a hypothesis of C132_mapped_part.'),
 ('C133', 'proved', ['C133_program', 'enclosed_material', 'same_moved', 'outTetra_loads'],
  'The program of C104 in B64 arithmetic under its conditions (FloatSafe at every level of the model moved by the origin).'),
 ('C134', 'proved', ['C134_stretched_part', 'zStretch_material', 'zStretch_good', 'zStretch_far', 'zStretch_slim', 'zLayer_level'],
  'Exact arithmetic with the rounding of sections, at good levels, like C90. Here the conditions on the image follow from those on the model, as only heights change.'),
 ('C135', 'partial', ['C135_two_bodies_partial', 'C135_float_partial', 'C135_violated', 'material_append', 'twoTetra_good', 'twoTetra_slim'],
  "The part that holds: away from overlaps both bodies are printed, and on an overlap nothing is (exclusive or). C135_violated: a tetrahedron and its copy moved by half a millimetre; a point inside both is outside of the printed contours, for every sorter and arrival order."),
 ('C136', 'proved', ['C136_side_by_side', 'C136_float', 'C136_boxes', 'material_side', 'SideBySide.apart', 'SideBySide.grid'],
  "C136_side_by_side in exact arithmetic with the rounding of sections, at good levels, like C90; C136_float in B64 arithmetic with no condition on crossing points, for models on a grid (C109)."),
 ('C137', 'proved', ['C137_cavity', 'C137_box', 'C137_program', 'hollow_box', 'hollow_material', 'whole_loads'],
  "C137_cavity in exact arithmetic with the rounding of sections, at good levels, like C90; C137_box and C137_program (from the STL file to the moves of the written file) in B64 arithmetic with no condition on crossing points. In all, points in slim triangles of crossing points are left out."),
 ('C138', 'proved', ['C138_bodies', 'C138_float', 'material_flatten', 'oddBodies_disjoint', 'odd_flatten'],
  "C138_bodies in exact arithmetic with the rounding of sections, at good levels, like C90; C138_float in B64 arithmetic under the conditions of C103 (FloatSafe at every level)."),
 ('C139', 'proved', ['C139_program', 'material_flatten', 'whole_loads', 'oddBodies_pair'],
  "The program of C109 (B64 arithmetic, models on a grid, even layers), so without conditions on crossing points."),
 ('C140', 'proved', ['C140_independent', 'C140_float', 'SideBySide.clear'],
  "That the second body is not lower or higher is needed: the levels are placed between the lowest and the highest vertex of the whole file."),
 ('C141', 'proved', ['C141_stacked', 'C141_float', 'material_misses', 'oddBodies_misses'],
  "C141_stacked in exact arithmetic with the rounding of sections, at good levels, like C90; C141_float in B64 arithmetic under the conditions of C103 (FloatSafe at every level)."),
 ('C142', 'proved', ['C142_hull', 'C142_float', 'material_hull'],
  "C142_hull in exact arithmetic with the rounding of sections, at good levels, like C90; C142_float in B64 arithmetic under the conditions of C103 (FloatSafe at every level)."),
 ('C143', 'proved', ['C143_finer', 'C143_float', 'finer_level'],
  "C143_finer in exact arithmetic with the rounding of sections, at good levels, like C90, when the height of the model is a whole number of layer heights; C143_float in B64 arithmetic for models on a grid (C109) cut into even layers."),
 ('C144', 'proved', ['C144_local', 'C144_float', 'material_local', 'frustum_good', 'frustum_watertight'],
  "C144_local in exact arithmetic with the rounding of sections, at levels that are good for both models, like C90; C144_float in B64 arithmetic under the conditions of C103 (FloatSafe at every level). That the extent in height is the same is needed: the levels are placed between the lowest and the highest vertex."),
 ('C145', 'proved', ['C145_level', 'C145_float', 'SameAt.material', 'SameAt.good', 'facetsAt_odd', 'frustum_same', 'frustum_topGood'],
  "C145_level in exact arithmetic with the rounding of sections, at good levels, like C90; the conditions on level and points are those of one of the models. C145_float in B64 arithmetic under the conditions of C103 (FloatSafe at every level of both)."),
 ('C146', 'proved', ['C146_taller', 'C146_float', 'printed_grid'],
  "C146_taller in exact arithmetic with the rounding of sections, at good levels, like C90; C146_float in B64 arithmetic for models on a grid (C109) cut into even layers. That the heights are whole numbers of layer heights is needed: otherwise the layers are made a little thinner, differently for the two models."),
 ('C147', 'proved', ['C147_program', 'grid_enclosed'],
  "The whole program in B64 arithmetic, from the STL file to the moves in the G-code file, for models on a grid (C109) cut into even layers; the contours of a layer are compared by the points they enclose, the fill lines are not compared."),
]
