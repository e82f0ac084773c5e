{
 "claims": [
  {
   "property": "C01",
   "status": "proved",
   "theorems": [
    "Celltree.C01_locate_boxes_exact"
   ],
   "note": "Every float type with the usual order laws; any mesh, any boxes (NaN and infinite included), any thread count and schedule."
  },
  {
   "property": "C02",
   "status": "proved",
   "theorems": [
    "Celltree.C02_pairs_once_grouped"
   ],
   "note": ""
  },
  {
   "property": "C03",
   "status": "proved",
   "theorems": [
    "Celltree.C03_locate_boxes_parameter_independent"
   ],
   "note": ""
  },
  {
   "property": "C04",
   "status": "proved",
   "theorems": [
    "Celltree.C04_locate_boxes_thread_independent",
    "Celltree.C04_init_schedule_independent",
    "Celltree.C04_intersect_edges_thread_independent",
    "Celltree.C04_edge_tree_thread_independent"
   ],
   "note": "Boxes and construction with any rounding; edges in exact arithmetic (in binary64 an edge query need not end, see C53)."
  },
  {
   "property": "C05",
   "status": "proved",
   "theorems": [
    "Celltree.C05_locate_boxes_each_alone",
    "Celltree.C05_boxes_any_buffer",
    "Celltree.C05_intersect_edges_each_alone",
    "Celltree.C05_edges_any_buffer"
   ],
   "note": "Boxes with any rounding; edges in exact arithmetic."
  },
  {
   "property": "C10",
   "status": "proved",
   "theorems": [
    "Celltree.C10_construction_terminates",
    "Celltree.C10_C11_construction_safe"
   ],
   "note": ""
  },
  {
   "property": "C11",
   "status": "proved",
   "theorems": [
    "Celltree.C11_construction_in_bounds",
    "Celltree.C11_node_count"
   ],
   "note": ""
  },
  {
   "property": "C13",
   "status": "proved",
   "theorems": [
    "Celltree.C13_each_face_in_one_leaf"
   ],
   "note": ""
  },
  {
   "property": "C14",
   "status": "proved",
   "theorems": [
    "Celltree.C14_leaf_capacity"
   ],
   "note": ""
  },
  {
   "property": "C15",
   "status": "proved",
   "theorems": [
    "Celltree.C15_rooted_binary_tree"
   ],
   "note": ""
  },
  {
   "property": "C18",
   "status": "proved",
   "theorems": [
    "Celltree.C18_bounding_boxes_tight"
   ],
   "note": ""
  },
  {
   "property": "C19",
   "status": "proved",
   "theorems": [
    "Celltree.C19_tree_box"
   ],
   "note": ""
  },
  {
   "property": "C20",
   "status": "proved",
   "theorems": [
    "Celltree.C20_fill_value_is_notation",
    "Celltree.C20_value_errors"
   ],
   "note": ""
  },
  {
   "property": "C22",
   "status": "proved",
   "theorems": [
    "Celltree.C22_only_reverses",
    "Celltree.C22_convex_unchanged"
   ],
   "note": ""
  },
  {
   "property": "C49",
   "status": "proved",
   "theorems": [
    "Celltree.C49_chunking"
   ],
   "note": ""
  },
  {
   "property": "C51",
   "status": "proved",
   "theorems": [
    "Celltree.C51_stable_partition"
   ],
   "note": ""
  },
  {
   "property": "C06",
   "status": "proved",
   "theorems": [
    "Celltree.C06_located_point_passes_test",
    "Celltree.C06_C07_locate_points",
    "Celltree.C06_no_crash"
   ],
   "note": "Any rounding: in terms of the point test of the code. Exact arithmetic: in terms of the even-odd rule and the distance to the sides."
  },
  {
   "property": "C07",
   "status": "proved",
   "theorems": [
    "Celltree.C07_missed_point_fails_tests",
    "Celltree.C06_C07_locate_points",
    "Celltree.C07_exact_without_tolerance"
   ],
   "note": ""
  },
  {
   "property": "C08",
   "status": "proved",
   "theorems": [
    "Celltree.C08_unique_face_any_tree",
    "Celltree.C08_unique_face"
   ],
   "note": ""
  },
  {
   "property": "C09",
   "status": "proved",
   "theorems": [
    "Celltree.C09_points_independent",
    "Celltree.C09_points_independent_default"
   ],
   "note": ""
  },
  {
   "property": "C26",
   "status": "proved",
   "theorems": [
    "Celltree.C26_boundary_points_found"
   ],
   "note": "Exact arithmetic."
  },
  {
   "property": "C27",
   "status": "proved",
   "theorems": [
    "Celltree.C27_tolerance_monotone",
    "Celltree.C27_located_monotone",
    "Celltree.C27_edge_located_monotone"
   ],
   "note": "Exact arithmetic; faces and edges."
  },
  {
   "property": "C28",
   "status": "partial",
   "theorems": [
    "Celltree.C28_near_edge_depends_on_tree",
    "Celltree.C28_partial"
   ],
   "note": "The code violates the property: a concrete mesh, point and two parameter settings with different answers. C28_partial: it holds if faces that accept the point have it in their bounding box."
  },
  {
   "property": "C48",
   "status": "proved",
   "theorems": [
    "Celltree.C48_stack_is_lifo",
    "Celltree.C48_allocated"
   ],
   "note": ""
  },
  {
   "property": "C37",
   "status": "proved",
   "theorems": [
    "Celltree.C37_cohen_sutherland",
    "Celltree.C37_hit_iff",
    "Celltree.C37_result_inside"
   ],
   "note": "Exact arithmetic, any ordered field. See C53 for floating point."
  },
  {
   "property": "C38",
   "status": "proved",
   "theorems": [
    "Celltree.C38_liang_barsky",
    "Celltree.C38_same_as_cohen_sutherland"
   ],
   "note": "Exact arithmetic."
  },
  {
   "property": "C53",
   "status": "partial",
   "theorems": [
    "Celltree.C53_clip_never_ends",
    "Celltree.C53_intersect_edges_never_ends",
    "Celltree.C53_clip_ends_partial",
    "Celltree.C74_axis_edges_partial",
    "Celltree.C90_intersect_edges_accurate"
   ],
   "note": "The code violates the property in binary64: concrete mesh and edge, for every number of rounds. The clip ends in exact arithmetic, and in binary64 for edges parallel to an axis (C74) and for edges in general position (C90)."
  },
  {
   "property": "C24",
   "status": "proved",
   "theorems": [
    "Celltree.C24_interior_accepted",
    "Celltree.C24_first_corner_irrelevant",
    "Celltree.C24_closed_accepted",
    "Celltree.C24_located"
   ],
   "note": "Exact arithmetic. Straight and repeated corners allowed, both orientations."
  },
  {
   "property": "C25",
   "status": "proved",
   "theorems": [
    "Celltree.C25_exterior_accepted_only_near",
    "Celltree.C25_exterior_rejected",
    "Celltree.C25_located"
   ],
   "note": "Exact arithmetic."
  },
  {
   "property": "C39",
   "status": "proved",
   "theorems": [
    "Celltree.C39_cyrus_beck",
    "Celltree.C39_never_fails"
   ],
   "note": "Exact arithmetic. Tolerance positive, end points not outside within the tolerance."
  },
  {
   "property": "C55",
   "status": "partial",
   "theorems": [
    "Celltree.C55_straight_corner_violated",
    "Celltree.C55_intersect_edges_violated",
    "Celltree.C55_straight_corners_partial"
   ],
   "note": "The code violates it: witness, also on the public function. The partial theorem covers lines that contain no straight corner."
  },
  {
   "property": "C21",
   "status": "partial",
   "theorems": [
    "Celltree.C21_strictly_convex_counter_clockwise",
    "Celltree.C21_counter_clockwise_partial",
    "Celltree.C21_straight_corner_violated"
   ],
   "note": "The code violates the property for clockwise faces with a straight last corner; proved for all other convex faces, in particular for all strictly convex ones."
  },
  {
   "property": "C40",
   "status": "proved",
   "theorems": [
    "Celltree.C40_intersect_edges_brute_force",
    "Celltree.C40_intersect_edges_geometry"
   ],
   "note": "Exact arithmetic."
  },
  {
   "property": "C29",
   "status": "proved",
   "theorems": [
    "Celltree.C29_locate_points"
   ],
   "note": "Exact arithmetic."
  },
  {
   "property": "C41",
   "status": "proved",
   "theorems": [
    "Celltree.C41_intersect_edges_brute_force",
    "Celltree.C41_intersect_edges_geometry"
   ],
   "note": "Exact arithmetic."
  },
  {
   "property": "C42",
   "status": "proved",
   "theorems": [
    "Celltree.C42_proper_crossing_reported",
    "Celltree.C42_location_on_both",
    "Celltree.C42_reported_close"
   ],
   "note": "Exact arithmetic."
  },
  {
   "property": "C43",
   "status": "partial",
   "theorems": [
    "Celltree.C43_midpoint_partial",
    "Celltree.C43_falling_violated"
   ],
   "note": "The code violates the property for every pair of overlapping collinear segments of negative slope; proved for the others."
  },
  {
   "property": "C56",
   "status": "partial",
   "theorems": [
    "Celltree.C56_edge_tolerance_depends_on_tree",
    "Celltree.C56_small_tolerance_partial"
   ],
   "note": "The code violates the property: witness. Proved for small tolerances."
  },
  {
   "property": "C16",
   "status": "proved",
   "theorems": [
    "Celltree.C16_node_bounds_contain",
    "Celltree.C16_node_bounds_valid",
    "Celltree.C16_validate_exact",
    "Celltree.C16_root_bounds"
   ],
   "note": "For trees with more than one node."
  },
  {
   "property": "C17",
   "status": "partial",
   "theorems": [
    "Celltree.C17_single_node_oob",
    "Celltree.C17_single_node_violated",
    "Celltree.C17_node_bounds_partial"
   ],
   "note": "The code violates it for trees of one node: theorem and witness. Proved for all other trees."
  },
  {
   "property": "C52",
   "status": "proved",
   "theorems": [
    "Celltree.C52_edges_exact",
    "Celltree.C52_edges_once",
    "Celltree.C52_edges_padding"
   ],
   "note": ""
  },
  {
   "property": "C23",
   "status": "partial",
   "theorems": [
    "Celltree.C23_init_unchanged",
    "Celltree.C23_intersect_faces_unchanged",
    "Celltree.C23_locate_faces_violated",
    "Celltree.C23_locate_faces_partial",
    "Celltree.C23_locate_faces_convex_partial"
   ],
   "note": "Proved for construction and intersect_faces. locate_faces violates it: witness, and a theorem saying exactly what can change."
  },
  {
   "property": "C50",
   "status": "proved",
   "theorems": [
    "Celltree.C50_default_tolerance"
   ],
   "note": "Exact arithmetic; the square root is an arbitrary function."
  },
  {
   "property": "C54",
   "status": "partial",
   "theorems": [
    "Celltree.C54_faces_independent",
    "Celltree.C54_edges_violated",
    "Celltree.C54_edges_partial"
   ],
   "note": "Proved for CellTree2d. EdgeCellTree2d violates it: witness; proved for callers that leave the array alone."
  },
  {
   "property": "C57",
   "status": "partial",
   "theorems": [
    "Celltree.C57_array_like_violated",
    "Celltree.C57_array_like_partial"
   ],
   "note": "The code violates it: witness, and a theorem saying exactly what changes."
  },
  {
   "property": "C12",
   "status": "proved",
   "theorems": [
    "Celltree.C12_construction_succeeds",
    "Celltree.C12_degenerate_raises",
    "Celltree.C12_rounding_raises"
   ],
   "note": "Exact arithmetic, as the property says; witnesses for degenerate faces, and for rounding in binary64."
  },
  {
   "property": "C58",
   "status": "partial",
   "theorems": [
    "Celltree.C58_edge_construction_partial",
    "Celltree.Fl.C58_binary64_partial",
    "Celltree.C58_far_network_violated"
   ],
   "note": "Proved in exact arithmetic, and in binary64 for networks whose extent is at least 1/256 of the largest coordinate; the code violates it in binary64 for small networks far from the origin: witness."
  },
  {
   "property": "C30",
   "status": "proved",
   "theorems": [
    "Celltree.C30_separating_axes",
    "Celltree.C30_touching_not_reported"
   ],
   "note": "Exact arithmetic. Both directions, by a Helly argument. Coordinates small enough for the sentinels of the projections."
  },
  {
   "property": "C31",
   "status": "proved",
   "theorems": [
    "Celltree.C31_locate_faces_brute_force"
   ],
   "note": "Exact arithmetic."
  },
  {
   "property": "C32",
   "status": "proved",
   "theorems": [
    "Celltree.C32_polygon_area",
    "Celltree.C32_first_corner_irrelevant",
    "Celltree.C32_polygon_area_measure"
   ],
   "note": "Exact arithmetic. Also equal to the Lebesgue measure over the reals."
  },
  {
   "property": "C33",
   "status": "proved",
   "theorems": [
    "Celltree.C33_clip_is_intersection",
    "Celltree.C33_clip_area_measure",
    "Celltree.C33_clip_area_symmetric"
   ],
   "note": "Exact arithmetic. Also equal to the Lebesgue measure of the intersection over the reals."
  },
  {
   "property": "C34",
   "status": "proved",
   "theorems": [
    "Celltree.C34_separated_zero",
    "Celltree.C34_area_bounds",
    "Celltree.C34_contained"
   ],
   "note": "Exact arithmetic."
  },
  {
   "property": "C35",
   "status": "proved",
   "theorems": [
    "Celltree.C35_clip_within_arrays",
    "Celltree.C35_not_convex_overflows"
   ],
   "note": "Exact arithmetic; witness for the remark on faces that are not convex."
  },
  {
   "property": "C36",
   "status": "proved",
   "theorems": [
    "Celltree.C36_intersect_boxes_aligned",
    "Celltree.C36_intersect_boxes_geometry",
    "Celltree.C36_intersect_faces_geometry",
    "Celltree.C36_intersect_boxes_measure",
    "Celltree.C36_intersect_faces_measure"
   ],
   "note": "Exact arithmetic, alignment for any arithmetic."
  },
  {
   "property": "C59",
   "status": "partial",
   "theorems": [
    "Celltree.C59_shared_side_violated",
    "Celltree.C59_common_interior_partial"
   ],
   "note": "The code violates the documented behaviour: witness. Proved for pairs with a common interior point."
  },
  {
   "property": "C60",
   "status": "partial",
   "theorems": [
    "Celltree.C60_fill_value_violated",
    "Celltree.C60_fill_minus_one_partial"
   ],
   "note": "The code violates the documented behaviour: witness. Proved for fill value -1."
  },
  {
   "property": "C44",
   "status": "proved",
   "theorems": [
    "Celltree.C44_triangle_weights",
    "Celltree.C44_located"
   ],
   "note": "Exact arithmetic. The function, for triangles of either orientation; and through compute_barycentric_weights on meshes of triangles, for points in the face reported for them."
  },
  {
   "property": "C45",
   "status": "proved",
   "theorems": [
    "Celltree.C45_inside",
    "Celltree.C45_on_side"
   ],
   "note": "Exact arithmetic, any number of corners, straight corners allowed for points inside. The case of a point on a side needs an exact square root."
  },
  {
   "property": "C46",
   "status": "proved",
   "theorems": [
    "Celltree.C46_rows",
    "Celltree.C46_rows_default"
   ],
   "note": "Exact arithmetic, faces need not be convex, any schedule. With explicit positive tolerance and with the default tolerance."
  },
  {
   "property": "C47",
   "status": "partial",
   "theorems": [
    "Celltree.C47_degenerate_triangle_violated",
    "Celltree.C47_repeated_vertex_violated",
    "Celltree.C47_zero_tolerance_violated",
    "Celltree.C47_non_degenerate_partial"
   ],
   "note": "Violated: three witnesses in binary64. Holds in exact arithmetic if no face is degenerate and the tolerance is positive."
  },
  {
   "property": "C61",
   "status": "partial",
   "theorems": [
    "Celltree.C61_hanging_node_violated",
    "Celltree.C61_located_partial"
   ],
   "note": "Violated: witnesses in binary64 with default tolerance. Holds in exact arithmetic for points that are on every side of an accepting face whose line is within the tolerance."
  },
  {
   "property": "C62",
   "status": "proved",
   "theorems": [
    "Celltree.C62_reproduced"
   ],
   "note": "Exact arithmetic. Excluded are points within the tolerance of the line of a side, but not between the bounds of the side widened by the tolerance."
  },
  {
   "property": "C63",
   "status": "partial",
   "theorems": [
    "Celltree.C63_clockwise_violated",
    "Celltree.C63_counter_clockwise_partial"
   ],
   "note": "Violated: witness in binary64. Holds for counter-clockwise convex faces with the condition of C61 on the points."
  },
  {
   "property": "C64",
   "status": "proved",
   "theorems": [
    "Celltree.C64_even_odd",
    "Celltree.C64_convex",
    "Celltree.C64_cut",
    "Celltree.C64_tolerance_zero"
   ],
   "note": "Exact arithmetic (any ordered field)."
  },
  {
   "property": "C65",
   "status": "partial",
   "theorems": [
    "Celltree.C65_degenerate_violated",
    "Celltree.C65_point_in_triangle_partial",
    "Celltree.C65_points_in_triangles_partial"
   ],
   "note": "Violated for triangles of area zero: witness in binary64. Holds for all other triangles, in exact arithmetic."
  },
  {
   "property": "C66",
   "status": "proved",
   "theorems": [
    "Celltree.C66_never_raises"
   ],
   "note": "binary64; the theorem needs only that the coordinates are binary64 numbers."
  },
  {
   "property": "C67",
   "status": "partial",
   "theorems": [
    "Celltree.C67_grid_violated",
    "Celltree.C67_points_found_partial",
    "Celltree.C67_polygon_accepts",
    "Celltree.Fl.C110_points_found"
   ],
   "note": "Violated with the default tolerance: witness at national-grid coordinates. Holds, in binary64, if the tolerance is not smaller than the bound of the rounding errors and no side is at 45 degrees up to rounding; and with the default tolerance for rectangles (C110)."
  },
  {
   "property": "C68",
   "status": "proved",
   "theorems": [
    "Celltree.C68_located_close",
    "Celltree.C68_polygon_close"
   ],
   "note": "binary64, for convex faces."
  },
  {
   "property": "C69",
   "status": "proved",
   "theorems": [
    "Celltree.C69_clip_near",
    "Celltree.C69_intersect_edges_near"
   ],
   "note": "Exact arithmetic, positive tolerance."
  },
  {
   "property": "C70",
   "status": "partial",
   "theorems": [
    "Celltree.C70_direction_violated",
    "Celltree.C70_direction_partial"
   ],
   "note": "Violated: witness on the public function. Holds, in exact arithmetic, for strictly convex faces and ends not in the band."
  },
  {
   "property": "C71",
   "status": "partial",
   "theorems": [
    "Celltree.C71_unchecked_violated",
    "Celltree.C71_init_rejects",
    "Celltree.C71_init_accepts",
    "Celltree.C71_queries_reject",
    "Celltree.C71_queries_accept",
    "Celltree.C71_object_has_faces",
    "Celltree.C71_object_has_edges",
    "Celltree.C71_edge_init"
   ],
   "note": "Violated by locate_faces and by the edges of EdgeCellTree2d: witness. Proved for all other public functions."
  },
  {
   "property": "C72",
   "status": "proved",
   "theorems": [
    "Celltree.C72_never_raises",
    "Celltree.C72_located_close"
   ],
   "note": "binary64."
  },
  {
   "property": "C73",
   "status": "partial",
   "theorems": [
    "Celltree.C73_default_violated",
    "Celltree.C73_rounded_points_found_partial",
    "Celltree.Fl.C111_rounded_points_found"
   ],
   "note": "Violated with the default tolerance: witness. Proved, in binary64, for tolerances that are not smaller than the rounding errors, and with the default tolerance for edges along the axes."
  },
  {
   "property": "C74",
   "status": "partial",
   "theorems": [
    "Celltree.C74_division_by_zero",
    "Celltree.C74_axis_edges_partial",
    "Celltree.C40_intersect_edges_brute_force",
    "Celltree.C90_intersect_edges_accurate"
   ],
   "note": "Violated in binary64: witness. Proved in exact arithmetic (C40), and in binary64 for horizontal and vertical edges with coordinates of moderate size, and for edges in general position (C90)."
  },
  {
   "property": "C75",
   "status": "partial",
   "theorems": [
    "Celltree.C75_area_violated",
    "Celltree.C75_area_bounds_partial",
    "Celltree.Fl.C92_intersect_faces_accuracy",
    "Celltree.Fl.C97_intersect_faces_accuracy"
   ],
   "note": "Violated in binary64: witness. Proved in exact (real) arithmetic. In binary64 the areas are accurate for rectangles (C92) and for polygons in general position (C97)."
  },
  {
   "property": "C76",
   "status": "partial",
   "theorems": [
    "Celltree.C76_neighbours_violated",
    "Celltree.Fl.C76_reported_close_partial",
    "Celltree.C77_locate_faces_total",
    "Celltree.C31_locate_faces_brute_force"
   ],
   "note": "Violated in binary64: witness. In binary64 a reported pair overlaps up to rounding: every side of one face is reached by the other within 2^-49 of the largest coordinate. Proved in exact arithmetic (C31); in any arithmetic the bounding boxes of a reported pair overlap (C77)."
  },
  {
   "property": "C77",
   "status": "proved",
   "theorems": [
    "Celltree.C77_locate_faces_total",
    "Celltree.C77_intersect_boxes_total",
    "Celltree.C77_intersect_faces_total"
   ],
   "note": "In any arithmetic: clipping n corners by a line gives at most (3 n + 1) / 2 corners."
  },
  {
   "property": "C78",
   "status": "proved",
   "theorems": [
    "Celltree.Fl.C78_overlap_found"
   ],
   "note": "binary64."
  },
  {
   "property": "C79",
   "status": "proved",
   "theorems": [
    "Celltree.Fl.C79_construction_succeeds",
    "Celltree.C12_rounding_raises"
   ],
   "note": "binary64; the witness shows that a lower bound on the width is needed."
  },
  {
   "property": "C80",
   "status": "proved",
   "theorems": [
    "Celltree.Fl.C80_triangle_weights",
    "Celltree.Fl.C80_negative_weight"
   ],
   "note": "binary64; the witness shows a point of the triangle with a negative weight, so that the slack is needed."
  },
  {
   "property": "C81",
   "status": "proved",
   "theorems": [
    "Celltree.C81_box_areas_add_up",
    "Celltree.C81_box_covered",
    "Celltree.C81_face_areas_add_up",
    "Celltree.C81_face_covered"
   ],
   "note": "Real numbers; area is Lebesgue measure."
  },
  {
   "property": "C82",
   "status": "proved",
   "theorems": [
    "Celltree.C82_pieces_cover",
    "Celltree.C82_pieces_disjoint"
   ],
   "note": "Exact arithmetic."
  },
  {
   "property": "C83",
   "status": "proved",
   "theorems": [
    "Celltree.C83_weights_same_faces",
    "Celltree.C83_intersect_boxes_located",
    "Celltree.C83_locate_faces_located",
    "Celltree.C83_intersect_faces_located",
    "Celltree.C83_intersect_iff_locate",
    "Celltree.C83_meshes_exchanged",
    "Celltree.C83_box_as_face",
    "Celltree.C83_piece_located"
   ],
   "note": "The first four in any arithmetic, the others in exact arithmetic."
  },
  {
   "property": "C84",
   "status": "proved",
   "theorems": [
    "Celltree.C84_disk_points",
    "Celltree.C84_rejected",
    "Celltree.C84_number_of_points",
    "Celltree.C84_in_unit_disk",
    "Celltree.C84_distinct"
   ],
   "note": "Real numbers. The triangulation of the vertices, by matplotlib, is not modelled."
  },
  {
   "property": "C85",
   "status": "partial",
   "theorems": [
    "Celltree.C85_touching_violated",
    "Celltree.C85_touching_partial",
    "Celltree.C85_crossing_at_vertex_partial"
   ],
   "note": "Violated: witness. Exactly when touching edges are reported is proved (on one side only), and that a query through a vertex, from one side to the other, is always reported. Exact arithmetic."
  },
  {
   "property": "C86",
   "status": "proved",
   "theorems": [
    "Celltree.Fl.C86_polygon_weights",
    "Celltree.Fl.C86_example"
   ],
   "note": "binary64. Hypotheses on the faces: convex, at most D wide, and twice the area of the triangle of a side and another corner at least D*D/kappa. The witness gives a mesh of a square and a triangle with the default tolerance."
  },
  {
   "property": "C87",
   "status": "proved",
   "theorems": [
    "Celltree.C87_constructs",
    "Celltree.C87_same_structure",
    "Celltree.C87_same_results",
    "Celltree.C87_same_weights",
    "Celltree.C87_same_faces",
    "Celltree.C87_same_intersections"
   ],
   "note": "Any arithmetic, including binary64."
  },
  {
   "property": "C88",
   "status": "partial",
   "theorems": [
    "Celltree.C88_partial",
    "Celltree.C88_unused_vertex_matters"
   ],
   "note": "Violated: a vertex that no edge uses changes the tolerance and with it the result (witness in binary64). Proved if both networks have the same default tolerance."
  },
  {
   "property": "C89",
   "status": "proved",
   "theorems": [
    "Celltree.C89_locate_points",
    "Celltree.C89_weights",
    "Celltree.C89_locate_boxes",
    "Celltree.C89_intersect_boxes",
    "Celltree.C89_locate_faces",
    "Celltree.C89_intersect_faces",
    "Celltree.C89_intersect_edges",
    "Celltree.C89_edge_tree",
    "Celltree.C89_edge_tree_float"
   ],
   "note": "Any arithmetic; edge networks: exact arithmetic and binary64. Also covers calls that raise: the call returns if and only if every single query returns."
  },
  {
   "property": "C90",
   "status": "proved",
   "theorems": [
    "Celltree.C90_intersect_edges_accurate",
    "Celltree.Fl.C90_example"
   ],
   "note": "binary64. General position: margins of M/2^46 for the corners of bounding boxes, and of the parameter rho (at least 2^-43) for the corners of faces. The witness is an edge across a mesh of a square and a triangle."
  },
  {
   "property": "C91",
   "status": "proved",
   "theorems": [
    "Celltree.C91_crossings_accurate",
    "Celltree.Fl.C91_example"
   ],
   "note": "binary64. General position: the triangles of the ends of one edge and an end of the other have at least rho*E*E as twice their area, with rho at least 2^-43 and at least nine times the relative tolerance. The witness is a network of two edges with a query that crosses both and one that crosses none."
  },
  {
   "property": "C92",
   "status": "proved",
   "theorems": [
    "Celltree.Fl.C92_intersect_boxes_accuracy",
    "Celltree.Fl.C92_intersect_faces_accuracy"
   ],
   "note": "binary64. No general position is needed: sides may coincide. The witness is a mesh of two cells of 0.1 by 0.2, with boxes on the lines of the mesh."
  },
  {
   "property": "C93",
   "status": "proved",
   "theorems": [
    "Celltree.Fl.C93_box_totals",
    "Celltree.Fl.C93_face_totals"
   ],
   "note": "binary64. The totals are exact sums of the reported areas. The witness is a box that is tiled by two cells of 0.1 by 0.2."
  },
  {
   "property": "C94",
   "status": "proved",
   "theorems": [
    "Celltree.C94_rebuild_if",
    "Celltree.C94_rebuild",
    "Celltree.C94_same_tree",
    "Celltree.Fl.C94_rebuild_rectangles",
    "Celltree.C94_bow_tie"
   ],
   "note": "Any arithmetic if the stored faces are fixed by counter_clockwise; this is proved for convex faces in exact arithmetic and for rectangles in binary64. C94_bow_tie shows that self-crossing faces, which are not claimed, can be reversed at every construction."
  },
  {
   "property": "C95",
   "status": "proved",
   "theorems": [
    "Celltree.C95_increasing",
    "Celltree.C95_mirrored",
    "Celltree.C95_transposed"
   ],
   "note": "Any number type with an order, also two different ones. The witness is a mesh of thirds and the same mesh rounded to binary64."
  },
  {
   "property": "C96",
   "status": "partial",
   "theorems": [
    "Celltree.C96_faces_affine_partial",
    "Celltree.C96_faces_oriented",
    "Celltree.C96_faces_strictly_convex",
    "Celltree.C96_boxes_stretched",
    "Celltree.C96_mirror_violated"
   ],
   "note": "The code violates the property for mirrored faces with straight corners (C96_mirror_violated, a consequence of C21). Proved for all affine maps of positive determinant, for all invertible ones if the faces are strictly convex, and in general if the faces satisfy ConvexFace in both coordinates. Boxes: translation and stretching."
  },
  {
   "property": "C97",
   "status": "proved",
   "theorems": [
    "Celltree.Fl.C97_intersect_boxes_accuracy",
    "Celltree.Fl.C97_intersect_faces_accuracy"
   ],
   "note": "binary64. General position is measured by the numbers rho and sigma of GenPair (Verif/Spec/FloatPolygons.lean), which do not change when the polygons are moved or scaled. For faces rho^2 E must be at least M/2^47, so that what two faces have in common is found by the separating axis test. Rectangles with sides on the same lines are in C92. The common area is the Lebesgue measure of the intersection. The witness is a mesh of two triangles with decimal coordinates."
  },
  {
   "property": "C98",
   "status": "proved",
   "theorems": [
    "Celltree.Fl.C98_box_totals",
    "Celltree.Fl.C98_face_totals"
   ],
   "note": "binary64. The totals are exact sums of the reported areas; areas of intersection are Lebesgue measures. The witness is a box that is covered by two triangles with decimal coordinates."
  },
  {
   "property": "C99",
   "status": "proved",
   "theorems": [
    "Celltree.C99_values",
    "Celltree.C99_same_values",
    "Celltree.C99_faces_differ",
    "Celltree.C99_hanging_node_differs"
   ],
   "note": "Exact arithmetic. The condition on the points is that of C61. C99_faces_differ shows that the face of a point on a shared side does depend on the parameters; C99_hanging_node_differs that on meshes with hanging nodes, which are not claimed, the value does too. The witness is a mesh of a square and two triangles."
  },
  {
   "property": "C100",
   "status": "proved",
   "theorems": [
    "Celltree.C100_itself",
    "Celltree.Fl.C100_itself_rectangles"
   ],
   "note": "Exact arithmetic for convex faces; binary64 for rectangles. (For triangles in binary64 this is violated: C75, C76.) The witnesses are a square with two triangles against a renumbered, reversed copy, and two cells with decimal coordinates."
  },
  {
   "property": "C101",
   "status": "proved",
   "theorems": [
    "Celltree.C101_pieces_affine",
    "Celltree.C101_crossings_affine"
   ],
   "note": "Exact arithmetic. The exceptions (ends in the tolerance band, nearly parallel edges) are in the statement; that they are needed is shown in C70 and C43. The witnesses are a mirrored, sheared and stretched mesh and network."
  },
  {
   "property": "C102",
   "status": "proved",
   "theorems": [
    "Celltree.C102_value"
   ],
   "note": "Exact arithmetic. The condition on the points is that of C61. The witnesses are the two-triangle and square mesh over the reals, and a clockwise trapezium with computed weights."
  },
  {
   "property": "C103",
   "status": "proved",
   "theorems": [
    "Celltree.C103_affine"
   ],
   "note": "Exact arithmetic. The condition on the points is that of C61, in both coordinates. The witness is the example mesh, mirrored in the diagonal and scaled, with a point on a shared side and one inside."
  },
  {
   "property": "C104",
   "status": "proved",
   "theorems": [
    "Celltree.C104_intersect_faces",
    "Celltree.C104_locate_faces",
    "Celltree.C104_crossings",
    "Celltree.Fl.C104_rectangles"
   ],
   "note": "Real numbers (areas), exact arithmetic (pairs, crossings) and binary64 (rectangles). locate_faces needs the fill value -1 (C60). Touching triangles in binary64 (C76) and touching edges (C85) are not symmetric; the statement leaves these out."
  },
  {
   "property": "C105",
   "status": "proved",
   "theorems": [
    "Celltree.C105_locate_boxes",
    "Celltree.C105_intersect_boxes",
    "Celltree.C105_intersect_faces",
    "Celltree.C105_locate_faces",
    "Celltree.C105_locate_points",
    "Celltree.C105_intersect_edges",
    "Celltree.C105_values"
   ],
   "note": "locate_boxes for any arithmetic, with rounding; the areas over the real numbers; the others in exact arithmetic. locate_faces needs the fill value -1 (C60). Without the condition on straight corners the areas do depend on the first corner (C106)."
  },
  {
   "property": "C106",
   "status": "partial",
   "theorems": [
    "Celltree.C106_first_corner_partial",
    "Celltree.C106_first_corner_violated"
   ],
   "note": "Violated by the code: a clockwise triangle with a hanging node gives area 4 or no area, depending on its first corner. Missing: clockwise faces whose last corner is straight."
  },
  {
   "property": "C107",
   "status": "proved",
   "theorems": [
    "Celltree.C107_order",
    "Celltree.C107_locate_points"
   ],
   "note": "Exact arithmetic. The tolerance of locate_points must be small compared to the network (C56)."
  },
  {
   "property": "C108",
   "status": "partial",
   "theorems": [
    "Celltree.C108_directions_partial",
    "Celltree.C108_directions_violated"
   ],
   "note": "Violated by the code for edges that touch: witness for the direction of an edge of the network and for that of a query. Proved, in exact arithmetic, for queries and networks in which neither has exactly one end on the line of the other. Missing: the other ones."
  },
  {
   "property": "C109",
   "status": "partial",
   "theorems": [
    "Celltree.Fl.C109_division_by_zero",
    "Celltree.C91_crossings_accurate",
    "Celltree.C41_intersect_edges_brute_force"
   ],
   "note": "Violated in binary64 for edges of length about 2^-500: witness. Proved in exact arithmetic (C41), and in binary64 for networks of usual size and queries that do not pass very close to a corner of the box of the network (C91)."
  },
  {
   "property": "C110",
   "status": "proved",
   "theorems": [
    "Celltree.Fl.C110_points_found",
    "Celltree.Fl.C110_located_close",
    "Celltree.Fl.C110_located_in",
    "Celltree.Fl.C110_default_tolerance"
   ],
   "note": "Binary64. The example is a mesh in national grid coordinates, for which the tolerance is smaller than the rounding errors of the coordinates."
  },
  {
   "property": "C111",
   "status": "proved",
   "theorems": [
    "Celltree.Fl.C111_points_found",
    "Celltree.Fl.C111_rounded_points_found",
    "Celltree.Fl.C111_located_close",
    "Celltree.Fl.C111_located_on",
    "Celltree.Fl.C111_default_tolerance"
   ],
   "note": "Binary64. The example is a network of three edges in national grid coordinates."
  },
  {
   "property": "C112",
   "status": "proved",
   "theorems": [
    "Celltree.C112_same_tree",
    "Celltree.C112_same_results",
    "Celltree.C112_reference",
    "Celltree.C112_exact",
    "Celltree.C112_order"
   ],
   "note": "Binary64. The conversions follow numpy's rules; undefined conversions can give any value."
  },
  {
   "property": "C113",
   "status": "partial",
   "theorems": [
    "Celltree.C113_fill_partial",
    "Celltree.C113_uint64_violated"
   ],
   "note": "Violated for uint64 tables with a fill value beyond int64, for example the default of netCDF for this type: a missing corner becomes a vertex (witness). Proved for all tables and fill values when the entries fit in 64 bits."
  },
  {
   "property": "C114",
   "status": "partial",
   "theorems": [
    "Celltree.C114_lists_partial",
    "Celltree.C114_lists_violated"
   ],
   "note": "Violated: the weights of a nested list of points are never computed (TypeError in numba), although the points are located; edge trees cannot be built from nested lists of edges. Proved for the arguments that are converted."
  },
  {
   "property": "C115",
   "status": "proved",
   "theorems": [
    "Celltree.C115_same_tree",
    "Celltree.C115_locate_boxes",
    "Celltree.C115_locate_points",
    "Celltree.C115_locate_points_default"
   ],
   "note": "Exact arithmetic; coordinates in the range of floats."
  },
  {
   "property": "C116",
   "status": "proved",
   "theorems": [
    "Celltree.C116_same_tree",
    "Celltree.C116_locate_boxes",
    "Celltree.C116_locate_points",
    "Celltree.C116_default_tolerance",
    "Celltree.C116_locate_points_default",
    "Celltree.C116_other_units_differ",
    "Celltree.C116_limit_matters"
   ],
   "note": "Binary64, with every rounding; the last two theorems show that powers of two are necessary, and that the lower limit of the default tolerance has a unit."
  },
  {
   "property": "C117",
   "status": "proved",
   "theorems": [
    "Celltree.C117_intersect_boxes",
    "Celltree.C117_locate_faces",
    "Celltree.C117_intersect_faces",
    "Celltree.C117_intersect_edges"
   ],
   "note": "Exact arithmetic. The tolerance of intersect_edges has a lower limit with a unit; cells larger than 0.001 are not affected by it."
  },
  {
   "property": "C118",
   "status": "proved",
   "theorems": [
    "Celltree.C118_weights",
    "Celltree.C118_weights_default"
   ],
   "note": "Exact arithmetic, with a square root that is homogeneous, as the exact one."
  },
  {
   "property": "C119",
   "status": "proved",
   "theorems": [
    "Celltree.C119_same_tree",
    "Celltree.C119_locate_points",
    "Celltree.C119_locate_points_default",
    "Celltree.C119_intersect_edges"
   ],
   "note": "Exact arithmetic. For the default tolerance the square root must be homogeneous, as the exact one."
  },
  {
   "property": "C120",
   "status": "proved",
   "theorems": [
    "Celltree.C120_weights",
    "Celltree.C120_weights_default",
    "Celltree.C120_other_units_differ"
   ],
   "note": "Binary64 with all rounding errors. With the default tolerance, its lower limit must not be in use."
  },
  {
   "property": "C121",
   "status": "proved",
   "theorems": [
    "Celltree.Fl.C121_polygon_exact",
    "Celltree.Fl.C121_convex_exact",
    "Celltree.Fl.C121_locate_exact",
    "Celltree.Fl.C121_default_tolerance",
    "Celltree.Fl.C121_locate_default",
    "Celltree.Fl.C121_edge_exact",
    "Celltree.Fl.C121_network_exact",
    "Celltree.Fl.C121_network_tolerance",
    "Celltree.Fl.C121_limit_matters"
   ],
   "note": "Binary64. All products and sums of the tests are integers below 2^53, and the comparison with the tolerance separates 0 from 1. C121_polygon_exact is for any polygon, not only convex ones. C121_limit_matters shows that without the limit on the size of the faces the property fails."
  },
  {
   "property": "C122",
   "status": "proved",
   "theorems": [
    "Celltree.Fl.C122_locate_faces_exact",
    "Celltree.Fl.C122_limit_matters"
   ],
   "note": "Binary64. The projections on the axes are integers below 2^53, and so exact; the rest is the separating axis theorem over the rationals. The size of the faces is not limited. C122_limit_matters: two triangles that share a side, at integer coordinates below 2^28, are returned."
  },
  {
   "property": "C123",
   "status": "proved",
   "theorems": [
    "Celltree.Fl.C123_pair_exact",
    "Celltree.Fl.C123_crossings_exact",
    "Celltree.C123_corner_counted_once",
    "Celltree.Fl.C123_touching",
    "Celltree.Fl.C123_limit_matters"
   ],
   "note": "Binary64. Meet is the rule for touching segments, stated with exact orientations. C123_touching shows that a segment ending on an edge from the right shares a point with it and is not returned. C123_limit_matters: two parallel segments of length 2^21 on different lines are returned."
  },
  {
   "property": "C124",
   "status": "proved",
   "theorems": [
    "Celltree.Fl.C124_refinement_exact",
    "Celltree.Fl.C124_itself_exact",
    "Celltree.Fl.C124_boxes_exact",
    "Celltree.Fl.C124_cut_inexact"
   ],
   "note": "Binary64. C124_cut_inexact: a query rectangle of 22 by 3 and a cell of 7 by 5 with a corner in common give an area larger than 21, so the condition that query faces are inside faces of the mesh is needed."
  },
  {
   "property": "C125",
   "status": "proved",
   "theorems": [
    "Celltree.Fl.C125_convex_exact",
    "Celltree.Fl.C125_locate_exact",
    "Celltree.Fl.C125_default_tolerance",
    "Celltree.Fl.C125_locate_default",
    "Celltree.Fl.C125_locate_faces_exact",
    "Celltree.Fl.C125_edge_exact",
    "Celltree.Fl.C125_network_exact",
    "Celltree.Fl.C125_network_tolerance",
    "Celltree.Fl.C125_spacing_matters"
   ],
   "note": "Binary64. C121 and C122 for grids with a spacing of 2^k. C125_spacing_matters: with a spacing of 2^-60 and the default tolerance a point outside the face is located, so the lower limit on the spacing is needed."
  },
  {
   "property": "C126",
   "status": "proved",
   "theorems": [
    "Celltree.Fl.C126_face_weights",
    "Celltree.Fl.C126_polygon_weights",
    "Celltree.Fl.C126_vertex_exact",
    "Celltree.Fl.C126_triangle_inexact"
   ],
   "note": "Binary64. No lower limit on the distance of the point to the sides or on the angles is needed (C86 needs both): at integer coordinates all areas are exact integers, a point is on a side or at least one unit of area away from it. C126_triangle_inexact: tables with three columns use another formula, for which a corner gets the weight 1 - 2^-53."
  },
  {
   "property": "C127",
   "status": "proved",
   "theorems": [
    "Celltree.Fl.C127_triangle",
    "Celltree.Fl.C127_triangle_weights",
    "Celltree.Fl.C127_exact",
    "Celltree.Fl.C127_negative_weight"
   ],
   "note": "Binary64. C80 has the errors for coordinates that are not integers, where they grow with the thinness of the triangles. C127_negative_weight: two thin triangles, one with a negative weight of -2^-53 for a point on the side opposite to the first corner."
  },
  {
   "property": "C128",
   "status": "proved",
   "theorems": [
    "Celltree.Fl.C128_pieces_exact",
    "Celltree.Fl.C128_clip_exact",
    "Celltree.Fl.C128_box_exact"
   ],
   "note": "Binary64. No margins are needed, unlike in C90, which is for arbitrary coordinates. The bound for the ends of pieces cannot be dropped: 1 / 49 * 49 is not 1 (example beside the theorem)."
  },
  {
   "property": "C129",
   "status": "partial",
   "theorems": [
    "Celltree.Fl.C129_pieces_exact_partial",
    "Celltree.Fl.C128_clip_exact",
    "Celltree.Fl.C129_clip_never_ends",
    "Celltree.Fl.C129_never_ends"
   ],
   "note": "Binary64. Missing: edges that are not in a compass direction and pass through a corner of the bounding box of a face or of the mesh. The property is false for them, C129_clip_never_ends and C129_never_ends are witnesses with small integers. The clip to a face itself (C128_clip_exact) is exact for them as well."
  },
  {
   "property": "C130",
   "status": "proved",
   "theorems": [
    "Celltree.Fl.C130_same_pieces"
   ],
   "note": "Binary64. Follows from the exact decisions of C128 and C129 for both meshes and the invariance of pieces under affine maps; the hypotheses on the edges (ClearEdges) are those of C129_pieces_exact_partial, for both coordinate systems. With the identity as map it says that the direction of edges does not matter, unlike for general coordinates (C70)."
  },
  {
   "property": "C131",
   "status": "proved",
   "theorems": [
    "Celltree.Fl.C131_parts"
   ],
   "note": "Binary64, compass directions. Only the whole edge and the point of division have hypotheses (Cut); that the parts are admissible is proved."
  },
  {
   "property": "C132",
   "status": "proved",
   "theorems": [
    "Celltree.Fl.C132_ends_kept",
    "Celltree.Fl.C132_located_edges"
   ],
   "note": "Binary64. The edges are those of C129_pieces_exact_partial (ClearEdges): in a compass direction, or not touching a corner of a bounding box. C132_located_edges combines C121 and C129."
  }
 ]
}