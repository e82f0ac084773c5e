{"id": "C01", "title": "Box search equals brute force", "statement": "CellTree2d.locate_boxes(boxes) reports the pair (i, j) if and only if query box i and the bounding box of face j overlap with positive area in the strict sense (each starts before the other ends, in x and in y). No face is lost because of the tree, and none is invented. This holds whatever the rounding of the arithmetic used to place the splits.", "quantifier": "every mesh, every n_buckets >= 2 and cells_per_leaf >= 1 for which construction returns, every list of query boxes, every rounding behaviour of + - * /", "why_tests_cant": "a test compares a few meshes; a wrong split bound loses faces only for particular geometries and tree depths", "anchors": ["numba_celltree/query.py:locate_box", "numba_celltree/query.py:locate_boxes", "numba_celltree/creation.py:build", "numba_celltree/creation.py:split_plane", "numba_celltree/creation.py:get_bounds"]}
{"id": "C02", "title": "Box search reports every pair once, grouped by query row", "statement": "In the result of locate_boxes no pair (i, j) occurs twice, and the query indices are non-decreasing.", "quantifier": "every mesh, parameters, query list, number of threads", "why_tests_cant": "duplicates need a face to be in two leaves or a retried query to leave residue, which depends on tree shape and result counts", "anchors": ["numba_celltree/query.py:locate_box", "numba_celltree/query.py:locate_boxes_helper", "numba_celltree/query.py:concatenate_indices"]}
{"id": "C03", "title": "Box search does not depend on the tuning parameters", "statement": "Two trees over the same mesh built with different n_buckets / cells_per_leaf return the same set of pairs, each the same number of times, from locate_boxes.", "quantifier": "every mesh, every two parameter settings, every query list", "why_tests_cant": "tests use one or two settings", "anchors": ["numba_celltree/celltree.py:CellTree2d.locate_boxes", "numba_celltree/creation.py:initialize"]}
{"id": "C04", "title": "Results do not depend on the number of threads or their schedule", "statement": "locate_boxes and intersect_edges return exactly the same arrays (same order) for every number of threads and for every order in which the parallel chunks finish.", "quantifier": "every query list, every n_chunks >= 1, every completion order of the parallel iterations", "why_tests_cant": "a test runs with the thread count and schedule of one machine", "anchors": ["numba_celltree/query.py:locate_boxes", "numba_celltree/query.py:make_locate_edges", "numba_celltree/query.py:concatenate_indices"]}
{"id": "C05", "title": "Growing the result buffer is invisible", "statement": "When a query finds more hits than fit in the result array, the array is enlarged and the query is redone; the final result is the same as with an array that was large enough from the start, no write is outside the array, and the retry loop ends.", "quantifier": "every number of hits, every initial capacity, every point in the query list at which the buffer fills up", "why_tests_cant": "a test would need result counts that hit each boundary of the doubling sequence exactly", "anchors": ["numba_celltree/query.py:locate_boxes_helper", "numba_celltree/query.py:locate_box", "numba_celltree/utils.py:grow"]}
{"id": "C06", "title": "A located point is really in the reported face", "statement": "If CellTree2d.locate_points returns j >= 0 for a point, then j is the index of a face of the mesh and the point passes the point-in-polygon-or-on-edge test for face j with the tolerance used.", "quantifier": "every mesh, parameters, point, tolerance", "why_tests_cant": "every traversal path would have to be exercised", "anchors": ["numba_celltree/query.py:locate_point", "numba_celltree/geometry_utils.py:point_in_polygon_or_on_edge"]}
{"id": "C07", "title": "A point that is in a face is located", "statement": "If locate_points returns -1 for a point then no face whose (closed) bounding box contains the point accepts it. With tolerance 0 the bounding box condition is automatic: -1 is returned exactly when no face at all accepts the point, also for non-convex faces.", "quantifier": "every mesh, parameters, point, tolerance", "why_tests_cant": "missing a face depends on how the splits fall relative to the point", "anchors": ["numba_celltree/query.py:locate_point", "numba_celltree/geometry_utils.py:point_in_polygon_or_on_edge", "numba_celltree/geometry_utils.py:bounding_box"]}
{"id": "C08", "title": "Point location does not depend on tuning parameters when the answer is unique", "statement": "If exactly one face accepts a point (and the point lies in its bounding box), every tree over the mesh, whatever n_buckets and cells_per_leaf, returns that face.", "quantifier": "every mesh, point, tolerance, every two parameter settings", "why_tests_cant": "tests use one or two settings", "anchors": ["numba_celltree/celltree.py:CellTree2d.locate_points"]}
{"id": "C09", "title": "Points are located independently of each other", "statement": "Row i of locate_points depends only on point i: it does not change when other points are added, removed or reordered, nor with the order in which parallel iterations run; the result has one entry per point.", "quantifier": "every list of points, every iteration order", "why_tests_cant": "scheduling is not controlled by a test", "anchors": ["numba_celltree/query.py:locate_points", "numba_celltree/query.py:locate_points_on_edge"]}
{"id": "C10", "title": "Construction terminates", "statement": "Building a tree ends for every input, also when many cells share the same centroid or boxes are degenerate: it returns a tree or raises, it never loops.", "quantifier": "every mesh, n_buckets >= 2, cells_per_leaf >= 1, every rounding behaviour", "why_tests_cant": "non-termination cannot be observed by a test and would need special geometry", "anchors": ["numba_celltree/creation.py:build", "numba_celltree/creation.py:sort_bbox_indices"]}
{"id": "C11", "title": "Construction stays within its pre-allocated arrays", "statement": "The number of nodes created never exceeds the pre-allocated estimate, and no index array is read or written out of bounds during construction (compiled code does not check this).", "quantifier": "every mesh, n_buckets >= 2, cells_per_leaf >= 1, every rounding behaviour", "why_tests_cant": "an overflow silently corrupts memory; the worst-case tree shape has to be reached", "anchors": ["numba_celltree/creation.py:pessimistic_n_nodes", "numba_celltree/creation.py:push_node", "numba_celltree/creation.py:build", "numba_celltree/creation.py:stable_partition"]}
{"id": "C12", "title": "Construction succeeds on meshes without degenerate boxes", "statement": "In exact arithmetic, if every bounding box has positive width and height, construction returns a tree (no IndexError, no ZeroDivisionError). A box of zero width can make construction raise.", "quantifier": "every mesh with non-degenerate boxes, every admissible n_buckets and cells_per_leaf", "why_tests_cant": "the failing cases depend on a centroid meeting the end of the last bucket exactly", "anchors": ["numba_celltree/creation.py:sort_bbox_indices", "numba_celltree/creation.py:centroid_test", "numba_celltree/creation.py:split_plane"]}
{"id": "C13", "title": "Every cell is in exactly one leaf", "statement": "The index array of a constructed tree is a permutation of all cells, and the ranges of the leaves partition it: each cell is in exactly one leaf.", "quantifier": "every mesh and parameters for which construction returns, every rounding behaviour", "why_tests_cant": "holds only if every partition step is right at every depth", "anchors": ["numba_celltree/creation.py:stable_partition", "numba_celltree/creation.py:sort_bbox_indices", "numba_celltree/creation.py:build"]}
{"id": "C14", "title": "Leaf capacity", "statement": "Every leaf holds at most cells_per_leaf cells, unless all cells of the leaf fell in a single bucket in both dimensions, and no leaf of a non-empty mesh is empty.", "quantifier": "every mesh and parameters for which construction returns", "why_tests_cant": "depends on all splits", "anchors": ["numba_celltree/creation.py:build"]}
{"id": "C15", "title": "to_dict_of_lists describes a rooted binary tree", "statement": "In the dict returned by to_dict_of_lists every node has zero or two children, both with larger index and consecutive; every node other than 0 is the child of exactly one node, and node 0 of none.", "quantifier": "every tree returned by construction", "why_tests_cant": "depends on the order of all node allocations", "anchors": ["numba_celltree/celltree_base.py:CellTree2dBase.to_dict_of_lists", "numba_celltree/creation.py:push_node"]}
{"id": "C16", "title": "Node bounds contain everything below them", "statement": "For every constructed tree with more than one node, node_bounds returns for every node a box that contains the bounding boxes of all cells below the node, and validate_node_bounds returns True for every node. For any other table of bounds validate_node_bounds returns True at exactly the nodes whose bounds contain what is directly below them.", "quantifier": "every mesh and parameters giving more than one node, every rounding behaviour", "why_tests_cant": "a violated bound shows only for particular geometry and depth", "anchors": ["numba_celltree/query.py:collect_node_bounds", "numba_celltree/query.py:validate_node_bounds"]}
{"id": "C17", "title": "node_bounds on a tree with a single node", "statement": "node_bounds and validate_node_bounds should work for every tree, also when the mesh has no more than cells_per_leaf faces. (The code violates this: it accesses children of the root unconditionally, outside its arrays.)", "quantifier": "every mesh with at most cells_per_leaf faces", "why_tests_cant": "the out of bounds access is silent in compiled code", "anchors": ["numba_celltree/query.py:collect_node_bounds"]}
{"id": "C18", "title": "Bounding boxes are tight", "statement": "The box computed for a face contains all its vertices, each of its four sides is attained by a vertex, and padding (fill) entries have no influence.", "quantifier": "every face with at least one vertex, any padding", "why_tests_cant": "min/max mistakes show only for particular vertex orders", "anchors": ["numba_celltree/geometry_utils.py:bounding_box", "numba_celltree/geometry_utils.py:build_face_bboxes", "numba_celltree/celltree_base.py:bbox_tree"]}
{"id": "C19", "title": "The tree bounding box is the union of the face boxes", "statement": "tree.bbox contains every face box and is the smallest such box.", "quantifier": "every non-empty mesh", "why_tests_cant": "min/max mistakes show only for particular face orders", "anchors": ["numba_celltree/celltree_base.py:bbox_tree"]}
{"id": "C20", "title": "The fill value is only a notation", "statement": "A mesh whose padding is marked with any fill_value that is not a vertex index gives the same tree as the same mesh padded with -1; meshes with more than 32 vertices per face are rejected with ValueError, as are n_buckets < 2 and cells_per_leaf < 1.", "quantifier": "every mesh and fill value", "why_tests_cant": "tests try one fill value", "anchors": ["numba_celltree/cast.py:cast_faces", "numba_celltree/celltree.py:CellTree2d.__init__"]}
{"id": "C21", "title": "Faces are stored counter-clockwise", "statement": "After construction every convex face is stored in counter-clockwise order. (The code violates this for clockwise faces with a hanging node at the end of the row; it holds for faces whose first tested corner is not straight.)", "quantifier": "every convex face in either orientation", "why_tests_cant": "needs particular positions of collinear vertices", "anchors": ["numba_celltree/geometry_utils.py:counter_clockwise", "numba_celltree/geometry_utils.py:flip"]}
{"id": "C22", "title": "Orientation normalisation only reverses", "statement": "Making a face counter-clockwise either leaves the row as it is or reverses its vertices, keeping the padding in place; a convex face that is already counter-clockwise is left unchanged, and faces do not influence each other.", "quantifier": "every face, every order of the parallel iterations", "why_tests_cant": "all vertex counts and positions of collinear vertices matter", "anchors": ["numba_celltree/geometry_utils.py:counter_clockwise", "numba_celltree/geometry_utils.py:flip"]}
{"id": "C23", "title": "Input arrays are not modified", "statement": "Constructing a CellTree2d and calling intersect_faces leave the arrays of the caller unchanged. (locate_faces violates this: it reorders the caller's faces array.)", "quantifier": "every input", "why_tests_cant": "a test would have to compare every input after every call", "anchors": ["numba_celltree/celltree.py:CellTree2d.locate_faces", "numba_celltree/celltree.py:CellTree2d.intersect_faces", "numba_celltree/cast.py:cast_faces"]}
{"id": "C24", "title": "Interior points of a convex face are accepted", "statement": "In exact arithmetic the point-in-polygon test accepts every point strictly inside a convex face, including faces with straight corners (hanging nodes), for every tolerance, and regardless of which vertex comes first.", "quantifier": "every convex polygon, every interior point, every tolerance", "why_tests_cant": "vertex-on-ray cases are measure-zero and never sampled", "anchors": ["numba_celltree/geometry_utils.py:point_in_polygon", "numba_celltree/geometry_utils.py:point_in_polygon_or_on_edge"]}
{"id": "C25", "title": "Points outside a convex face are rejected", "statement": "In exact arithmetic, with tolerance 0 a point strictly outside a convex face is rejected, and with a positive tolerance an outside point is accepted only if it is within that perpendicular distance of an edge and between its ends along the dominant axis.", "quantifier": "every convex polygon, every exterior point, every tolerance", "why_tests_cant": "as above", "anchors": ["numba_celltree/geometry_utils.py:point_in_polygon", "numba_celltree/geometry_utils.py:point_in_polygon_or_on_edge", "numba_celltree/geometry_utils.py:in_bounds"]}
{"id": "C26", "title": "Points on the boundary are found", "statement": "With a positive tolerance, every point exactly on an edge or vertex of some face is located: locate_points does not return -1.", "quantifier": "every mesh, face, edge and point on it, parameters", "why_tests_cant": "measure-zero inputs", "anchors": ["numba_celltree/geometry_utils.py:point_in_polygon_or_on_edge", "numba_celltree/query.py:locate_point"]}
{"id": "C27", "title": "A larger tolerance never rejects more", "statement": "If the point test accepts a point with some tolerance it accepts it with every larger tolerance.", "quantifier": "every polygon or edge, point, pair of tolerances 0 <= t1 <= t2", "why_tests_cant": "monotonicity is over a continuum", "anchors": ["numba_celltree/geometry_utils.py:within_perpendicular_distance", "numba_celltree/geometry_utils.py:point_in_polygon_or_on_edge", "numba_celltree/geometry_utils.py:point_on_edge"]}
{"id": "C28", "title": "Near-edge detection is a property of the mesh", "statement": "Whether a point just outside the mesh but within the tolerance of an edge is located should depend on the mesh and the tolerance only. (The code violates this: the answer can depend on cells_per_leaf, because the tree prunes with exact bounds.)", "quantifier": "every mesh, point, tolerance, two parameter settings", "why_tests_cant": "needs a point within 1e-12 of a re-entrant boundary and particular splits", "anchors": ["numba_celltree/query.py:locate_point"]}
{"id": "C29", "title": "Edge tree point location", "statement": "EdgeCellTree2d.locate_points returns an edge only if the point passes the on-edge test for it; every point exactly on an edge of positive length is located when the tolerance is positive; an edge of zero length is never returned.", "quantifier": "every network, parameters, point, tolerance", "why_tests_cant": "measure-zero inputs and all traversal paths", "anchors": ["numba_celltree/query.py:locate_point_on_edge", "numba_celltree/geometry_utils.py:point_on_edge", "numba_celltree/geometry_utils.py:edge_bounding_box"]}
{"id": "C30", "title": "Separating axis test decides interior overlap", "statement": "In exact arithmetic the face-face test used by locate_faces holds if and only if the interiors of the two convex polygons have a common point; polygons that only touch are not reported.", "quantifier": "every pair of convex polygons of positive area", "why_tests_cant": "touching configurations are measure-zero; the missing-axis case needs particular shapes", "anchors": ["numba_celltree/algorithms/separating_axis.py:separating_axes", "numba_celltree/algorithms/separating_axis.py:polygons_intersect"]}
{"id": "C31", "title": "Face search equals brute force", "statement": "CellTree2d.locate_faces reports exactly the pairs of faces whose interiors overlap, each pair once.", "quantifier": "every convex mesh, parameters, convex query faces", "why_tests_cant": "as C01 and C30", "anchors": ["numba_celltree/celltree.py:CellTree2d.locate_faces"]}
{"id": "C32", "title": "Polygon area", "statement": "polygon_area of a convex polygon (in either orientation) is its area by the shoelace formula, and does not depend on the starting vertex.", "quantifier": "every convex polygon", "why_tests_cant": "a continuum of polygons", "anchors": ["numba_celltree/geometry_utils.py:polygon_area"]}
{"id": "C33", "title": "Clipping produces the intersection", "statement": "In exact arithmetic, the polygon produced by clipping a convex polygon by a counter-clockwise convex polygon spans exactly the intersection of the two, and the reported area is its area.", "quantifier": "every pair of convex polygons", "why_tests_cant": "a continuum of polygons with degenerate positions", "anchors": ["numba_celltree/algorithms/sutherland_hodgman.py:polygon_polygon_clip_area"]}
{"id": "C34", "title": "Area of intersection is between zero and the area of either polygon", "statement": "The area reported for a pair of convex polygons is non-negative and at most the area of each of them; it is zero if a clipping edge separates them.", "quantifier": "every pair of convex polygons", "why_tests_cant": "a continuum of polygons", "anchors": ["numba_celltree/algorithms/sutherland_hodgman.py:polygon_polygon_clip_area"]}
{"id": "C35", "title": "Clipping stays within its work arrays", "statement": "Clipping two convex faces of at most 32 vertices never writes outside the 64-vertex work arrays. (For non-convex faces it can.)", "quantifier": "every pair of convex faces with at most 32 vertices", "why_tests_cant": "overflow is silent in compiled code", "anchors": ["numba_celltree/algorithms/sutherland_hodgman.py:push_point", "numba_celltree/utils.py:allocate_clip_polygon"]}
{"id": "C36", "title": "Reported intersection areas are positive", "statement": "intersect_boxes and intersect_faces report only pairs with positive area, the area array is aligned with the index arrays, and every pair with positive clip area found by the search is reported.", "quantifier": "every mesh and query", "why_tests_cant": "alignment of three arrays for all sizes", "anchors": ["numba_celltree/celltree.py:CellTree2d.intersect_boxes", "numba_celltree/celltree.py:CellTree2d.intersect_faces"]}
{"id": "C37", "title": "Cohen-Sutherland clips a segment to a box", "statement": "The clipping loop ends after at most four rounds without dividing by zero; in exact arithmetic it reports a hit exactly if the segment and the closed box share a piece of positive length, and the returned end points delimit exactly that piece.", "quantifier": "every segment and every non-empty box", "why_tests_cant": "corner and edge-touching cases are measure-zero; the loop bound is a TODO in the source", "anchors": ["numba_celltree/algorithms/cohen_sutherland.py:cohen_sutherland_line_box_clip"]}
{"id": "C38", "title": "Liang-Barsky clips a segment to a box", "statement": "Same contract as Cohen-Sutherland; both algorithms agree on hit or miss and on the clipped segment.", "quantifier": "every segment and every non-empty box", "why_tests_cant": "as C37", "anchors": ["numba_celltree/algorithms/liang_barsky.py:liang_barsky_line_box_clip"]}
{"id": "C39", "title": "Cyrus-Beck clips a segment to a convex polygon", "statement": "In exact arithmetic, when the end points are not in the tolerance band around the polygon, a hit is reported exactly if the segment and the polygon share a piece of positive length, and the returned points delimit exactly that piece; there is no division by zero.", "quantifier": "every segment and every counter-clockwise strictly convex polygon (and convex polygons with straight corners, if the line of the segment has no straight corner on it)", "why_tests_cant": "as C37", "anchors": ["numba_celltree/algorithms/cyrus_beck.py:cyrus_beck_line_polygon_clip", "numba_celltree/algorithms/cyrus_beck.py:collinear_case"]}
{"id": "C40", "title": "Edge search on a face tree equals brute force", "statement": "CellTree2d.intersect_edges reports (i, j, clipped segment) exactly for the faces j for which the box clip and polygon clip of edge i report a hit, each pair once; no face is lost by the traversal or by the whole-mesh pre-check.", "quantifier": "every mesh, parameters, edge list (exact arithmetic)", "why_tests_cant": "as C01", "anchors": ["numba_celltree/query.py:make_locate_edges", "numba_celltree/query.py:compute_edge_face_intersect"]}
{"id": "C41", "title": "Edge search on an edge tree", "statement": "EdgeCellTree2d.intersect_edges reports (i, j) only if the segment test holds for them, each pair once, and reports every tree edge that the query edge properly crosses.", "quantifier": "every network, parameters, edge list (exact arithmetic)", "why_tests_cant": "as C01", "anchors": ["numba_celltree/query.py:make_locate_edges", "numba_celltree/query.py:compute_edge_edge_intersect"]}
{"id": "C42", "title": "Crossing segments", "statement": "If the segment test reports a crossing with a finite location (non-collinear case), that location lies on both segments; segments that properly cross are always reported; segments that are further apart than three times the tolerance (in x or in y) are never reported, nor are segments of length zero.", "quantifier": "every pair of segments (exact arithmetic)", "why_tests_cant": "continuum of positions", "anchors": ["numba_celltree/geometry_utils.py:lines_intersect", "numba_celltree/geometry_utils.py:intersection_location_point"]}
{"id": "C43", "title": "Overlapping collinear segments", "statement": "For collinear overlapping segments the reported location should be the midpoint of the overlap. (The code violates this: for segments of negative slope it returns NaN.) It holds for horizontal, vertical and rising segments.", "quantifier": "every pair of overlapping collinear segments", "why_tests_cant": "tests only use a rising diagonal", "anchors": ["numba_celltree/geometry_utils.py:midpoint_collinear_lines"]}
{"id": "C44", "title": "Barycentric weights in a triangle", "statement": "For a point in a non-degenerate triangle the weights are non-negative, sum to one, and reproduce the point as the weighted sum of the vertices.", "quantifier": "every triangle, every point in it", "why_tests_cant": "continuum", "anchors": ["numba_celltree/algorithms/barycentric_triangle.py:compute_weights"]}
{"id": "C45", "title": "Wachspress weights in a convex polygon", "statement": "For a point strictly inside a convex polygon and outside the tolerance band, the weights are non-negative, sum to one, reproduce the point as the weighted sum of the vertices, and there is no division by zero; for a point on an edge, that is not within the tolerance of the line of another edge unless it is on that edge too, the weights are the linear interpolation weights of an edge containing the point.", "quantifier": "every convex polygon, every interior point", "why_tests_cant": "continuum, any number of vertices", "anchors": ["numba_celltree/algorithms/barycentric_wachspress.py:compute_weights", "numba_celltree/algorithms/barycentric_wachspress.py:interp_edge_case"]}
{"id": "C46", "title": "Weights of points outside the mesh are zero", "statement": "compute_barycentric_weights with a positive tolerance on a mesh without degenerate faces returns the result of locate_points, with a row of zeros for every point that is not located and a row summing to one for every located point.", "quantifier": "every mesh and list of points", "why_tests_cant": "all code paths for all rows", "anchors": ["numba_celltree/celltree.py:CellTree2d.compute_barycentric_weights"]}
{"id": "C47", "title": "Degenerate faces do not break interpolation", "statement": "compute_barycentric_weights should return for every mesh. (The code violates this: a point located on a degenerate triangle, or inside a polygon with a repeated vertex, makes it divide by zero; so does a point on an edge with tolerance zero.)", "quantifier": "every mesh and point", "why_tests_cant": "needs a degenerate face and a point on it", "anchors": ["numba_celltree/algorithms/barycentric_triangle.py:compute_weights", "numba_celltree/algorithms/barycentric_wachspress.py:compute_weights"]}
{"id": "C48", "title": "The traversal stack is a stack", "statement": "Any sequence of pushes and pops on the growable arrays behaves as a last-in first-out list, whatever the initial capacity and garbage content; no access is out of bounds as long as no pop is done on an empty stack.", "quantifier": "every operation sequence", "why_tests_cant": "depth over 32 is rarely reached in tests", "anchors": ["numba_celltree/utils.py:push", "numba_celltree/utils.py:pop", "numba_celltree/utils.py:push_both", "numba_celltree/utils.py:push_triple", "numba_celltree/utils.py:grow"]}
{"id": "C49", "title": "Chunking loses nothing", "statement": "Splitting the queries over n chunks partitions them in order, with sizes differing by at most one, and the offsets are the positions of the chunks.", "quantifier": "every number of queries and chunks >= 1", "why_tests_cant": "all remainders", "anchors": ["numba_celltree/query.py:locate_boxes"]}
{"id": "C50", "title": "Default tolerances are positive and scale with the mesh", "statement": "The default tolerance is at least 1e-15, at least 1e-12 times every bounding box diagonal, and equal to one of the two.", "quantifier": "every mesh", "why_tests_cant": "continuum", "anchors": ["numba_celltree/celltree_base.py:default_tolerance", "numba_celltree/celltree_base.py:bbox_distances"]}
{"id": "C51", "title": "Stable partition", "statement": "Partitioning a range of the index array keeps everything outside the range, moves the elements that pass the test to the front, keeps the relative order in both groups, and returns the position of the first failing element.", "quantifier": "every array, range and test", "why_tests_cant": "all lengths and patterns", "anchors": ["numba_celltree/creation.py:stable_partition"]}
{"id": "C52", "title": "Unique edges of a mesh", "statement": "demo.edges returns every side of every face exactly once, with sorted node pairs in sorted order, whatever the padding.", "quantifier": "every face table", "why_tests_cant": "all shapes and paddings", "anchors": ["numba_celltree/demo.py:edges", "numba_celltree/demo.py:close_polygons"]}
{"id": "C53", "title": "Edge queries end", "statement": "intersect_edges should return or raise for every mesh and every list of edges with finite coordinates. (The code violates this: in binary64 the loop of the Cohen-Sutherland clip can go round for ever. A mesh of the single square [0.1, 0.4] x [0.1, 0.4] and the edge from (0.4, 0.4) to (0, 0) is enough.) In exact arithmetic it always ends.", "quantifier": "every mesh and edge list", "why_tests_cant": "a non-ending run is not a test result; needs one particular rounding error", "anchors": ["numba_celltree/algorithms/cohen_sutherland.py:cohen_sutherland_line_box_clip", "numba_celltree/query.py:make_locate_edges"]}
{"id": "C55", "title": "Edges along a side with a hanging node", "statement": "The clip of an edge to a convex face should report the whole shared piece also if the face has straight corners (hanging nodes). (The code violates this: for an edge along a side with a straight corner only a part of the shared piece is reported, or nothing at all.) It holds if no straight corner is on the line of the edge.", "quantifier": "every edge and every convex face, with straight corners", "why_tests_cant": "needs an edge exactly along a side with a hanging node", "anchors": ["numba_celltree/algorithms/cyrus_beck.py:cyrus_beck_line_polygon_clip", "numba_celltree/algorithms/cyrus_beck.py:collinear_case"]}
{"id": "C56", "title": "Edge tree tolerance is a property of the network", "statement": "Whether a point is located by EdgeCellTree2d.locate_points with a given tolerance should depend on the network and the tolerance only. (The code violates this for tolerances larger than the amount by which boxes are widened: the answer can depend on cells_per_leaf.) It holds for tolerances below 0.7e-12 times the extent of the network.", "quantifier": "every network, point, tolerance, two parameter settings", "why_tests_cant": "needs an explicit tolerance, a point off the edges and particular splits", "anchors": ["numba_celltree/query.py:locate_point_on_edge", "numba_celltree/edge_celltree.py:EdgeCellTree2d.__init__"]}
{"id": "C54", "title": "Trees do not share memory with their caller", "statement": "After construction, changing the arrays that were passed to the constructor has no effect on later queries. It holds for CellTree2d. (EdgeCellTree2d violates this: it keeps a reference to the array of edges of the caller; the answers of a tree change, or accesses go out of bounds, after the caller changes that array.)", "quantifier": "every tree and every later change of the arrays of the caller", "why_tests_cant": "a test would have to change its inputs after construction", "anchors": ["numba_celltree/edge_celltree.py:EdgeCellTree2d.__init__", "numba_celltree/celltree.py:CellTree2d.__init__", "numba_celltree/cast.py:cast_faces"]}
{"id": "C57", "title": "Array-likes are not modified", "statement": "Constructing a CellTree2d should leave the caller's table of faces unchanged also if it is not an np.ndarray but another array-like that exposes its memory. (The code violates this: np.ascontiguousarray makes no copy of such an object, padding is overwritten by -1 and clockwise faces are reversed in the memory of the caller.)", "quantifier": "every table of faces given as array-like of the expected integer type", "why_tests_cant": "tests only pass arrays and compare nothing afterwards", "anchors": ["numba_celltree/cast.py:cast_faces", "numba_celltree/geometry_utils.py:counter_clockwise"]}
{"id": "C58", "title": "Edge trees can be built for every network", "statement": "EdgeCellTree2d should be constructible for every network with at least one edge, also with axis-aligned edges. It holds in exact arithmetic. (In binary64 the code violates this: boxes are widened by 1e-12 times the extent of the network, which disappears in rounding for a small network far from the origin; three sides of a square of 50 by 50 at x = 5000000 raise IndexError.)", "quantifier": "every network with finite coordinates, all admissible parameters", "why_tests_cant": "tests use coordinates near the origin", "anchors": ["numba_celltree/edge_celltree.py:EdgeCellTree2d.__init__", "numba_celltree/geometry_utils.py:edge_bounding_box", "numba_celltree/creation.py:sort_bbox_indices"]}
{"id": "C59", "title": "Faces that share a side", "statement": "According to its documentation CellTree2d.locate_faces also counts faces that only share an edge as intersecting. (The code violates this: such pairs are not reported.) It reports exactly the pairs with a common interior point.", "quantifier": "every convex mesh, parameters, convex query faces", "why_tests_cant": "tests on touching faces compare with the code, not with the documentation", "anchors": ["numba_celltree/celltree.py:CellTree2d.locate_faces", "numba_celltree/algorithms/separating_axis.py:separating_axes"]}
{"id": "C60", "title": "Fill value of query faces", "statement": "CellTree2d.locate_faces should accept query faces that are padded with the fill value of the tree, as its documentation says. (The code violates this: it never uses the fill value; with another value than -1 it reads outside the array of vertices.) Query faces padded with -1 are accepted by every tree.", "quantifier": "every mesh and query faces, every fill value", "why_tests_cant": "tests use -1; the out of bounds access is silent in compiled code", "anchors": ["numba_celltree/celltree.py:CellTree2d.locate_faces"]}
{"id": "C61", "title": "Weights of located points reproduce them", "statement": "For every point located in a convex face the weights returned by compute_barycentric_weights should be non-negative, sum to one, and reproduce the point. (The code violates this for faces with a hanging node: for a point exactly on one half of the straight side the weights are those of the other half, or are negative, because the test compares the distance to the line through a side, not to the side.)", "quantifier": "every mesh of convex faces, every located point", "why_tests_cant": "needs a face with a straight corner and a point exactly on the side", "anchors": ["numba_celltree/algorithms/barycentric_wachspress.py:compute_weights", "numba_celltree/algorithms/barycentric_wachspress.py:interp_edge_case", "numba_celltree/celltree.py:CellTree2d.compute_barycentric_weights"]}
{"id": "C62", "title": "Weights near the boundary are accurate to the tolerance", "statement": "On a mesh of convex faces with a table of more than three columns, the weights of every located point sum to one and reproduce the point within three times the tolerance, also for points outside the face accepted because of the tolerance and for points near an edge; excluded are points within the tolerance of the line through an edge that are not near the edge itself.", "quantifier": "every mesh of convex faces, every tolerance, every located point", "why_tests_cant": "continuum, tolerance band", "anchors": ["numba_celltree/algorithms/barycentric_wachspress.py:compute_weights", "numba_celltree/algorithms/barycentric_wachspress.py:interp_edge_case", "numba_celltree/celltree.py:CellTree2d.compute_barycentric_weights"]}
{"id": "C63", "title": "Weights are in the order of the faces given by the caller", "statement": "Column k of the weights should belong to the k-th vertex of the face as it was given to the constructor. (The code violates this for faces given clockwise: the weights belong to the reversed face that is stored in the tree.)", "quantifier": "every mesh of convex faces, every located point", "why_tests_cant": "needs clockwise faces and unequal weights", "anchors": ["numba_celltree/celltree.py:CellTree2d.compute_barycentric_weights", "numba_celltree/geometry_utils.py:counter_clockwise"]}
{"id": "C64", "title": "Points are in exactly one piece of a cut polygon", "statement": "point_in_polygon returns for every polygon with at least one corner (it never divides by zero) and is true exactly if the ray from the point to the right crosses an odd number of sides. For convex polygons in either order it is true in the interior and false outside. If a polygon of any shape is cut in two along the line between two of its corners, a point in the polygon is in exactly one of the two pieces, also if it is on a side or a corner: there are no \"on-edge\" answers.", "quantifier": "every point and every polygon, in exact arithmetic", "why_tests_cant": "rays through corners and along horizontal sides, points on sides: the tests use a handful of literals", "anchors": ["numba_celltree/geometry_utils.py:point_in_polygon"]}
{"id": "C65", "title": "points_in_triangles accepts exactly the closed triangle and its near surroundings", "statement": "For a positive tolerance, points_in_triangles is true for a point and the index of a triangle, in either order, exactly if the point is in the closed triangle or near one of its sides, for every schedule of the parallel loop. (The code violates this for triangles of area zero, which accept all points of the line through the corners.)", "quantifier": "every list of points, every list of valid triangle indices, every schedule, in exact arithmetic", "why_tests_cant": "needs points on sides, clockwise triangles, and triangles of area zero", "anchors": ["numba_celltree/geometry_utils.py:point_in_triangle", "numba_celltree/geometry_utils.py:points_in_triangles"]}
{"id": "C66", "title": "locate_points never raises in binary64", "statement": "For a well-formed mesh of binary64 coordinates (infinite ones included), locate_points returns normally, with one entry per point: in particular the division by the height of a side never divides by zero, because two different binary64 numbers have a nonzero difference. NaN and infinite points are allowed.", "quantifier": "every well-formed mesh, every tree over it, every list of points, every tolerance (or the default one), every order of the parallel loop, in binary64", "why_tests_cant": "needs subnormal differences, infinities and NaN", "anchors": ["numba_celltree/query.py:locate_points", "numba_celltree/geometry_utils.py:point_in_polygon_or_on_edge"]}
{"id": "C67", "title": "Every point of the mesh is located, also in binary64", "statement": "In binary64 arithmetic, a point in a closed convex face is located in some face (not -1). (The code violates this with the default tolerance at national-grid coordinates: a point next to a common side of two cells of 10 m is located in neither of them. It holds if the tolerance is at least (8 M + 64 D) / 2^53, for coordinates up to M and sides up to D, and no side is at 45 degrees up to rounding.)", "quantifier": "every mesh with a convex face, every point of the face, every tree and schedule, in binary64", "why_tests_cant": "rounding errors of about one unit in the last place decide; random points practically never hit the gap", "anchors": ["numba_celltree/query.py:locate_points", "numba_celltree/geometry_utils.py:point_in_polygon_or_on_edge", "numba_celltree/celltree_base.py:default_tolerance"]}
{"id": "C68", "title": "A located point is close to the face, also in binary64", "statement": "In binary64 arithmetic, if all faces are convex and the tolerance is at least (8 M + 64 D) / 2^53, for coordinates up to M and sides up to D, then a point is located only in a face that contains a point at most twice the tolerance away from it in each coordinate.", "quantifier": "every mesh of convex faces, every list of finite points up to 2^200, every tree and schedule, in binary64", "why_tests_cant": "needs a bound on all rounding errors together", "anchors": ["numba_celltree/query.py:locate_points", "numba_celltree/geometry_utils.py:point_in_polygon_or_on_edge"]}
{"id": "C69", "title": "Edges that start or end just outside a face", "statement": "intersect_edges reports a piece of an edge for every convex face with which the edge shares a piece of positive length, wherever the ends of the edge are. A reported piece contains all of the edge that is in the face; its points are at most twice the tolerance away from the face.", "quantifier": "every mesh, every strictly convex face, every edge with different ends, also with ends outside but within the tolerance of the face", "why_tests_cant": "the tolerance is 1e-12 of the size of the face; tests do not place ends in that band", "anchors": ["numba_celltree/algorithms/cyrus_beck.py:cyrus_beck_line_polygon_clip", "numba_celltree/query.py:compute_edge_face_intersect"]}
{"id": "C70", "title": "The direction of an edge does not matter", "statement": "intersect_edges for a reversed edge should report the same faces, with the ends of the pieces exchanged. (The code violates this for an edge with an end outside a face but within the tolerance, that touches the face in a corner: in one direction a piece is reported, in the other nothing.) It holds if no end is outside but within the tolerance.", "quantifier": "every mesh, every strictly convex face, every edge", "why_tests_cant": "needs an end within 1e-12 of the size of the face, and an edge exactly through a corner", "anchors": ["numba_celltree/algorithms/cyrus_beck.py:cyrus_beck_line_polygon_clip", "numba_celltree/query.py:compute_edge_face_intersect"]}
{"id": "C71", "title": "Arrays of the wrong shape are rejected", "statement": "Public functions that take arrays of coordinates should raise ValueError if the shape is not (n, 2) for vertices and points, (n, 4) for boxes, (n, 2, 2) for edges, (n, m) for faces, and otherwise use the rows of the array. It holds for the constructors, locate_points, locate_boxes, intersect_boxes, intersect_faces, intersect_edges and compute_barycentric_weights. (The code violates it for locate_faces, which checks nothing: a third column is ignored, and with a single column memory outside of the rows is read; and for the table of edges of EdgeCellTree2d.)", "quantifier": "every array of every shape and number of dimensions, empty ones included", "why_tests_cant": "tests use a few wrong shapes for some of the functions", "anchors": ["numba_celltree/cast.py:cast_vertices", "numba_celltree/cast.py:cast_bboxes", "numba_celltree/cast.py:cast_edges", "numba_celltree/cast.py:cast_faces", "numba_celltree/celltree.py:CellTree2d.locate_faces"]}
{"id": "C72", "title": "Points on edges in floating point: no exceptions, and only close edges", "statement": "In binary64 arithmetic, EdgeCellTree2d.locate_points never raises an exception and returns for every point -1 or the number of an edge, whatever the points and the tolerance are, NaN and infinities included. A point is located only on an edge of positive length that has a point within twice the tolerance of it in both coordinates, if edges are longer than the rounding errors and the tolerance is not smaller than these.", "quantifier": "every table of edges with finite coordinates, all points, all tolerances, all schedules of the parallel loop", "why_tests_cant": "tests use small integer coordinates, for which rounding does not occur", "anchors": ["numba_celltree/edge_celltree.py:EdgeCellTree2d.locate_points", "numba_celltree/query.py:locate_points_on_edge", "numba_celltree/geometry_utils.py:point_on_edge"]}
{"id": "C73", "title": "A rounded point of an edge is located", "statement": "In binary64 arithmetic, for any point of an edge with coordinates rounded to the nearest floating point numbers, EdgeCellTree2d.locate_points should return an edge. (The code violates this with the default tolerance at coordinates of a national grid: the default tolerance, 1e-12 times the size of the edges, is smaller than the distance between neighbouring floating point numbers. Most points of an edge are not found.) It holds if the tolerance is at least (8 M + 64 D) / 2^53 for coordinates up to M and edges up to D.", "quantifier": "every table of edges, every edge, every point of it", "why_tests_cant": "tests use points with exact coordinates near the origin", "anchors": ["numba_celltree/edge_celltree.py:EdgeCellTree2d.locate_points", "numba_celltree/geometry_utils.py:point_on_edge", "numba_celltree/celltree_base.py:default_tolerance"]}
{"id": "C74", "title": "Edge queries do not raise", "statement": "In binary64 arithmetic CellTree2d.intersect_edges should return without an exception for every mesh and every list of edges with finite coordinates. (The code violates this: it raises ZeroDivisionError for a triangle with one-decimal coordinates and an edge along one of its sides, because rounding makes a cross product nonzero while the divisor computed from the same data is zero; a comment in the code says that this cannot happen.) It holds in exact arithmetic, and in binary64 for edges parallel to an axis.", "quantifier": "every mesh and edge list in binary64", "why_tests_cant": "needs particular rounding errors of nearly collinear data", "anchors": ["numba_celltree/algorithms/cyrus_beck.py:cyrus_beck_line_polygon_clip", "numba_celltree/celltree.py:CellTree2d.intersect_edges"]}
{"id": "C75", "title": "Areas of intersection are not larger than the faces", "statement": "In binary64 arithmetic no area reported by intersect_faces should be larger than the area of one of the two faces, up to a small relative error. (The code violates this: for two triangles with one-decimal coordinates that have a side in common, one inside the other, the reported area is five times the area of the smaller one. The documentation of the algorithm says that rounding is no issue.) It holds in exact arithmetic.", "quantifier": "every mesh of convex faces, every table of convex query faces", "why_tests_cant": "needs nearly collinear sides; tests compare areas on grids with exact coordinates", "anchors": ["numba_celltree/algorithms/sutherland_hodgman.py:polygon_polygon_clip_area", "numba_celltree/celltree.py:CellTree2d.intersect_faces"]}
{"id": "C76", "title": "Neighbours do not overlap", "statement": "In binary64 arithmetic locate_faces should not report a pair of faces that only share a side. (The code violates this: for a mesh of two triangles with one-decimal coordinates, queried with its own faces, the two triangles are reported as overlapping; intersect_faces reports them too, in one order but not in the other.) It holds in exact arithmetic.", "quantifier": "every mesh of convex faces, every table of convex query faces", "why_tests_cant": "tests use grids with exact coordinates", "anchors": ["numba_celltree/algorithms/separating_axis.py:separating_axes", "numba_celltree/celltree.py:CellTree2d.locate_faces", "numba_celltree/celltree.py:CellTree2d.intersect_faces"]}
{"id": "C77", "title": "Face and box queries never raise for small faces", "statement": "In any arithmetic (with rounding, overflow, NaN) and for faces of any shape, convex or not, locate_faces returns normally for faces of up to 32 corners, intersect_boxes for faces of up to 6 corners, and intersect_faces for faces of up to 5 corners: no division by zero and no access outside the work arrays. Pairs are reported at most once, in the order of the queries, only if their bounding boxes overlap, and reported areas are positive.", "quantifier": "every mesh, every table of query faces, every list of boxes, every schedule of the parallel loops, every arithmetic", "why_tests_cant": "concave and self-intersecting faces and rounding errors add corners; the arrays have a fixed size of 64 and compiled code does not check bounds", "anchors": ["numba_celltree/algorithms/sutherland_hodgman.py:polygon_polygon_clip_area", "numba_celltree/algorithms/separating_axis.py:polygons_intersect", "numba_celltree/celltree.py:CellTree2d.intersect_boxes", "numba_celltree/celltree.py:CellTree2d.intersect_faces", "numba_celltree/celltree.py:CellTree2d.locate_faces"]}
{"id": "C78", "title": "Overlapping faces are found in binary64", "statement": "In binary64 arithmetic, locate_faces reports every pair of convex faces that have a square in common whose half-width is at least 2^-51 times the largest coordinate (coordinates up to 2^400 in size, corners of a face equal or not extremely close).", "quantifier": "every mesh, every table of query faces, every pair of convex faces in them, every number of threads and schedule of the parallel loops", "why_tests_cant": "tests use grids with small exact coordinates; the bound relates coordinates, rounding and size of the overlap", "anchors": ["numba_celltree/algorithms/separating_axis.py:separating_axes", "numba_celltree/algorithms/separating_axis.py:is_separating_axis", "numba_celltree/celltree.py:CellTree2d.locate_faces"]}
{"id": "C79", "title": "Construction succeeds in binary64 for faces that are not too thin", "statement": "In binary64 arithmetic construction returns a tree (no IndexError, no ZeroDivisionError) if the bounding box of every face is wider and higher than 2^-48 times the largest coordinate (coordinates up to 2^400 in size). Faces one unit in the last place wide can make it raise.", "quantifier": "every mesh of that kind, every n_buckets from 2 up to 2^53, every cells_per_leaf >= 1, every schedule of the parallel loop", "why_tests_cant": "a centroid must be below the computed end of the last bucket; whether it is depends on the rounding of five operations at every node", "anchors": ["numba_celltree/creation.py:sort_bbox_indices", "numba_celltree/creation.py:centroid_test", "numba_celltree/creation.py:get_bounds", "numba_celltree/creation.py:split_plane", "numba_celltree/creation.py:build"]}
{"id": "C80", "title": "Triangle weights in binary64", "statement": "In binary64 arithmetic, for a mesh of triangles that are not thin (the squared size at most kappa times twice the area) and a tolerance above the rounding errors but small compared to the triangles, compute_barycentric_weights returns without a division by zero for every list of points; the weights of a located point sum to one up to 4/2^53, the weighted sum of the corners is within 18 kappa tolerances of the point, the second and third weights are not negative and the first is not below minus 27 kappa tolerances divided by the size of the triangle.", "quantifier": "every mesh of triangles that are not thin, every list of finite points (up to 2^200 in size)", "why_tests_cant": "a continuum of triangles and points; rounding errors depend on every bit of the coordinates", "anchors": ["numba_celltree/algorithms/barycentric_triangle.py:compute_weights", "numba_celltree/algorithms/barycentric_triangle.py:barycentric_triangle_weights", "numba_celltree/celltree.py:CellTree2d.compute_barycentric_weights"]}
{"id": "C81", "title": "Areas add up", "statement": "For a mesh of convex faces that do not overlap each other, the areas that intersect_boxes (intersect_faces) reports for one query box (face) add up to the area that the box (face) has in common with the mesh as a whole. If the mesh covers the box (face), they add up to its area; the same holds for the areas per mesh face, if the query faces do not overlap each other. (This is what makes area-weighted regridding conservative.)", "quantifier": "every mesh of convex faces without overlap, every list of boxes or convex query faces, every number of threads and schedule of the parallel loops; exact arithmetic", "why_tests_cant": "a statement about all sums over the pairs that the tree search finds; tests compare with areas of a few fixed meshes", "anchors": ["numba_celltree/celltree.py:CellTree2d.intersect_boxes", "numba_celltree/celltree.py:CellTree2d.intersect_faces", "numba_celltree/algorithms/sutherland_hodgman.py:area_of_intersection"]}
{"id": "C82", "title": "Pieces of an edge leave no gaps and do not overlap", "statement": "Where an edge is covered by a mesh of convex faces, the pieces that CellTree2d.intersect_edges reports for it leave no gap: every point of the covered part is in a reported piece. Two reported pieces in faces that do not overlap have only points in common that are on the boundary of both faces, if the ends of the edge are not just outside (within the tolerance) of these faces.", "quantifier": "every mesh of strictly convex faces, every list of edges, every number of threads and schedule of the parallel loops; exact arithmetic", "why_tests_cant": "a statement about all points of an edge; tests compare end points on a few meshes", "anchors": ["numba_celltree/celltree.py:CellTree2d.intersect_edges", "numba_celltree/query.py:make_locate_edges", "numba_celltree/algorithms/cyrus_beck.py:cyrus_beck_line_polygon_clip"]}
{"id": "C83", "title": "Different queries agree", "statement": "Queries that answer related questions agree. compute_barycentric_weights returns the faces of locate_points. Every pair of intersect_boxes is a pair of locate_boxes, every pair of intersect_faces is one of locate_faces, and every pair of locate_faces is one of locate_boxes for the bounding boxes, in the same order. In exact arithmetic, for convex faces: intersect_faces and locate_faces report the same pairs in the same order; the two meshes of intersect_faces can be exchanged; a box can be given to intersect_faces as a rectangle; points of the pieces reported by intersect_edges are located by locate_points.", "quantifier": "every tree and query; the first part in every arithmetic", "why_tests_cant": "relates the results of two calls on arbitrary inputs; tests check each function alone", "anchors": ["numba_celltree/celltree.py:CellTree2d.compute_barycentric_weights", "numba_celltree/celltree.py:CellTree2d.locate_points", "numba_celltree/celltree.py:CellTree2d.locate_boxes", "numba_celltree/celltree.py:CellTree2d.intersect_boxes", "numba_celltree/celltree.py:CellTree2d.locate_faces", "numba_celltree/celltree.py:CellTree2d.intersect_faces", "numba_celltree/celltree.py:CellTree2d.intersect_edges"]}
{"id": "C84", "title": "Vertices of a generated disk", "statement": "demo.generate_disk returns, for at least three partitions and a depth d >= 0, the centre and partitions * k points at equal angles on the circle of radius k / d, for k = 1, ..., d: 1 + partitions * d * (d + 1) / 2 vertices in the unit disk, no two of them equal, the last partitions * d of them on the unit circle. Fewer than three partitions are rejected with a ValueError; a negative depth raises an IndexError.", "quantifier": "every number of partitions and every depth; real numbers", "why_tests_cant": "tests generate a few disks and check shapes", "anchors": ["numba_celltree/demo.py:generate_disk"]}
{"id": "C85", "title": "Touching edges", "statement": "EdgeCellTree2d.intersect_edges reports every edge of the network that has a point in common with the query edge, also if an end of one lies on the other. In particular a query that passes through a vertex of the network from one side to the other is reported for at least one of the edges that meet there.", "quantifier": "all networks and query edges, both directions of both edges, every number of threads; exact arithmetic", "why_tests_cant": "tests use edges in general position, or a few touching edges in one direction", "anchors": ["numba_celltree/edge_celltree.py:intersect_edges", "numba_celltree/query.py:compute_edge_edge_intersect", "numba_celltree/geometry_utils.py:lines_intersect", "numba_celltree/geometry_utils.py:left_of"]}
{"id": "C86", "title": "Interpolation weights of polygons in double precision", "statement": "In double precision, for meshes of convex faces that are not too thin compared to the tolerance and a tolerance not smaller than the rounding errors, CellTree2d.compute_barycentric_weights returns without exception for all query points; for a located point the weights are finite, one for each corner of the face followed by zeros, they sum to one up to a few units of rounding, the weighted sum of the corners is within a fixed multiple of the tolerance of the point, and weights can be negative only by a multiple of the tolerance relative to the size of the face.", "quantifier": "all meshes with a face of more than three corners (or a wider array), all orientations of the faces, all query points, all thread schedules", "why_tests_cant": "Tests compare the weights of a few points in one quadrilateral to values; the bound must hold for every polygon and point, including points on and just beside the sides, where the formula divides by products of areas that vanish, and the code changes to linear interpolation.", "anchors": ["numba_celltree/celltree.py:CellTree2d.compute_barycentric_weights", "numba_celltree/algorithms/barycentric_wachspress.py:compute_weights", "numba_celltree/algorithms/barycentric_wachspress.py:interp_edge_case"]}
{"id": "C87", "title": "Vertex numbering does not matter", "statement": "Two meshes whose faces have the same corner coordinates, listed in the same order, give the same tree and the same results of all queries of CellTree2d, including exceptions: it does not matter how the vertices are numbered, whether vertices are listed twice or not used at all, which fill value is used and how many padding columns the face table has (interpolation weights: for the same number of columns). The same holds for the faces passed to locate_faces and intersect_faces.", "quantifier": "all meshes, all renumberings of their vertices, all fill values and numbers of columns, all queries, any arithmetic, all thread schedules", "why_tests_cant": "A test tries a few renumberings; the statement is about every pair of tables that describe the same faces, also in floating point and for queries that raise.", "anchors": ["numba_celltree/celltree.py:CellTree2d.__init__", "numba_celltree/geometry_utils.py:build_face_bboxes", "numba_celltree/geometry_utils.py:copy_vertices", "numba_celltree/geometry_utils.py:counter_clockwise"]}
{"id": "C88", "title": "Vertex numbering of edge networks does not matter", "statement": "Two networks with the same edges (the same end points, in the same order) give the same results of all queries of EdgeCellTree2d, however the vertices are numbered and whether or not some vertices are unused.", "quantifier": "all networks, all renumberings and unused vertices, all queries, any arithmetic, all thread schedules", "why_tests_cant": "A test tries a few networks; an influence of a vertex that no edge uses only shows for particular combinations of a far vertex and a query near an edge.", "anchors": ["numba_celltree/edge_celltree.py:EdgeCellTree2d.__init__", "numba_celltree/edge_celltree.py:EdgeCellTree2d.locate_points", "numba_celltree/edge_celltree.py:EdgeCellTree2d.intersect_edges"]}
{"id": "C89", "title": "The queries of one call do not influence each other", "statement": "Every query call with several points, boxes, faces or edges returns exactly if each single query alone returns, and its result is then the concatenation of the results of the single queries, in the order of the queries and labelled with their numbers, including the order of the answers, the areas, intersection points and weights to the last bit. The answers do not depend on which other queries are in the call, on the number of threads or on the schedule.", "quantifier": "all trees, all lists of queries of any length, all numbers of threads and schedules, exact and binary64 arithmetic", "why_tests_cant": "Buffers that are shared between queries, grown when full or divided over threads leak only for particular numbers of answers; tests use a few fixed lists.", "anchors": ["numba_celltree/celltree.py:CellTree2d.locate_points", "numba_celltree/celltree.py:CellTree2d.locate_boxes", "numba_celltree/celltree.py:CellTree2d.intersect_boxes", "numba_celltree/celltree.py:CellTree2d.locate_faces", "numba_celltree/celltree.py:CellTree2d.intersect_faces", "numba_celltree/celltree.py:CellTree2d.intersect_edges", "numba_celltree/celltree.py:CellTree2d.compute_barycentric_weights", "numba_celltree/edge_celltree.py:EdgeCellTree2d.intersect_edges"]}
{"id": "C90", "title": "Pieces of edges in double precision", "statement": "In binary64 arithmetic, for edges in general position (not too close to a corner of a bounding box, of a face, or with an end too close to a side of a face) CellTree2d.intersect_edges returns normally: it ends, and raises no exception. Every pair of an edge and a face is reported at most once, in the order of the edges, and only if the edge passes close to the bounding box of the face. The two points reported for a pair are the ends of the exact piece of the edge in the face, up to a small multiple of the rounding errors divided by how clearly the edge passes between the corners. An edge that passes through a square in the face of about that size is reported.", "quantifier": "every mesh of convex faces with coordinates from 2^-147 to 2^199 in size, in either orientation, every list of edges in general position, every number of threads and schedule of the parallel loops", "why_tests_cant": "a statement about the rounding errors of two clipping algorithms after each other, on a continuum of edges and faces; tests compare with values on small integer grids", "anchors": ["numba_celltree/celltree.py:CellTree2d.intersect_edges", "numba_celltree/query.py:compute_edge_face_intersect", "numba_celltree/algorithms/cohen_sutherland.py:cohen_sutherland_line_box_clip", "numba_celltree/algorithms/cyrus_beck.py:cyrus_beck_line_polygon_clip"]}
{"id": "C91", "title": "Crossings of edge networks in double precision", "statement": "In binary64 arithmetic, for query edges that do not pass very close to a corner of the box of the network, EdgeCellTree2d.intersect_edges returns normally: it ends, and raises no exception. Every pair of a query and an edge of the network is reported at most once, in the order of the queries. For a query and an edge of the network that are in general position (no end of one very close to the line of the other, compared to the tolerance and the rounding errors), the pair is reported only if the two really cross; the reported location is then the exact crossing, up to a small multiple of the rounding errors divided by how clearly they cross. If they cross, and the query does not only pass along the border of the box of the network, the pair is reported.", "quantifier": "every network of edges with coordinates from 2^-147 to 2^199 in size, every list of query edges away from the corners of the box, every number of threads and schedule of the parallel loops", "why_tests_cant": "a statement about the rounding errors of the search, the clipping and the crossing, on a continuum of pairs of edges; tests compare with values on small integer grids", "anchors": ["numba_celltree/edge_celltree.py:EdgeCellTree2d.intersect_edges", "numba_celltree/query.py:compute_edge_edge_intersect", "numba_celltree/geometry_utils.py:lines_intersect", "numba_celltree/algorithms/cohen_sutherland.py:cohen_sutherland_line_box_clip"]}
{"id": "C92", "title": "Areas of intersection of rectangles in double precision", "statement": "In binary64 arithmetic, if all faces of the mesh are rectangles with sides along the axes (their corners given in either order, starting at any corner), CellTree2d.intersect_boxes, and CellTree2d.intersect_faces with such rectangles as query, return normally, and for every pair of a query and a face the reported area is the area of the rectangle that they have in common, up to an error of the size of 2^-40 times the largest coordinate, times the width and height of what they have in common. A pair is reported if and only if its computed area is positive, once. A pair that has nothing in common, or that only touches along a side or in a corner, is never reported. This includes the cases that are usual in regridding: sides on the same line, and common corners.", "quantifier": "every mesh of rectangles and every list of query rectangles with coordinates from 2^-147 to M in size, with sides of at least M/2^42, for every M from 2^-100 to 2^198, every number of threads and schedule of the parallel loops", "why_tests_cant": "rounding errors of the clipping depend on the values; coincident sides are where the decisions of the clipping are decided by rounding; tests use small integers without rounding errors", "anchors": ["numba_celltree/celltree.py:CellTree2d.intersect_boxes", "numba_celltree/celltree.py:CellTree2d.intersect_faces", "numba_celltree/algorithms/sutherland_hodgman.py:polygon_polygon_clip_area", "numba_celltree/algorithms/separating_axis.py:separating_axes"]}
{"id": "C93", "title": "Areas of rectangles add up in double precision", "statement": "In binary64 arithmetic, for a mesh of rectangles with sides along the axes, the areas that CellTree2d.intersect_boxes reports for one box add up to the area that the box has in common with the faces, up to the number of faces that it overlaps times an error of 2^-40 times the largest coordinate times the size of the box. If the faces cover the box without overlapping each other, they add up to the area of the box. The same holds for CellTree2d.intersect_faces with rectangles as query faces, for the areas of one query face and for the areas of one face of the mesh: what is regridded from one raster to another is conserved, up to rounding.", "quantifier": "every mesh of rectangles and every list of query rectangles with coordinates from 2^-147 to M in size, with sides of at least M/2^42, for every M from 2^-100 to 2^198; every way in which the faces tile a query or the queries tile a face; every number of threads and schedule of the parallel loops", "why_tests_cant": "the sum over any number of faces, in any tiling, with the rounding errors of every area; tests compare areas of a few pairs with small integers", "anchors": ["numba_celltree/celltree.py:CellTree2d.intersect_boxes", "numba_celltree/celltree.py:CellTree2d.intersect_faces", "numba_celltree/algorithms/sutherland_hodgman.py:polygon_polygon_clip_area"]}
{"id": "C94", "title": "Rebuilding from the attributes of a tree", "statement": "For a mesh of convex faces, a tree that is built from the attributes vertices and faces of a CellTree2d (with fill value -1) is the same as a tree that is built from the arrays of the caller: the same stored faces, bounding boxes, nodes and order of the faces, for all values of n_buckets and cells_per_leaf, so that all queries give the same results in the same order. In particular the order of the corners is not changed a second time.", "quantifier": "every mesh of convex faces in either order, with or without straight corners and fill values (exact arithmetic); every mesh of rectangles in binary64; in any arithmetic, every mesh whose stored faces are not reversed again; every schedule of the parallel loops", "why_tests_cant": "tests never build a tree from the arrays of another tree; whether a second pass changes the order depends on the signs of cross products of every corner", "anchors": ["numba_celltree/celltree.py:CellTree2d.__init__", "numba_celltree/geometry_utils.py:counter_clockwise", "numba_celltree/celltree_base.py:CellTree2dBase"]}
{"id": "C95", "title": "Box search only compares coordinates", "statement": "CellTree2d.locate_boxes finds the same pairs after any change of the x-coordinates, and any of the y-coordinates, that keeps the order of the values that occur (stretching, translation, rounding without ties, another number type), after a mirroring (with the sides of the boxes exchanged), and after exchange of x and y; also if the trees are built with other parameters. In particular a mesh with rounded coordinates gives the same pairs as the exact one, as long as rounding makes no two different coordinates equal.", "quantifier": "every mesh with comparable coordinates, every list of boxes, every strictly monotone change of the coordinates that occur, all parameters of both trees, all numbers of threads and schedules; exact and binary64 arithmetic, and between them", "why_tests_cant": "relates two calls on two meshes for every monotone function; buckets, split planes and their costs are computed from the coordinates and change completely", "anchors": ["numba_celltree/celltree.py:CellTree2d.locate_boxes", "numba_celltree/query.py:locate_boxes", "numba_celltree/query.py:locate_box", "numba_celltree/creation.py:build"]}
{"id": "C96", "title": "Areas in other coordinates", "statement": "If the vertices of the mesh and of the query faces are moved, rotated, scaled, sheared or mirrored, intersect_faces should report the same pairs, in the same order of the query faces, with all areas multiplied by the factor by which the transformation changes areas. intersect_boxes likewise, if mesh and boxes are translated and stretched. (The code violates this for mirrored meshes: for a triangle with an extra corner in the middle of a side and a square around it, the area is reported, and for their mirror images nothing is reported.) It holds for all transformations that keep the orientation, and for all transformations of strictly convex faces.", "quantifier": "every pair of meshes of convex faces, every invertible affine transformation, all parameters of both trees, all numbers of threads and schedules; real arithmetic", "why_tests_cant": "relates two calls on different coordinates; the trees, the order of the search and the separating axes change completely", "anchors": ["numba_celltree/celltree.py:CellTree2d.intersect_faces", "numba_celltree/celltree.py:CellTree2d.intersect_boxes", "numba_celltree/geometry_utils.py:counter_clockwise", "numba_celltree/algorithms/sutherland_hodgman.py:polygon_polygon_clip_area"]}
{"id": "C97", "title": "Areas of intersection of convex polygons in double precision", "statement": "In binary64 arithmetic, CellTree2d.intersect_boxes and CellTree2d.intersect_faces return normally on strictly convex faces (their corners given in either order) that are in general position with the boxes or faces of the query, and the reported area of every pair is the area that the two polygons have in common, up to an error of the size of (number of corners)^2 times 2^-40 times the largest coordinate times the size of the pair, divided by the sine of the smallest angle between two sides. A pair is reported if and only if its computed area is positive, once. A pair without common interior points is never reported.", "quantifier": "every mesh and query with coordinates of at most M, for every M from 2^-100 to 2^198, such that every pair with overlapping bounding boxes is in general position: no side of one is a side of the other, two sides are parallel or have clearly different directions, and no three sides come near to meeting in one point of the query polygon (all compared to 2^-35 M); every number of threads and schedule of the parallel loops", "why_tests_cant": "the rounding errors of one cut are the input of the next cut, and decide which corners are kept; tests use small integers without rounding errors", "anchors": ["numba_celltree/celltree.py:CellTree2d.intersect_boxes", "numba_celltree/celltree.py:CellTree2d.intersect_faces", "numba_celltree/algorithms/sutherland_hodgman.py:polygon_polygon_clip_area", "numba_celltree/algorithms/separating_axis.py:separating_axes"]}
{"id": "C98", "title": "Areas of intersection of convex polygons add up in double precision", "statement": "In binary64 arithmetic, the areas that CellTree2d.intersect_boxes and CellTree2d.intersect_faces report for one box or query face add up to the area that it has in common with the mesh, if no two faces of the mesh have common interior points; if the mesh covers it, they add up to its own area. The areas that intersect_faces reports for one face of the mesh add up to the area that it has in common with the query mesh. The error is at most the sum of the errors of the pairs (C97) that have an area in common, so the number of pairs that only have overlapping bounding boxes does not matter.", "quantifier": "every mesh and query that satisfy the conditions of C97: strictly convex faces in either orientation, every pair with overlapping bounding boxes in general position; every number of threads and schedule", "why_tests_cant": "conservation is a statement about all pairs at once: a missing sliver, or a pair that is reported twice, shows only in totals, and tests compare totals of a few meshes with a tolerance", "anchors": ["numba_celltree/celltree.py:CellTree2d.intersect_boxes", "numba_celltree/celltree.py:CellTree2d.intersect_faces", "numba_celltree/algorithms/sutherland_hodgman.py:polygon_polygon_clip_area"]}
{"id": "C99", "title": "Interpolated values", "statement": "Values at the vertices that are interpolated with the weights of CellTree2d.compute_barycentric_weights are between the smallest and the largest value at the vertices of the face, and affine functions of the coordinates are reproduced at the point; a point gets no face only if it is in no face. On a conforming mesh of strictly convex faces (wherever two faces meet they share the vertex or the whole side) the interpolated value does not depend on n_buckets, cells_per_leaf or the number of threads, although a point on a shared side may be located in another face: interpolation is continuous over the mesh.", "quantifier": "every mesh of convex faces in either orientation, every list of points that are not within the tolerance of a line through a side without being on that side, all values at the vertices, all pairs of parameters, all schedules of the parallel loops (exact arithmetic)", "why_tests_cant": "relates the results of two trees in which points on sides are found in different faces, for every function on the vertices; tests compare weights of a few points in one tree", "anchors": ["numba_celltree/celltree.py:CellTree2d.compute_barycentric_weights", "numba_celltree/algorithms/barycentric_wachspress.py:barycentric_wachspress_weights", "numba_celltree/algorithms/barycentric_triangle.py:barycentric_triangle_weights", "numba_celltree/query.py:locate_points"]}
{"id": "C100", "title": "A mesh intersected with itself", "statement": "If the faces of the query mesh are the faces of the tree (with the vertices in any numbering, and the corners in either order and starting at any corner), and no two faces overlap, CellTree2d.intersect_faces returns exactly one row per face, in order: face i with face i, and the area of the face. Neighbours, which share a side or a corner, are not reported. In binary64 arithmetic this holds for meshes of rectangles with sides along the axes, with the area up to rounding.", "quantifier": "every mesh of convex faces without overlap and every copy of it in exact arithmetic; every mesh of rectangles with coordinates up to M and sides of at least M/2^38 in binary64; all parameters of the tree, all numbers of threads and schedules", "why_tests_cant": "all sides of the two meshes coincide, so the separating axes and the clipping are decided by ties for every pair; tests check one small mesh with itself", "anchors": ["numba_celltree/celltree.py:CellTree2d.intersect_faces", "numba_celltree/algorithms/sutherland_hodgman.py:area_of_intersection", "numba_celltree/algorithms/separating_axis.py:polygons_intersect"]}
{"id": "C101", "title": "Edge queries commute with affine changes of coordinates", "statement": "If mesh and query edges are moved, rotated, mirrored, sheared or stretched (any invertible affine map), CellTree2d.intersect_edges returns, for every strictly convex face and every edge whose ends are not within the tolerance outside of the face in either coordinates, the transformed begin and end of the piece, and a pair is in the one result exactly if it is in the other. EdgeCellTree2d.intersect_edges returns for every query that properly crosses an edge of the network, and is not nearly parallel to it in either coordinates, the transformed crossing, once. The trees may be built with different parameters.", "quantifier": "for all meshes and networks, all invertible affine maps, all query edges, all tree parameters, numbers of threads and schedules", "why_tests_cant": "The map, the mesh and the edges are arbitrary; the tree is split differently in other coordinates, faces change between clockwise and counter-clockwise, and different sides are entered first.", "anchors": ["numba_celltree/celltree.py:CellTree2d.intersect_edges", "numba_celltree/edge_celltree.py:EdgeCellTree2d.intersect_edges", "numba_celltree/algorithms/cyrus_beck.py:cyrus_beck_line_polygon_clip", "numba_celltree/query.py:make_locate_edges", "numba_celltree/query.py:locate_edge_edges"]}
{"id": "C102", "title": "The interpolated value is the Wachspress mean", "statement": "On a mesh of strictly convex faces, the weights that CellTree2d.compute_barycentric_weights returns for a located point that is on no side of its face give the Wachspress mean of the values at the vertices: the weight of a vertex is proportional to the area of the triangle of the vertex and its neighbours, divided by the areas of the triangles of the point with the two sides at the vertex. This holds for triangles (where these are the barycentric coordinates) and for faces with more sides, given clockwise or counter-clockwise. For a point on a side the value is interpolated linearly along the side.", "quantifier": "for all meshes of strictly convex faces, all points (that are not within the tolerance of a side without being on it), all values at the vertices, all tree parameters and schedules", "why_tests_cant": "The weights of a polygon are not determined by reproducing affine functions: tests of partition of unity and of linear precision cannot see different weights inside of a polygon. Triangles and polygons are treated by different code.", "anchors": ["numba_celltree/celltree.py:CellTree2d.compute_barycentric_weights", "numba_celltree/algorithms/barycentric_triangle.py:compute_weights", "numba_celltree/algorithms/barycentric_wachspress.py:compute_weights"]}
{"id": "C103", "title": "Interpolated values do not depend on the coordinates", "statement": "If mesh and points are moved, rotated, mirrored, sheared or stretched (any invertible affine map), the values interpolated with the weights of CellTree2d.compute_barycentric_weights stay the same on a conforming mesh of strictly convex faces, for every point that is not within the tolerance of a side without being on it in either coordinates; a point is not located in the one exactly if it is not located in the other. This includes points on shared sides and vertices, which may be located in different faces.", "quantifier": "for all conforming meshes of strictly convex faces, all invertible affine maps, all points, all values at the vertices, all tree parameters, tolerances and schedules", "why_tests_cant": "The map, mesh, points and values are arbitrary; the tree is split differently in other coordinates, faces are reversed by mirroring, and points on sides move to other faces.", "anchors": ["numba_celltree/celltree.py:CellTree2d.compute_barycentric_weights", "numba_celltree/algorithms/barycentric_triangle.py:compute_weights", "numba_celltree/algorithms/barycentric_wachspress.py:compute_weights", "numba_celltree/query.py:locate_points"]}
{"id": "C104", "title": "The roles of the two meshes can be exchanged", "statement": "For two meshes A and B of convex faces, the table (face of A, face of B, common area) from CellTree2d.intersect_faces is the same, up to order, whether the tree is built on B and queried with A or built on A and queried with B; CellTree2d.locate_faces likewise gives the same pairs. For two networks, an edge that properly crosses an edge of the other network, and is not nearly parallel to it, is reported by EdgeCellTree2d.intersect_edges with the same crossing point in both roles. In binary64, for meshes of rectangles, the two areas of a pair differ by no more than the two rounding errors, and a pair without common area is reported in neither role.", "quantifier": "for all pairs of meshes of convex faces (networks, meshes of rectangles), all tree parameters, numbers of threads and schedules", "why_tests_cant": "Both meshes are arbitrary; the two runs go through different trees, and clip each face of the one by the other in the opposite order.", "anchors": ["numba_celltree/celltree.py:CellTree2d.intersect_faces", "numba_celltree/celltree.py:CellTree2d.locate_faces", "numba_celltree/celltree.py:EdgeCellTree2d.intersect_edges", "numba_celltree/algorithms/sutherland_hodgman.py:area_of_intersection", "numba_celltree/algorithms/separating_axis.py:separating_axes"]}
{"id": "C105", "title": "The order of the faces, their first corners and their directions do not matter", "statement": "Take a mesh and the same mesh with its faces in another order, each face starting at another corner, listed in the other direction, and padded with another fill value. After translating the face numbers, locate_boxes and intersect_boxes, locate_faces and intersect_faces (with the queried faces rearranged as well), locate_points and intersect_edges of CellTree2d give the same table up to order, and interpolated values on a conforming mesh are equal. For areas and face pairs the faces are convex and a face listed clockwise does not end with a straight corner; for edges and values they are strictly convex.", "quantifier": "for all meshes, all rearrangements of the faces and their corners, and all queries", "why_tests_cant": "Tests compare a few fixed meshes; whether some rearrangement changes a result depends on the tree, on the first tested corner and on the direction.", "anchors": ["numba_celltree/celltree.py:CellTree2d", "numba_celltree/geometry_utils.py:copy_vertices", "numba_celltree/algorithms/sutherland_hodgman.py:area_of_intersection"]}
{"id": "C106", "title": "The first corner of a face with hanging nodes does not matter", "statement": "The areas of CellTree2d.intersect_boxes do not depend on the corner with which the list of corners of a convex face starts, nor on its direction, also if the face has straight corners (hanging nodes).", "quantifier": "for all meshes of convex faces, with straight corners allowed", "why_tests_cant": "Only a clockwise face that ends with a straight corner shows the difference.", "anchors": ["numba_celltree/celltree.py:CellTree2d.intersect_boxes", "numba_celltree/celltree.py:CellTree2d.__init__"]}
{"id": "C107", "title": "The order of the edges of a network does not matter", "statement": "If the edges of a network are listed in another order, EdgeCellTree2d.intersect_edges gives, after translating the edge numbers, the same table of crossings with the same locations, up to order. EdgeCellTree2d.locate_points, with a tolerance that is small compared to the network, finds the same points, also if edges are listed in the other direction.", "quantifier": "for all networks, all permutations of the edges, and all queries", "why_tests_cant": "The tree depends on the order of the edges; tests use a few fixed networks.", "anchors": ["numba_celltree/edge_celltree.py:EdgeCellTree2d.intersect_edges", "numba_celltree/edge_celltree.py:EdgeCellTree2d.locate_points"]}
{"id": "C108", "title": "The directions of edges do not matter", "statement": "The crossings reported by EdgeCellTree2d.intersect_edges do not depend on the directions of the edges of the network and of the query edges.", "quantifier": "for all networks, queries and directions", "why_tests_cant": "A difference only shows for edges that touch, or of which one points at an end of the other.", "anchors": ["numba_celltree/edge_celltree.py:EdgeCellTree2d.intersect_edges", "numba_celltree/geometry_utils.py:lines_intersect"]}
{"id": "C109", "title": "Crossings of edges never raise", "statement": "For finite coordinates EdgeCellTree2d.intersect_edges raises no exception in binary64 arithmetic.", "quantifier": "for all networks and query edges with finite coordinates", "why_tests_cant": "The division is guarded by a comparison that only fails if the squared length of the query, times the squared tolerance, is rounded to zero.", "anchors": ["numba_celltree/edge_celltree.py:EdgeCellTree2d.intersect_edges", "numba_celltree/geometry_utils.py:intersection_location_point"]}
{"id": "C110", "title": "Location of points in rectangles in double precision", "statement": "In binary64 arithmetic, on a mesh of rectangles with sides along the axes, CellTree2d.locate_points finds every point of every closed rectangle, also with the default tolerance and for coordinates that are large compared to the rectangles. A point is only located in a rectangle that contains it or from which it is not farther than the tolerance (with a relative error of 2^-47). A point of one rectangle that is farther from all others is located in that one.", "quantifier": "for all meshes of rectangles with coordinates up to 2^200 and sides of at least 2^-200, given in either direction and from any corner, all finite points, tolerances from 2^-200 to 2^200 including the default, all thread schedules", "why_tests_cant": "In general the same is false (C67): next to slanted sides points are lost by rounding. That no rounding error matters for sides along the axes is not visible from tests that happen to pass.", "anchors": ["numba_celltree/celltree.py:CellTree2d.locate_points", "numba_celltree/geometry_utils.py:point_in_polygon_or_on_edge", "numba_celltree/celltree_base.py:default_tolerance"]}
{"id": "C111", "title": "Location of points on edges along the axes in double precision", "statement": "In binary64 arithmetic, on a network of horizontal and vertical edges, EdgeCellTree2d.locate_points finds every point of every edge, also when the point was rounded to binary64, with the default tolerance, and for coordinates that are large compared to the edges. A point is only located on an edge that contains it or from which it is not farther than the tolerance (with a relative error of 2^-47), and never beyond the ends of the edge. A point of one edge that is farther from all others is located on that one.", "quantifier": "for all networks of edges along the axes, in both directions, with coordinates up to 2^200 and lengths of at least 2^-200 (edges of length zero are allowed too), all points, tolerances from 2^-200 to 2^200 including the default, all thread schedules", "why_tests_cant": "For edges in other directions the same is false (C73): nearly all rounded points of an edge are lost. Tests with a handful of simple networks cannot show the difference.", "anchors": ["numba_celltree/edge_celltree.py:EdgeCellTree2d.locate_points", "numba_celltree/geometry_utils.py:point_on_edge", "numba_celltree/celltree_base.py:default_tolerance", "numba_celltree/geometry_utils.py:build_edge_bboxes"]}
{"id": "C112", "title": "Independence of dtype", "statement": "The constructors and all queries of CellTree2d and EdgeCellTree2d depend only on the numbers in their arguments, not on the dtype of the arrays: the same vertices, points, boxes and edges as integers of any type, as float32 or as float64 give the same results, and the same faces as integers of any type, as floating point numbers, or as nested lists give the same object. Integers of up to 53 bits are taken over exactly as coordinates; the order of larger ones is not reversed.", "quantifier": "for all arrays of any shape, all integer and floating point dtypes, all face tables with values that fit in 64 bits, all fill values, parameters and thread schedules, and whatever the platform does in undefined conversions", "why_tests_cant": "Tests pass one dtype. A conversion in the wrong place (before or after replacing the fill value, or to 32 bits) shows only for particular dtypes and values.", "anchors": ["numba_celltree/cast.py:cast_vertices", "numba_celltree/cast.py:cast_faces", "numba_celltree/cast.py:cast_bboxes", "numba_celltree/cast.py:cast_edges"]}
{"id": "C113", "title": "Every fill value marks missing corners", "statement": "Entries of the face table that are equal to fill_value are treated as missing corners, for every dtype of the table and every fill value of that dtype.", "quantifier": "for all face tables of any integer or floating point dtype and all fill values", "why_tests_cant": "Fill values depend on the source of the mesh: netCDF has a different default for every type. The comparison with the fill value takes place after the conversion to int64, which changes large uint64 values.", "anchors": ["numba_celltree/cast.py:cast_faces", "numba_celltree/celltree.py:CellTree2d.__init__"]}
{"id": "C114", "title": "Nested lists in place of arrays", "statement": "Arguments that hold coordinates or tables of indices may be given as nested lists instead of arrays, with the same results: what can be located can be interpolated.", "quantifier": "for all trees, all arguments as arrays or nested lists", "why_tests_cant": "Tests pass arrays. Some entry points convert their arguments, others pass them on to compiled functions as they are, or convert them for one step only.", "anchors": ["numba_celltree/celltree.py:CellTree2d.compute_barycentric_weights", "numba_celltree/edge_celltree.py:EdgeCellTree2d.__init__", "numba_celltree/cast.py:cast_vertices", "numba_celltree/cast.py:cast_faces"]}
{"id": "C115", "title": "Trees and queries do not depend on units and origin", "statement": "If a mesh is translated and scaled, with different factors for x and y, the constructor of CellTree2d gives the same tree: the same nodes, the same cells in the same order, and node bounds in the new coordinates; or it raises the same exception. locate_boxes, with boxes in the new coordinates, gives the same pairs in the same order. If the factors for x and y are the same, locate_points with a tolerance scaled in the same way locates every point in the same face, also on sides and vertices shared by several faces, also with the default tolerance as long as its lower limit is not used.", "quantifier": "for all meshes, well-formed or not, all positive factors and all translations, all boxes and points, all numbers of buckets, leaf sizes and thread schedules, in exact arithmetic", "why_tests_cant": "Tests use meshes around the unit square. A constant that is compared with a coordinate, or buckets that are not relative to the range of the boxes, change only the shape of the tree and the choice between faces.", "anchors": ["numba_celltree/creation.py:build", "numba_celltree/celltree.py:CellTree2d.__init__", "numba_celltree/celltree.py:CellTree2d.locate_boxes", "numba_celltree/celltree.py:CellTree2d.locate_points"]}
{"id": "C116", "title": "In double precision, trees and queries do not depend on units that are powers of two", "statement": "If the coordinates of a mesh are multiplied by powers of two, which may differ for x and y, the constructor of CellTree2d gives the same tree in double precision, bit for bit: the same nodes, the same cells in the same order, and node bounds that are multiplied; or it raises the same exception. locate_boxes, with boxes in the new units, gives the same pairs in the same order. If the powers for x and y are the same, locate_points with a tolerance multiplied in the same way locates every point in the same face, with all rounding errors; so does locate_points with the default tolerance, unless one of the two meshes is so small that the lower limit of the default tolerance is in use.", "quantifier": "for all meshes whose coordinates are multiples of 2**-100 up to 2**100, all powers from 2**-100 to 2**100, all boxes and points, up to 2**53 buckets, all leaf sizes and thread schedules, in binary64", "why_tests_cant": "Tests compare locations at one scale. A comparison with an absolute constant, or an underflow, changes results only for small or large coordinates and in rare positions.", "anchors": ["numba_celltree/creation.py:build", "numba_celltree/celltree.py:CellTree2d.__init__", "numba_celltree/celltree.py:CellTree2d.locate_boxes", "numba_celltree/celltree.py:CellTree2d.locate_points", "numba_celltree/geometry_utils.py:point_in_polygon_or_on_edge"]}
{"id": "C117", "title": "Areas and clipped segments follow the units", "statement": "If a mesh and the boxes or faces of a query are expressed in other units, possibly other ones for x and y, and with another origin, intersect_boxes and intersect_faces give the same pairs in the same order, and every area is multiplied by the two unit factors; locate_faces gives the same pairs. If the unit is the same for x and y, intersect_edges gives the same pairs in the same order, and the ends of the clipped segments are the converted ends.", "quantifier": "for all meshes, boxes, query meshes and segments, all positive factors and all translations, all bucket counts, leaf sizes, thread counts and schedules; coordinates and products of coordinates in the range of floats; for intersect_edges with a factor other than one, cells larger than 0.001 in both units; exact arithmetic", "why_tests_cant": "Tests use one coordinate system. A tolerance or constant with a unit in the clipping code, or a swap of x and y in one branch, changes results only for other units.", "anchors": ["numba_celltree/celltree.py:CellTree2d.intersect_boxes", "numba_celltree/celltree.py:CellTree2d.intersect_faces", "numba_celltree/celltree.py:CellTree2d.locate_faces", "numba_celltree/celltree.py:CellTree2d.intersect_edges", "numba_celltree/algorithms/sutherland_hodgman.py:area_of_intersection", "numba_celltree/algorithms/separating_axis.py:polygons_intersect", "numba_celltree/algorithms/cyrus_beck.py:cyrus_beck_line_polygon_clip", "numba_celltree/algorithms/cohen_sutherland.py:cohen_sutherland_line_box_clip"]}
{"id": "C118", "title": "Interpolation weights do not depend on units and origin", "statement": "If a mesh and the points are expressed in another unit and with another origin, and the tolerance is converted too or the default one is used, compute_barycentric_weights gives the same faces and exactly the same weights, for triangles and for polygons, and for points within the tolerance of a side as well.", "quantifier": "for all meshes and points, all positive unit factors and translations, all tolerances, bucket counts, leaf sizes and schedules; coordinates in the range of floats; for the default tolerance and a factor other than one, some cell larger than 0.001 in both units; exact arithmetic", "why_tests_cant": "Tests compare weights in one coordinate system, and weights are ratios of areas, so that a missing factor shows only in other units.", "anchors": ["numba_celltree/celltree.py:CellTree2d.compute_barycentric_weights", "numba_celltree/algorithms/barycentric_triangle.py:compute_weights", "numba_celltree/algorithms/barycentric_wachspress.py:compute_weights", "numba_celltree/celltree_base.py:default_tolerance"]}
{"id": "C119", "title": "Networks do not depend on units and origin", "statement": "If a network and the points or segments asked for are expressed in another unit and with another origin, EdgeCellTree2d builds the same tree (the same nodes with the same edges in the same order) or fails in the same way, locate_points finds the same edges (with a converted tolerance, or the default one), and intersect_edges reports the same pairs in the same order, with locations that are the converted ones.", "quantifier": "for all networks, points and segments, all positive unit factors and translations, all tolerances, bucket counts, leaf sizes, thread counts and schedules; coordinates at least the tolerance away from the ends of the range of floats; for a factor other than one, a network wider than 0.001 in both units, and for intersect_edges only edges of length zero or longer than 0.001; exact arithmetic", "why_tests_cant": "The boxes of edges are widened by a tolerance with an absolute lower limit, and the intersection has one as well, so that networks in kilometres or degrees could behave differently from those in metres. Tests use coordinates of order one.", "anchors": ["numba_celltree/edge_celltree.py:EdgeCellTree2d.__init__", "numba_celltree/edge_celltree.py:EdgeCellTree2d.locate_points", "numba_celltree/edge_celltree.py:EdgeCellTree2d.intersect_edges", "numba_celltree/geometry_utils.py:build_edge_bboxes", "numba_celltree/geometry_utils.py:lines_intersect"]}
{"id": "C120", "title": "In double precision, weights do not depend on units that are powers of two", "statement": "If all coordinates of the mesh and of the points, and the tolerance, are multiplied by the same power of two, compute_barycentric_weights of CellTree2d returns the same face indices and bitwise the same weights, for triangles and for polygons, in spite of all rounding errors, including those of the square root and of the divisions. This also holds with the default tolerance, unless one of the two meshes is so small that its lower limit is in use. With other factors the weights are other floats.", "quantifier": "for all meshes of polygons with up to 50 vertices, all coordinates of at most 2^30 that are multiples of 2^-100 (all floats of at least 2^-47 in size, and zero), all points of that kind, all powers of two from 2^-100 to 2^100, all tolerances that are multiples of 2^-200 up to 2^100, all parameters and thread schedules", "why_tests_cant": "Tests use a tolerance for the weights. An absolute threshold, or an intermediate result that overflows or loses digits to underflow in other units, shows only for some units and sizes.", "anchors": ["numba_celltree/celltree.py:CellTree2d.compute_barycentric_weights", "numba_celltree/algorithms/barycentric_triangle.py:compute_weights", "numba_celltree/algorithms/barycentric_wachspress.py:compute_weights"]}
{"id": "C121", "title": "locate_points is exact in double precision at integer coordinates", "statement": "If the vertices and the query points have integer coordinates (at most 2^25 in magnitude), the faces are convex and at most 2^18 wide and high, then CellTree2d.locate_points with the default tolerance has no rounding or tolerance effects at all in double precision: for every query point the answer is the number of a face that contains the point (its boundary included), and the answer is -1 only if the point lies in no face. The same holds for EdgeCellTree2d.locate_points: an integer point is located if and only if it lies exactly on an edge of positive length (edges at most 2^17 wide and high).", "quantifier": "all meshes and networks with integer coordinates within the limits, all integer query points, all tree parameters, all thread schedules; IEEE double precision", "why_tests_cant": "Whether every intermediate product and sum stays representable and the tolerance separates 0 from 1 cannot be established by sampling points; a wrong margin shows only for long thin faces and particular points next to their sides.", "anchors": ["numba_celltree/geometry_utils.py:point_in_polygon_or_on_edge", "numba_celltree/geometry_utils.py:point_on_edge", "numba_celltree/query.py:locate_points", "numba_celltree/query.py:locate_points_on_edge", "numba_celltree/celltree.py:CellTree2d.locate_points", "numba_celltree/edge_celltree.py:EdgeCellTree2d.locate_points"]}
{"id": "C122", "title": "locate_faces is exact in double precision at integer coordinates", "statement": "In double precision, if the corners of the convex faces of the mesh and of the convex faces of the query have integer coordinates of at most 2^25 in absolute value, CellTree2d.locate_faces returns the pair (i, j) if and only if the interiors of face i of the query and of face j of the mesh have a point in common. Faces that only share a side or a corner are not returned. The limit on the coordinates is needed.", "quantifier": "all meshes and queries with convex faces at such coordinates, all tree parameters, thread counts and schedules", "why_tests_cant": "Tests compare a handful of faces whose overlaps are large compared with the rounding errors; that no pair of touching faces is returned needs an argument about all roundings.", "anchors": ["numba_celltree/celltree.py:CellTree2d.locate_faces", "numba_celltree/algorithms/separating_axis.py:separating_axes", "numba_celltree/algorithms/separating_axis.py:polygons_intersect"]}
{"id": "C123", "title": "Crossings of edges at integer coordinates are decided exactly in double precision", "statement": "In double precision, with nodes and queries at integer coordinates of at most 2^25, and edges and query segments at most 2^18 wide and high: a pair returned by EdgeCellTree2d.intersect_edges has a point in common, exactly. Segments that cross, and segments on one line that share a point, are returned. If an end of one segment is on the other, the pair is returned only if the rest of it is on the left. So a chain of segments that passes an edge with its corner on the edge is counted exactly once. Where two segments cross the location is given, within 2^-22 of the crossing. The limit on the size is needed.", "quantifier": "all networks and queries at such coordinates, all tree parameters, thread counts and schedules; the queries stay away from the corners of the bounding box of the network, and for completeness pass through its interior", "why_tests_cant": "Tests use a few segments in general position. Rounding of cross products, and the tolerance for parallel segments, would show only for nearly parallel or touching segments.", "anchors": ["numba_celltree/edge_celltree.py:EdgeCellTree2d.intersect_edges", "numba_celltree/geometry_utils.py:lines_intersect", "numba_celltree/geometry_utils.py:left_of", "numba_celltree/geometry_utils.py:has_overlap"]}
{"id": "C124", "title": "Areas of nested faces at integer coordinates are exact in double precision", "statement": "If the corners of all faces are at integer coordinates of at most 2^25 in magnitude, the faces are strictly convex and at most 2^18 wide and high, and every query face that overlaps a face of the mesh lies inside that face (the query is a refinement of the mesh, or the mesh itself), then intersect_faces returns in double precision exactly the pairs whose interiors share a point, and the returned area is exactly the area of the query face, without rounding error. In particular a mesh without overlap intersected with itself returns every face with itself, in order, with its exact area. intersect_boxes is exact in the same way for boxes inside every face whose bounding box they overlap. A query face that is cut by a face of the mesh does not have this guarantee.", "quantifier": "all meshes and queries of strictly convex faces with at most 32 corners at integer coordinates, all numberings, orders and directions of the corners, all tree parameters, thread counts and schedules", "why_tests_cant": "Exactness means that none of the divisions, products and sums of the clipping rounds, for every position of the corners on and inside the sides; tests compare areas up to a tolerance on a few meshes and would not notice a last bit.", "anchors": ["numba_celltree/algorithms/sutherland_hodgman.py:polygon_polygon_clip_area", "numba_celltree/geometry_utils.py:polygon_area", "numba_celltree/celltree.py:CellTree2d.intersect_faces", "numba_celltree/celltree.py:CellTree2d.intersect_boxes"]}
{"id": "C125", "title": "Grids with a spacing that is a power of two are handled exactly in double precision", "statement": "Let the coordinates of the mesh and of the points be integer multiples of one spacing 2^k (a quarter, 1/8 degree, 1/1024 m, 64 m ...), of at most 2^25 spacings from the origin, with convex faces of at most 2^18 spacings wide and high. Then in double precision CellTree2d.locate_points makes no rounding error that changes an answer: the face returned for a point contains it in exact arithmetic, boundary included, and -1 is returned only for points in no face. For the default tolerance this holds for all spacings from 2^-29 to 2^90; for an explicit tolerance from 2^k/2^140 to 2^k/2^20, for spacings from 2^-100 to 2^100. EdgeCellTree2d.locate_points is exact in the same sense on networks with such nodes and edges (2^17 spacings for the default tolerance), and CellTree2d.locate_faces returns exactly the pairs of faces that overlap with positive area, for spacings from 2^-500 to 2^300. With a spacing of 2^-60 and the default tolerance the property fails: points outside are located.", "quantifier": "for every mesh or network, every spacing that is a power of two within the limits, every point on the grid, every tree parameter and schedule", "why_tests_cant": "Tests use a handful of grids with one spacing; whether a rounding error in some cross product on some grid flips an answer cannot be seen from them, and neither can the spacing below which the fixed default tolerance spoils the answers.", "anchors": ["numba_celltree/geometry_utils.py:point_in_polygon_or_on_edge", "numba_celltree/query.py:locate_points", "numba_celltree/query.py:locate_points_on_edge", "numba_celltree/algorithms/separating_axis.py:polygons_intersect", "numba_celltree/celltree.py:CellTree2d.locate_points"]}
{"id": "C126", "title": "Interpolation weights of polygons at integer coordinates are valid in double precision and exact at the vertices", "statement": "For a mesh of strictly convex polygons (a table with more than three columns) with integer coordinates of at most 2^25 and faces of at most 2^18 wide and high, and for any points at integer coordinates, CellTree2d.compute_barycentric_weights never raises in double precision, returns the face indices of locate_points, and returns for a point in a face with n corners n weights followed by zeros, such that: every weight is a finite number in [0, 1]; the weights sum to one up to 3 n / 2^53; the weighted mean of the corners is the point up to (66 D + 3 n |p|) / 2^53 with D the size of the face, however close the point is to a side; a point on a side has weights at the two ends of that side only; and a point equal to a corner has exactly weight 1 there and 0 elsewhere, so that in a mesh without hanging nodes interpolation reproduces the values at all vertices exactly. This holds for the default tolerance and all from 2^-200 to 2^-20.", "quantifier": "for every mesh within the limits, every list of integer points, every tree parameter, tolerance in the range and schedule", "why_tests_cant": "Tests compare the weights with a reference up to a tolerance on a few polygons. They cannot exclude that for some thin polygon and some point next to a side a weight is negative, above one, NaN or that the weights are far from summing to one, and do not check exactness at the vertices.", "anchors": ["numba_celltree/algorithms/barycentric_wachspress.py:interp_edge_case", "numba_celltree/algorithms/barycentric_wachspress.py:compute_weights", "numba_celltree/algorithms/barycentric_wachspress.py:barycentric_wachspress_weights", "numba_celltree/celltree.py:CellTree2d.compute_barycentric_weights"]}
{"id": "C127", "title": "Interpolation weights of triangles at integer coordinates are accurate in double precision however thin the triangles are", "statement": "For a mesh of triangles with integer coordinates of at most 2^25 and triangles of at most 2^18 wide and high, and for any points at integer coordinates, CellTree2d.compute_barycentric_weights never raises in double precision, returns the face indices of locate_points, and for a point in a triangle the three weights are the barycentric coordinates of the point: the second and the third with a relative error of at most 3/2^53 and in [0, 1], the first with an absolute error of at most 5/2^53 and in [-4/2^53, 1] (it can be negative). The weights sum to one up to 2/2^53 and give the point back up to (3 D + 2 |a|)/2^53, with D the size of the triangle and a its first corner. At the first corner the weights are exactly (1, 0, 0); at the two others the weight is 1 or 1 - 2^-53. If twice the area of the triangle is a power of two, all weights are exact.", "quantifier": "for every mesh of triangles within the limits, every list of integer points, every tree parameter, tolerance from 2^-200 to 2^-20 or default, and schedule", "why_tests_cant": "Tests compare the weights for a few triangles with a tolerance of many orders above the rounding errors; the weights of points in slivers, where rounding errors are usually amplified without limit, are not tested, and neither is exactness.", "anchors": ["numba_celltree/algorithms/barycentric_triangle.py:compute_weights", "numba_celltree/algorithms/barycentric_triangle.py:barycentric_triangle_weights", "numba_celltree/celltree.py:CellTree2d.compute_barycentric_weights"]}
{"id": "C128", "title": "Pieces of horizontal, vertical and diagonal edges in faces at integer coordinates are decided exactly in double precision", "statement": "For a mesh of strictly convex faces at integer coordinates, at most 4096 wide and high, and edges between integer points that are horizontal, vertical or diagonal, intersect_edges in double precision reports an edge and a face exactly if a piece of positive length of the edge lies in the face, each pair once and in the order of the edges. This holds also for edges along sides and through corners. End points of reported pieces are exact where they are end points of the edge and otherwise within 2**-26.", "quantifier": "all meshes of strictly convex faces at integer coordinates up to 2**25 with extents up to 2**12; all lists of edges in the eight compass directions with extents up to 2**24, wherever they run; all tree parameters, numbers of threads and schedules", "why_tests_cant": "Touching a corner, running along a side and passing through a vertex are decided by comparisons of quotients that are rounded, and the outcome depends on the numbers. Tests use a few small grids.", "anchors": ["numba_celltree/celltree.py:CellTree2d.intersect_edges", "numba_celltree/algorithms/cyrus_beck.py:cyrus_beck_line_polygon_clip", "numba_celltree/algorithms/cohen_sutherland.py:cohen_sutherland_line_box_clip", "numba_celltree/query.py:make_locate_edges"]}
{"id": "C129", "title": "Edges between integer points in any direction are decided exactly in double precision", "statement": "For a mesh of strictly convex faces at integer coordinates and edges between integer points in any direction, intersect_edges in double precision should return, and report an edge and a face exactly if a piece of positive length of the edge lies in the face. (The code violates this: with the single rectangle [-5, 3] x [-5, -2] and the edge from (-6, -7) to (12, 3) it never returns.) It holds for edges with extents up to 4096 that are in a compass direction or do not touch a corner of the bounding box of a face or of the mesh; touching corners and sides of faces elsewhere is no problem.", "quantifier": "all meshes of strictly convex faces at integer coordinates up to 2**25 with extents up to 2**12; all lists of such edges; all tree parameters, numbers of threads and schedules", "why_tests_cant": "An endless loop is not a test result, and it depends on one rounding error. Most edges through a corner of a bounding box do not trigger it.", "anchors": ["numba_celltree/celltree.py:CellTree2d.intersect_edges", "numba_celltree/algorithms/cyrus_beck.py:cyrus_beck_line_polygon_clip", "numba_celltree/algorithms/cohen_sutherland.py:cohen_sutherland_line_box_clip", "numba_celltree/query.py:make_locate_edges"]}
{"id": "C130", "title": "Edges at integer coordinates do not depend on origin, axes and direction in double precision", "statement": "Take a mesh of strictly convex faces and edges at integer coordinates, and the same mesh and edges in other integer coordinates: shifted, turned by quarter turns, reflected, scaled or sheared by any invertible affine map, with faces and edges possibly listed in the other direction, and a tree with other tuning parameters. In double precision intersect_edges reports the same pairs of edges and faces for both, and the end points of each piece belong to the same exact piece up to 2**-26.", "quantifier": "all pairs of such meshes with coordinates up to 2**25 and face extents up to 2**12; all invertible affine maps between them; all lists of edges that are in compass directions or do not touch a corner of a bounding box, with lengths as in C128 and C129; all tree parameters, numbers of threads and schedules", "why_tests_cant": "For general coordinates the direction of an edge does matter (C70), and rounding differs in each coordinate system. A test compares a few shifts.", "anchors": ["numba_celltree/celltree.py:CellTree2d.intersect_edges", "numba_celltree/algorithms/cyrus_beck.py:cyrus_beck_line_polygon_clip", "numba_celltree/algorithms/cohen_sutherland.py:cohen_sutherland_line_box_clip", "numba_celltree/query.py:make_locate_edges"]}
{"id": "C131", "title": "Dividing an edge at an integer point does not change which faces are found in double precision", "statement": "For a mesh of strictly convex faces at integer coordinates and a horizontal, vertical or diagonal edge between integer points that is divided at an integer point on it, intersect_edges in double precision reports the edge with a face exactly if it reports the first or the second part with that face.", "quantifier": "all meshes of strictly convex faces at integer coordinates up to 2**25 with extents up to 2**12; all lists of edges in the eight compass directions with extents up to 2**24 and all integer points on them, the ends included; all tree parameters, numbers of threads and schedules", "why_tests_cant": "The parts end on sides and in corners of faces, or inside, and each gives other quotients to round. Tests do not compare an edge with its parts.", "anchors": ["numba_celltree/celltree.py:CellTree2d.intersect_edges", "numba_celltree/algorithms/cyrus_beck.py:cyrus_beck_line_polygon_clip", "numba_celltree/algorithms/cohen_sutherland.py:cohen_sutherland_line_box_clip", "numba_celltree/query.py:make_locate_edges"]}
{"id": "C132", "title": "Ends of edges in a face are reported unchanged in double precision at integer coordinates", "statement": "For a mesh of strictly convex faces and edges at integer coordinates, an end of an edge that lies in a face (inside, on a side or in a corner) is an end of the piece that intersect_edges reports for that face, without rounding. An edge with both ends in a face is reported with that face exactly once and as it was given; in particular this is so if locate_points finds that face for both ends.", "quantifier": "all meshes of strictly convex faces at integer coordinates up to 2**25 with extents up to 2**12; all lists of edges as in C128 and C129; for the last part all tolerances of locate_points between 2**-200 and 2**-20, the default included; all tree parameters, numbers of threads and schedules", "why_tests_cant": "The ends are recomputed from a rounded line parameter unless the clipping decides that the end itself is in the face, and ends on sides are the cases where this decision can go wrong. Tests have a few such ends.", "anchors": ["numba_celltree/celltree.py:CellTree2d.intersect_edges", "numba_celltree/celltree.py:CellTree2d.locate_points", "numba_celltree/algorithms/cyrus_beck.py:cyrus_beck_line_polygon_clip", "numba_celltree/query.py:make_locate_edges"]}
