# Formal model of numba_celltree in Lean 4

Properties are in `properties.jsonl`, claims in `MANIFEST.json`, seeded bugs in `seeded/LOG.jsonl`.

## Layout

* `lean/Verif/Model/*.lean`: executable model, function by function; every definition cites file and lines of the code.
* `lean/Verif/Spec/*.lean`: small independent specifications (half-planes, boxes, convex polygons, brute force lists,
  signed areas), the number types, and the example meshes.
* `lean/Verif/Proofs/*.lean`: lemmas.
* `lean/Verif/Props/*.lean`: the property theorems, named `Cnn_…`, with concrete examples that meet the hypotheses.
  `…_partial`: holds under conditions that the property does not have. `…_violated` and similar: a witness that the code
  does not have the property.

## Trusted base

* The kernel of Lean 4.33.0 and the axioms `propext`, `Classical.choice`, `Quot.sound`. There are no other axioms, no
  `sorry`, no `native_decide`, no `bv_decide`, no `implemented_by` or `unsafe` code. Witnesses are evaluated by the kernel
  (`decide +kernel`).
* Axioms per theorem of the manifest (`#print axioms`): `C23_init_unchanged`, `C23_intersect_faces_unchanged`,
  `C48_allocated`, `C54_edges_partial`, `C54_faces_independent`, `C57_array_like_partial`, `C71_object_has_faces`, `C71_object_has_edges` use `propext` only;
  `C17_single_node_oob`, `C36_intersect_boxes_aligned`, `C48_stack_is_lifo` use `propext` and `Quot.sound`; all others use
  `propext`, `Classical.choice` and `Quot.sound`.
* Mathlib, for algebra, order, finite sets, and the Lebesgue measure (areas).
* The reading of the Python code as written in `Model/`. The code was not run. What is assumed about the platform:
  numba compiles what is written; integers do not overflow; `boundscheck` is off in compiled code, so an access outside an
  array is undefined behaviour (model: error `oob`), but lists are checked (`IndexError`); scalar division by zero raises
  `ZeroDivisionError` (numba's default `error_model="python"`); iterations of `prange` can run in any order, each one
  completely or with its writes to separate rows not observable by the others.

## What is modelled

| file | modelled | not modelled |
|------|----------|--------------|
| `constants.py` | named tuples, dtypes as records, `FILL_VALUE`, `MAX_N_VERTEX`, `INITIAL_STACK_LENGTH`; tolerances and `FLOAT_MAX` are parameters (`Env`) | dtype declarations |
| `cast.py` | everything: `cast_faces` (fill value, too many columns, copy or no copy), and all checks of shapes (`Model/Cast`; elsewhere inputs have the right shape by type); conversion of dtypes (`Model/Dtype`, numpy's rules for integers and floating point numbers; elsewhere inputs have the right dtype) | complex numbers, dates, strings, objects |
| `utils.py` | the three growable stacks, `grow`; the fixed-size polygon arrays as lists with a capacity | the LLVM intrinsic `stack_empty` |
| `geometry_utils.py` | everything | |
| `creation.py` | everything | |
| `query.py` | everything, including the helpers that run per thread, the result buffers, and their growth | |
| `algorithms/*.py` | everything | |
| `celltree_base.py` | everything | `to_dict_of_lists` only as an association list |
| `celltree.py`, `edge_celltree.py` | constructors and all public methods | |
| `demo.py` | `close_polygons`, `edges`, the vertices of `generate_disk` (pi, sine and cosine are parameters), `example_1d_network` | plotting, matplotlib's triangulation in `generate_disk` |

Simplifications, besides those noted at the definitions:

* A pre-allocated array with a fill count is a list of its filled part plus a capacity; pushing beyond the capacity is `oob`.
  Uninitialised memory is a universally quantified value (`garbage`) where it can be read.
* `while` loops take fuel. Theorems say that the fuel given is always enough, or that no fuel is enough (C53).
* `(nan, nan)` as a result meaning "no location" is `none`.
* The arrays of the caller are on a heap (`Heap`) for faces and edges. Vertices are values: the constructors copy them
  (`cast_vertices(copy=True)`), and no other function writes to vertices.
* `ndarray.min()` and `.max()` propagate NaN, and the folds of the model (`minList`, `maxList`) do not. They are applied to tree vertices and boxes,
  which are numbers in all theorems.

## Number model

The code computes with IEEE doubles. The model is polymorphic in the number type `F`: every definition asks only for the
operations it uses (`+ - * /`, `<`, `≤`, `==`).

* Theorems about the **tree** (construction, partition, bounds, box search, point search, memory safety, termination) are
  proved for arbitrary `+ - * /`: only comparisons matter, and only the laws of `NumOrd` (`≤` is a total preorder on the
  values that are not NaN, `<` is its strict part). IEEE doubles satisfy these, so rounding is covered.
* Theorems about **geometry** (point in polygon, clipping, areas, weights) are proved for every linearly ordered field.
  Rounding is not modelled there, except for
* theorems in **binary64** (C66 – C68, C72 – C74, C78 – C80, C86, C90 – C93, C97, C98, C100, C110 – C112, C116, C120 – C132), proved for the type `Fl`: finite rational values, infinities and
  NaN, with every operation rounded to the nearest binary64 number, ties to even, with subnormal numbers and overflow.
  `Fl` has one zero; the code never distinguishes the two zeros of IEEE 754 (it does not divide by a zero, C66).
  `Fl` is also an instance of `NumOrd`, and witnesses of violations are evaluated in it. The square root of `Fl.env` is
  computed to 600 binary digits and then rounded.

## Exceptions

`Except Err`: `zeroDiv` (ZeroDivisionError), `indexError` (IndexError of a list), `valueError` (ValueError), `runtimeError`,
`oob` (access outside an array), `fuel` (the loop did not end). Theorems that a call returns `.ok` exclude all of them.

## Per property

| id | model | proof |
|----|-------|-------|
| C01 C02 C03 | build loop, box traversal, retry helper | flat tree invariant preserved by every build step; traversal lemma by induction over the tree |
| C04 C49 | array_split, offsets, prange with arbitrary schedule | list algebra |
| C05 | result array with capacity, retry loop | induction on the traversal, capacity measure |
| C06 C07 C08 C09 | point traversal | traversal lemma; bounding box of an odd crossing number for tolerance 0 |
| C10 C11 | fuel and capacity in the build loop | decreasing measure; number of nodes ≤ 2n-1 ≤ estimate |
| C12 | as above, exact arithmetic | centroid is below the end of the last bucket; witnesses for zero width boxes and for rounding |
| C13 C14 C15 C51 | build | invariant |
| C16 C17 | collect_node_bounds, validate_node_bounds | invariant; witness for trees of one node |
| C18 C19 C20 | bounding_box, bbox_tree, cast_faces | list induction |
| C21 C22 | counter_clockwise, flip | loop invariant; witness for straight corners |
| C23 C54 C57 | heap of caller arrays | frame conditions; witnesses of aliasing |
| C24 C25 C26 C27 C64 | point_in_polygon(_or_on_edge) | even-odd counting for convex polygons; monotone polygons for the cut theorem |
| C28 | whole pipeline | witness: near an edge the result depends on the tree |
| C29 C56 C58 | edge tree | as C06/C07; witnesses |
| C30 C31 C59 C60 | separating_axes, locate_faces | separating line of two convex polygons among the normals of their sides; witnesses |
| C32 – C36 | polygon_area, Sutherland-Hodgman | invariant of clipping by a half-plane; Lebesgue measure by Green's formula for convex polygons |
| C37 C38 C39 C53 C55 C69 C70 | the three line clippers | parametrised segment, intersection of intervals; witnesses (endless loop, straight corners) |
| C40 C41 C42 C43 | edge traversal, lines_intersect | traversal lemma and geometry; witness for falling collinear segments |
| C44 – C47 C61 C62 C63 | barycentric weights | algebra, telescoping sum (Wachspress); witnesses |
| C48 | growable stacks | refinement to a list |
| C50 | default_tolerance | order |
| C52 | demo.edges | list and finite set algebra |
| C65 | point(s)_in_triangle | sign analysis; witness for area zero |
| C71 | casts and public functions on arrays of any shape | shape by shape |
| C66 | point location in binary64 | the difference of two different binary64 numbers is not zero |
| C67 C68 | point location in binary64 | error bounds of rounding, for the cross product and for the crossing with the ray; a point where the ray test is wrong is near a side, in the range of it or of the next side at a corner |
| C72 C73 | points on edges in binary64 | the tree theorems hold for the boxes as they are computed; moving a finite coordinate by the tolerance never moves it in the wrong direction; the error bounds of C67 and C68 |
| C74 C75 C76 | edge and face queries in binary64 | witnesses; for edges parallel to an axis products by zero are exact, and divisors are far from underflow |
| C77 | face and box queries in any arithmetic | a potential argument: twice the number of corners written is at most three per corner read, plus one |
| C78 (and C76) | `locate_faces` in binary64 | the computed projections on the computed normals differ from the exact ones by at most `6 u M (abs dx + abs dy)`; a common square gives an overlap of the intervals that is larger |
| C79 (and C58) | construction in binary64 | the computed end of the last bucket is at most `9 u M` below the exact one, so above the centroid of a box wider than `2⁻⁴⁸ M`; the tolerance of a network of extent `M / 256` makes its boxes that wide |
| C80 | weights of triangles in binary64 | every operation of `compute_weights` is within a known error of the exact one; a located point is within two tolerances of a point of the triangle (C68), so the exact coordinates are nearly in [0, 1] and the absolute values taken by the code change them little |
| C81 | sums of the areas reported by `intersect_boxes`, `intersect_faces` | every reported area is the measure of the common part (C36); common parts of one query with faces that do not overlap have only a null set in common (boundaries of convex sets), so measures add up |
| C82 | all pieces of one edge | C69: a piece contains the whole common part of edge and face. Near a point of the covered part, one of finitely many faces contains arbitrarily close points of the edge, hence a piece reaches the point |
| C83 | pairs of calls | the first part unfolds the calls; the second part compares the exact specifications (C24, C31, C36, C40) |
| C84 | `generate_disk`, the vertices | cumulative sums of the angles level by level; injectivity of the angle modulo 2 pi |
| C85 | `lines_intersect`, `left_of`, `EdgeCellTree2d.intersect_edges` | signs of the four orientations of touching segments, C41 |
| C86 | Wachspress weights (`compute_weights`, `interp_edge_case`) in binary64 | the exact Wachspress weights are stable under relative errors of the areas; away from the sides, areas have small relative error; near a side, the point is nearly on the segment between the corners, so that the ratio of lengths is close to its parameter |
| C87 | whole constructor and all queries of `CellTree2d`, any arithmetic | two runs in parallel: same corner coordinates give the same decisions, row by row |
| C88 | `EdgeCellTree2d`, any arithmetic | as C87; partial because the default tolerance depends on all vertices, used or not (witness) |
| C89 | all queries, any arithmetic | every call is described by a list of parts, one for each query (`Proofs/Batch.lean`); the same description of a call with one query gives the statement |
| C90 | Cohen–Sutherland and Cyrus–Beck in binary64, for edges in general position (`Spec/FloatPieces.lean`) | away from the corners of the box, the outcodes of the rounded points are those of the exact ones up to a shift of the box; the parameters of the crossings have a small relative error because the line passes clearly between the corners; the sign of every test is the exact sign |
| C91 | `lines_intersect` in binary64, for segments in general position (`Spec/FloatCross.lean`), in the tree search | the computed sides are the exact sides; the computed cross products are far above the tolerance, so the collinear case is not entered; the error of the parameter is relative to the denominator, which is at least twice the margin; the box of an edge contains the edge in spite of rounding, so the search reaches it |
| C92 | `intersect_boxes` and `intersect_faces` in binary64 for rectangles with sides along the axes (`Spec/FloatRects.lean`) | clipping against a line along an axis: the computed point keeps one coordinate exactly up to rounding and the other is that of the line up to rounding; after each of the four lines the polygon is a rectangle up to small errors, with possibly extra points, or thin, or empty; the area of a fan of almost-rectangle points is near the exact area; a pair that the search or the separating axes reject has almost nothing in common |
| C93 | totals of the areas of C92; what rectangles have in common is a statement about rational numbers (`Spec/FloatRects.lean`) | the errors of C92 are added up; that exact areas of a tiling add up follows from Lebesgue measure, with the rational points dense in a rectangle |
| C94 | building a tree from the attributes of a tree equals building it from the arrays of the caller: an equation of two calls | the stored rows are fixed points of `counter_clockwise`: for convex faces by its sign conditions; the rest of the construction reads corners only (C87). Self-crossing faces: `C94_bow_tie` |
| C95 | pairs of `locate_boxes` before and after a monotone change of coordinates (`Spec/Coords.lean` lists the coordinates that occur) | from C01, for two meshes; only comparisons remain. The order of the faces of one box may differ, hence a permutation |
| C96 | `intersect_faces` and `intersect_boxes` before and after an affine change of coordinates (`Spec/Affine.lean`) | from the measures of C36 and the change of Lebesgue measure under a linear map. Partial: violated for mirrored faces with straight corners |
| C97 | `intersect_boxes` and `intersect_faces` in binary64 for convex polygons in general position (`Spec/FloatPolygons.lean`: `GenPair`) | every corner of the exact and of the computed clipped polygon is labelled with the two sides that it is on; both clippings have the same labels, because in general position the sign of each corner is clear compared to its error; a computed corner is near the exact one; the computed area of the fan of triangles is near the exact area. General position gives a common square for the separating axis test |
| C98 | totals of `intersect_boxes` and `intersect_faces` in binary64 for convex polygons (`Spec/FloatPolygons.lean`: `commonArea`, `polyTotalAcc`, `PolysApart`) | the table has every pair with a positive computed area once (C97), so a total is the sum over all polygons of the mesh; the exact areas add up because polygons without common interior points meet in a null set; pairs whose exact area is zero are never reported and add no error |
| C99 | interpolated values: bounds, affine functions, independence of the tree (`Spec/Conforming.lean`: `interpolated`, `Conforming`) | weights are nonnegative, sum to one and reproduce the point (C61); hence on a side of a strictly convex face only its two ends have weights, and these are given by the position on the side |
| C100 | a mesh intersected with itself (`FacesOverlap`, `areaOf`; binary64: `RectsOf`) | the table of C36 (binary64: C92) has a row for a pair exactly if its area is positive; rows are sorted and without repetition, so only the diagonal is left |
| C101 | pieces and crossings in other coordinates (`Affine`, `ClipSpec`, `ShareAt`) | both results are characterised by C40 resp. C41 with C42; insides, positions along a line and crossings commute with affine maps |
| C102 | interpolated values (`wachspressValue`, `interpolated`, `OnSide`) | the loop computes for every corner twice the Wachspress term, which is divided by the sum; for triangles the formulas agree; the mean is invariant under reversal |
| C103 | interpolated values in other coordinates (`Affine`, `Conforming`) | by C102; Wachspress terms are divided by the determinant; where two faces meet, the values are those on the shared side |
| C104 | the transposed table (`areaOf`, `FacesOverlap`, `ShareAt`, `commonX`) | both runs give the brute-force answer (C36, C31, C41/C42, C92), which is symmetric |
| C105 | `Reordered`: a permutation of the faces with `SameCorners` (equal up to rotation and reversal) | both runs give the brute-force answer, which does not depend on the listing |
| C106 | `SameCorners` row by row | from C105; a clockwise triangle with a hanging node as counterexample |
| C107 | `ReorderedEdges`, `Redirected`: a permutation of the edges | both runs give the brute-force answer (C41, C29) |
| C108 | `Redirected`, `SameEnds` | `lines_intersect` is symmetric if no orientation is zero, or both are; a query that ends on an edge as counterexample |
| C109 | finite coordinates | counterexample by search: rounded cross product zero, rounded sides different, all scaled by 2^-500 |
| C110 | rectangles with sides of at least 2^-200 and coordinates up to 2^200 | ray test is exact for sides along the axes; the computed distance to a side has a small relative error; C06, C07, C66 |
| C111 | edges along the axes (or of length zero) with lengths of at least 2^-200 and coordinates up to 2^200 | the nearness test of C110; the default tolerance from the widened boxes of the edges; C72 |
| C112 | floating point entries are binary64 numbers; faces hold integers that fit in 64 bits | `Entry.toFloat_val`, `Entry.holds` |
| C113 | partial: the entries fit in 64 bits | as C112; the violation is evaluated in the model |
| C114 | partial: arguments that are converted | as C112; that numba refuses nested lists is part of the model |
| C115 | units and origin | two runs of the construction side by side (`Proofs/Similar.lean`): every comparison of `build` and of the queries has the same outcome, so that the runs take the same branches |
| C116 | units, binary64 | multiplication by powers of two commutes with rounding as long as there is no overflow and no underflow (`Proofs/FloatScale.lean`); the magnitudes of all intermediate results are tracked. The default tolerance scales too unless its lower limit is in use (`Props/FloatStretchDefault.lean`) |
| C117 | units, areas and clips | relational proofs for each clipping algorithm (`Proofs/StretchClip.lean`, `Proofs/StretchEdges.lean`). Ratios along a segment do not change, cross products are multiplied by both factors; the pre-check with separating axes needs that products stay below the largest float. The lower limit of the tolerance of `intersect_edges` has a unit: `LimitIdle` |
| C118 | units, weights | the unnormalised Wachspress weights are divided by the square of the factor, the normalised ones are the same (`Proofs/StretchWeights.lean`) |
| C119 | units, networks | the widening of the boxes is scaled like the coordinates (`globalTolerance_rel`), the relational argument of C115 is used for the tree and that of C117 for the search, and the tests on segments are homogeneous (`linesIntersect_rel`, `Proofs/StretchNetwork.lean`) |
| C120 | units, weights, binary64 | as C116, with the square root (`Sc.sqrt`: the correctly rounded root of `4^k x` is `2^k` times that of `x`); the weights are ratios, so that the powers of two cancel exactly (`Proofs/FloatStretchWeights.lean`) |
| C121 | integer coordinates, binary64 | `Whole n q`: `q` is an integer of at most `2^n`. Differences, cross products (`Whole 53`) and squared lengths (`Whole 37`) are exact, so that the test of the perpendicular distance is `A = 0` in binary64 and in the rationals alike (`Proofs/FloatWhole.lean`); an integer point that is near a side is on it (`near_whole`). Networks in `Props/FloatWholeEdges.lean` |
| C122 | integer coordinates, pairs of faces, binary64 | `InInterior A p`: `p` is strictly inside every side of `A`. The projections of integer corners on the normals of integer sides are integers of at most `2^53`, so that `separating_axes` decides as over the rationals (`whole_tests`), where the separating axis theorem applies (`Proofs/Separating.lean`) (`Props/FloatWholeFaces.lean`) |
| C123 | integer coordinates, crossings of edges, binary64 | `Meet a b p q` (`Spec/FloatWholeCross.lean`): the line of each segment passes between the ends of the other, where a point on the line counts as right of it, or the segments are on one line and share a point. At integer coordinates `left_of`, the cross products and the differences of `has_overlap` are exact, and the tolerance separates 0 from 1 (`Proofs/FloatWholeCross.lean`); the search and the clipping to the box are those of C91 |
| C124 | integer coordinates, areas of nested faces, binary64 | Corners of a contained polygon are on the left of or on every line of the clipper, so a crossing is computed only for sides with one end on the line; the quotient is then exactly 0 or 1, and the end itself is returned (`whole_shIntersection`, `Proofs/FloatWholeClip.lean`). The clipped polygon has corners of the query face only, and its fan of cross products is a sum of integers below `2^53`. Which pairs are clipped: C122 |
| C125 | grids with a spacing of a power of two, binary64 | Multiplication by `2^k` commutes with every operation of the point tests as long as no exponent leaves the range (`scale_point`, `Sc`), so the tests on the grid give the answers of the tests at integer coordinates with tolerance `tol / 2^k`, which are exact by C121. For faces the projections are integers below `2^53` times `2^(2k)` and so exact (`ExactAxes`, `exact_tests`). The tree is not scaled: it is exact for any boxes |
| C126 | weights of integer polygons, binary64 | All cross products are exact integers, so a point not on a side is at least one unit of area away from it and the products of the Wachspress weights have relative errors of a few `2^-53` with nothing cancelling (`WholeStored.far_row`). On a side the weights come from the ratio of two square roots of integers, which is monotone under rounding and exact at the ends (`near_row`, `ratio_exact`) |
| C127 | weights of integer triangles, binary64 | The three areas are exact integers, so the only errors are those of the reciprocal, two products and two differences (`recip_quot`). `A * (1 / A)` is 1 or the number before it (`rep_below_one`). If the area is a power of two all steps are exact |
| C128 | pieces of compass edges in integer faces, binary64 | Cuts with a box stay at integer points (`Compass.lineAt`), so the box test is exact. The quotients of Cyrus-Beck have numerators and denominators so small that different ones stay different after rounding and equal ones stay equal (`hit_gap`, `hit_merge`), so all comparisons come out as in exact arithmetic (`whole_cbFinish`) |
| C129 | pieces of edges in any direction in integer faces, binary64 | As C128 for the faces (`Steps`: the line parameters stay apart). Boxes: a piece in an integer box has a middle that is well inside (`whole_deep`), and an integer corner that is not on the edge is well apart (`whole_apart`), so C90's analysis of Cohen-Sutherland applies. Partial: endless loop for edges through a corner of a bounding box, with small integers |
| C130 | integer edges in other coordinates, binary64 | C129 for both meshes; `SharesPiece` and `ClipSpec` commute with affine maps (C101) and with the direction of the edge (C70) |
| C131 | parts of integer edges, binary64 | C128 for the edge and both parts; `SharesPiece` of an edge is that of one of its parts (`sharesPiece_parts`), by convexity of the faces |
| C132 | ends in a face are kept, binary64 | The exact piece starts at an end that is in the face (`clip_first`), and C129 reports ends of the edge exactly; with C121 for the ends |

## Findings

Behaviour of the code that contradicts what its documentation suggests; each has a witness evaluated by the kernel.

* C12: construction raises IndexError for some degenerate meshes (a zero width box at the end of the range), and in binary64
  also for meshes of positive width.
* C17: `node_bounds` of a tree with a single node reads outside the array.
* C21: clockwise faces are not reversed if the first tested corner is straight (a hanging node).
* C23, C57: `locate_faces` reverses rows in the array of the caller; the constructor does so for an array-like that exposes its memory,
  and overwrites its padding.
* C88: a vertex that no edge uses changes the results of `EdgeCellTree2d.locate_points`.
* C54: `EdgeCellTree2d` keeps a reference to the caller's edges.
* C28, C56: within the tolerance of an edge, whether a point is located depends on the tree.
* C35: clipping concave faces writes outside the fixed-size arrays.
* C43: the location reported for overlapping collinear segments is NaN for segments of negative slope.
* C47: weights divide by zero for degenerate triangles, repeated vertices, and points on an edge with tolerance zero.
* C53: `intersect_edges` can loop forever in binary64 (Cohen–Sutherland with an end point that rounds outside the box).
* C129: that endless loop also occurs with small integers: rectangle [-5, 3] x [-5, -2], edge from (-6, -7) to (12, 3).
* C55: Cyrus–Beck reports only a part of an edge, or nothing, along a side with a straight corner.
* C58: construction of an edge tree fails for axis-aligned networks far from the origin (the tolerance is absorbed).
* C59: `locate_faces` does not report faces that only share a side; its documentation says that it does.
* C60: `locate_faces` ignores the fill value, and reads outside the vertices for fill values other than -1.
* C70: for an edge with an end just outside a face, the answer depends on the direction of the edge.
* C71: `locate_faces` does not check the shape of coordinates, `EdgeCellTree2d` not that of its edges.
* C61: weights are wrong for faces with hanging nodes.
* C63: the weights of clockwise faces are in the order of the reversed face.
* C65: triangles of area zero accept all points of their line.
* C67: at national-grid coordinates, points inside the mesh can be located nowhere with the default tolerance.
* C73: at the same coordinates, most rounded points of an edge are not located on it with the default tolerance.
* C74: `intersect_edges` can raise ZeroDivisionError in binary64, for edges along a side.
* C75: areas of intersection can be several times too large in binary64, for faces with a common side.
* C76: faces that only share a side can be reported as overlapping in binary64, in one order and not in the other.
* C85: `EdgeCellTree2d.intersect_edges` reports edges that only touch from one side, and not from the other.
* C96: areas of intersection of a mirrored mesh can be missing, for faces with an extra corner on a side (a consequence of C21).
* C106: areas of a clockwise face with a hanging node can depend on the corner with which the face starts (a consequence of C21).
* C108: whether a query that ends on an edge of a network is reported depends on the direction of that edge.
* C109: `EdgeCellTree2d.intersect_edges` can raise ZeroDivisionError for edges of length about 2^-500.
* C113: the fill value of a table of `uint64` is compared after the conversion to `int64`. With netCDF's default for this type, `2^64 - 2`, missing corners silently become the last but one vertex.
* C114: `compute_barycentric_weights` converts its points only to locate them. With a nested list of points `locate_points` gives an
  answer, and `compute_barycentric_weights` raises a `TypeError` from numba, even though line 123 exists to accept lists. The edges of
  `EdgeCellTree2d` are not converted either.
* C121: at integer coordinates `locate_points` is exact, but only while the faces are smaller than about `2^20`: the default tolerance grows with the faces, and a triangle of `2^21` gets an integer point outside it (`C121_limit_matters`).
* C122: touching faces are not reported as overlapping at integer coordinates of at most `2^25`. From about `2^27` on some are (`C122_limit_matters`).
* C123: a segment that ends on an edge is reported from the left of the edge only (`C123_touching`), which is what makes chains of segments count once (`C123_corner_counted_once`). Integer segments longer than about `2^20` that are parallel at a small distance are reported as intersecting (`C123_limit_matters`).
* C124: areas at integer coordinates are exact for query faces inside faces of the mesh, not for query faces that are cut: 22 by 3 against 7 by 5 gives 21 + 2^-48 (`C124_cut_inexact`).
* C125: the default tolerance does not follow the size of the mesh below lengths of about `2^-29`; on a grid with spacing `2^-60` a point outside a face is located in it (`C125_spacing_matters`).
* C126: in a table with three columns the weights of a vertex are not exactly a unit row: the corner (7, 0) of the triangle (0, 0), (7, 0), (0, 7) gets `1 - 2^-53`, and the origin `2^-53` (`C126_triangle_inexact`). In a wider table they are exact.
