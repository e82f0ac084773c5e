import Verif.Model.Basic

/-!
# Model of `numba_celltree/geometry_utils.py`
-/

namespace Celltree

variable {F : Type} [Add F] [Sub F] [Mul F] [Div F] [Neg F] [Zero F] [One F]
  [LT F] [LE F] [BEq F] [DecidableLT F] [DecidableLE F]

/-- `geometry_utils.py:24-25` `to_vector`. -/
def toVector (a b : Pt F) : Pt F := ⟨b.x - a.x, b.y - a.y⟩

/-- `geometry_utils.py:53-54` `to_point`. -/
def toPoint (t : F) (a V : Pt F) : Pt F := ⟨a.x + t * V.x, a.y + t * V.y⟩

/-- `geometry_utils.py:58-59` `cross_product`. -/
def cross (u v : Pt F) : F := u.x * v.y - u.y * v.x

/-- `geometry_utils.py:63-64` `dot_product`. -/
def dot (u v : Pt F) : F := u.x * v.x + u.y * v.y

/-- `geometry_utils.py:68-69` `length_squared`. -/
def lengthSquared (v : Pt F) : F := v.x * v.x + v.y * v.y

/-- Loop of `polygon_length`: first index `≥ i` holding the fill value, scanning the row from index `i`. -/
def polygonLengthFrom : Nat → List Int → Nat
  | i, [] => i
  | i, v :: rest => if v = fillValue then i else polygonLengthFrom (i + 1) rest

/-- `geometry_utils.py:73-79` `polygon_length`: scans `face[3:]` for the fill value. -/
def polygonLength (face : List Int) : Nat :=
  if face.length ≤ 3 then face.length else polygonLengthFrom 3 (face.drop 3)

/-- Loop of `polygon_area` (`geometry_utils.py:89-94`); `U` is the previous vector. -/
def polygonAreaLoop (a : Pt F) : Pt F → List (Pt F) → F → F
  | _, [], area => area
  | U, c :: rest, area =>
    let V := toVector c a
    polygonAreaLoop a V rest (area + fabs (cross U V))

/-- `geometry_utils.py:83-95` `polygon_area`. Fewer than two vertices: out of bounds read. -/
def polygonArea : List (Pt F) → M F
  | a :: b :: rest => .ok (half * polygonAreaLoop a (toVector a b) rest 0)
  | _ => .error .oob

/-- `geometry_utils.py:142-144` (and `216-218`): whether the ray from `p` to the right crosses edge `v0 v1`.
The conjunction is short-circuit, so the division is done only if the first test holds. -/
def rayCrosses (p v0 v1 : Pt F) : M Bool :=
  if decide (v0.y > p.y) != decide (v1.y > p.y) then do
    let q ← fdiv ((v1.x - v0.x) * (p.y - v0.y)) (v1.y - v0.y)
    .ok (decide (p.x < q + v0.x))
  else .ok false

/-- Loop of `point_in_polygon` (`geometry_utils.py:137-146`). -/
def pointInPolygonLoop (p : Pt F) : Pt F → List (Pt F) → Bool → M Bool
  | _, [], c => .ok c
  | v0, v1 :: rest, c => do
    let cr ← rayCrosses p v0 v1
    pointInPolygonLoop p v1 rest (if cr then !c else c)

/-- `geometry_utils.py:99-147` `point_in_polygon`. -/
def pointInPolygon (p : Pt F) (poly : List (Pt F)) : M Bool := do
  let v0 ← rdI poly (-1)
  pointInPolygonLoop p v0 poly false

/-- `geometry_utils.py:151-166` `within_perpendicular_distance`. -/
def withinPerpendicularDistance (UxV : F) (U : Pt F) (tol : F) : Bool :=
  decide (UxV * UxV < (tol * lengthSquared U) * tol)

/-- `geometry_utils.py:170-192` `in_bounds`. -/
def inBounds (p a b : Pt F) : Bool :=
  let xmin := fmin a.x b.x
  let xmax := fmax a.x b.x
  let ymin := fmin a.y b.y
  let ymax := fmax a.y b.y
  let dx := xmax - xmin
  let dy := ymax - ymin
  let useX := decide (fabs dx ≥ fabs dy)
  (useX && (decide (p.x ≥ xmin) && decide (p.x ≤ xmax))) ||
    (!useX && (decide (p.y ≥ ymin) && decide (p.y ≤ ymax)))

/-- Loop of `point_in_polygon_or_on_edge` (`geometry_utils.py:201-223`). -/
def pointInPolygonOrOnEdgeLoop (p : Pt F) (tol : F) : Pt F → Pt F → List (Pt F) → Bool → M Bool
  | _, _, [], c => .ok c
  | v0, U, v1 :: rest, c =>
    if v1.eqv v0 then pointInPolygonOrOnEdgeLoop p tol v0 U rest c
    else do
      let V := toVector p v1
      let A := cross U V
      let W := toVector v0 v1
      if withinPerpendicularDistance A W tol && inBounds p v0 v1 then .ok true
      else do
        let cr ← rayCrosses p v0 v1
        pointInPolygonOrOnEdgeLoop p tol v1 V rest (if cr then !c else c)

/-- `geometry_utils.py:196-223` `point_in_polygon_or_on_edge`. -/
def pointInPolygonOrOnEdge (p : Pt F) (poly : List (Pt F)) (tol : F) : M Bool := do
  let v0 ← rdI poly (-1)
  pointInPolygonOrOnEdgeLoop p tol v0 (toVector p v0) poly false

/-- `geometry_utils.py:227-238` `point_on_edge`. -/
def pointOnEdge (p : Pt F) (edge : List (Pt F)) (tol : F) : M Bool := do
  let v0 ← rd edge 0
  let v1 ← rd edge 1
  if v1.eqv v0 then .ok false
  else
    let U := toVector p v0
    let V := toVector p v1
    let W := toVector v0 v1
    let A := cross U V
    .ok (withinPerpendicularDistance A W tol && inBounds p v0 v1)

/-- `geometry_utils.py:242-270` `point_in_triangle`. -/
def pointInTriangle (p : Pt F) (t : Triangle F) (tol : F) : Bool :=
  let ap := toVector t.a p
  let bp := toVector t.b p
  let cp := toVector t.c p
  let ab := toVector t.a t.b
  let bc := toVector t.b t.c
  let ca := toVector t.c t.a
  let A := cross ab ap
  let B := cross bc bp
  let C := cross ca cp
  let signA := decide (A > 0)
  let signB := decide (B > 0)
  let signC := decide (C > 0)
  if signA == signB && signB == signC then true
  else
    (withinPerpendicularDistance A ab tol && inBounds p t.a t.b) ||
    (withinPerpendicularDistance B bc tol && inBounds p t.b t.c) ||
    (withinPerpendicularDistance C ca tol && inBounds p t.c t.a)

/-- `geometry_utils.py:44-49` `as_triangle`. -/
def asTriangle (vertices : List (Pt F)) (face : List Int) : M (Triangle F) := do
  let a ← rdI vertices (← rd face 0)
  let b ← rdI vertices (← rd face 1)
  let c ← rdI vertices (← rd face 2)
  .ok ⟨a, b, c⟩

/-- `geometry_utils.py:274-289` `points_in_triangles`. -/
def pointsInTriangles (points : List (Pt F)) (faceIndices : List Int) (faces : List (List Int))
    (vertices : List (Pt F)) (tol : F) (sched : List Nat) : M (List Bool) :=
  prange sched points.length false fun i => do
    let faceIndex ← rd faceIndices i
    let face ← rdI faces faceIndex
    let triangle ← asTriangle vertices face
    let point ← rd points i
    .ok (pointInTriangle point triangle tol)

/-- `geometry_utils.py:293-300` `boxes_intersect`. -/
def boxesIntersect (a b : Box F) : Bool :=
  decide (a.xmin < b.xmax) && decide (b.xmin < a.xmax) && decide (a.ymin < b.ymax) && decide (b.ymin < a.ymax)

/-- `geometry_utils.py:304-315` `box_contained`: whether `a` is contained by `b`. -/
def boxContained (a b : Box F) : Bool :=
  decide (a.xmin ≥ b.xmin) && decide (a.xmax ≤ b.xmax) && decide (a.ymin ≥ b.ymin) && decide (a.ymax ≤ b.ymax)

/-- `geometry_utils.py:319-322` `left_of`. -/
def leftOf (a p U : Pt F) : Bool := decide (U.x * (a.y - p.y) > U.y * (a.x - p.x))

/-- `geometry_utils.py:326-329` `has_overlap`. -/
def hasOverlap (a b p q tol : F) : Bool :=
  decide (fmin a b - fmax p q < tol) && decide (fmin p q - fmax a b < tol)

/-- `geometry_utils.py:333-345` `intersection_location_point`. `none` is the point `(nan, nan)`. -/
def intersectionLocationPoint (V U a p : Pt F) (tol : F) : M (Option (Pt F)) :=
  let denom := cross V U
  if withinPerpendicularDistance denom V tol then .ok none
  else do
    let R := toVector a p
    let t ← fdiv (cross R U) denom
    .ok (some ⟨a.x + t * V.x, a.y + t * V.y⟩)

/-- `geometry_utils.py:355-358`: order the ends of a segment by x, then y. -/
def orderEnds (a b : Pt F) : Pt F × Pt F :=
  if a.x > b.x || (a.x == b.x && decide (a.y > b.y)) then (b, a) else (a, b)

/-- `geometry_utils.py:349-374` `midpoint_collinear_lines`. `none` is `(nan, nan)`. -/
def midpointCollinearLines (a b p q : Pt F) : Option (Pt F) :=
  let (a, b) := orderEnds a b
  let (p, q) := orderEnds p q
  let sx := fmax a.x p.x
  let sy := fmax a.y p.y
  let ex := fmin b.x q.x
  let ey := fmin b.y q.y
  if sx > ex || sy > ey then none
  else some ⟨half * (sx + ex), half * (sy + ey)⟩

/-- `geometry_utils.py:378-418` `lines_intersect`. The location is `none` if it is `(nan, nan)`. -/
def linesIntersect (env : Env F) (a b p q : Pt F) : M (Bool × Option (Pt F)) :=
  let V := toVector a b
  let U := toVector p q
  if (U.x == 0 && U.y == 0) || (V.x == 0 && V.y == 0) then .ok (false, none)
  else if U.x == 0 && V.x == 0 && !(a.x == p.x) then .ok (false, none)
  else if U.y == 0 && V.y == 0 && !(a.y == p.y) then .ok (false, none)
  else
    let tol := fmax env.minTol (env.tolFactor * fmax (fabs U.x) (fabs U.y))
    if !(hasOverlap a.x b.x p.x q.x tol) || !(hasOverlap a.y b.y p.y q.y tol) then .ok (false, none)
    else if leftOf a p U != leftOf b p U && leftOf p a V != leftOf q a V then do
      let xy ← intersectionLocationPoint V U a p tol
      .ok (true, xy)
    else
      let R := toVector a p
      let S := toVector a q
      if withinPerpendicularDistance (cross V R) V tol && withinPerpendicularDistance (cross V S) V tol then
        .ok (true, midpointCollinearLines a b p q)
      else .ok (false, none)

/-- Loop of `bounding_box` (`geometry_utils.py:429-439`). -/
def boundingBoxLoop (vertices : List (Pt F)) : List Int → Box F → M (Box F)
  | [], box => .ok box
  | index :: rest, box =>
    if index = fillValue then .ok box
    else do
      let v ← rdI vertices index
      boundingBoxLoop vertices rest ⟨fmin box.xmin v.x, fmax box.xmax v.x, fmin box.ymin v.y, fmax box.ymax v.y⟩

/-- `geometry_utils.py:422-440` `bounding_box`. -/
def boundingBox (polygon : List Int) (vertices : List (Pt F)) : M (Box F) :=
  match polygon with
  | [] => .error .oob
  | i0 :: rest => do
    let v ← rdI vertices i0
    boundingBoxLoop vertices rest ⟨v.x, v.x, v.y, v.y⟩

/-- `geometry_utils.py:444-456` `build_face_bboxes` (not compiled with `parallel`, so `prange` is `range`). -/
def buildFaceBboxes (faces : List (List Int)) (vertices : List (Pt F)) : M (List (Box F)) :=
  faces.mapM fun f => boundingBox f vertices

/-- `geometry_utils.py:460-470` `edge_bounding_box`. -/
def edgeBoundingBox (edge : List Int) (vertices : List (Pt F)) (tol : F) : M (Box F) := do
  let v0 ← rdI vertices (← rd edge 0)
  let v1 ← rdI vertices (← rd edge 1)
  .ok ⟨fmin (v0.x - tol) (v1.x - tol), fmax (v0.x + tol) (v1.x + tol),
       fmin (v0.y - tol) (v1.y - tol), fmax (v0.y + tol) (v1.y + tol)⟩

/-- `geometry_utils.py:474-487` `build_edge_bboxes`. -/
def buildEdgeBboxes (edges : List (List Int)) (vertices : List (Pt F)) (tol : F) : M (List (Box F)) :=
  edges.mapM fun e => edgeBoundingBox e vertices tol

/-- `geometry_utils.py:491-498` `copy_vertices` and `502-510` `copy_vertices_into`: the first
`polygon_length(face)` vertices of the face; the work array holds `MAX_N_VERTEX` rows. The work array is overwritten
before it is read, so it is not part of the model. -/
def copyVertices (vertices : List (Pt F)) (face : List Int) : M (List (Pt F)) :=
  let length := polygonLength face
  if length > maxNVertex then .error .oob
  else (face.take length).mapM fun i => rdI vertices i

/-- `geometry_utils.py:514-524` `copy_box_vertices`. -/
def copyBoxVertices (box : Box F) : List (Pt F) :=
  [⟨box.xmin, box.ymin⟩, ⟨box.xmax, box.ymin⟩, ⟨box.xmax, box.ymax⟩, ⟨box.xmin, box.ymax⟩]

/-- `geometry_utils.py:528-529` `point_inside_box`. -/
def pointInsideBox (a : Pt F) (box : Box F) : Bool :=
  decide (box.xmin < a.x) && decide (a.x < box.xmax) && decide (box.ymin < a.y) && decide (a.y < box.ymax)

/-- One round of the loop of `flip` (`geometry_utils.py:536-537`): swap `face[i]` and `face[j]`. -/
def flipStep (endIdx : Nat) (face : List Int) (i : Nat) : M (List Int) := do
  let j := endIdx - i
  let fi ← rd face i
  let fj ← rd face j
  let face ← wr face i fj
  wr face j fi

/-- `geometry_utils.py:533-538` `flip`. -/
def flip (face : List Int) (length : Nat) : M (List Int) :=
  (List.range (length / 2)).foldlM (flipStep (length - 1)) face

/-- Loop of `counter_clockwise` over `i in range(length)` (`geometry_utils.py:549-560`) for one face. `n` rounds are
left, starting at index `i`. Note that after a flip the loop goes on, with the same `a` and `b`. -/
def ccwLoop (vertices : List (Pt F)) (length : Nat) : Nat → Nat → Pt F → Pt F → List Int → M (List Int)
  | 0, _, _, _, face => .ok face
  | n + 1, i, a, b, face => do
    let c ← rdI vertices (← rd face i)
    let u := toVector a b
    let v := toVector a c
    let product := cross u v
    if product == 0 then ccwLoop vertices length n (i + 1) b c face
    else if product < 0 then do
      let face ← flip face length
      ccwLoop vertices length n (i + 1) a b face
    else .ok face

/-- Body of `counter_clockwise` for one face (`geometry_utils.py:545-560`). -/
def ccwFace (vertices : List (Pt F)) (face : List Int) : M (List Int) := do
  let length := polygonLength face
  let a ← rdI vertices (← rdI face ((length : Int) - 2))
  let b ← rdI vertices (← rdI face ((length : Int) - 1))
  ccwLoop vertices length length 0 a b face

/-- `geometry_utils.py:542-561` `counter_clockwise`: the rows of `faces` are rewritten in place, in parallel; row
`i` is read and written by iteration `i` only. `sched` is the order of the iterations. -/
def counterClockwise (vertices : List (Pt F)) (faces : List (List Int)) (sched : List Nat) : M (List (List Int)) :=
  sched.foldlM (fun fs i => do wr fs i (← ccwFace vertices (← rd fs i))) faces

end Celltree
