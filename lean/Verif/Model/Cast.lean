import Verif.Model.Api

/-!
# Model of `cast.py`: arrays of any shape, and the public functions that take them

The functions in `Api.lean` take tables that have the right shape by type. Here are numpy arrays with a shape that is only
known at run time, the functions of `cast.py` that check it, and the public functions with these checks in front, in the
order of the code. Conversions of dtype are in `Dtype.lean`. `counter_clockwise`, `build_face_bboxes` and `polygons_intersect`
are compiled for two-dimensional arrays; another number of dimensions raises a `TypeError` (numba's `TypingError`).
-/

namespace Celltree

/-- A numpy array: shape, and entries in C order. -/
structure NdArray (α : Type) where
  shape : List Nat
  data : List α
deriving DecidableEq, Repr

/-- The number of entries is the product of the shape (always true for numpy arrays). -/
def NdArray.Ok {α : Type} (a : NdArray α) : Prop := a.data.length = a.shape.prod

instance {α : Type} (a : NdArray α) : Decidable a.Ok := by unfold NdArray.Ok; infer_instance

/-- `n` rows of `m` entries, from the entries in C order. -/
def toRows {α : Type} (m : Nat) : Nat → List α → List (List α)
  | 0, _ => []
  | n + 1, l => l.take m :: toRows m n (l.drop m)

section
variable {F : Type}

/-- Rows of two numbers. -/
def toPts : List F → List (Pt F)
  | x :: y :: l => ⟨x, y⟩ :: toPts l
  | _ => []

/-- Rows `(xmin, xmax, ymin, ymax)`. -/
def toBoxes : List F → List (Box F)
  | a :: b :: c :: d :: l => ⟨a, b, c, d⟩ :: toBoxes l
  | _ => []

/-- Rows `((x0, y0), (x1, y1))`. -/
def toEdges : List F → List (Pt F × Pt F)
  | a :: b :: c :: d :: l => (⟨a, b⟩, ⟨c, d⟩) :: toEdges l
  | _ => []

/-- `cast.py:14-21` `cast_vertices`. The second test reads `shape[1]` only if there are two dimensions. -/
def castVertices (a : NdArray F) : M (List (Pt F)) :=
  if a.shape.length ≠ 2 then .error .valueError
  else do
    let c ← rd a.shape 1
    if c ≠ 2 then .error .valueError else .ok (toPts a.data)

/-- `cast.py:43-47` `cast_bboxes`. -/
def castBboxes (a : NdArray F) : M (List (Box F)) :=
  if a.shape.length ≠ 2 then .error .valueError
  else do
    let c ← rd a.shape 1
    if c ≠ 4 then .error .valueError else .ok (toBoxes a.data)

/-- `cast.py:50-54` `cast_edges`. -/
def castEdges (a : NdArray F) : M (List (Pt F × Pt F)) :=
  if a.shape.length ≠ 3 then .error .valueError
  else do
    let c ← rd a.shape 1
    if c ≠ 2 then .error .valueError
    else do
      let d ← rd a.shape 2
      if d ≠ 2 then .error .valueError else .ok (toEdges a.data)

/-- The table in a two-dimensional array of integers. -/
def NdArray.table (a : NdArray Int) : M IntArr := do
  let n ← rd a.shape 0
  let m ← rd a.shape 1
  .ok ⟨m, toRows m n a.data⟩

/-- `cast.py:24-40` `cast_faces`, with the check of the shape. -/
def castFacesArr (a : NdArray Int) (fill : Int) : M IntArr :=
  if a.shape.length ≠ 2 then .error .valueError
  else do castFaces (← a.table) fill

variable [Add F] [Sub F] [Mul F] [Div F] [Neg F] [Zero F] [One F] [IntCast F]
  [LT F] [LE F] [BEq F] [DecidableLT F] [DecidableLE F]

/-- `celltree.py:57-93` `CellTree2d.__init__`. -/
def CellTree.initArr (env : Env F) (vertices : NdArray F) (faces : NdArray Int) (fill nBuckets cellsPerLeaf : Int)
    (sched : List Nat) : M (CellTree F) :=
  if nBuckets < 2 then .error .valueError
  else if cellsPerLeaf < 1 then .error .valueError
  else do
    let vertices ← castVertices vertices
    let faces ← castFacesArr faces fill
    let rows ← counterClockwise vertices faces.rows sched
    CellTree.ofFaces env vertices ⟨faces.ncol, rows⟩ nBuckets.toNat cellsPerLeaf.toNat

/-- `celltree.py:95-124` `CellTree2d.locate_points`. -/
def CellTree.locatePointsArr (env : Env F) (t : CellTree F) (points : NdArray F) (tol : Option F) (sched : List Nat) :
    M (List Int) := do
  let tol ← t.tolerance env tol
  let points ← castVertices points
  Celltree.locatePoints points t.data tol sched

/-- `celltree.py:126-144` `CellTree2d.locate_boxes`. -/
def CellTree.locateBoxesArr (t : CellTree F) (boxes : NdArray F) (nThreads : Nat) (sched : List Nat) :
    M (List Nat × List Nat) := do
  let boxes ← castBboxes boxes
  Celltree.locateBoxes boxes t.data nThreads sched

/-- `celltree.py:146-180` `CellTree2d.intersect_boxes`. -/
def CellTree.intersectBoxesArr (t : CellTree F) (boxes : NdArray F) (nThreads : Nat) (sched : List Nat)
    (sched2 : Nat → List Nat) : M (List Nat × List Nat × List F) := do
  let boxes ← castBboxes boxes
  t.intersectBoxes boxes nThreads sched sched2

/-- What compiled code sees of an array of coordinates that was not checked: the first two columns. With fewer columns it
reads outside of the rows, at the first vertex that it looks at. -/
def uncheckedPts (a : NdArray F) : M (List (Pt F)) :=
  match a.shape with
  | [n, m] =>
    (toRows m n a.data).mapM fun r => match r with
      | x :: y :: _ => .ok ⟨x, y⟩
      | _ => .error .oob
  | _ => .error .runtimeError

/-- `celltree.py:182-222` `CellTree2d.locate_faces`: no check of the shapes. (`uncheckedPts` reads all vertices; the code
reads those of the faces.) -/
def CellTree.locateFacesArr (env : Env F) (t : CellTree F) (vertices : NdArray F) (faces : IntArr) (nThreads : Nat)
    (sched sched1 : List Nat) (sched2 : Nat → List Nat) : M (List (List Int) × List Nat × List Nat) := do
  let vertices ← uncheckedPts vertices
  t.locateFaces env vertices faces nThreads sched sched1 sched2

/-- `celltree.py:224-265` `CellTree2d.intersect_faces`. -/
def CellTree.intersectFacesArr (env : Env F) (t : CellTree F) (vertices : NdArray F) (faces : NdArray Int) (fill : Int)
    (nThreads : Nat) (sched sched1 : List Nat) (sched2 sched3 : Nat → List Nat) : M (List Nat × List Nat × List F) := do
  let vertices ← castVertices vertices
  if faces.shape.length ≠ 2 then .error .valueError
  else do
    let (_, r) ← t.intersectFacesH env [← faces.table] vertices 0 fill nThreads sched sched1 sched2 sched3
    .ok r

/-- `celltree.py:267-293` `CellTree2d.intersect_edges`. -/
def CellTree.intersectEdgesArr (env : Env F) (t : CellTree F) (edges : NdArray F) (nThreads : Nat)
    (sched : List Nat) : M (List Nat × List Nat × List (Option (Pt F) × Option (Pt F))) := do
  let edges ← castEdges edges
  t.intersectEdges env edges nThreads sched

/-- `celltree.py:295-340` `CellTree2d.compute_barycentric_weights`: the points are checked in `locate_points`, and then used
as they are. -/
def CellTree.barycentricWeightsArr (env : Env F) (t : CellTree F) (points : NdArray F) (tol : Option F)
    (sched sched1 : List Nat) : M (List Int × List (List F)) := do
  let tol ← t.tolerance env tol
  let faceIndices ← t.locatePointsArr env points (some tol) sched
  let points ← uncheckedPts points
  let weights ←
    if t.nMaxVert > 3 then
      barycentricWachspressWeights env points faceIndices t.data.elements t.nMaxVert t.data.vertices tol sched1
    else barycentricTriangleWeights points faceIndices t.data.elements t.data.vertices sched1
  .ok (faceIndices, weights)

/-- `edge_celltree.py:45-83` `EdgeCellTree2d.__init__`: the shape of `edges` is not checked. -/
def EdgeCellTree.initArr (env : Env F) (vertices : NdArray F) (edges : IntArr) (nBuckets cellsPerLeaf : Int) :
    M (CellTree F) :=
  if nBuckets < 2 then .error .valueError
  else if cellsPerLeaf < 1 then .error .valueError
  else do
    let vertices ← castVertices vertices
    EdgeCellTree.init env vertices edges nBuckets cellsPerLeaf

/-- `edge_celltree.py:85-112` `EdgeCellTree2d.locate_points`. -/
def CellTree.locatePointsOnEdgeArr (env : Env F) (t : CellTree F) (points : NdArray F) (tol : Option F)
    (sched : List Nat) : M (List Int) := do
  let tol ← t.tolerance env tol
  let points ← castVertices points
  Celltree.locatePointsOnEdge points t.data tol sched

/-- `edge_celltree.py:114-141` `EdgeCellTree2d.intersect_edges`. -/
def CellTree.intersectEdgesOnEdgeArr (env : Env F) (t : CellTree F) (edges : NdArray F) (nThreads : Nat)
    (sched : List Nat) : M (List Nat × List Nat × List (Option (Pt F))) := do
  let edges ← castEdges edges
  t.intersectEdgesOnEdge env edges nThreads sched

end

end Celltree
