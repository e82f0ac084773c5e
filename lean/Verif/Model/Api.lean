import Verif.Model.Query

/-!
# Model of `cast.py`, `celltree_base.py`, `celltree.py`, `edge_celltree.py`

Arrays of the caller live on a small heap, so that in-place modification of the caller's arrays is visible. Only
integer arrays (`faces`, `edges`) are on the heap: no code path writes to an array of coordinates of the caller.
Conversions of dtype are not modelled. Coordinates have the right shape by type; `Cast.lean` has the checks on the
shape of arrays. `sched` arguments are the orders in which the iterations of the parallel loops run.
-/

namespace Celltree

variable {F : Type} [Add F] [Sub F] [Mul F] [Div F] [Neg F] [Zero F] [One F] [IntCast F]
  [LT F] [LE F] [BEq F] [DecidableLT F] [DecidableLE F]

/-- A two-dimensional integer numpy array: number of columns (`shape[1]`) and rows. -/
structure IntArr where
  ncol : Nat
  rows : List (List Int)
deriving DecidableEq, Repr

/-- Every row has `ncol` entries (always true for numpy arrays). -/
def IntArr.Rect (a : IntArr) : Prop := ∀ r ∈ a.rows, r.length = a.ncol

/-- Integer arrays in memory; a reference is a position. -/
abbrev Heap := List IntArr

/-! ## `cast.py` -/

/-- `cast.py:38-39`: replace the fill value in one row. -/
def replaceFill (fill : Int) (row : List Int) : List Int := row.map fun v => if v = fill then fillValue else v

/-- `cast.py:24-40` `cast_faces`: the content of the new array (`astype(copy=True)`). -/
def castFaces (faces : IntArr) (fill : Int) : M IntArr :=
  if faces.ncol > maxNVertex then .error .valueError
  else if fill ≠ fillValue then .ok ⟨faces.ncol, faces.rows.map (replaceFill fill)⟩
  else .ok faces

/-! ## `celltree_base.py` -/

/-- `celltree_base.py:20-25` `bbox_tree`; numpy raises `ValueError` for the minimum of an empty array. -/
def bboxTree : List (Box F) → M (Box F)
  | [] => .error .valueError
  | b :: rest =>
    .ok (rest.foldl (fun m c => ⟨fmin m.xmin c.xmin, fmax m.xmax c.xmax, fmin m.ymin c.ymin, fmax m.ymax c.ymax⟩) b)

/-- `celltree_base.py:28-48` `bbox_distances` for one box: `(dx, dy, dxy)`. -/
def bboxDistance (env : Env F) (b : Box F) : F × F × F :=
  let dx := b.xmax - b.xmin
  let dy := b.ymax - b.ymin
  (dx, dy, env.sqrt (dx * dx + dy * dy))

/-- Python `max` of a sequence; raises `ValueError` if it is empty. -/
def maxList : List F → M F
  | [] => .error .valueError
  | x :: rest => .ok (rest.foldl fmax x)

/-- numpy `min` of an array. -/
def minList : List F → M F
  | [] => .error .valueError
  | x :: rest => .ok (rest.foldl fmin x)

/-- `celltree_base.py:51-52` `default_tolerance`. -/
def defaultTolerance (env : Env F) (bbDiagonal : List F) : M F := do
  let m ← maxList bbDiagonal
  .ok (fmax env.minTol (env.tolFactor * m))

/-- `celltree_base.py:105-114` `to_dict_of_lists`: an association list `node ↦ children`. -/
def toDictOfLists (nodes : List (Node F)) : List (Nat × List Int) :=
  nodes.zipIdx.map fun (node, k) => if node.child = -1 then (k, []) else (k, [node.child, node.child + 1])

/-! ## `celltree.py` -/

/-- The attributes of a `CellTree2d` or `EdgeCellTree2d` object (`celltree.py:76-93`, `edge_celltree.py:66-83`).
`data` is `celltree_data`; `nMaxVert` is `faces.shape[1]`. -/
structure CellTree (F : Type) where
  data : Tree F
  nMaxVert : Nat
  nBuckets : Nat
  bbDistances : List (F × F × F)

/-- `celltree.py:74-93`: from the prepared faces to the object. -/
def CellTree.ofFaces (env : Env F) (vertices : List (Pt F)) (faces : IntArr) (nBuckets cellsPerLeaf : Nat) :
    M (CellTree F) := do
  let coords ← buildFaceBboxes faces.rows vertices
  let (nodes, idx) ← initTree env faces.rows.length coords nBuckets cellsPerLeaf
  let bbox ← bboxTree coords
  .ok ⟨⟨faces.rows, vertices, nodes, idx, coords, bbox, cellsPerLeaf⟩, faces.ncol, nBuckets,
    coords.map (bboxDistance env)⟩

/-- `celltree.py:57-93` `CellTree2d.__init__`, on values. -/
def CellTree.init (env : Env F) (vertices : List (Pt F)) (faces : IntArr) (fill nBuckets cellsPerLeaf : Int)
    (sched : List Nat) : M (CellTree F) :=
  if nBuckets < 2 then .error .valueError
  else if cellsPerLeaf < 1 then .error .valueError
  else do
    let faces ← castFaces faces fill
    let rows ← counterClockwise vertices faces.rows sched
    CellTree.ofFaces env vertices ⟨faces.ncol, rows⟩ nBuckets.toNat cellsPerLeaf.toNat

/-- `celltree.py:57-93` `CellTree2d.__init__`, with the arrays of the caller on the heap: `cast_faces` puts a copy on
the heap (line 71) and `counter_clockwise` (line 72) overwrites the array it is given. -/
def CellTree.initH (env : Env F) (h : Heap) (vertices : List (Pt F)) (facesRef : Nat) (fill nBuckets cellsPerLeaf : Int)
    (sched : List Nat) : M (Heap × CellTree F) :=
  if nBuckets < 2 then .error .valueError
  else if cellsPerLeaf < 1 then .error .valueError
  else do
    let faces ← castFaces (← rd h facesRef) fill
    let ref := h.length
    let h := h ++ [faces]
    let rows ← counterClockwise vertices (← rd h ref).rows sched
    let h ← wr h ref ⟨faces.ncol, rows⟩
    let t ← CellTree.ofFaces env vertices (← rd h ref) nBuckets.toNat cellsPerLeaf.toNat
    .ok (h, t)

/-- `celltree.py:121-122` (and `324-325`, `edge_celltree.py:109-110`): the tolerance that is used. -/
def CellTree.tolerance (env : Env F) (t : CellTree F) : Option F → M F
  | some tol => .ok tol
  | none => defaultTolerance env (t.bbDistances.map fun d => d.2.2)

/-- `celltree.py:95-124` `CellTree2d.locate_points`. -/
def CellTree.locatePoints (env : Env F) (t : CellTree F) (points : List (Pt F)) (tol : Option F) (sched : List Nat) :
    M (List Int) := do
  let tol ← t.tolerance env tol
  Celltree.locatePoints points t.data tol sched

/-- `celltree.py:126-144` `CellTree2d.locate_boxes`. -/
def CellTree.locateBoxes (t : CellTree F) (boxes : List (Box F)) (nThreads : Nat) (sched : List Nat) :
    M (List Nat × List Nat) :=
  Celltree.locateBoxes boxes t.data nThreads sched

/-- `a[mask]` for a boolean mask of the same length. -/
def applyMask {α : Type} (mask : List Bool) (l : List α) : List α :=
  ((l.zip mask).filter fun x => x.2).map Prod.fst

/-- `celltree.py:146-180` `CellTree2d.intersect_boxes`. -/
def CellTree.intersectBoxes (t : CellTree F) (boxes : List (Box F)) (nThreads : Nat) (sched : List Nat)
    (sched2 : Nat → List Nat) : M (List Nat × List Nat × List F) := do
  let (i, j) ← Celltree.locateBoxes boxes t.data nThreads sched
  let area ← boxAreaOfIntersection boxes t.data.vertices t.data.elements i j (sched2 i.length)
  let actual := area.map fun a => decide (a > 0)
  .ok (applyMask actual i, applyMask actual j, applyMask actual area)

/-- `celltree.py:182-222` `CellTree2d.locate_faces`, on values: also returns the rows of the caller's `faces` after
the call (`counter_clockwise` works in place). -/
def CellTree.locateFaces (env : Env F) (t : CellTree F) (vertices : List (Pt F)) (faces : IntArr) (nThreads : Nat)
    (sched sched1 : List Nat) (sched2 : Nat → List Nat) : M (List (List Int) × List Nat × List Nat) := do
  let rows ← counterClockwise vertices faces.rows sched
  let boxes ← buildFaceBboxes rows vertices
  let (i, j) ← Celltree.locateBoxes boxes t.data nThreads sched1
  let intersects ← polygonsIntersect env vertices t.data.vertices rows t.data.elements i j (sched2 i.length)
  .ok (rows, applyMask intersects i, applyMask intersects j)

/-- `celltree.py:182-222` `CellTree2d.locate_faces`, with the caller's array on the heap. -/
def CellTree.locateFacesH (env : Env F) (h : Heap) (t : CellTree F) (vertices : List (Pt F)) (facesRef : Nat)
    (nThreads : Nat) (sched sched1 : List Nat) (sched2 : Nat → List Nat) : M (Heap × List Nat × List Nat) := do
  let faces ← rd h facesRef
  let (rows, i, j) ← t.locateFaces env vertices faces nThreads sched sched1 sched2
  let h ← wr h facesRef ⟨faces.ncol, rows⟩
  .ok (h, i, j)

/-- `celltree.py:224-265` `CellTree2d.intersect_faces`, with the caller's array on the heap. -/
def CellTree.intersectFacesH (env : Env F) (h : Heap) (t : CellTree F) (vertices : List (Pt F)) (facesRef : Nat)
    (fill : Int) (nThreads : Nat) (sched sched1 : List Nat) (sched2 sched3 : Nat → List Nat) :
    M (Heap × List Nat × List Nat × List F) := do
  let faces ← castFaces (← rd h facesRef) fill
  let ref := h.length
  let h := h ++ [faces]
  let (h, i, j) ← t.locateFacesH env h vertices ref nThreads sched sched1 sched2
  let faces ← rd h ref
  let area ← areaOfIntersection vertices t.data.vertices faces.rows t.data.elements i j (sched3 i.length)
  let actual := area.map fun a => decide (a > 0)
  .ok (h, applyMask actual i, applyMask actual j, applyMask actual area)

/-- `celltree.py:267-293` `CellTree2d.intersect_edges`. -/
def CellTree.intersectEdges (env : Env F) (t : CellTree F) (edges : List (Pt F × Pt F)) (nThreads : Nat)
    (sched : List Nat) : M (List Nat × List Nat × List (Option (Pt F) × Option (Pt F))) :=
  locateEdges edges t.data (edgeFaceIntersect env t.data) nThreads sched

/-- `celltree.py:295-340` `CellTree2d.compute_barycentric_weights`. -/
def CellTree.barycentricWeights (env : Env F) (t : CellTree F) (points : List (Pt F)) (tol : Option F)
    (sched sched1 : List Nat) : M (List Int × List (List F)) := do
  let tol ← t.tolerance env tol
  let faceIndices ← t.locatePoints env points (some tol) sched
  let weights ←
    if t.nMaxVert > 3 then
      barycentricWachspressWeights env points faceIndices t.data.elements t.nMaxVert t.data.vertices tol sched1
    else barycentricTriangleWeights points faceIndices t.data.elements t.data.vertices sched1
  .ok (faceIndices, weights)

/-- `celltree_base.py:62-65` `node_bounds`. -/
def CellTree.nodeBounds (t : CellTree F) (garbage : Box F) : M (List (Box F)) := collectNodeBounds t.data garbage

/-- `celltree_base.py:67-80` `validate_node_bounds`. -/
def CellTree.validateNodeBounds (t : CellTree F) (garbage : Box F) : M (List Bool) := do
  Celltree.validateNodeBounds t.data (← t.nodeBounds garbage)

/-! ## `edge_celltree.py` -/

/-- `edge_celltree.py:60-63`: the tolerance by which the bounding boxes of the edges are widened. -/
def globalTolerance (env : Env F) (vertices : List (Pt F)) : M F := do
  let dx := (← maxList (vertices.map Pt.x)) - (← minList (vertices.map Pt.x))
  let dy := (← maxList (vertices.map Pt.y)) - (← minList (vertices.map Pt.y))
  .ok (fmax env.minTol (env.tolFactor * fmax dx dy))

/-- `edge_celltree.py:45-83` `EdgeCellTree2d.__init__`. -/
def EdgeCellTree.init (env : Env F) (vertices : List (Pt F)) (edges : IntArr) (nBuckets cellsPerLeaf : Int) :
    M (CellTree F) :=
  if nBuckets < 2 then .error .valueError
  else if cellsPerLeaf < 1 then .error .valueError
  else do
    let tol ← globalTolerance env vertices
    let coords ← buildEdgeBboxes edges.rows vertices tol
    let (nodes, idx) ← initTree env edges.rows.length coords nBuckets.toNat cellsPerLeaf.toNat
    let bbox ← bboxTree coords
    .ok ⟨⟨edges.rows, vertices, nodes, idx, coords, bbox, cellsPerLeaf.toNat⟩, edges.ncol, nBuckets.toNat,
      coords.map (bboxDistance env)⟩

/-- `edge_celltree.py:85-112` `EdgeCellTree2d.locate_points`. -/
def CellTree.locatePointsOnEdge (env : Env F) (t : CellTree F) (points : List (Pt F)) (tol : Option F)
    (sched : List Nat) : M (List Int) := do
  let tol ← t.tolerance env tol
  Celltree.locatePointsOnEdge points t.data tol sched

/-- `edge_celltree.py:114-141` `EdgeCellTree2d.intersect_edges`. -/
def CellTree.intersectEdgesOnEdge (env : Env F) (t : CellTree F) (edges : List (Pt F × Pt F)) (nThreads : Nat)
    (sched : List Nat) : M (List Nat × List Nat × List (Option (Pt F))) := do
  let (i, j, xy) ← locateEdges edges t.data (edgeEdgeIntersect env t.data) nThreads sched
  .ok (i, j, xy.map Prod.fst)

end Celltree
