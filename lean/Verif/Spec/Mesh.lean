import Verif.Model.Api
import Verif.Spec.NumOrd

/-!
# Specification of meshes

What a user means by a mesh: a list of vertices, and a table with for every face its vertex numbers, padded with a fill
value. Nothing here refers to how the code stores or traverses anything.
-/

namespace Celltree

/-- The vertex numbers in a row of the table: everything before the first fill value. -/
def rowIndices (fill : Int) (row : List Int) : List Int := row.takeWhile fun v => v ≠ fill

/-- The vertices of a face. -/
def facePts {F : Type} (vertices : List (Pt F)) (fill : Int) (row : List Int) : List (Pt F) :=
  (rowIndices fill row).filterMap fun v => vertices[v.toNat]?

/-- A row is well-formed: at least three vertices, with existing vertex numbers, followed by padding only. -/
structure ValidRow (nVertices : Nat) (fill : Int) (row : List Int) : Prop where
  three : 3 ≤ (rowIndices fill row).length
  range : ∀ v ∈ rowIndices fill row, 0 ≤ v ∧ v < nVertices
  pad : ∀ v ∈ row.drop (rowIndices fill row).length, v = fill

/-- A table of faces is well-formed. -/
structure ValidFaces (nVertices : Nat) (fill : Int) (faces : IntArr) : Prop where
  rect : ∀ r ∈ faces.rows, r.length = faces.ncol
  rows : ∀ r ∈ faces.rows, ValidRow nVertices fill r

/-- No coordinate is a NaN. -/
def NumPts {F : Type} [LT F] [LE F] [NumOrd F] (pts : List (Pt F)) : Prop :=
  ∀ p ∈ pts, NumOrd.num p.x ∧ NumOrd.num p.y

/-- `b` is the bounding box of the points: it contains them and each of its sides goes through one of them. -/
structure IsBBox {F : Type} [LE F] (pts : List (Pt F)) (b : Box F) : Prop where
  contains : ∀ p ∈ pts, b.xmin ≤ p.x ∧ p.x ≤ b.xmax ∧ b.ymin ≤ p.y ∧ p.y ≤ b.ymax
  left : ∃ p ∈ pts, p.x = b.xmin
  right : ∃ p ∈ pts, p.x = b.xmax
  bottom : ∃ p ∈ pts, p.y = b.ymin
  top : ∃ p ∈ pts, p.y = b.ymax

/-- Two boxes overlap: each starts before the other ends, in x and in y. -/
def BoxesOverlap {F : Type} [LT F] (a b : Box F) : Prop :=
  a.xmin < b.xmax ∧ b.xmin < a.xmax ∧ a.ymin < b.ymax ∧ b.ymin < a.ymax

/-- A query box overlaps the bounding box of a set of points, in terms of the points: the box starts left of some point,
ends right of some point, and similarly in y. -/
def BoxOverlapsPts {F : Type} [LT F] (q : Box F) (pts : List (Pt F)) : Prop :=
  (∃ p ∈ pts, q.xmin < p.x) ∧ (∃ p ∈ pts, p.x < q.xmax) ∧ (∃ p ∈ pts, q.ymin < p.y) ∧ (∃ p ∈ pts, p.y < q.ymax)

end Celltree

namespace Celltree

section
variable {F : Type} [Add F] [Sub F] [Mul F] [Div F] [Neg F] [Zero F] [One F] [IntCast F]
  [LT F] [LE F] [BEq F] [DecidableLT F] [DecidableLE F]

/-- `t` is the object returned by `CellTree2d(vertices, faces, fill, n_buckets, cells_per_leaf)`, for some order of the
iterations of the parallel loop in the constructor. -/
def Makes (env : Env F) (vertices : List (Pt F)) (faces : IntArr) (fill nBuckets cellsPerLeaf : Int) (t : CellTree F) :
    Prop :=
  ∃ sched : List Nat, sched.Perm (List.range faces.rows.length) ∧
    CellTree.init env vertices faces fill nBuckets cellsPerLeaf sched = .ok t

/-- A well-formed mesh whose coordinates are numbers. -/
structure GoodMesh [NumOrd F] (env : Env F) (vertices : List (Pt F)) (faces : IntArr) (fill : Int) : Prop where
  valid : ValidFaces vertices.length fill faces
  num : ∀ r ∈ faces.rows, NumPts (facePts vertices fill r)
  max : NumOrd.num env.floatMax
  min : NumOrd.num env.floatMin

end

end Celltree

namespace Celltree

/-- The closed bounding box of `pts` contains `p`, in terms of the points: there is a point on every side of `p`. -/
def InBoxOf {F : Type} [LE F] (pts : List (Pt F)) (p : Pt F) : Prop :=
  (∃ v ∈ pts, v.x ≤ p.x) ∧ (∃ v ∈ pts, p.x ≤ v.x) ∧ (∃ v ∈ pts, v.y ≤ p.y) ∧ (∃ v ∈ pts, p.y ≤ v.y)

end Celltree

/-! ## Edges -/

namespace Celltree

/-- A table of edges is well-formed: two existing vertex numbers for every edge. -/
def ValidEdges (nVertices : Nat) (edges : IntArr) : Prop :=
  ∀ r ∈ edges.rows, ∃ v w : Int, r = [v, w] ∧ 0 ≤ v ∧ v < nVertices ∧ 0 ≤ w ∧ w < nVertices

/-- Edge `j` goes from `p` to `q`. -/
def IsEdge {F : Type} (vertices : List (Pt F)) (edges : IntArr) (j : Nat) (p q : Pt F) : Prop :=
  ∃ v w : Int, edges.rows[j]? = some [v, w] ∧ vertices[v.toNat]? = some p ∧ vertices[w.toNat]? = some q

end Celltree

/-! ## Trees -/

namespace Celltree

/-- Cell `j` is in a leaf below node `k` of the tree (or in node `k` itself). -/
inductive BelowNode {F : Type} (tree : Tree F) : Nat → Nat → Prop
  | leaf {k j : Nat} {nd : Node F} : tree.nodes[k]? = some nd → nd.child = -1 →
      j ∈ (tree.bbIndices.drop nd.ptr).take nd.size → BelowNode tree k j
  | child {k j c : Nat} {nd : Node F} : tree.nodes[k]? = some nd → nd.child ≠ -1 →
      (nd.child = c ∨ nd.child + 1 = c) → BelowNode tree c j → BelowNode tree k j

/-- All coordinates of the points are finite: between the smallest and the largest number. -/
def FinitePts {F : Type} [Add F] [Sub F] [Mul F] [Div F] [Neg F] [Zero F] [One F] [IntCast F] [LT F] [LE F] [BEq F]
    (env : Env F) (pts : List (Pt F)) : Prop :=
  ∀ p ∈ pts, env.floatMin ≤ p.x ∧ p.x ≤ env.floatMax ∧ env.floatMin ≤ p.y ∧ p.y ≤ env.floatMax

end Celltree

/-! ## The same faces with other numbers -/

namespace Celltree

/-- Two tables describe the same faces: face `i` of one has the same corners, in the same order, as face `i` of the other
one. The vertices may be numbered differently, there may be vertices that no face uses or vertices listed twice, and the
tables may have different fill values and numbers of columns. -/
structure SameFaces {F : Type} (vertices : List (Pt F)) (fill : Int) (faces : IntArr) (vertices' : List (Pt F)) (fill' : Int)
    (faces' : IntArr) : Prop where
  length : faces'.rows.length = faces.rows.length
  pts : ∀ (i : Nat) r r', faces.rows[i]? = some r → faces'.rows[i]? = some r' →
    facePts vertices' fill' r' = facePts vertices fill r

end Celltree
