import Verif.Model.Api

/-!
# Objects that share memory with their caller

`CellTree.initH` (in `Api.lean`) puts the copy of `faces` at the end of the heap. Here are the two other ways in which an
object gets its table: without a copy, from an array-like that is no `np.ndarray` (`cast.py:28`), and without a copy for
the edges of an `EdgeCellTree2d` (`edge_celltree.py:67`). Queries read the table through the reference.
-/

namespace Celltree

variable {F : Type} [Add F] [Sub F] [Mul F] [Div F] [Neg F] [Zero F] [One F] [IntCast F]
  [LT F] [LE F] [BEq F] [DecidableLT F] [DecidableLE F]

/-- An object in memory: the place of its table of faces or edges, and its other attributes (which nobody else can
reach). The field `tree.data.elements` is the content of the table at the end of the constructor. -/
structure TreeObj (F : Type) where
  ref : Nat
  tree : CellTree F

/-- The object as a query sees it: with the content that its table has now. -/
def TreeObj.now (h : Heap) (o : TreeObj F) : M (CellTree F) := do
  let table ← rd h o.ref
  .ok { o.tree with data := { o.tree.data with elements := table.rows } }

/-- `celltree.py:57-93` `CellTree2d.__init__` for an `np.ndarray`: `self.faces` is the copy made by `cast_faces`
(`cast.py:26`), which is the last array on the heap. -/
def TreeObj.initFaces (env : Env F) (h : Heap) (vertices : List (Pt F)) (facesRef : Nat) (fill nBuckets cellsPerLeaf : Int)
    (sched : List Nat) : M (Heap × TreeObj F) := do
  let (h', t) ← CellTree.initH env h vertices facesRef fill nBuckets cellsPerLeaf sched
  .ok (h', ⟨h.length, t⟩)

/-- `celltree.py:57-93` `CellTree2d.__init__` for an array-like that is no `np.ndarray` but gives access to its memory (it
has `__array__`, for example an `xarray.DataArray`), contiguous and of the right dtype. `np.ascontiguousarray`
(`cast.py:28`) then gives an array on the same memory: line 39 and `counter_clockwise` write to it. -/
def TreeObj.initArrayLike (env : Env F) (h : Heap) (vertices : List (Pt F)) (facesRef : Nat)
    (fill nBuckets cellsPerLeaf : Int) (sched : List Nat) : M (Heap × TreeObj F) :=
  if nBuckets < 2 then .error .valueError
  else if cellsPerLeaf < 1 then .error .valueError
  else do
    let faces ← castFaces (← rd h facesRef) fill
    let h ← wr h facesRef faces
    let rows ← counterClockwise vertices (← rd h facesRef).rows sched
    let h ← wr h facesRef ⟨faces.ncol, rows⟩
    let t ← CellTree.ofFaces env vertices (← rd h facesRef) nBuckets.toNat cellsPerLeaf.toNat
    .ok (h, ⟨facesRef, t⟩)

/-- `edge_celltree.py:45-83` `EdgeCellTree2d.__init__`: `self.edges` is the array of the caller (line 67). -/
def TreeObj.initEdges (env : Env F) (h : Heap) (vertices : List (Pt F)) (edgesRef : Nat) (nBuckets cellsPerLeaf : Int) :
    M (TreeObj F) := do
  let edges ← rd h edgesRef
  let t ← EdgeCellTree.init env vertices edges nBuckets cellsPerLeaf
  .ok ⟨edgesRef, t⟩

end Celltree
