import Verif.Model.Cast
import Verif.Spec.Float

/-!
# Model of the conversions of dtype in `cast.py`

`cast.py` converts coordinates to `float64` and faces to `intp`, which is `int64` on the usual platforms. The argument is an array
of any dtype (`astype`), or a nested list (`ascontiguousarray`). The entries of arrays of `int8` … `uint64` and `bool` are integers,
those of `float16`, `float32` and `float64` are binary64 numbers. Complex numbers, dates, strings and objects are not modelled, nor
lists with integers too large for `float64`.
-/

namespace Celltree

/-- One entry of an array or of a nested list. -/
inductive Entry
  | int (n : Int)
  | float (x : Fl)
deriving DecidableEq, Repr

/-- Conversion to `float64`: integers are rounded to the nearest number, and the smaller floating point types are exact. -/
def Entry.toFloat : Entry → Fl
  | .int n => Fl.rnd n
  | .float x => x

/-- The part of a number before the decimal point. -/
def truncRat (q : ℚ) : Int := q.num.tdiv q.den

/-- What fits in `int64`. -/
def FitsInt64 (n : Int) : Prop := -2 ^ 63 ≤ n ∧ n < 2 ^ 63

instance (n : Int) : Decidable (FitsInt64 n) := by unfold FitsInt64; infer_instance

/-- `array.astype(intp)`. Integers of `uint64` that do not fit are reduced modulo `2 ^ 64`. The result for floating point numbers that
do not fit, and for NaN, is not defined in C: any function `undef`. -/
def Entry.astypeInt (undef : Fl → Int) : Entry → Int
  | .int n => n.bmod (2 ^ 64)
  | .float (.fin q) => if FitsInt64 (truncRat q) then truncRat q else undef (.fin q)
  | .float x => undef x

/-- `ascontiguousarray(list, dtype=intp)`. NaN raises `ValueError`; numbers that do not fit raise `OverflowError`, in the model
`runtimeError`. -/
def Entry.asarrayInt : Entry → M Int
  | .int n => if FitsInt64 n then .ok n else .error .runtimeError
  | .float (.fin q) => if FitsInt64 (truncRat q) then .ok (truncRat q) else .error .runtimeError
  | .float .nan => .error .valueError
  | .float _ => .error .runtimeError

/-- The conversion of an array of faces. -/
def toIntp (undef : Fl → Int) (isArray : Bool) (a : NdArray Entry) : M (NdArray Int) :=
  if isArray then .ok ⟨a.shape, a.data.map (Entry.astypeInt undef)⟩
  else do .ok ⟨a.shape, ← a.data.mapM Entry.asarrayInt⟩

/-- The conversion of an array of coordinates. -/
def toFloat64 (a : NdArray Entry) : NdArray Fl := ⟨a.shape, a.data.map Entry.toFloat⟩

/-- `cast.py:14-21` `cast_vertices`. -/
def castVerticesE (a : NdArray Entry) : M (List (Pt Fl)) := castVertices (toFloat64 a)

/-- `cast.py:24-40` `cast_faces`. The fill value is replaced after the conversion. -/
def castFacesE (undef : Fl → Int) (isArray : Bool) (a : NdArray Entry) (fill : Int) : M IntArr := do
  castFacesArr (← toIntp undef isArray a) fill

/-- `celltree.py:57-93` `CellTree2d.__init__`. -/
def CellTree.initE (env : Env Fl) (undef : Fl → Int) (isArray : Bool) (vertices faces : NdArray Entry)
    (fill nBuckets cellsPerLeaf : Int) (sched : List Nat) : M (CellTree Fl) :=
  if nBuckets < 2 then .error .valueError
  else if cellsPerLeaf < 1 then .error .valueError
  else do
    let vertices ← castVerticesE vertices
    let faces ← castFacesE undef isArray faces fill
    let rows ← counterClockwise vertices faces.rows sched
    CellTree.ofFaces env vertices ⟨faces.ncol, rows⟩ nBuckets.toNat cellsPerLeaf.toNat

/-- `celltree.py:95-124` `CellTree2d.locate_points`. -/
def CellTree.locatePointsE (env : Env Fl) (t : CellTree Fl) (points : NdArray Entry) (tol : Option Fl) (sched : List Nat) :
    M (List Int) :=
  t.locatePointsArr env (toFloat64 points) tol sched

/-- `celltree.py:126-144` `CellTree2d.locate_boxes`. -/
def CellTree.locateBoxesE (t : CellTree Fl) (boxes : NdArray Entry) (nThreads : Nat) (sched : List Nat) :
    M (List Nat × List Nat) :=
  t.locateBoxesArr (toFloat64 boxes) nThreads sched

/-- `celltree.py:146-180` `CellTree2d.intersect_boxes`. -/
def CellTree.intersectBoxesE (t : CellTree Fl) (boxes : NdArray Entry) (nThreads : Nat) (sched : List Nat)
    (sched2 : Nat → List Nat) : M (List Nat × List Nat × List Fl) :=
  t.intersectBoxesArr (toFloat64 boxes) nThreads sched sched2

/-- `celltree.py:224-265` `CellTree2d.intersect_faces`. -/
def CellTree.intersectFacesE (env : Env Fl) (t : CellTree Fl) (undef : Fl → Int) (isArray : Bool) (vertices faces : NdArray Entry)
    (fill : Int) (nThreads : Nat) (sched sched1 : List Nat) (sched2 sched3 : Nat → List Nat) :
    M (List Nat × List Nat × List Fl) := do
  let _ ← castVerticesE vertices
  t.intersectFacesArr env (toFloat64 vertices) (← toIntp undef isArray faces) fill nThreads sched sched1 sched2 sched3

/-- `celltree.py:267-293` `CellTree2d.intersect_edges`. -/
def CellTree.intersectEdgesE (env : Env Fl) (t : CellTree Fl) (edges : NdArray Entry) (nThreads : Nat) (sched : List Nat) :
    M (List Nat × List Nat × List (Option (Pt Fl) × Option (Pt Fl))) :=
  t.intersectEdgesArr env (toFloat64 edges) nThreads sched

/-- `celltree.py:295-340` `CellTree2d.compute_barycentric_weights`. The points are only converted to locate them (326). The compiled
functions (333) get what the caller gave. The coordinates of an array of numbers are converted to `float64` where they are subtracted
from those of a vertex. Nested lists are not accepted by numba ("cannot reflect element of reflected container", a `TypeError`; in
the model `runtimeError`). Arrays of `bool` and `float16` are not modelled here. -/
def CellTree.barycentricWeightsE (env : Env Fl) (t : CellTree Fl) (isArray : Bool) (points : NdArray Entry) (tol : Option Fl)
    (sched sched1 : List Nat) : M (List Int × List (List Fl)) :=
  if isArray then t.barycentricWeightsArr env (toFloat64 points) tol sched sched1
  else do
    let tol ← t.tolerance env tol
    let _ ← t.locatePointsE env points (some tol) sched
    .error .runtimeError

/-- `edge_celltree.py:45-83` `EdgeCellTree2d.__init__`; the table of edges is not converted. -/
def EdgeCellTree.initE (env : Env Fl) (vertices : NdArray Entry) (edges : IntArr) (nBuckets cellsPerLeaf : Int) :
    M (CellTree Fl) :=
  EdgeCellTree.initArr env (toFloat64 vertices) edges nBuckets cellsPerLeaf

/-- `edge_celltree.py:85-112` `EdgeCellTree2d.locate_points`. -/
def CellTree.locatePointsOnEdgeE (env : Env Fl) (t : CellTree Fl) (points : NdArray Entry) (tol : Option Fl)
    (sched : List Nat) : M (List Int) :=
  t.locatePointsOnEdgeArr env (toFloat64 points) tol sched

/-- `edge_celltree.py:114-141` `EdgeCellTree2d.intersect_edges`. -/
def CellTree.intersectEdgesOnEdgeE (env : Env Fl) (t : CellTree Fl) (edges : NdArray Entry) (nThreads : Nat)
    (sched : List Nat) : M (List Nat × List Nat × List (Option (Pt Fl))) :=
  t.intersectEdgesOnEdgeArr env (toFloat64 edges) nThreads sched

/-- `edge_celltree.py:45-83` `EdgeCellTree2d.__init__` with a table of edges of any kind: it is passed as it is to a compiled function
(64), which does not accept nested lists (`TypeError`; in the model `runtimeError`). -/
def EdgeCellTree.initListE (env : Env Fl) (isArray : Bool) (vertices : NdArray Entry) (edges : IntArr) (nBuckets cellsPerLeaf : Int) :
    M (CellTree Fl) :=
  if nBuckets < 2 then .error .valueError
  else if cellsPerLeaf < 1 then .error .valueError
  else do
    let _ ← castVerticesE vertices
    if isArray then EdgeCellTree.initE env vertices edges nBuckets cellsPerLeaf else .error .runtimeError

end Celltree
