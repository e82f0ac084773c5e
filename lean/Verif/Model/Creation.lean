import Verif.Model.Geom

/-!
# Model of `numba_celltree/creation.py`
-/

namespace Celltree

variable {F : Type} [Add F] [Sub F] [Mul F] [Div F] [Zero F] [One F] [Neg F] [IntCast F]
  [LT F] [LE F] [BEq F] [DecidableLT F] [DecidableLE F]

/-- `constants.py:64-70`, `92-106` `Node`. `child = -1` marks a leaf. `ptr` and `size` are never negative in the
code and are natural numbers in the model. -/
structure Node (F : Type) where
  child : Int
  Lmax : F
  Rmin : F
  ptr : Nat
  size : Nat
  dim : Bool
deriving DecidableEq, Repr

/-- `constants.py:73-79`, `109-122` `Bucket`. `index` starts as `-1`; `size` is never negative. -/
structure Bucket (F : Type) where
  Max : F
  Min : F
  Rmin : F
  Lmax : F
  index : Int
  size : Nat
deriving DecidableEq, Repr

/-- `creation.py:28-29` `create_node`. -/
def createNode (ptr size : Nat) (dim : Bool) : Node F := ⟨-1, -1, -1, ptr, size, dim⟩

/-- `creation.py:33-41` `push_node`. The pre-allocated array (capacity `cap`) is represented by its filled prefix
`nodes`, so `index = nodes.length`; writing past the capacity is out of bounds. -/
def pushNode (cap : Nat) (nodes : List (Node F)) (node : Node F) : M (List (Node F)) :=
  if nodes.length < cap then .ok (nodes ++ [node]) else .error .oob

/-- `creation.py:45-51` `centroid_test`. -/
def centroidTest (bucket : Bucket F) (box : Box F) (dim : Bool) : Bool :=
  let centroid := box.lo dim + half * (box.hi dim - box.lo dim)
  decide (centroid ≥ bucket.Min) && decide (centroid < bucket.Max)

/-- First loop of `stable_partition` (`creation.py:96-103`): fills `temp` from the front with the elements that pass
the test and from the back (negative indices) with the others. -/
def partitionFill (coords : List (Box F)) (bucket : Bucket F) (dim : Bool) :
    List Nat → List Nat → Nat → Int → M (List Nat × Nat × Int)
  | [], temp, ct, cf => .ok (temp, ct, cf)
  | i :: rest, temp, ct, cf => do
    let box ← rd coords i
    if centroidTest bucket box dim then do
      let temp ← wr temp ct i
      partitionFill coords bucket dim rest temp (ct + 1) cf
    else do
      let temp ← wrI temp cf i
      partitionFill coords bucket dim rest temp ct (cf - 1)

/-- `creation.py:55-112` `stable_partition`: returns the new `bb_indices` and `start_second`. -/
def stablePartition (idx : List Nat) (coords : List (Box F)) (begin_ end_ : Nat) (bucket : Bucket F) (dim : Bool) :
    M (List Nat × Nat) := do
  let temp := List.replicate (end_ - begin_) 0
  let (temp, ct, cf) ← partitionFill coords bucket dim ((idx.take end_).drop begin_) temp 0 (-1)
  let idx ← (List.range ct).foldlM (fun (idx : List Nat) (i : Nat) => do wr idx (begin_ + i) (← rd temp i)) idx
  let startSecond := begin_ + ct
  let idx ← (List.range (-1 - cf).toNat).foldlM
    (fun (idx : List Nat) (i : Nat) => do wr idx (startSecond + i) (← rdI temp (-(i : Int) - 1))) idx
  .ok (idx, startSecond)

/-- Loop of `sort_bbox_indices` (`creation.py:126-150`), structurally recursive over `buckets[i-1:]`. `pend` is the
value that the code has just assigned to `buckets[i-1].index`: `node.ptr` for the first bucket (line 127), and
`buckets[i-1].index + buckets[i-1].size` for the following ones (lines 138-147). The loop ends when
`current = end_`; reading `buckets[i - 1]` beyond the end of the list raises `IndexError`. -/
def sortLoop (coords : List (Box F)) (dim : Bool) (end_ : Nat) :
    Int → List (Bucket F) → List Nat → Nat → M (List (Bucket F) × List Nat)
  | _, [], idx, current => if current = end_ then .ok ([], idx) else .error .indexError
  | pend, b :: rest, idx, current =>
    let b := { b with index := pend }
    if current = end_ then .ok (b :: rest, idx)
    else do
      let (idx, current) ← stablePartition idx coords current end_ b dim
      let b := { b with size := ((current : Int) - b.index).toNat }
      let (rest, idx) ← sortLoop coords dim end_ (b.index + b.size) rest idx current
      .ok (b :: rest, idx)

/-- `creation.py:116-150` `sort_bbox_indices`: returns the updated `buckets` and `bb_indices`. -/
def sortBboxIndices (idx : List Nat) (coords : List (Box F)) (buckets : List (Bucket F)) (node : Node F)
    (dim : Bool) : M (List (Bucket F) × List Nat) :=
  match buckets with
  | [] => .error .indexError
  | _ :: _ => sortLoop coords dim (node.ptr + node.size) node.ptr buckets idx node.ptr

/-- Loop of `get_bounds` (`creation.py:163-170`): `n` rounds left, at position `i`. -/
def getBoundsLoop (coords : List (Box F)) (idx : List Nat) (dim : Bool) : Nat → Int → F → F → M (F × F)
  | 0, _, Rmin, Lmax => .ok (Rmin, Lmax)
  | n + 1, i, Rmin, Lmax => do
    let dataIndex ← rdI idx i
    let box ← rd coords dataIndex
    let Rmin := if box.lo dim < Rmin then box.lo dim else Rmin
    let Lmax := if box.hi dim > Lmax then box.hi dim else Lmax
    getBoundsLoop coords idx dim n (i + 1) Rmin Lmax

/-- `creation.py:154-171` `get_bounds`: returns `(Rmin, Lmax)`. -/
def getBounds (env : Env F) (index : Int) (size : Nat) (coords : List (Box F)) (idx : List Nat) (dim : Bool) :
    M (F × F) :=
  getBoundsLoop coords idx dim size index env.floatMax env.floatMin

/-- First loop of `split_plane` (`creation.py:190-200`), over consecutive pairs of buckets; `i` is the loop index.
`plane = none` is `INT_MAX`. -/
def splitPlaneLoop (rootSize : Nat) (rangeLmax rangeRmin bucketLength : F) :
    Nat → Bucket F → List (Bucket F) → Int → F → Option Nat → M (Option Nat)
  | _, _, [], _, _, plane => .ok plane
  | i, current, next :: rest, inLeft, minCost, plane => do
    let inLeft := inLeft + current.size
    let inRight := (rootSize : Int) - inLeft
    let leftVolume ← fdiv (current.Lmax - rangeRmin) bucketLength
    let rightVolume ← fdiv (rangeLmax - next.Rmin) bucketLength
    let planeCost := leftVolume * (inLeft : F) + rightVolume * (inRight : F)
    if planeCost < minCost then
      splitPlaneLoop rootSize rangeLmax rangeRmin bucketLength (i + 1) next rest inLeft planeCost (some i)
    else
      splitPlaneLoop rootSize rangeLmax rangeRmin bucketLength (i + 1) next rest inLeft minCost plane

/-- `creation.py:204-207`: maximum of the `Lmax` of the buckets. -/
def maxLmax (init : F) (buckets : List (Bucket F)) : F :=
  buckets.foldl (fun m b => if b.Lmax > m then b.Lmax else m) init

/-- `creation.py:208-211`: minimum of the `Rmin` of the buckets. -/
def minRmin (init : F) (buckets : List (Bucket F)) : F :=
  buckets.foldl (fun m b => if b.Rmin < m then b.Rmin else m) init

/-- `creation.py:175-213` `split_plane`: returns `(plane, Lmax, Rmin)`. If no cost was below `FLOAT_MAX`, `plane`
is `INT_MAX` and reading `buckets[i]` for `i in range(INT_MAX)` raises `IndexError`. -/
def splitPlane (env : Env F) (buckets : List (Bucket F)) (rootSize : Nat) (rangeLmax rangeRmin bucketLength : F) :
    M (Nat × F × F) := do
  let plane ← match buckets with
    | [] => .ok none
    | b :: rest => splitPlaneLoop rootSize rangeLmax rangeRmin bucketLength 1 b rest 0 env.floatMax none
  match plane with
  | none => .error .indexError
  | some plane =>
    .ok (plane, maxLmax env.floatMin (buckets.take plane), minRmin env.floatMax (buckets.drop plane))

/-- Loop of `pessimistic_n_nodes` (`creation.py:226-228`); `nodes` halves (rounded up) until it is 1. The fuel is
`nodes` itself. -/
def pessimisticLoop : Nat → Nat → Nat → Nat
  | 0, _, nNodes => nNodes
  | fuel + 1, nodes, nNodes =>
    if nodes > 1 then pessimisticLoop fuel ((nodes + 1) / 2) (nNodes + nodes) else nNodes

/-- `creation.py:217-230` `pessimistic_n_nodes` (`int(np.ceil(n / 2))` is `(n + 1) / 2`, exact for
`n < 2 ** 53`). -/
def pessimisticNNodes (nElements : Nat) : Nat :=
  pessimisticLoop ((nElements + 1) / 2) ((nElements + 1) / 2) nElements + 1

/-- `creation.py:283-293`: the initial buckets `0 .. n - 1`. -/
def initBuckets (nBuckets : Nat) (bucketLength rangeRmin : F) : List (Bucket F) :=
  (List.range nBuckets).map fun i =>
    ⟨((i + 1 : Nat) : Int) * bucketLength + rangeRmin, ((i : Nat) : Int) * bucketLength + rangeRmin, -1, -1, -1, 0⟩

/-- `creation.py:301-306`: set `Rmin` and `Lmax` of every bucket. -/
def boundBuckets (env : Env F) (coords : List (Box F)) (idx : List Nat) (dim : Bool) (buckets : List (Bucket F)) :
    M (List (Bucket F)) :=
  buckets.mapM fun b => do
    let (Rmin, Lmax) ← getBounds env b.index b.size coords idx dim
    .ok { b with Rmin := Rmin, Lmax := Lmax }

/-- `creation.py:322-325`: drop empty buckets at the front. `buckets[1]` raises `IndexError` if there is none. -/
def dropEmptyFront : List (Bucket F) → M (List (Bucket F))
  | [] => .error .indexError
  | b0 :: rest =>
    if b0.size = 0 then dropAux b0.Min rest else .ok (b0 :: rest)
where
  /-- `min0` is `buckets[0].Min` of the bucket just removed. -/
  dropAux (min0 : F) : List (Bucket F) → M (List (Bucket F))
    | [] => .error .indexError
    | b :: rest =>
      if b.size = 0 then dropAux min0 rest else .ok ({ b with Min := min0 } :: rest)

/-- `creation.py:327-341`: merge empty buckets with the previous one. `b` is `buckets[i - 1]`. -/
def mergeEmpty : Bucket F → List (Bucket F) → List (Bucket F)
  | b, [] => [b]
  | b, next :: rest =>
    if next.size = 0 then mergeEmpty { b with Max := next.Max } rest else b :: mergeEmpty next rest

/-- State of the loop of `build`. `nodes` is the filled prefix of the pre-allocated array (`node_index` is its
length). Rows of the stack are `(root_index, dim)`. -/
structure BuildState (F : Type) where
  nodes : List (Node F)
  idx : List Nat
  stack : Stk (Nat × Int)

/-- Parameters of `build` that do not change: constants, `bb_coords`, `n_buckets`, `cells_per_leaf`, and the
capacity of the pre-allocated node array. -/
structure BuildParams (F : Type) where
  env : Env F
  coords : List (Box F)
  nBuckets : Nat
  cellsPerLeaf : Nat
  cap : Nat

/-- `creation.py:360-379`: split the node. -/
def splitNode (P : BuildParams F) (s : BuildState F) (rootIndex : Nat) (root : Node F) (dim : Bool)
    (buckets : List (Bucket F)) (rangeLmax rangeRmin bucketLength : F) : M (BuildState F) := do
  let (plane, Lmax, Rmin) ← splitPlane P.env buckets root.size rangeLmax rangeRmin bucketLength
  let rightBucket ← match buckets[plane]? with
    | some b => .ok b
    | none => .error .indexError
  let rightIndex := rightBucket.index.toNat
  let rightSize := root.ptr + root.size - rightIndex
  let leftIndex := root.ptr
  let leftSize := root.size - rightSize
  let childInd := s.nodes.length
  let nodes ← wr s.nodes rootIndex { root with child := childInd, Lmax := Lmax, Rmin := Rmin }
  let nodes ← pushNode P.cap nodes (createNode leftIndex leftSize (!dim))
  let nodes ← pushNode P.cap nodes (createNode rightIndex rightSize (!dim))
  let newDim : Int := if dim then 0 else 1
  let stack ← s.stack.push (childInd + 1, newDim)
  let stack ← stack.push (childInd, newDim)
  .ok { s with nodes := nodes, stack := stack }

/-- One round of the loop of `build` (`creation.py:249-379`), for a non-empty stack. -/
def buildStep (P : BuildParams F) (s : BuildState F) : M (BuildState F) := do
  let ((rootIndex, dimFlag), stack) ← s.stack.pop
  let s := { s with stack := stack }
  let dimI : Int := if dimFlag < 0 then dimFlag + 2 else dimFlag
  let dim : Bool := dimI != 0
  let root ← rd s.nodes rootIndex
  if root.size ≤ P.cellsPerLeaf then .ok s
  else do
    let (rangeRmin, rangeLmax) ← getBounds P.env root.ptr root.size P.coords s.idx dim
    let bucketLength ← fdiv (rangeLmax - rangeRmin) ((P.nBuckets : Int) : F)
    let buckets := initBuckets P.nBuckets bucketLength rangeRmin
    let (buckets, idx) ← sortBboxIndices s.idx P.coords buckets root dim
    let s := { s with idx := idx }
    let buckets ← boundBuckets P.env P.coords s.idx dim buckets
    if P.cellsPerLeaf = 1 ∧ root.size = 2 then do
      let nodes ← wr s.nodes rootIndex { root with child := s.nodes.length, Lmax := rangeLmax, Rmin := rangeRmin }
      let nodes ← pushNode P.cap nodes (createNode root.ptr 1 (!dim))
      let nodes ← pushNode P.cap nodes (createNode (root.ptr + 1) 1 (!dim))
      .ok { s with nodes := nodes }
    else do
      let buckets ← dropEmptyFront buckets
      let buckets := match buckets with
        | [] => []
        | b :: rest => mergeEmpty b rest
      if buckets.any fun b => b.size = root.size then
        if dimFlag ≥ 0 then do
          let newFlag : Int := (if dim then 0 else 1) - 2
          let nodes ← wr s.nodes rootIndex { root with dim := !root.dim }
          let stack ← s.stack.push (rootIndex, newFlag)
          .ok { s with nodes := nodes, stack := stack }
        else do
          let nodes ← wr s.nodes rootIndex { root with Lmax := -1, Rmin := -1 }
          .ok { s with nodes := nodes }
      else splitNode P s rootIndex root dim buckets rangeLmax rangeRmin bucketLength

/-- The loop `while size > 0` of `build` (`creation.py:249`). -/
def buildLoop (P : BuildParams F) : Nat → BuildState F → M (BuildState F)
  | 0, s => if s.stack.size > 0 then .error .fuel else .ok s
  | fuel + 1, s => if s.stack.size > 0 then do buildLoop P fuel (← buildStep P s) else .ok s

/-- `creation.py:385-413` `initialize` (with `build`, lines 234-381): returns the used part of the node array and
`bb_indices`. `n` is the number of elements. The fuel `4 n + 1` is proved to be enough in `Props/Build.lean`. -/
def initTree (env : Env F) (n : Nat) (coords : List (Box F)) (nBuckets cellsPerLeaf : Nat) :
    M (List (Node F) × List Nat) := do
  let P : BuildParams F := ⟨env, coords, nBuckets, cellsPerLeaf, pessimisticNNodes n⟩
  let nodes ← pushNode P.cap [] (createNode 0 n false)
  let stack ← Stk.single ((0 : Nat), (0 : Int))
  let s ← buildLoop P (4 * n + 1) ⟨nodes, List.range n, stack⟩
  .ok (s.nodes, s.idx)

end Celltree
