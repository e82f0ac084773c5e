import Verif.Model.Algorithms
import Verif.Model.Creation

/-!
# Model of `numba_celltree/query.py`
-/

namespace Celltree

variable {F : Type} [Add F] [Sub F] [Mul F] [Div F] [Neg F] [Zero F] [One F]
  [LT F] [LE F] [BEq F] [DecidableLT F] [DecidableLE F]

/-- `constants.py:82-89` `CellTreeData`. -/
structure Tree (F : Type) where
  elements : List (List Int)
  vertices : List (Pt F)
  nodes : List (Node F)
  bbIndices : List Nat
  bbCoords : List (Box F)
  bbox : Box F
  cellsPerLeaf : Nat

/-- Push several values, in order (consecutive `push` calls, e.g. `query.py:97-98`). -/
def pushAll {α : Type} [Inhabited α] : Stk α → List α → M (Stk α)
  | s, [] => .ok s
  | s, v :: vs => do pushAll (← s.push v) vs

/-- The loop `while size > 0: x, size = pop(stack, size); ...` shared by all traversals (`query.py:71-107`,
`130-164`, `206-244`, `360-433`, `548-580`, `598-622`). The body of the loop is `visit x st`: either a `return`
(`Sum.inl`) or the new local state together with the values that are pushed, in order. -/
def whileStack {α σ ρ : Type} [Inhabited α] (visit : α → σ → M (ρ ⊕ (σ × List α))) : Nat → Stk α → σ → M (ρ ⊕ σ)
  | 0, s, st => if s.size > 0 then .error .fuel else .ok (.inr st)
  | fuel + 1, s, st =>
    if s.size > 0 then do
      let (x, s) ← s.pop
      match ← visit x st with
      | .inl r => .ok (.inl r)
      | .inr (st, pushed) => do
        let s ← pushAll s pushed
        whileStack visit fuel s st
    else .ok (.inr st)

/-- Number of rounds given to the traversals; `Props` proves that it is enough. -/
def Tree.fuel (tree : Tree F) : Nat := 2 * tree.bbIndices.length + 1

/-! ## Points -/

/-- `query.py:77-84` and `136-141`: the loop over the cells of a leaf, with the test of the leaf as parameter. `n`
rounds left, at position `i`. -/
def leafFind (tree : Tree F) (test : Nat → M Bool) : Nat → Nat → M (Option Nat)
  | 0, _ => .ok none
  | n + 1, i => do
    let bboxIndex ← rd tree.bbIndices i
    if ← test bboxIndex then .ok (some bboxIndex) else leafFind tree test n (i + 1)

/-- `query.py:87-105` and `144-162` (identical): the children that are pushed. -/
def pointChildren (node : Node F) (point : Pt F) : List Int :=
  let x := point.get node.dim
  let left := decide (x ≤ node.Lmax)
  let right := decide (x ≥ node.Rmin)
  let leftChild := node.child
  let rightChild := leftChild + 1
  if left && right then
    if node.Lmax - x < x - node.Rmin then [leftChild, rightChild] else [rightChild, leftChild]
  else if left then [leftChild]
  else if right then [rightChild]
  else []

/-- Body of the loops of `locate_point` and `locate_point_on_edge` (`query.py:72-105`, `131-162`), which differ only in
the test done in the leaves. -/
def pointVisit (tree : Tree F) (test : Nat → M Bool) (point : Pt F) (nodeIndex : Int) (_ : Unit) :
    M (Nat ⊕ (Unit × List Int)) := do
  let node ← rdI tree.nodes nodeIndex
  if node.child = -1 then do
    match ← leafFind tree test node.size node.ptr with
    | some j => .ok (.inl j)
    | none => .ok (.inr ((), []))
  else .ok (.inr ((), pointChildren node point))

/-- `query.py:79-83`: the test for one face. -/
def faceTest (tree : Tree F) (point : Pt F) (tol : F) (bboxIndex : Nat) : M Bool := do
  let face ← rd tree.elements bboxIndex
  let poly ← copyVertices tree.vertices face
  pointInPolygonOrOnEdge point poly tol

/-- `query.py:138-140`: the test for one edge. -/
def edgeTest (tree : Tree F) (point : Pt F) (tol : F) (bboxIndex : Nat) : M Bool := do
  let edge ← rd tree.elements bboxIndex
  let segment ← copyVertices tree.vertices edge
  pointOnEdge point segment tol

/-- Common part of `query.py:64-107` and `122-164`. -/
def locateWith (tree : Tree F) (test : Nat → M Bool) (point : Pt F) : M Int := do
  let stack ← Stk.single (0 : Int)
  match ← whileStack (pointVisit tree test point) tree.fuel stack () with
  | .inl j => .ok j
  | .inr _ => .ok (-1)

/-- `query.py:64-107` `locate_point`. -/
def locatePoint (point : Pt F) (tree : Tree F) (tol : F) : M Int :=
  locateWith tree (faceTest tree point tol) point

/-- `query.py:122-164` `locate_point_on_edge`. -/
def locatePointOnEdge (point : Pt F) (tree : Tree F) (tol : F) : M Int :=
  locateWith tree (edgeTest tree point tol) point

/-- `query.py:111-117` `locate_points`. -/
def locatePoints (points : List (Pt F)) (tree : Tree F) (tol : F) (sched : List Nat) : M (List Int) :=
  prange sched points.length 0 fun i => do
    let point ← rd points i
    locatePoint point tree tol

/-- `query.py:168-174` `locate_points_on_edge`. -/
def locatePointsOnEdge (points : List (Pt F)) (tree : Tree F) (tol : F) (sched : List Nat) : M (List Int) :=
  prange sched points.length 0 fun i => do
    let point ← rd points i
    locatePointOnEdge point tree tol

/-! ## Boxes -/

/-- Local state of `locate_box`: the result array `indices` (with its capacity as length), `indices_size`, `count`. -/
structure BoxSt where
  indices : List (Nat × Nat)
  size : Nat
  count : Nat
deriving DecidableEq, Repr

/-- `query.py:212-226`: the loop over the cells of a leaf. `Sum.inl` is `return -1, indices_size`: the array is full. -/
def boxLeafLoop (tree : Tree F) (box : Box F) (index : Nat) : Nat → Nat → BoxSt → M (BoxSt ⊕ BoxSt)
  | 0, _, st => .ok (.inr st)
  | n + 1, i, st => do
    let bboxIndex ← rd tree.bbIndices i
    let leafBox ← rd tree.bbCoords bboxIndex
    if boxesIntersect box leafBox then
      if st.size ≥ st.indices.length then .ok (.inl st)
      else do
        let indices ← wr st.indices st.size (index, bboxIndex)
        boxLeafLoop tree box index n (i + 1) ⟨indices, st.size + 1, st.count + 1⟩
    else boxLeafLoop tree box index n (i + 1) st

/-- `query.py:236-242` and `425-431` (identical): the children that are pushed. -/
def pushChildren (node : Node F) (left right : Bool) : List Int :=
  if left && right then [node.child, node.child + 1]
  else if left then [node.child]
  else if right then [node.child + 1]
  else []

/-- Body of the loop of `locate_box` (`query.py:207-242`). -/
def boxVisit (tree : Tree F) (box : Box F) (index : Nat) (nodeIndex : Int) (st : BoxSt) :
    M (BoxSt ⊕ (BoxSt × List Int)) := do
  let node ← rdI tree.nodes nodeIndex
  if node.child = -1 then do
    match ← boxLeafLoop tree box index node.size node.ptr st with
    | .inl st => .ok (.inl st)
    | .inr st => .ok (.inr (st, []))
  else
    let left := decide (box.lo node.dim ≤ node.Lmax)
    let right := decide (box.hi node.dim ≥ node.Rmin)
    .ok (.inr (st, pushChildren node left right))

/-- `query.py:178-244` `locate_box`: returns the (mutated) array, `count` (`none` is `-1`) and `indices_size`. -/
def locateBox (box : Box F) (tree : Tree F) (indices : List (Nat × Nat)) (size index : Nat) :
    M (List (Nat × Nat) × Option Nat × Nat) :=
  if !boxesIntersect box tree.bbox then .ok (indices, some 0, size)
  else do
    let stack ← Stk.single (0 : Int)
    match ← whileStack (boxVisit tree box index) tree.fuel stack ⟨indices, size, 0⟩ with
    | .inl st => .ok (st.indices, none, st.size)
    | .inr st => .ok (st.indices, some st.count, st.size)

/-- The loop `while True` of `locate_boxes_helper` (`query.py:265-273`): returns the array, `count` and
`indices_size`. -/
def boxRetry (box : Box F) (tree : Tree F) (index total : Nat) :
    Nat → List (Nat × Nat) → Nat → M (List (Nat × Nat) × Nat × Nat)
  | 0, _, _ => .error .fuel
  | fuel + 1, indices, size => do
    let (indices, count, size) ← locateBox box tree indices size index
    match count with
    | some count => .ok (indices, count, size)
    | none => boxRetry box tree index total fuel (growArr (0, 0) indices) total

/-- Loop of `locate_boxes_helper` over the boxes (`query.py:258-274`); `k` is `box_index`. -/
def boxHelperLoop (tree : Tree F) (offset : Nat) :
    List (Box F) → Nat → List (Nat × Nat) → Nat → Nat → M (List (Nat × Nat) × Nat)
  | [], _, indices, total, _ => .ok (indices, total)
  | box :: rest, k, indices, total, size => do
    let (indices, count, size) ← boxRetry box tree (k + offset) total (tree.bbIndices.length + 1) indices size
    boxHelperLoop tree offset rest (k + 1) indices (total + count) size

/-- `query.py:248-275` `locate_boxes_helper`. -/
def locateBoxesHelper (boxes : List (Box F)) (tree : Tree F) (offset : Nat) : M (List (Nat × Nat) × Nat) :=
  boxHelperLoop tree offset boxes 0 (List.replicate (max boxes.length 256) (0, 0)) 0 0

/-! ## Chunks -/

/-- Split a list in consecutive pieces of the given sizes; the last piece is what remains. -/
def splitSizes {α : Type} : List Nat → List α → List (List α)
  | [], l => [l]
  | s :: ss, l => l.take s :: splitSizes ss (l.drop s)

/-- `np.array_split(l, n)` (`query.py:280`, `476`; numpy/numba library function): the first `len % n` pieces have one
element more than the others. -/
def arraySplit {α : Type} (l : List α) (n : Nat) : M (List (List α)) :=
  if n = 0 then .error .zeroDiv
  else
    let q := l.length / n
    let rem := l.length % n
    .ok (splitSizes (List.replicate rem (q + 1) ++ List.replicate (n - rem - 1) q) l)

/-- Loop `query.py:282-283` / `478-479`: over `enumerate(chunks[:-1])`, at index `i`. -/
def offsetsLoop {α : Type} : List (List α) → Nat → List Nat → M (List Nat)
  | [], _, offsets => .ok offsets
  | c :: rest, i, offsets => do
    let offsets ← wr offsets (i + 1) ((← rd offsets i) + c.length)
    offsetsLoop rest (i + 1) offsets

/-- `query.py:281-283` / `477-479`. -/
def chunkOffsets {α : Type} (chunks : List (List α)) (nChunks : Nat) : M (List Nat) :=
  offsetsLoop chunks.dropLast 0 (List.replicate nChunks 0)

/-- `a[start:start + len(l)] = l`; numpy raises `ValueError` if the slice is cut off by the end of the array. -/
def setSlice {α : Type} (a : List α) (start : Nat) (l : List α) : M (List α) :=
  if start + l.length ≤ a.length then .ok (a.take start ++ l ++ a.drop (start + l.length)) else .error .valueError

/-- `a[:size]` assigned to a slice of length `size`: a shorter source raises `ValueError`. -/
def takeExact {α : Type} (a : List α) (size : Nat) : M (List α) :=
  if size ≤ a.length then .ok (a.take size) else .error .valueError

/-- Loop `query.py:53-58` / `494-498`: copy the first `size` rows of every chunk to consecutive slices. -/
def concatLoop {α : Type} : List (List α × Nat) → Nat → List α → M (List α)
  | [], _, out => .ok out
  | (rows, size) :: rest, start, out => do
    let out ← setSlice out start (← takeExact rows size)
    concatLoop rest (start + size) out

/-- `query.py:47-59` `concatenate_indices` (both columns at once; `ii` and `jj` are the columns of the result), and
`query.py:492-498`. -/
def concatenate {α : Type} (g : α) (chunks : List (List α × Nat)) : M (List α) :=
  concatLoop chunks 0 (List.replicate (chunks.map Prod.snd).sum g)

/-- `query.py:279-289` `locate_boxes`: `(ii, jj)`. -/
def locateBoxes (boxes : List (Box F)) (tree : Tree F) (nChunks : Nat) (sched : List Nat) :
    M (List Nat × List Nat) := do
  let chunks ← arraySplit boxes nChunks
  let offsets ← chunkOffsets chunks nChunks
  let res ← prange sched nChunks ([], 0) fun i => do
    locateBoxesHelper (← rd chunks i) tree (← rd offsets i)
  let ij ← concatenate (0, 0) res
  .ok (ij.map Prod.fst, ij.map Prod.snd)

/-! ## Edges -/

/-- `(intersects, c, d)`; a point is `none` if it is `(nan, nan)`. -/
abbrev Isect (F : Type) := Bool × Option (Pt F) × Option (Pt F)

/-- The result of a line clipper as `(intersects, c, d)`. -/
def Clip.toIsect : Clip F → Isect F
  | some (c, d) => (true, some c, some d)
  | none => (false, none, none)

/-- `query.py:293-306` `compute_edge_edge_intersect`. -/
def edgeEdgeIntersect (env : Env F) (tree : Tree F) (a b : Pt F) (bboxIndex : Nat) : M (Isect F) := do
  let treeEdge ← rd tree.elements bboxIndex
  let vertices ← treeEdge.mapM fun i => rdI tree.vertices i
  let p ← rd vertices 0
  let q ← rd vertices 1
  let (intersects, c) ← linesIntersect env a b p q
  .ok (intersects, c, c)

/-- `query.py:310-328` `compute_edge_face_intersect`. -/
def edgeFaceIntersect (env : Env F) (tree : Tree F) (a b : Pt F) (bboxIndex : Nat) : M (Isect F) := do
  let box ← rd tree.bbCoords bboxIndex
  match ← cohenSutherland a b box with
  | none => .ok (false, none, none)
  | some _ => do
    let face ← rd tree.elements bboxIndex
    let polygon ← copyVertices tree.vertices face
    let tol := fmax env.minTol (env.tolFactor * fmax (box.xmax - box.xmin) (box.ymax - box.ymin))
    let r ← cyrusBeck a b polygon tol
    .ok (Clip.toIsect r)

/-- Local state of `locate_edge`: the result arrays, `indices_size`, `count`. -/
structure EdgeSt (F : Type) where
  indices : List (Nat × Nat)
  xy : List (Option (Pt F) × Option (Pt F))
  size : Nat
  count : Nat

/-- `query.py:366-382`: the loop over the cells of a leaf. -/
def edgeLeafLoop (tree : Tree F) (isect : Nat → M (Isect F)) (index : Nat) :
    Nat → Nat → EdgeSt F → M (EdgeSt F ⊕ EdgeSt F)
  | 0, _, st => .ok (.inr st)
  | n + 1, i, st => do
    let bboxIndex ← rd tree.bbIndices i
    let (intersects, c, d) ← isect bboxIndex
    if intersects then
      if st.size ≥ st.indices.length then .ok (.inl st)
      else do
        let indices ← wr st.indices st.size (index, bboxIndex)
        let xy ← wr st.xy st.size (c, d)
        edgeLeafLoop tree isect index n (i + 1) ⟨indices, xy, st.size + 1, st.count + 1⟩
    else edgeLeafLoop tree isect index n (i + 1) st

/-- `query.py:387-419`: whether the left and the right child are visited. -/
def edgeSides (node : Node F) (a b V : Pt F) : M (Bool × Bool) := do
  let dx := V.get node.dim
  let dxLeft := if dx > 0 then node.Lmax - a.get node.dim else node.Lmax - b.get node.dim
  let dxRight := if dx > 0 then node.Rmin - b.get node.dim else node.Rmin - a.get node.dim
  let left := decide (dxLeft ≥ 0)
  let right := decide (dxRight ≤ 0)
  if dx > 0 then do
    let left ← if left then do .ok (decide ((← fdiv dxLeft dx) ≥ 0)) else .ok left
    let right ← if right then do .ok (decide ((← fdiv dxRight dx) ≤ 1)) else .ok right
    .ok (left, right)
  else if dx < 0 then do
    let left ← if left then do .ok (decide (1 - (← fdiv dxLeft dx) ≥ 0)) else .ok left
    let right ← if right then do .ok (decide (1 - (← fdiv dxRight dx) ≤ 1)) else .ok right
    .ok (left, right)
  else .ok (left, right)

/-- Body of the loop of `locate_edge` (`query.py:361-431`). -/
def edgeVisit (tree : Tree F) (isect : Nat → M (Isect F)) (a b : Pt F) (index : Nat) (nodeIndex : Int)
    (st : EdgeSt F) : M (EdgeSt F ⊕ (EdgeSt F × List Int)) := do
  let node ← rdI tree.nodes nodeIndex
  if node.child = -1 then do
    match ← edgeLeafLoop tree isect index node.size node.ptr st with
    | .inl st => .ok (.inl st)
    | .inr st => .ok (.inr (st, []))
  else do
    let (left, right) ← edgeSides node a b (toVector a b)
    .ok (.inr (st, pushChildren node left right))

/-- `query.py:337-433` `locate_edge`: returns the arrays, `count` (`none` is `-1`) and `indices_size`. -/
def locateEdge (a b : Pt F) (tree : Tree F) (isect : Pt F → Pt F → Nat → M (Isect F)) (indices : List (Nat × Nat))
    (xy : List (Option (Pt F) × Option (Pt F))) (size index : Nat) :
    M (List (Nat × Nat) × List (Option (Pt F) × Option (Pt F)) × Option Nat × Nat) := do
  match ← cohenSutherland a b tree.bbox with
  | none => .ok (indices, xy, some 0, size)
  | some _ => do
    let stack ← Stk.single (0 : Int)
    match ← whileStack (edgeVisit tree (isect a b) a b index) tree.fuel stack ⟨indices, xy, size, 0⟩ with
    | .inl st => .ok (st.indices, st.xy, none, st.size)
    | .inr st => .ok (st.indices, st.xy, some st.count, st.size)

/-- The loop `while True` of `locate_edges_helper` (`query.py:453-468`). -/
def edgeRetry (a b : Pt F) (tree : Tree F) (isect : Pt F → Pt F → Nat → M (Isect F)) (index total : Nat) :
    Nat → List (Nat × Nat) → List (Option (Pt F) × Option (Pt F)) → Nat →
    M (List (Nat × Nat) × List (Option (Pt F) × Option (Pt F)) × Nat × Nat)
  | 0, _, _, _ => .error .fuel
  | fuel + 1, indices, xy, size => do
    let (indices, xy, count, size) ← locateEdge a b tree isect indices xy size index
    match count with
    | some count => .ok (indices, xy, count, size)
    | none =>
      edgeRetry a b tree isect index total fuel (growArr (0, 0) indices) (growArr (none, none) xy) total

/-- Loop of `locate_edges_helper` over the edges (`query.py:449-470`); `k` is `edge_index`. -/
def edgeHelperLoop (tree : Tree F) (isect : Pt F → Pt F → Nat → M (Isect F)) (offset : Nat) :
    List (Pt F × Pt F) → Nat → List (Nat × Nat) → List (Option (Pt F) × Option (Pt F)) → Nat → Nat →
    M (List (Nat × Nat) × List (Option (Pt F) × Option (Pt F)) × Nat)
  | [], _, indices, xy, total, _ => .ok (indices, xy, total)
  | (a, b) :: rest, k, indices, xy, total, size => do
    let (indices, xy, count, size) ←
      edgeRetry a b tree isect (k + offset) total (tree.bbIndices.length + 1) indices xy size
    edgeHelperLoop tree isect offset rest (k + 1) indices xy (total + count) size

/-- `query.py:436-472` `locate_edges_helper`. -/
def locateEdgesHelper (edges : List (Pt F × Pt F)) (tree : Tree F) (isect : Pt F → Pt F → Nat → M (Isect F))
    (offset : Nat) : M (List (Nat × Nat) × List (Option (Pt F) × Option (Pt F)) × Nat) :=
  let n := max edges.length 256
  edgeHelperLoop tree isect offset edges 0 (List.replicate n (0, 0)) (List.replicate n (none, none)) 0 0

/-- `query.py:475-501` `locate_edges`: `(ii, jj, xy)`. -/
def locateEdges (edges : List (Pt F × Pt F)) (tree : Tree F) (isect : Pt F → Pt F → Nat → M (Isect F))
    (nChunks : Nat) (sched : List Nat) :
    M (List Nat × List Nat × List (Option (Pt F) × Option (Pt F))) := do
  let chunks ← arraySplit edges nChunks
  let offsets ← chunkOffsets chunks nChunks
  let res ← prange sched nChunks ([], [], 0) fun i => do
    locateEdgesHelper (← rd chunks i) tree isect (← rd offsets i)
  let xy ← concatenate (none, none) (res.map fun r => (r.2.1, r.2.2))
  let ij ← concatenate (0, 0) (res.map fun r => (r.1, r.2.2))
  .ok (ij.map Prod.fst, ij.map Prod.snd, xy)

/-! ## Node bounds -/

/-- `node_bounds[node_index, dim * 2 + side] = bound` (`query.py:568`). -/
def Box.setSide (box : Box F) (dim side : Bool) (v : F) : Box F :=
  match dim, side with
  | false, false => { box with xmin := v }
  | false, true => { box with xmax := v }
  | true, false => { box with ymin := v }
  | true, true => { box with ymax := v }

/-- Body of the loop of `collect_node_bounds` (`query.py:550-580`). A row of the stack is `(node_index, parent_index,
side)` with `side` true for `LEFT`. The writes to row `node_index` (lines 558-561, 568) are one write in the model. -/
def boundsVisit (tree : Tree F) (x : Int × Int × Bool) (bounds : List (Box F)) :
    M (Unit ⊕ (List (Box F) × List (Int × Int × Bool))) := do
  let (nodeIndex, parentIndex, side) := x
  let parent ← rdI tree.nodes parentIndex
  let bbox ← rdI bounds parentIndex
  let bound := if side then parent.Lmax else parent.Rmin
  let bounds ← wrI bounds nodeIndex (bbox.setSide parent.dim side bound)
  let node ← rdI tree.nodes nodeIndex
  if node.child = -1 then .ok (.inr (bounds, []))
  else .ok (.inr (bounds, [(node.child + 1, nodeIndex, false), (node.child, nodeIndex, true)]))

/-- `query.py:529-582` `collect_node_bounds`. `garbage` is the content of `np.empty`. -/
def collectNodeBounds (tree : Tree F) (garbage : Box F) : M (List (Box F)) := do
  let bounds ← wr (List.replicate tree.nodes.length garbage) 0 tree.bbox
  let stack ← Stk.single ((2 : Int), (0 : Int), false)
  let stack ← stack.push ((1 : Int), (0 : Int), true)
  match ← whileStack (boundsVisit tree) tree.fuel stack bounds with
  | .inl _ => .ok bounds
  | .inr bounds => .ok bounds

/-- `query.py:606-609`: whether all boxes of the leaf are contained in `bbox`. -/
def leafContained (tree : Tree F) (bbox : Box F) : Nat → Nat → Bool → M Bool
  | 0, _, valid => .ok valid
  | n + 1, i, valid => do
    let bboxIndex ← rd tree.bbIndices i
    let leafBox ← rd tree.bbCoords bboxIndex
    leafContained tree bbox n (i + 1) (valid && boxContained leafBox bbox)

/-- Body of the loop of `validate_node_bounds` (`query.py:599-622`). -/
def validateVisit (tree : Tree F) (bounds : List (Box F)) (nodeIndex : Int) (validity : List Bool) :
    M (Unit ⊕ (List Bool × List Int)) := do
  let bbox ← rdI bounds nodeIndex
  let node ← rdI tree.nodes nodeIndex
  if node.child = -1 then do
    let valid ← leafContained tree bbox node.size node.ptr true
    let validity ← wrI validity nodeIndex valid
    .ok (.inr (validity, []))
  else do
    let leftBox ← rdI bounds node.child
    let rightBox ← rdI bounds (node.child + 1)
    let validity ← wrI validity nodeIndex (boxContained leftBox bbox && boxContained rightBox bbox)
    .ok (.inr (validity, [node.child + 1, node.child]))

/-- `query.py:586-624` `validate_node_bounds`. -/
def validateNodeBounds (tree : Tree F) (bounds : List (Box F)) : M (List Bool) := do
  let stack ← Stk.single (0 : Int)
  let validity := List.replicate tree.nodes.length false
  match ← whileStack (validateVisit tree bounds) tree.fuel stack validity with
  | .inl _ => .ok validity
  | .inr validity => .ok validity

end Celltree
