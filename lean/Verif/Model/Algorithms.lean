import Verif.Model.Geom

/-!
# Model of `numba_celltree/algorithms/*.py`
-/

namespace Celltree

variable {F : Type} [Add F] [Sub F] [Mul F] [Div F] [Neg F] [Zero F] [One F]
  [LT F] [LE F] [BEq F] [DecidableLT F] [DecidableLE F]

/-- Result of the line clippers: `(intersects, c, d)`; `none` is `NO_INTERSECTION`, i.e.
`(False, (nan, nan), (nan, nan))`. -/
abbrev Clip (F : Type) := Option (Pt F × Pt F)

/-! ## `cohen_sutherland.py` -/

/-- `cohen_sutherland.py:19-33` `get_clip` with `INSIDE, LEFT, RIGHT, LOWER, UPPER = 0, 1, 2, 4, 8` (line 15). -/
def getClip (a : Pt F) (box : Box F) : Nat :=
  let p := if a.x < box.xmin then 1 else if a.x > box.xmax then 2 else 0
  if a.y < box.ymin then p ||| 4 else if a.y > box.ymax then p ||| 8 else p

/-- `cohen_sutherland.py:73-86`: the point where the segment is cut. -/
def csCut (a : Pt F) (dx dy : F) (box : Box F) (opt : Nat) : M (Pt F) :=
  if opt &&& 8 ≠ 0 then do
    let q ← fdiv (dx * (box.ymax - a.y)) dy
    .ok ⟨a.x + q, box.ymax⟩
  else if opt &&& 4 ≠ 0 then do
    let q ← fdiv (dx * (box.ymin - a.y)) dy
    .ok ⟨a.x + q, box.ymin⟩
  else if opt &&& 2 ≠ 0 then do
    let q ← fdiv (dy * (box.xmax - a.x)) dx
    .ok ⟨box.xmax, a.y + q⟩
  else if opt &&& 1 ≠ 0 then do
    let q ← fdiv (dy * (box.xmin - a.x)) dx
    .ok ⟨box.xmin, a.y + q⟩
  else .error .runtimeError

/-- Loop of `cohen_sutherland_line_box_clip` (`cohen_sutherland.py:62-99`). -/
def csLoop (box : Box F) : Nat → Pt F → Pt F → Nat → Nat → F → F → M (Clip F)
  | fuel, a, b, k1, k2, dx, dy =>
    if k1 ||| k2 = 0 then .ok (some (a, b))
    else match fuel with
    | 0 => .error .fuel
    | fuel + 1 =>
      if k1 &&& k2 ≠ 0 then .ok none
      else do
        let opt := if k1 ≠ 0 then k1 else k2
        let p ← csCut a dx dy box opt
        let a' := if opt = k1 then p else a
        let b' := if opt = k1 then b else if opt = k2 then p else b
        let k1' := if opt = k1 then getClip a' box else k1
        let k2' := if opt = k1 then k2 else if opt = k2 then getClip b' box else k2
        let dx := b'.x - a'.x
        let dy := b'.y - a'.y
        if dx == 0 && dy == 0 then .ok none
        else csLoop box fuel a' b' k1' k2' dx dy

/-- `cohen_sutherland.py:37-101` `cohen_sutherland_line_box_clip`. Fuel 4 is proved to be enough. -/
def cohenSutherland (a b : Pt F) (box : Box F) (fuel : Nat := 4) : M (Clip F) :=
  let dx := b.x - a.x
  let dy := b.y - a.y
  if dx == 0 && dy == 0 then .ok none
  else csLoop box fuel a b (getClip a box) (getClip b box) dx dy

/-! ## `liang_barsky.py` -/

/-- Loop of `liang_barsky_line_box_clip` (`liang_barsky.py:34-55`) over `zip(P, Q)`; `none` means
`return NO_INTERSECTION`. -/
def lbLoop : List (F × F) → F → F → M (Option (F × F))
  | [], t0, t1 => .ok (some (t0, t1))
  | (p, q) :: rest, t0, t1 =>
    if p == 0 then
      if q < 0 then .ok none else lbLoop rest t0 t1
    else do
      let t ← fdiv q p
      if p < 0 then
        if t > t1 then .ok none
        else if t > t0 then lbLoop rest t t1 else lbLoop rest t0 t1
      else if p > 0 then
        if t < t0 then .ok none
        else if t < t1 then lbLoop rest t0 t else lbLoop rest t0 t1
      else lbLoop rest t0 t1

/-- `liang_barsky.py:11-64` `liang_barsky_line_box_clip`. -/
def liangBarsky (a b : Pt F) (box : Box F) : M (Clip F) :=
  let dx := b.x - a.x
  let dy := b.y - a.y
  if dx == 0 && dy == 0 then .ok none
  else if pointInsideBox a box && pointInsideBox b box then .ok (some (a, b))
  else do
    let r ← lbLoop [(-dx, a.x - box.xmin), (dx, box.xmax - a.x), (-dy, a.y - box.ymin), (dy, box.ymax - a.y)] 0 1
    match r with
    | none => .ok none
    | some (t0, t1) =>
      if t0 == t1 then .ok none
      else .ok (some (⟨a.x + t0 * dx, a.y + t0 * dy⟩, ⟨a.x + t1 * dx, a.y + t1 * dy⟩))

/-! ## `cyrus_beck.py` -/

/-- `cyrus_beck.py:36-52` `compute_intersection`: `(entering, t)`. -/
def computeIntersection (a s v0 v1 : Pt F) : M (Bool × F) := do
  let si := toVector a v0
  let n : Pt F := ⟨-(v1.y - v0.y), v1.x - v0.x⟩
  let nsi := dot n si
  let k := dot n s
  let t ← fdiv nsi k
  .ok (decide (nsi > 0), t)

/-- `cyrus_beck.py:56-72` `intersections`. `i1` may be `-1`. -/
def cbIntersections (a s : Pt F) (poly : List (Pt F)) (i0 i1 : Int) : M (F × F) := do
  let length : Int := poly.length
  let v0 ← rdI poly i0
  let v01 ← rdI poly ((i0 + 1) % length)
  let v1 ← rdI poly i1
  let v11 ← rdI poly ((i1 + 1) % length)
  let (_, t0) ← computeIntersection a s v0 v01
  let (enters1, t1) ← computeIntersection a s v1 v11
  if enters1 then .ok (t1, t0) else .ok (t0, t1)

/-- `cyrus_beck.py:76-82` `overlap`. -/
def cbOverlap (ta tb t0 t1 : F) : Bool :=
  let (ta, tb) := if ta > tb then (tb, ta) else (ta, tb)
  let (t0, t1) := if t0 > t1 then (t1, t0) else (t0, t1)
  let vectorOverlap := fmax 0 (fmin tb t1 - fmax ta t0)
  decide (vectorOverlap > 0)

/-- `cyrus_beck.py:86-100` `aligned`. -/
def aligned (U V : Pt F) : Bool :=
  if (U.x == 0 && U.y == 0) || (V.x == 0 && V.y == 0) then true
  else if !(U.x == 0) && !(V.x == 0) then decide (U.x > 0) == decide (V.x > 0)
  else if !(U.y == 0) && !(V.y == 0) then decide (U.y > 0) == decide (V.y > 0)
  else false

/-- `cyrus_beck.py:104-139` `collinear_case`. -/
def collinearCase (a b v0 v1 : Pt F) : Clip F :=
  let b_ : Pt F := ⟨b.x - a.x, b.y - a.y⟩
  let v0_ : Pt F := ⟨v0.x - a.x, v0.y - a.y⟩
  let v1_ : Pt F := ⟨v1.x - a.x, v1.y - a.y⟩
  let U := b_
  let V := toVector v0_ v1_
  let al := aligned U V
  let w0 := if al then v0 else v1
  let w1 := if al then v1 else v0
  let w0_ := if al then v0_ else v1_
  let w1_ := if al then v1_ else v0_
  let n : Pt F := ⟨-b_.y, b_.x⟩
  let ta : F := 0
  let tb := cross n b_
  let t0 := cross n w0_
  let t1 := cross n w1_
  if !cbOverlap ta tb t0 t1 then none
  else
    let p0 := if t0 < ta then w0 else a
    let p1 := if t1 > tb then w1 else b
    some (p0, p1)

/-- Outcome of the scan over the polygon edges: an early return with the collinear case, or `(k, i0, i1)`. -/
inductive CbScan (F : Type)
  | collinear (r : Clip F)
  | found (k : Nat) (i0 i1 : Int)

/-- Loop of `cyrus_beck_line_polygon_clip` (`cyrus_beck.py:186-206`): `n` rounds left, at index `i`. -/
def cbScan (a b s : Pt F) (poly : List (Pt F)) : Nat → Nat → Nat → Int → Int → F → M (CbScan F)
  | 0, _, k, i0, i1, _ => .ok (.found k i0 i1)
  | n + 1, i, k, i0, i1, ksi =>
    if k < 2 then do
      let v0 ← rd poly i
      let v1 ← rd poly ((i + 1) % poly.length)
      let eta := cross (toVector a v1) s
      if decide (ksi < 0) != decide (eta < 0) then
        if k = 0 then cbScan a b s poly n (i + 1) (k + 1) i i1 eta
        else cbScan a b s poly n (i + 1) (k + 1) i0 i eta
      else if ksi == 0 && eta == 0 then .ok (.collinear (collinearCase a b v0 v1))
      else cbScan a b s poly n (i + 1) k i0 i1 eta
    else .ok (.found k i0 i1)

/-- `cyrus_beck.py:214-241`: from the line parameters to the clipped segment. -/
def cbFinish (a b s : Pt F) (aInside bInside : Bool) (t0 t1 : F) : Clip F :=
  let fin (t0 t1 : F) : Clip F :=
    let (t0, t1) := if t1 < t0 then (t1, t0) else (t0, t1)
    let valid0 := decide (t0 ≥ 0) && decide (t0 < 1)
    let valid1 := decide (t1 > 0) && decide (t1 ≤ 1)
    if valid0 && valid1 then some (toPoint t0 a s, toPoint t1 a s)
    else if valid0 then some (toPoint t0 a s, b)
    else if valid1 then some (a, toPoint t1 a s)
    else none
  if t0 == t1 then
    if aInside && !(t1 == 0) then fin 0 t1
    else if bInside && !(t0 == 1) then fin t0 1
    else none
  else fin t0 t1

/-- `cyrus_beck.py:144-241` `cyrus_beck_line_polygon_clip`. -/
def cyrusBeck (a b : Pt F) (poly : List (Pt F)) (tol : F) : M (Clip F) := do
  let s := toVector a b
  if s.x == 0 && s.y == 0 then .ok none
  else do
    let aInside ← pointInPolygonOrOnEdge a poly tol
    let bInside ← pointInPolygonOrOnEdge b poly tol
    if aInside && bInside then .ok (some (a, b))
    else do
      let v ← rd poly 0
      let ksi := cross (toVector a v) s
      match ← cbScan a b s poly poly.length 0 0 (-1) (-1) ksi with
      | .collinear r => .ok r
      | .found k i0 i1 =>
        if k = 0 then .ok none
        else do
          let (t0, t1) ← cbIntersections a s poly i0 i1
          .ok (cbFinish a b s aInside bInside t0 t1)

/-! ## `separating_axis.py` -/

/-- `separating_axis.py:18-27` `extrema_projected`. -/
def extremaProjected (env : Env F) (norm : Pt F) (polygon : List (Pt F)) : F × F :=
  polygon.foldl (fun (m : F × F) p => (fmin m.1 (dot p norm), fmax m.2 (dot p norm))) (env.floatMax, env.floatMin)

/-- `separating_axis.py:31-39` `is_separating_axis`. -/
def isSeparatingAxis (env : Env F) (norm : Pt F) (a b : List (Pt F)) : Bool :=
  let (mina, maxa) := extremaProjected env norm a
  let (minb, maxb) := extremaProjected env norm b
  if maxa > minb && maxb > mina then false else true

/-- Loop of `separating_axes` (`separating_axis.py:47-54`); `p` is the previous vertex. -/
def separatingAxesLoop (env : Env F) (a b : List (Pt F)) : Pt F → List (Pt F) → Bool
  | _, [] => true
  | p, q :: rest =>
    let norm : Pt F := ⟨p.y - q.y, q.x - p.x⟩
    if norm.x == 0 && norm.y == 0 then separatingAxesLoop env a b q rest
    else if isSeparatingAxis env norm a b then false
    else separatingAxesLoop env a b q rest

/-- `separating_axis.py:43-55` `separating_axes`. -/
def separatingAxes (env : Env F) (a b : List (Pt F)) : M Bool := do
  let p ← rdI a ((a.length : Int) - 1)
  .ok (separatingAxesLoop env a b p a)

/-- `separating_axis.py:59-75` `polygons_intersect`. -/
def polygonsIntersect (env : Env F) (verticesA verticesB : List (Pt F)) (facesA facesB : List (List Int))
    (indicesA indicesB : List Nat) (sched : List Nat) : M (List Bool) :=
  prange sched indicesA.length false fun i => do
    let faceA ← rd facesA (← rd indicesA i)
    let faceB ← rd facesB (← rd indicesB i)
    let a ← copyVertices verticesA faceA
    let b ← copyVertices verticesB faceB
    let ab ← separatingAxes env a b
    if ab then separatingAxes env b a else .ok false

/-! ## `sutherland_hodgman.py` -/

/-- `sutherland_hodgman.py:57-60` `inside`. -/
def shInside (p r U : Pt F) : Bool := decide (U.x * (p.y - r.y) > U.y * (p.x - r.x))

/-- `sutherland_hodgman.py:64-74` `intersection`; `none` is failure (parallel lines). -/
def shIntersection (a V r N : Pt F) : M (Option (Pt F)) :=
  let W : Pt F := ⟨r.x - a.x, r.y - a.y⟩
  let nw := dot N W
  let nv := dot N V
  if !(nv == 0) then do
    let t ← fdiv nw nv
    .ok (some ⟨a.x + t * V.x, a.y + t * V.y⟩)
  else .ok none

/-- `sutherland_hodgman.py:78-81` `push_point`: the output array has room for `CLIP_MAX_N_VERTEX` vertices. -/
def pushPoint (out : List (Pt F)) (p : Pt F) : M (List (Pt F)) :=
  if out.length < clipMaxNVertex then .ok (out ++ [p]) else .error .oob

/-- Inner loop of `polygon_polygon_clip_area` (`sutherland_hodgman.py:112-138`): clip the subject by the line through
`r` with direction `U` and normal `N`. -/
def shClipLoop (r U N : Pt F) : Pt F → Bool → List (Pt F) → List (Pt F) → M (List (Pt F))
  | _, _, [], out => .ok out
  | a, aInside, b :: rest, out =>
    let V : Pt F := ⟨b.x - a.x, b.y - a.y⟩
    if V.x == 0 && V.y == 0 then shClipLoop r U N a aInside rest out
    else
      let bInside := shInside b r U
      if bInside then do
        let out ←
          if !aInside then do
            match ← shIntersection a V r N with
            | some point => pushPoint out point
            | none => .ok out
          else .ok out
        let out ← pushPoint out b
        shClipLoop r U N b true rest out
      else if aInside then do
        match ← shIntersection a V r N with
        | some point =>
          let out ← pushPoint out point
          shClipLoop r U N b false rest out
        | none =>
          let out ← pushPoint out b
          shClipLoop r U N b true rest out
      else shClipLoop r U N b false rest out

/-- Outer loop of `polygon_polygon_clip_area` (`sutherland_hodgman.py:96-145`) over the clipper vertices `s`; `r` is
the previous one. `none`: fewer than three vertices are left (`return 0.0`). -/
def shOuterLoop : Pt F → List (Pt F) → List (Pt F) → M (Option (List (Pt F)))
  | _, [], output => .ok (some output)
  | r, s :: rest, output =>
    let U : Pt F := ⟨s.x - r.x, s.y - r.y⟩
    if U.x == 0 && U.y == 0 then shOuterLoop r rest output
    else do
      let N : Pt F := ⟨-U.y, U.x⟩
      let a ← rdI output ((output.length : Int) - 1)
      let out ← shClipLoop r U N a (shInside a r U) output []
      if out.length < 3 then .ok none
      else shOuterLoop s rest out

/-- `sutherland_hodgman.py:85-148` `polygon_polygon_clip_area`, without the final area: the clipped polygon. -/
def polygonPolygonClip (polygon clipper : List (Pt F)) : M (Option (List (Pt F))) :=
  if polygon.length > clipMaxNVertex then .error .oob
  else do
    let r ← rdI clipper ((clipper.length : Int) - 1)
    shOuterLoop r clipper polygon

/-- `sutherland_hodgman.py:85-148` `polygon_polygon_clip_area`. -/
def polygonPolygonClipArea (polygon clipper : List (Pt F)) : M F := do
  match ← polygonPolygonClip polygon clipper with
  | none => .ok 0
  | some out => polygonArea out

/-- `sutherland_hodgman.py:152-168` `area_of_intersection`. -/
def areaOfIntersection (verticesA verticesB : List (Pt F)) (facesA facesB : List (List Int))
    (indicesA indicesB : List Nat) (sched : List Nat) : M (List F) :=
  prange sched indicesA.length 0 fun i => do
    let faceA ← rd facesA (← rd indicesA i)
    let faceB ← rd facesB (← rd indicesB i)
    let a ← copyVertices verticesA faceA
    let b ← copyVertices verticesB faceB
    polygonPolygonClipArea a b

/-- `sutherland_hodgman.py:172-187` `box_area_of_intersection`. -/
def boxAreaOfIntersection (bboxCoords : List (Box F)) (vertices : List (Pt F)) (faces : List (List Int))
    (indicesBbox indicesFace : List Nat) (sched : List Nat) : M (List F) :=
  prange sched indicesBbox.length 0 fun i => do
    let box ← rd bboxCoords (← rd indicesBbox i)
    let face ← rd faces (← rd indicesFace i)
    let a := copyBoxVertices box
    let b ← copyVertices vertices face
    polygonPolygonClipArea a b

/-! ## `barycentric_triangle.py` -/

/-- `barycentric_triangle.py:29-43` `compute_weights`. -/
def triangleWeights (t : Triangle F) (p : Pt F) : M (List F) := do
  let ab := toVector t.a t.b
  let ac := toVector t.a t.c
  let ap := toVector t.a p
  let Aa := fabs (cross ab ap)
  let Ac := fabs (cross ac ap)
  let A := fabs (cross ab ac)
  let invDenom ← fdiv 1 A
  let w := invDenom * Aa
  let v := invDenom * Ac
  let u := 1 - v - w
  .ok [u, v, w]

/-- `barycentric_triangle.py:47-64` `barycentric_triangle_weights`. The `tolerance` argument is not used by the code and
is left out. -/
def barycentricTriangleWeights (points : List (Pt F)) (faceIndices : List Int) (faces : List (List Int))
    (vertices : List (Pt F)) (sched : List Nat) : M (List (List F)) :=
  prange sched points.length [0, 0, 0] fun i => do
    let faceIndex ← rd faceIndices i
    if faceIndex = -1 then .ok [0, 0, 0]
    else do
      let face ← rdI faces faceIndex
      let triangle ← asTriangle vertices face
      let point ← rd points i
      triangleWeights triangle point

/-! ## `barycentric_wachspress.py` -/

/-- `barycentric_wachspress.py:27-35` `interp_edge_case`: `m` is the length of the weights row. -/
def interpEdgeCase (env : Env F) (m : Nat) (a U p : Pt F) (i j : Nat) : M (List F) := do
  let V := toVector a p
  let w ← fdiv (env.sqrt (dot V V)) (env.sqrt (dot U U))
  let weights ← wr (List.replicate m 0) i (1 - w)
  wr weights j w

/-- Loop of `compute_weights` (`barycentric_wachspress.py:57-79`): `k` rounds left, at index `i`. Returns the weights
row and `w_sum`, or `Sum.inl` for an early return (edge case). -/
def wachspressLoop (env : Env F) (polygon : List (Pt F)) (p : Pt F) (tol : F) (m : Nat) :
    Nat → Nat → Pt F → Pt F → Pt F → F → List F → F → M (List F ⊕ (List F × F))
  | 0, _, _, _, _, _, weights, wSum => .ok (.inr (weights, wSum))
  | k + 1, i, a, b, U, Ai, weights, wSum => do
    let iNext := (i + 1) % polygon.length
    let c ← rd polygon iNext
    let W := toVector a c
    let Ci := fabs (cross U W)
    let U := toVector b c
    let V := toVector b p
    let Aj := fabs (cross U V)
    if withinPerpendicularDistance Aj U tol then do
      let r ← interpEdgeCase env m b U p i iNext
      .ok (.inl r)
    else do
      let w ← fdiv ((1 + 1) * Ci) (Ai * Aj)
      let weights ← wr weights i w
      wachspressLoop env polygon p tol m k (i + 1) b c U Aj weights (wSum + w)

/-- `barycentric_wachspress.py:82-83`: normalize the first `n` weights. -/
def normalizeWeights (n : Nat) (weights : List F) (wSum : F) : M (List F) :=
  (List.range n).foldlM (fun (ws : List F) (i : Nat) => do wr ws i (← fdiv (← rd ws i) wSum)) weights

/-- `barycentric_wachspress.py:39-85` `compute_weights`; `m` is the length of the (zero initialised) weights row,
which may be larger than the polygon. -/
def wachspressWeights (env : Env F) (polygon : List (Pt F)) (p : Pt F) (m : Nat) (tol : F) : M (List F) := do
  let n := polygon.length
  let a ← rdI polygon (-1)
  let b ← rd polygon 0
  let U := toVector a b
  let V := toVector a p
  let Ai := fabs (cross U V)
  if withinPerpendicularDistance Ai U tol then interpEdgeCase env m a U p (n - 1) 0
  else do
    match ← wachspressLoop env polygon p tol m n 0 a b U Ai (List.replicate m 0) 0 with
    | .inl r => .ok r
    | .inr (weights, wSum) => normalizeWeights n weights wSum

/-- `barycentric_wachspress.py:89-107` `barycentric_wachspress_weights`. -/
def barycentricWachspressWeights (env : Env F) (points : List (Pt F)) (faceIndices : List Int)
    (faces : List (List Int)) (nMaxVert : Nat) (vertices : List (Pt F)) (tol : F) (sched : List Nat) :
    M (List (List F)) :=
  prange sched points.length (List.replicate nMaxVert 0) fun i => do
    let faceIndex ← rd faceIndices i
    if faceIndex = -1 then .ok (List.replicate nMaxVert 0)
    else do
      let face ← rdI faces faceIndex
      let polygon ← copyVertices vertices face
      let point ← rd points i
      wachspressWeights env polygon point nMaxVert tol

end Celltree
