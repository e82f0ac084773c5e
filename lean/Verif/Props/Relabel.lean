import Verif.Proofs.Relabel
import Verif.Proofs.EdgeTree
import Verif.Spec.Examples
import Verif.Spec.Float

/-!
# The numbers of the vertices do not matter: C87, C88

Any arithmetic, also with rounding.
-/

set_option linter.unusedSectionVars false

namespace Celltree

variable {F : Type} [Add F] [Sub F] [Mul F] [Div F] [Neg F] [Zero F] [One F] [IntCast F]
  [LT F] [LE F] [BEq F] [DecidableLT F] [DecidableLE F]

/-! ## Trees of faces -/

section
variable {env : Env F} {vertices vertices' : List (Pt F)} {faces faces' : IntArr} {fill fill' nb cpl : Int}
  {t t' : CellTree F}

theorem Makes.same (hv : ValidFaces vertices.length fill faces) (hv' : ValidFaces vertices'.length fill' faces')
    (h : SameFaces vertices fill faces vertices' fill' faces') (ht : Makes env vertices faces fill nb cpl t)
    (ht' : Makes env vertices' faces' fill' nb cpl t') :
    SameTree t t' ∧ t'.nMaxVert = faces'.ncol ∧ t.nMaxVert = faces.ncol := by
  obtain ⟨sched', hs', ht'⟩ := ht'
  have hn' : faces'.ncol ≤ maxNVertex := by
    by_contra hc
    unfold CellTree.init at ht'
    split at ht'
    · cases ht'
    split at ht'
    · cases ht'
    rw [castFaces_spec hv', if_pos (by omega)] at ht'
    cases ht'
  obtain ⟨t'', h1, h2⟩ := init_same hv hv' h hn' ht hs'
  rw [ht'] at h1
  cases h1
  exact h2

/-- **C87**: if a tree can be made of a mesh, then also of every other mesh with the same faces (and not too many columns). -/
theorem C87_constructs (hv : ValidFaces vertices.length fill faces) (hv' : ValidFaces vertices'.length fill' faces')
    (h : SameFaces vertices fill faces vertices' fill' faces') (hn' : faces'.ncol ≤ 32)
    (ht : Makes env vertices faces fill nb cpl t) {sched' : List Nat} (hs' : sched'.Perm (List.range faces'.rows.length)) :
    ∃ t', CellTree.init env vertices' faces' fill' nb cpl sched' = .ok t' := by
  obtain ⟨t', h1, _⟩ := init_same hv hv' h hn' ht hs'
  exact ⟨t', h1⟩

/-- **C87**: the structure of the tree and its boxes are the same. -/
theorem C87_same_structure (hv : ValidFaces vertices.length fill faces) (hv' : ValidFaces vertices'.length fill' faces')
    (h : SameFaces vertices fill faces vertices' fill' faces') (ht : Makes env vertices faces fill nb cpl t)
    (ht' : Makes env vertices' faces' fill' nb cpl t') :
    t'.data.nodes = t.data.nodes ∧ t'.data.bbIndices = t.data.bbIndices ∧ t'.data.bbCoords = t.data.bbCoords ∧
      t'.data.bbox = t.data.bbox ∧ toDictOfLists t'.data.nodes = toDictOfLists t.data.nodes ∧
      (∀ garbage, t'.nodeBounds garbage = t.nodeBounds garbage) ∧
      ∀ garbage, t'.validateNodeBounds garbage = t.validateNodeBounds garbage := by
  obtain ⟨h1, _⟩ := ht.same hv hv' h ht'
  exact ⟨h1.nodes, h1.bbIndices, h1.bbCoords, h1.bbox, by rw [h1.nodes], nodeBounds_same h1.toSameData,
    validateNodeBounds_same h1.toSameData⟩

/-- **C87**: all queries with points, boxes and edges return the same on meshes with the same faces (also if they raise). -/
theorem C87_same_results (hv : ValidFaces vertices.length fill faces) (hv' : ValidFaces vertices'.length fill' faces')
    (h : SameFaces vertices fill faces vertices' fill' faces') (ht : Makes env vertices faces fill nb cpl t)
    (ht' : Makes env vertices' faces' fill' nb cpl t') :
    (∀ points tol sched, t'.locatePoints env points tol sched = t.locatePoints env points tol sched) ∧
    (∀ boxes n sched, t'.locateBoxes boxes n sched = t.locateBoxes boxes n sched) ∧
    (∀ boxes n sched sched2, t'.intersectBoxes boxes n sched sched2 = t.intersectBoxes boxes n sched sched2) ∧
    (∀ edges n sched, t'.intersectEdges env edges n sched = t.intersectEdges env edges n sched) := by
  obtain ⟨h1, _⟩ := ht.same hv hv' h ht'
  exact ⟨locatePoints_same h1 env, locateBoxes_same h1.toSameData, intersectBoxes_same h1, intersectEdges_same h1 env⟩

/-- **C87**: and the same interpolation weights, if the tables have the same number of columns. -/
theorem C87_same_weights (hv : ValidFaces vertices.length fill faces) (hv' : ValidFaces vertices'.length fill' faces')
    (h : SameFaces vertices fill faces vertices' fill' faces') (hcol : faces'.ncol = faces.ncol)
    (ht : Makes env vertices faces fill nb cpl t) (ht' : Makes env vertices' faces' fill' nb cpl t') (points : List (Pt F))
    (tol : Option F) (sched sched1 : List Nat) :
    t'.barycentricWeights env points tol sched sched1 = t.barycentricWeights env points tol sched sched1 := by
  obtain ⟨h1, h2, h3⟩ := ht.same hv hv' h ht'
  exact weights_same h1 (by rw [h2, h3, hcol]) env points tol sched sched1

/-- **C87**: queries with faces: the vertices of the query faces may be numbered differently as well. The arrays that are
returned are the same. -/
theorem C87_same_faces (hv : ValidFaces vertices.length fill faces) (hv' : ValidFaces vertices'.length fill' faces')
    (h : SameFaces vertices fill faces vertices' fill' faces') (ht : Makes env vertices faces fill nb cpl t)
    (ht' : Makes env vertices' faces' fill' nb cpl t') {vs vs' : List (Pt F)} {q q' : IntArr}
    (hq : ValidFaces vs.length (-1) q) (hq' : ValidFaces vs'.length (-1) q') (hqq : SameFaces vs (-1) q vs' (-1) q')
    (hn : q.ncol ≤ 32) (hn' : q'.ncol ≤ 32) (n : Nat) {sched sched' : List Nat}
    (hs : sched.Perm (List.range q.rows.length)) (hs' : sched'.Perm (List.range q'.rows.length)) (sched1 : List Nat)
    (sched2 : Nat → List Nat) :
    Prod.snd <$> t'.locateFaces env vs' q' n sched' sched1 sched2 = Prod.snd <$> t.locateFaces env vs q n sched sched1 sched2 := by
  obtain ⟨h1, _⟩ := ht.same hv hv' h ht'
  have e : ∀ (m : Nat) (x : IntArr), ValidFaces m (-1) x → x.rows.map (fun r => padRow x.ncol (rowIndices (-1) r)) = x.rows := by
    intro m x hx
    conv => rhs; rw [← List.map_id x.rows]
    apply List.map_congr_left
    intro r hr
    exact (padRow_of_valid (hx.rows r hr) (hx.rect r hr)).symm
  have hr := hqq.sameRows hq hq'
  rw [e _ _ hq, e _ _ hq'] at hr
  obtain ⟨rows, rows', _, e1, e2⟩ := locateFaces_same h1 env hr hn hn' n hs hs' sched1 sched2
  rw [e2]
  cases (Prod.snd <$> t.locateFaces env vs q n sched sched1 sched2 : M (List Nat × List Nat)) <;> rfl

/-- **C87**: queries with faces and areas of intersection; the query tables may have different fill values. -/
theorem C87_same_intersections (hv : ValidFaces vertices.length fill faces) (hv' : ValidFaces vertices'.length fill' faces')
    (h : SameFaces vertices fill faces vertices' fill' faces') (ht : Makes env vertices faces fill nb cpl t)
    (ht' : Makes env vertices' faces' fill' nb cpl t') {vs vs' : List (Pt F)} {q q' : IntArr} {fillQ fillQ' : Int}
    (hq : ValidFaces vs.length fillQ q) (hq' : ValidFaces vs'.length fillQ' q') (hqq : SameFaces vs fillQ q vs' fillQ' q')
    (hn : q.ncol ≤ 32) (hn' : q'.ncol ≤ 32) {H H' : Heap} {ref ref' : Nat} (hH : H[ref]? = some q) (hH' : H'[ref']? = some q')
    (n : Nat) {sched sched' : List Nat} (hs : sched.Perm (List.range q.rows.length))
    (hs' : sched'.Perm (List.range q'.rows.length)) (sched1 : List Nat) (sched2 sched3 : Nat → List Nat) :
    Prod.snd <$> t'.intersectFacesH env H' vs' ref' fillQ' n sched' sched1 sched2 sched3 =
      Prod.snd <$> t.intersectFacesH env H vs ref fillQ n sched sched1 sched2 sched3 := by
  obtain ⟨h1, _⟩ := ht.same hv hv' h ht'
  exact intersectFacesH_same h1 env hq hq' hqq hn hn' hH hH' n hs hs' sched1 sched2 sched3

end

/-! ## Trees of edges -/

section
variable {env : Env F} {vertices vertices' : List (Pt F)} {edges edges' : IntArr} {nb cpl : Int} {t : CellTree F}

/-- Two tables describe the same edges. -/
structure SameEdges (vertices : List (Pt F)) (edges : IntArr) (vertices' : List (Pt F)) (edges' : IntArr) : Prop where
  length : edges'.rows.length = edges.rows.length
  ends : ∀ j p q, IsEdge vertices edges j p q → IsEdge vertices' edges' j p q

/-- **C88**: for networks with the same edges (with other numbers of the vertices, or vertices listed twice) all queries
return the same, provided that the extent of all vertices, used or not, gives the same tolerance. -/
theorem C88_partial (hv : ValidEdges vertices.length edges) (hv' : ValidEdges vertices'.length edges')
    (h : SameEdges vertices edges vertices' edges') (hτ : globalTolerance env vertices' = globalTolerance env vertices)
    (ht : EdgeCellTree.init env vertices edges nb cpl = .ok t) :
    ∃ t', EdgeCellTree.init env vertices' edges' nb cpl = .ok t' ∧
      (∀ points tol sched, t'.locatePointsOnEdge env points tol sched = t.locatePointsOnEdge env points tol sched) ∧
      (∀ boxes n sched, t'.locateBoxes boxes n sched = t.locateBoxes boxes n sched) ∧
      (∀ edges n sched, t'.intersectEdgesOnEdge env edges n sched = t.intersectEdgesOnEdge env edges n sched) := by
  have hrows : SameEdgeRows vertices edges.rows vertices' edges'.rows := by
    refine ⟨h.length, ?_⟩
    intro i r r' hr hr'
    obtain ⟨v, w, rfl, v0, v1, w0, w1⟩ := hv r (List.mem_of_getElem? hr)
    obtain ⟨v', w', rfl, v0', v1', w0', w1'⟩ := hv' r' (List.mem_of_getElem? hr')
    obtain ⟨p, p1, p2⟩ := rdI_of_range v0 v1
    obtain ⟨q, q1, q2⟩ := rdI_of_range w0 w1
    obtain ⟨p', p1', p2'⟩ := rdI_of_range v0' v1'
    obtain ⟨q', q1', q2'⟩ := rdI_of_range w0' w1'
    have e := (h.ends i p q ⟨v, w, hr, p2, q2⟩).unique ⟨v', w', hr', p2', q2'⟩
    obtain ⟨rfl, rfl⟩ := e
    exact ⟨v, w, v', w', p, q, rfl, rfl, p1, p1', q1, q1'⟩
  obtain ⟨t', h1, h2, h3⟩ := edgeInit_same hrows hτ ht
  refine ⟨t', h1, ?_, locateBoxes_same h2, ?_⟩
  · intro points tol sched
    unfold CellTree.locatePointsOnEdge Celltree.locatePointsOnEdge locatePointOnEdge
    simp only [h2.tolerance, locateWith_same h2, edgeTest_same h3]
  · intro es n sched
    unfold CellTree.intersectEdgesOnEdge
    rw [edgeEdgeIntersect_same env h3, locateEdges_same h2]

end

/-! ## Examples and witnesses -/

/-- The vertices of the example mesh in the opposite order, with a vertex far away that is not used, and one that is listed
twice. -/
def Ex.verts2 {F : Type} (c : Int → F) : List (Pt F) := ⟨c 1000, c (-7)⟩ :: ⟨c 2, c 2⟩ :: (Ex.verts c).reverse

/-- The faces of the example mesh for these vertices, with another fill value and one more column. Vertex `2` of the example
is vertex `6` here, and vertex `4` is vertex `4` or vertex `1`. -/
def Ex.faces2 : IntArr := ⟨5, [[8, 7, 4, 5, -5], [7, 1, 6, -5, -5], [6, 3, 4, -5, -5], [5, 1, 2, -5, -5]]⟩

theorem Ex.faces2_valid : ValidFaces 9 (-5) Ex.faces2 where
  rect := by decide
  rows := by
    intro r hr
    simp only [faces2, List.mem_cons, List.not_mem_nil, or_false] at hr
    rcases hr with rfl | rfl | rfl | rfl <;> exact ⟨by decide, by decide, by decide⟩

theorem Ex.same_faces2 {F : Type} (c : Int → F) : SameFaces (Ex.verts c) (-999) Ex.faces (Ex.verts2 c) (-5) Ex.faces2 := by
  refine ⟨rfl, ?_⟩
  intro i r r' hr hr'
  match i with
  | 0 | 1 | 2 | 3 =>
    cases hr
    cases hr'
    rfl
  | i + 4 => simp [Ex.faces] at hr

/-- The hypotheses of the theorems of C87 are met in binary64. -/
example : ∃ t t', Makes Fl.env Ex.flVerts Ex.faces (-999) 4 1 t ∧ Makes Fl.env (Ex.verts2 fun i => .fin i) Ex.faces2 (-5) 4 1 t' ∧
    ValidFaces Ex.flVerts.length (-999) Ex.faces ∧ ValidFaces (Ex.verts2 fun i => Fl.fin i).length (-5) Ex.faces2 ∧
    SameFaces Ex.flVerts (-999) Ex.faces (Ex.verts2 fun i => .fin i) (-5) Ex.faces2 ∧
    t'.locatePoints Fl.env [⟨.fin 3, .fin (1 / 2)⟩, ⟨.fin 1, .fin 3⟩] none [0, 1] = .ok [1, 3] ∧
    t.locatePoints Fl.env [⟨.fin 3, .fin (1 / 2)⟩, ⟨.fin 1, .fin 3⟩] none [0, 1] = .ok [1, 3] := by
  obtain ⟨t, h1, h2⟩ := bind_eq_ok.1 (show (CellTree.init Fl.env Ex.flVerts Ex.faces (-999) 4 1 [2, 0, 3, 1] >>= fun t =>
    t.locatePoints Fl.env [⟨.fin 3, .fin (1 / 2)⟩, ⟨.fin 1, .fin 3⟩] none [0, 1]) = .ok [1, 3] by decide +kernel)
  obtain ⟨t', h1', h2'⟩ := bind_eq_ok.1 (show (CellTree.init Fl.env (Ex.verts2 fun i => .fin i) Ex.faces2 (-5) 4 1 [3, 2, 1, 0] >>=
    fun t => t.locatePoints Fl.env [⟨.fin 3, .fin (1 / 2)⟩, ⟨.fin 1, .fin 3⟩] none [0, 1]) = .ok [1, 3] by decide +kernel)
  exact ⟨t, t', ⟨_, by decide, h1⟩, ⟨_, by decide, h1'⟩, Ex.faces_valid, Ex.faces2_valid, Ex.same_faces2 _, h2', h2⟩

/-- A network of three vertical edges, and the same with a vertex far away that no edge uses. -/
def Ex.threeEdges : List (Pt Fl) := [⟨.fin 0, .fin 0⟩, ⟨.fin 0, .fin 1⟩, ⟨.fin 3, .fin 0⟩, ⟨.fin 3, .fin 1⟩,
  ⟨.fin 4, .fin 0⟩, ⟨.fin 4, .fin 1⟩]

def Ex.threeEdgesFar : List (Pt Fl) := Ex.threeEdges ++ [⟨.fin (10 ^ 9), .fin 0⟩]

/-- **C88**, violation: a vertex that no edge uses changes the result of `EdgeCellTree2d.locate_points`. -/
theorem C88_unused_vertex_matters : ∃ t t', EdgeCellTree.init Fl.env Ex.threeEdges ⟨2, [[0, 1], [2, 3], [4, 5]]⟩ 2 1 = .ok t ∧
    EdgeCellTree.init Fl.env Ex.threeEdgesFar ⟨2, [[0, 1], [2, 3], [4, 5]]⟩ 2 1 = .ok t' ∧
    t.locatePointsOnEdge Fl.env [⟨.fin (1 / 2048), .fin (1 / 2)⟩] (some (.fin (1 / 1024))) [0] = .ok [-1] ∧
    t'.locatePointsOnEdge Fl.env [⟨.fin (1 / 2048), .fin (1 / 2)⟩] (some (.fin (1 / 1024))) [0] = .ok [0] := by
  obtain ⟨t, h1, h2⟩ := bind_eq_ok.1 (show (EdgeCellTree.init Fl.env Ex.threeEdges ⟨2, [[0, 1], [2, 3], [4, 5]]⟩ 2 1 >>= fun t =>
    t.locatePointsOnEdge Fl.env [⟨.fin (1 / 2048), .fin (1 / 2)⟩] (some (.fin (1 / 1024))) [0]) = .ok [-1] by decide +kernel)
  obtain ⟨t', h1', h2'⟩ := bind_eq_ok.1 (show (EdgeCellTree.init Fl.env Ex.threeEdgesFar ⟨2, [[0, 1], [2, 3], [4, 5]]⟩ 2 1 >>= fun t =>
    t.locatePointsOnEdge Fl.env [⟨.fin (1 / 2048), .fin (1 / 2)⟩] (some (.fin (1 / 1024))) [0]) = .ok [0] by decide +kernel)
  exact ⟨t, t', h1, h1', h2, h2'⟩

/-- The two networks have the same edges. -/
theorem Ex.same_three_edges : SameEdges Ex.threeEdges ⟨2, [[0, 1], [2, 3], [4, 5]]⟩ Ex.threeEdgesFar ⟨2, [[0, 1], [2, 3], [4, 5]]⟩ :=
  ⟨rfl, fun j p q ⟨v, w, h1, h2, h3⟩ => ⟨v, w, h1, by
    unfold threeEdgesFar; rw [List.getElem?_append_left (List.getElem?_eq_some_iff.1 h2).1]; exact h2, by
    unfold threeEdgesFar; rw [List.getElem?_append_left (List.getElem?_eq_some_iff.1 h3).1]; exact h3⟩⟩

/-- The hypotheses of `C88_partial` are met: the vertices in the opposite order. -/
example : ∃ t, EdgeCellTree.init Fl.env Ex.threeEdges ⟨2, [[0, 1], [2, 3], [4, 5]]⟩ 2 1 = .ok t ∧
    ValidEdges Ex.threeEdges.length ⟨2, [[0, 1], [2, 3], [4, 5]]⟩ ∧ ValidEdges Ex.threeEdges.reverse.length ⟨2, [[5, 4], [3, 2], [1, 0]]⟩ ∧
    SameEdges Ex.threeEdges ⟨2, [[0, 1], [2, 3], [4, 5]]⟩ Ex.threeEdges.reverse ⟨2, [[5, 4], [3, 2], [1, 0]]⟩ ∧
    globalTolerance Fl.env Ex.threeEdges.reverse = globalTolerance Fl.env Ex.threeEdges := by
  obtain ⟨t, _, h1, _⟩ := C88_unused_vertex_matters
  refine ⟨t, h1, ?_, ?_, ⟨rfl, ?_⟩, by decide +kernel⟩
  · intro r hr
    simp only [List.mem_cons, List.not_mem_nil, or_false] at hr
    rcases hr with rfl | rfl | rfl <;> exact ⟨_, _, rfl, by decide⟩
  · intro r hr
    simp only [List.mem_cons, List.not_mem_nil, or_false] at hr
    rcases hr with rfl | rfl | rfl <;> exact ⟨_, _, rfl, by decide⟩
  · intro j p q hj
    obtain ⟨v, w, h1, h2, h3⟩ := hj
    match j with
    | 0 => cases h1; exact ⟨5, 4, rfl, h2, h3⟩
    | 1 => cases h1; exact ⟨3, 2, rfl, h2, h3⟩
    | 2 => cases h1; exact ⟨1, 0, rfl, h2, h3⟩
    | j + 3 => simp at h1

end Celltree
