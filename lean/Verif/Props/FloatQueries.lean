import Verif.Proofs.ClipSize
import Verif.Proofs.AxisEdges
import Verif.Proofs.EdgeTree
import Verif.Spec.Area
import Verif.Spec.Examples
import Verif.Props.Floats
import Verif.Props.Areas

/-!
# Queries in binary64 and in any arithmetic: C74 – C77
-/

set_option linter.unusedSectionVars false

namespace Celltree

/-! ## C77: areas never raise, in any arithmetic -/

section
variable {F : Type} [Add F] [Sub F] [Mul F] [Div F] [Neg F] [Zero F] [One F] [IntCast F] [BEq F] [LT F] [LE F] [DecidableLT F]
  [DecidableLE F] [NumOrd F]
variable {env : Env F} {vertices : List (Pt F)} {faces : IntArr} {fill nBuckets cellsPerLeaf : Int} {t : CellTree F}

/-- **C77** (boxes): in any arithmetic, for faces of at most six corners and of any shape, and for any boxes,
`intersect_boxes` raises nothing. A pair is reported at most once, in the order of the boxes, and only if the box overlaps the
bounding box of the face. Reported areas are positive. -/
theorem C77_intersect_boxes_total (hm : GoodMesh env vertices faces fill)
    (ht : Makes env vertices faces fill nBuckets cellsPerLeaf t)
    (h6 : ∀ r ∈ faces.rows, (facePts vertices fill r).length ≤ 6) (boxes : List (Box F))
    {nThreads : Nat} (hn : 0 < nThreads) {sched : List Nat} {sched2 : Nat → List Nat}
    (hs : sched.Perm (List.range nThreads)) (hs2 : ∀ n, (sched2 n).Perm (List.range n)) :
    ∃ ii jj areas, t.intersectBoxes boxes nThreads sched sched2 = .ok (ii, jj, areas) ∧
      ii.length = jj.length ∧ jj.length = areas.length ∧ (ii.zip jj).Nodup ∧ ii.Pairwise (· ≤ ·) ∧
      (∀ i j, (i, j) ∈ ii.zip jj → ∃ q r, boxes[i]? = some q ∧ faces.rows[j]? = some r ∧
        BoxOverlapsPts q (facePts vertices fill r)) ∧
      ∀ a ∈ areas, 0 < a := by
  obtain ⟨hcol, _, bt, hc⟩ := ht.constructed' hm
  obtain ⟨f, hf⟩ := boxAreas_total hc hcol (fun r hr => clipSize_box (h6 r hr)) (hs2 (boxPairs t.data bt boxes).length)
  have hL := boxPairs_nodup hc.tree boxes
  refine ⟨((boxPairs t.data bt boxes).filter fun x => decide (f x > 0)).map Prod.fst,
    ((boxPairs t.data bt boxes).filter fun x => decide (f x > 0)).map Prod.snd,
    ((boxPairs t.data bt boxes).filter fun x => decide (f x > 0)).map f, ?_, by simp, by simp, ?_, ?_, ?_, ?_⟩
  · unfold CellTree.intersectBoxes
    rw [locateBoxes_spec hc.tree boxes hn hs, ok_bind]
    simp only [List.length_map]
    rw [hf, ok_bind]
    rw [List.map_map]
    change Except.ok (applyMask ((boxPairs t.data bt boxes).map fun x => decide (f x > 0)) _,
      applyMask ((boxPairs t.data bt boxes).map fun x => decide (f x > 0)) _,
      applyMask ((boxPairs t.data bt boxes).map fun x => decide (f x > 0)) _) = _
    rw [applyMask_map, applyMask_map, applyMask_map]
  · rw [zip_fst_snd]; exact hL.1.filter _
  · rw [List.pairwise_map]; exact hL.2.filter _
  · intro i j hij
    rw [zip_fst_snd, List.mem_filter] at hij
    exact (mem_boxPairs_iff' hc).1 hij.1
  · intro a ha
    obtain ⟨x, hx, rfl⟩ := List.mem_map.1 ha
    exact of_decide_eq_true (List.mem_filter.1 hx).2

variable {verticesA : List (Pt F)} {facesA : IntArr} {fillA : Int}

/-- **C77** (search for faces): in any arithmetic and for faces of any shape `locate_faces` raises nothing. A pair is reported
at most once, in the order of the query faces, and only if the bounding boxes overlap. -/
theorem C77_locate_faces_total (hm : GoodMesh env vertices faces fill)
    (ht : Makes env vertices faces fill nBuckets cellsPerLeaf t)
    (hvA : ValidFaces verticesA.length (-1) facesA) (hcolA : facesA.ncol ≤ maxNVertex)
    (hnA : ∀ r ∈ facesA.rows, NumPts (facePts verticesA (-1) r))
    {nThreads : Nat} (hn : 0 < nThreads) {sched sched1 : List Nat} {sched2 : Nat → List Nat}
    (hs : sched.Perm (List.range facesA.rows.length)) (hs1 : sched1.Perm (List.range nThreads))
    (hs2 : ∀ n, (sched2 n).Perm (List.range n)) :
    ∃ rows ii jj, t.locateFaces env verticesA facesA nThreads sched sched1 sched2 = .ok (rows, ii, jj) ∧
      ii.length = jj.length ∧ (ii.zip jj).Nodup ∧ ii.Pairwise (· ≤ ·) ∧
      ∀ i j, (i, j) ∈ ii.zip jj → ∃ r s a b, facesA.rows[i]? = some r ∧ faces.rows[j]? = some s ∧
        IsBBox (facePts verticesA (-1) r) a ∧ IsBBox (facePts vertices fill s) b ∧ BoxesOverlap a b := by
  obtain ⟨hcol, _, bt, hc⟩ := ht.constructed' hm
  obtain ⟨rows, hr, ho⟩ := counterClockwise_oriented hvA hs
  have hr' : counterClockwise verticesA facesA.rows sched = .ok rows := by
    rw [← hr]
    congr 1
    conv => lhs; rw [← List.map_id facesA.rows]
    exact List.map_congr_left fun r hr => padRow_of_valid (hvA.rows r hr) (hvA.rect r hr)
  obtain ⟨boxes, L, P, f, h1, h2, h3, rfl, h5, h6, h7, _⟩ := faceSearch_total hc hcol hcolA ho hnA hn hs1 hs2
  refine ⟨rows, (L.filter f).map Prod.fst, (L.filter f).map Prod.snd, ?_, by simp, ?_, ?_, ?_⟩
  · unfold CellTree.locateFaces
    rw [hr', ok_bind, h1, ok_bind, h2, ok_bind]
    simp only [List.length_map]
    rw [h3, ok_bind, applyMask_map, applyMask_map]
  · rw [zip_fst_snd]; exact h5
  · rw [List.pairwise_map]; exact h6
  · intro i j hij
    rw [zip_fst_snd] at hij
    exact h7 i j hij

/-- **C77** (faces): in any arithmetic, for faces of at most five corners and of any shape, `intersect_faces` raises nothing.
A pair is reported at most once, in the order of the query faces, and only if the bounding boxes overlap. Reported areas are
positive. -/
theorem C77_intersect_faces_total (hm : GoodMesh env vertices faces fill)
    (ht : Makes env vertices faces fill nBuckets cellsPerLeaf t)
    (hvA : ValidFaces verticesA.length fillA facesA) (hcolA : facesA.ncol ≤ maxNVertex)
    (hnA : ∀ r ∈ facesA.rows, NumPts (facePts verticesA fillA r))
    (h5 : ∀ r ∈ faces.rows, (facePts vertices fill r).length ≤ 5)
    (h5A : ∀ r ∈ facesA.rows, (facePts verticesA fillA r).length ≤ 5)
    {h : Heap} {ref : Nat} (href : h[ref]? = some facesA)
    {nThreads : Nat} (hn : 0 < nThreads) {sched sched1 : List Nat} {sched2 sched3 : Nat → List Nat}
    (hs : sched.Perm (List.range facesA.rows.length)) (hs1 : sched1.Perm (List.range nThreads))
    (hs2 : ∀ n, (sched2 n).Perm (List.range n)) (hs3 : ∀ n, (sched3 n).Perm (List.range n)) :
    ∃ h' ii jj areas, t.intersectFacesH env h verticesA ref fillA nThreads sched sched1 sched2 sched3 =
        .ok (h', ii, jj, areas) ∧
      ii.length = jj.length ∧ jj.length = areas.length ∧ (ii.zip jj).Nodup ∧ ii.Pairwise (· ≤ ·) ∧
      (∀ i j, (i, j) ∈ ii.zip jj → ∃ r s a b, facesA.rows[i]? = some r ∧ faces.rows[j]? = some s ∧
        IsBBox (facePts verticesA fillA r) a ∧ IsBBox (facePts vertices fill s) b ∧ BoxesOverlap a b) ∧ ∀ a ∈ areas, 0 < a := by
  obtain ⟨hcol, _, bt, hc⟩ := ht.constructed' hm
  obtain ⟨rows, hr, ho⟩ := counterClockwise_oriented hvA hs
  obtain ⟨boxes, L, P, g, h1, h2, h3, hP, h6, h7, h8, _⟩ := faceSearch_total hc hcol hcolA ho hnA hn hs1 hs2
  obtain ⟨f, hf⟩ := faceAreas_total hc hcol hcolA ho (fun r hr s hs => clipSize_five (h5A r hr) (h5 s hs))
    (fun i j hx => by
      obtain ⟨r, s, _, _, e1, e2, _⟩ := h8 i j hx
      exact ⟨r, s, e1, e2⟩) (hs3 P.length)
  refine ⟨h ++ [⟨facesA.ncol, rows⟩], (P.filter fun x => decide (f x > 0)).map Prod.fst,
    (P.filter fun x => decide (f x > 0)).map Prod.snd, (P.filter fun x => decide (f x > 0)).map f, ?_, by simp, by simp, ?_, ?_,
    ?_, ?_⟩
  · unfold CellTree.intersectFacesH CellTree.locateFacesH CellTree.locateFaces
    rw [rd_of_some href, ok_bind, castFaces_spec hvA, if_neg (by omega), ok_bind]
    simp only
    have hget : ∀ x : IntArr, (h ++ [x])[h.length]? = some x := fun x => by
      rw [List.getElem?_append_right (Nat.le_refl _), Nat.sub_self]; rfl
    rw [rd_of_some (hget _), ok_bind, hr, ok_bind, h1, ok_bind, h2, ok_bind]
    simp only [List.length_map]
    rw [h3, ok_bind, applyMask_map, applyMask_map, ← hP, ok_bind]
    have hw : wr (h ++ [(⟨facesA.ncol, facesA.rows.map fun r => padRow facesA.ncol (rowIndices fillA r)⟩ : IntArr)]) h.length
        ⟨facesA.ncol, rows⟩ = .ok (h ++ [⟨facesA.ncol, rows⟩]) := by
      unfold wr
      rw [if_pos (by simp), List.set_append_right _ _ (Nat.le_refl _)]
      simp
    simp only
    rw [hw, ok_bind, ok_bind]
    simp only
    rw [rd_of_some (hget _), ok_bind]
    simp only [List.length_map]
    rw [hf, ok_bind, List.map_map]
    change Except.ok (_, applyMask (P.map fun x => decide (f x > 0)) _, applyMask (P.map fun x => decide (f x > 0)) _,
      applyMask (P.map fun x => decide (f x > 0)) _) = _
    rw [applyMask_map, applyMask_map, applyMask_map]
  · rw [zip_fst_snd]; exact h6.filter _
  · rw [List.pairwise_map]; exact h7.filter _
  · intro i j hij
    rw [zip_fst_snd] at hij
    exact h8 i j (List.mem_filter.1 hij).1
  · intro a ha
    obtain ⟨x, hx, rfl⟩ := List.mem_map.1 ha
    exact of_decide_eq_true (List.mem_filter.1 hx).2

end

/-! ## C74: edges in binary64 -/

open Fl

section
variable {env : Env Fl} {vertices : List (Pt Fl)} {faces : IntArr} {fill nBuckets cellsPerLeaf : Int} {t : CellTree Fl}

/-- **C74**, partial: what is missing are edges that are not parallel to an axis. In binary64, for horizontal and vertical
edges, `intersect_edges` always ends and raises nothing; coordinates have to be of moderate size. A pair is reported at most
once, in the order of the edges. -/
theorem C74_axis_edges_partial (hm : GoodMesh env vertices faces fill)
    (ht : Makes env vertices faces fill nBuckets cellsPerLeaf t) (hmod : ModMesh vertices faces fill)
    {edges : List (Pt Fl × Pt Fl)}
    (he : ∀ e ∈ edges, ∃ p q, e = (fp p, fp q) ∧ ModPt p ∧ ModPt q ∧ AxisEdge p q) {nThreads : Nat}
    (hn : 0 < nThreads) {sched : List Nat} (hs : sched.Perm (List.range nThreads)) :
    ∃ ii jj xy, t.intersectEdges env edges nThreads sched = .ok (ii, jj, xy) ∧ ii.length = jj.length ∧
      jj.length = xy.length ∧ (ii.zip jj).Nodup ∧ ii.Pairwise (· ≤ ·) := by
  obtain ⟨hcol, _, bt, hc⟩ := ht.constructed' hm
  obtain ⟨hnd, hsorted⟩ := edgeAll_nodup (isect := edgeFaceIntersect env t.data) hc.tree edges
  refine ⟨_, _, _, locateEdges_spec hc.tree edges (fun e h => ?_) hn hs, by simp, by simp, ?_, hsorted⟩
  · obtain ⟨p, q, rfl, h1, h2, h3⟩ := he e h
    exact (axisEdgeTotal hc hcol hmod h1 h2 h3).runs hc.tree
  · rw [List.zip_map']
    exact hnd

end

/-! ## C75: areas -/

section
open MeasureTheory

theorem ConvexFace.area_mono {l : List (Pt ℝ)} (h : ConvexFace l) {S : Set (ℝ × ℝ)} (hS : S ⊆ faceRegion l) :
    areaOf S ≤ areaOf (faceRegion l) := by
  rcases h with h | ⟨h, _⟩
  · rw [← h.region_eq_faceRegion] at hS ⊢
    exact ENNReal.toReal_mono h.finite_region (measure_mono hS)
  · rw [← faceRegion_reverse, ← h.region_eq_faceRegion] at hS ⊢
    exact ENNReal.toReal_mono h.finite_region (measure_mono hS)

variable {env : Env ℝ} {vertices : List (Pt ℝ)} {faces : IntArr} {fill nBuckets cellsPerLeaf : Int} {t : CellTree ℝ}

/-- **C75**, partial: what is missing is rounding. In exact arithmetic no area reported by `intersect_faces` is larger than
the area of one of the two faces. -/
theorem C75_area_bounds_partial (hm : GoodMesh env vertices faces fill)
    (ht : Makes env vertices faces fill nBuckets cellsPerLeaf t)
    (hconv : ∀ r ∈ faces.rows, ConvexFace (facePts vertices fill r) ∧ SmallPts env (facePts vertices fill r))
    {verticesA : List (Pt ℝ)} {facesA : IntArr} {fillA : Int} (hvA : ValidFaces verticesA.length fillA facesA)
    (hcolA : facesA.ncol ≤ maxNVertex)
    (hconvA : ∀ r ∈ facesA.rows, ConvexFace (facePts verticesA fillA r) ∧ SmallPts env (facePts verticesA fillA r))
    {h : Heap} {ref : Nat} (href : h[ref]? = some facesA)
    {nThreads : Nat} (hn : 0 < nThreads) {sched sched1 : List Nat} {sched2 sched3 : Nat → List Nat}
    (hs : sched.Perm (List.range facesA.rows.length)) (hs1 : sched1.Perm (List.range nThreads))
    (hs2 : ∀ n, (sched2 n).Perm (List.range n)) (hs3 : ∀ n, (sched3 n).Perm (List.range n)) :
    ∃ h' ii jj areas, t.intersectFacesH env h verticesA ref fillA nThreads sched sched1 sched2 sched3 =
        .ok (h', ii, jj, areas) ∧
      ∀ i j a, (i, j, a) ∈ ii.zip (jj.zip areas) → ∃ r s, facesA.rows[i]? = some r ∧ faces.rows[j]? = some s ∧ 0 < a ∧
        a ≤ areaOf (faceRegion (facePts verticesA fillA r)) ∧ a ≤ areaOf (faceRegion (facePts vertices fill s)) := by
  obtain ⟨h', ii, jj, areas, h1, _, _, _, _, h2⟩ :=
    C36_intersect_faces_measure hm ht hconv hvA hcolA hconvA href hn hs hs1 hs2 hs3
  refine ⟨h', ii, jj, areas, h1, fun i j a ha => ?_⟩
  obtain ⟨r, s, hr, hs, rfl, hpos⟩ := (h2 i j a).1 ha
  exact ⟨r, s, hr, hs, hpos, (hconvA r (List.mem_of_getElem? hr)).1.area_mono Set.inter_subset_left,
    (hconv s (List.mem_of_getElem? hs)).1.area_mono Set.inter_subset_right⟩

end

/-! ## Examples and violations -/

namespace Ex

/-- A triangle with corners that have one decimal. -/
def wedgeVerts : List (Pt Fl) := [rndPt 0.4 0, rndPt 1 0.6, rndPt 0.4 0.3]
def oneFace : IntArr := ⟨3, [[0, 1, 2]]⟩

/-- Two triangles on the same side of their common side; the second lies in the first one. -/
def outerTri : List (Pt ℚ) := [⟨3602879701896397 / 2 ^ 53, 5404319552844595 / 2 ^ 54⟩, ⟨8106479329266893 / 2 ^ 53, 1 / 2⟩,
  ⟨3152519739159347 / 2 ^ 52, 5404319552844595 / 2 ^ 52⟩]
def innerTri : List (Pt ℚ) := [⟨8106479329266893 / 2 ^ 53, 1 / 2⟩, ⟨1 / 2, 5404319552844595 / 2 ^ 53⟩,
  ⟨3602879701896397 / 2 ^ 53, 5404319552844595 / 2 ^ 54⟩]

/-- A mesh of two triangles with a common side. -/
def kitePts : List (Pt ℚ) := [⟨5404319552844595 / 2 ^ 54, 3602879701896397 / 2 ^ 55⟩, ⟨3602879701896397 / 2 ^ 54, 0⟩,
  ⟨3602879701896397 / 2 ^ 53, 0⟩, ⟨0, 3602879701896397 / 2 ^ 55⟩]
def kiteFaces : IntArr := ⟨3, [[0, 1, 2], [1, 0, 3]]⟩

theorem triangle_convex {a b c : Pt ℚ} (h : 0 < orient a b c) : StrictlyConvex [a, b, c] := by
  refine ⟨by simp, fun x y z hs => ?_⟩
  have := hs.eq_of_length rfl
  simp only [List.cons.injEq, and_true] at this
  obtain ⟨rfl, rfl, rfl⟩ := this
  exact h

end Ex

/-- **C74** is violated: a tree of one triangle and an edge for which `intersect_edges` raises a `ZeroDivisionError`. -/
theorem C74_division_by_zero : ∃ t : CellTree Fl, Makes Fl.env Ex.wedgeVerts Ex.oneFace (-1) 4 2 t ∧
    t.intersectEdges Fl.env [(rndPt 1.9 1.5, rndPt 0.4 0)] 1 [0] = .error .zeroDiv := by
  obtain ⟨t, h1, h2⟩ := bind_eq_ok.1 (show (CellTree.init Fl.env Ex.wedgeVerts Ex.oneFace (-1) 4 2 [0] >>= fun t =>
    Except.ok (Ex.errOf (t.intersectEdges Fl.env [(rndPt 1.9 1.5, rndPt 0.4 0)] 1 [0]))) = .ok (some .zeroDiv)
    by decide +kernel)
  exact ⟨t, ⟨[0], by decide, h1⟩, Ex.eq_error_of_errOf (Except.ok.inj h2)⟩

set_option synthInstance.maxSize 1000 in
/-- **C75** is violated: two triangles, the second inside the first, for which `intersect_faces` reports an area of
intersection that is more than four times the area of the second triangle. -/
theorem C75_area_violated : ∃ (t : CellTree Fl) (h' : Heap) (a : ℚ),
    Makes Fl.env (Ex.outerTri.map fp) Ex.oneFace (-1) 4 2 t ∧
    StrictlyConvex Ex.outerTri ∧ StrictlyConvex Ex.innerTri ∧ (∀ v ∈ Ex.innerTri, InPoly Ex.outerTri v) ∧
    t.intersectFacesH Fl.env [Ex.oneFace] (Ex.innerTri.map fp) 0 (-1) 1 [0] [0] List.range List.range =
      .ok (h', [0], [0], [fin a]) ∧ 4 * shoelace Ex.innerTri < a := by
  obtain ⟨t, h1, h2⟩ := bind_eq_ok.1 (show (CellTree.init Fl.env (Ex.outerTri.map fp) Ex.oneFace (-1) 4 2 [0] >>= fun t =>
    t.intersectFacesH Fl.env [Ex.oneFace] (Ex.innerTri.map fp) 0 (-1) 1 [0] [0] List.range List.range) =
      .ok ([Ex.oneFace, Ex.oneFace], [0], [0], [fin (5854679515581645 / 2 ^ 54)]) by decide +kernel)
  refine ⟨t, _, _, ⟨[0], by decide, h1⟩, Ex.triangle_convex (by decide +kernel), Ex.triangle_convex (by decide +kernel), ?_, h2,
    by decide +kernel⟩
  unfold InPoly
  decide +kernel

set_option synthInstance.maxSize 1000 in
/-- **C76** is violated: a mesh of two triangles with a common side, on either side of it, for which `locate_faces` reports
that the triangles overlap. `intersect_faces` does so too, in one of the two orders. -/
theorem C76_neighbours_violated : ∃ (t : CellTree Fl) (h' : Heap) (a b c : ℚ),
    Makes Fl.env (Ex.kitePts.map fp) Ex.kiteFaces (-1) 4 2 t ∧
    t.locateFaces Fl.env (Ex.kitePts.map fp) Ex.kiteFaces 1 [0, 1] [0] List.range =
      .ok (Ex.kiteFaces.rows, [0, 0, 1, 1], [0, 1, 0, 1]) ∧
    t.intersectFacesH Fl.env [Ex.kiteFaces] (Ex.kitePts.map fp) 0 (-1) 1 [0, 1] [0] List.range List.range =
      .ok (h', [0, 0, 1], [0, 1, 1], [fin a, fin b, fin c]) ∧ 0 < b ∧
    ¬ FacesOverlap Ex.kitePts (-1) Ex.kiteFaces Ex.kitePts (-1) Ex.kiteFaces 0 1 := by
  obtain ⟨t, h1, h2⟩ := bind_eq_ok.1 (show (CellTree.init Fl.env (Ex.kitePts.map fp) Ex.kiteFaces (-1) 4 2 [0, 1] >>= fun t =>
    do
      let x ← t.locateFaces Fl.env (Ex.kitePts.map fp) Ex.kiteFaces 1 [0, 1] [0] List.range
      let y ← t.intersectFacesH Fl.env [Ex.kiteFaces] (Ex.kitePts.map fp) 0 (-1) 1 [0, 1] [0] List.range List.range
      Except.ok (x, y)) =
    .ok ((Ex.kiteFaces.rows, [0, 0, 1, 1], [0, 1, 0, 1]), [Ex.kiteFaces, Ex.kiteFaces], [0, 0, 1], [0, 1, 1],
      [fin (1441151880758559 / 2 ^ 57), fin (1 / 2 ^ 60), fin (1080863910568919 / 2 ^ 56)]) by decide +kernel)
  obtain ⟨x, h3, h4⟩ := bind_eq_ok.1 h2
  obtain ⟨y, h5, h6⟩ := bind_eq_ok.1 h4
  have h7 := Except.ok.inj h6
  rw [Prod.mk.injEq] at h7
  rw [h7.1] at h3
  rw [h7.2] at h5
  refine ⟨t, _, _, _, _, ⟨[0, 1], by decide, h1⟩, h3, h5, by decide +kernel, ?_⟩
  rintro ⟨r, s, hr, hs, p, p1, p2⟩
  cases hr
  cases hs
  rw [show facePts Ex.kitePts (-1) [0, 1, 2] = [Ex.kitePts[0], Ex.kitePts[1], Ex.kitePts[2]] by decide +kernel,
    (Ex.triangle_convex (by decide +kernel)).convex.inFaceInterior] at p1
  rw [show facePts Ex.kitePts (-1) [1, 0, 3] = [Ex.kitePts[1], Ex.kitePts[0], Ex.kitePts[3]] by decide +kernel,
    (Ex.triangle_convex (by decide +kernel)).convex.inFaceInterior] at p2
  have q1 := p1 (Ex.kitePts[0], Ex.kitePts[1]) (by decide +kernel) (by decide +kernel)
  have q2 := p2 (Ex.kitePts[1], Ex.kitePts[0]) (by decide +kernel) (by decide +kernel)
  simp only at q1 q2
  rw [orient_swap'] at q2
  linarith

namespace Ex

/-- Integers as coordinates are of moderate size. -/
def IntPt (q : Pt ℚ) : Prop := ∃ m n : ℤ, q = ⟨m, n⟩ ∧ |m| < 2 ^ 53 ∧ |n| < 2 ^ 53

theorem mod_int {m : ℤ} (h : |m| < 2 ^ 53) : Mod (m : ℚ) := by
  refine ⟨⟨m, 0, by simp, h, by norm_num⟩, ?_⟩
  have h1 : |(m : ℚ)| < 2 ^ 53 := by exact_mod_cast h
  exact h1.le.trans (by norm_num)

theorem IntPt.mod {q : Pt ℚ} (h : IntPt q) : ModPt q := by
  obtain ⟨m, n, rfl, hm, hn⟩ := h
  exact ⟨mod_int hm, mod_int hn⟩

theorem apart_int (m n : ℤ) : Apart (m : ℚ) n := by
  by_cases h : m = n
  · exact Or.inl (by rw [h])
  · right
    have h1 : 1 ≤ |n - m| := Int.one_le_abs (by omega)
    have h2 : (1 : ℚ) ≤ |(n : ℚ) - m| := by exact_mod_cast h1
    exact (by norm_num : (1 : ℚ) / 2 ^ 200 ≤ 1).trans h2

theorem modMesh_int {pts : List (Pt ℚ)} (h : ∀ q ∈ pts, IntPt q) (faces : IntArr) (fill : Int) :
    ModMesh (pts.map fp) faces fill := by
  refine ⟨fun v hv => ?_, fun r _ p q hs => ?_⟩
  · obtain ⟨q, hq, rfl⟩ := List.mem_map.1 hv
    exact ⟨q, rfl, (h q hq).mod⟩
  · have key : ∀ v, fp v ∈ facePts (pts.map fp) fill r → IntPt v := by
      intro v hv
      obtain ⟨w, hw, he⟩ := List.mem_map.1 (facePts_mem hv)
      unfold fp at he
      simp only [Pt.mk.injEq, Fl.fin.injEq] at he
      have : w = v := by cases w; cases v; simp_all
      exact this ▸ h w hw
    obtain ⟨j, a1, a2, a3⟩ := mem_sides_iff.1 hs
    obtain ⟨m, n, rfl, _⟩ := key p (List.mem_of_getElem? a2)
    obtain ⟨m', n', rfl, _⟩ := key q (List.mem_of_getElem? a3)
    exact ⟨apart_int _ _, apart_int _ _⟩

def nearPts : List (Pt ℚ) := [⟨100, 100⟩, ⟨106, 101⟩, ⟨104, 109⟩, ⟨100, 110⟩, ⟨110, 100⟩, ⟨110, 110⟩]

theorem near_int : ∀ q ∈ nearPts, IntPt q := by
  intro q hq
  simp only [nearPts, List.mem_cons, List.not_mem_nil, or_false] at hq
  rcases hq with rfl | rfl | rfl | rfl | rfl | rfl
  · exact ⟨100, 100, by norm_num, by norm_num, by norm_num⟩
  · exact ⟨106, 101, by norm_num, by norm_num, by norm_num⟩
  · exact ⟨104, 109, by norm_num, by norm_num, by norm_num⟩
  · exact ⟨100, 110, by norm_num, by norm_num, by norm_num⟩
  · exact ⟨110, 100, by norm_num, by norm_num, by norm_num⟩
  · exact ⟨110, 110, by norm_num, by norm_num, by norm_num⟩

/-- A quadrangle with a reflex corner and one whose sides cross. -/
def oddFaces : IntArr := ⟨4, [[0, 1, 5, 2], [1, 3, 4, 5]]⟩

theorem odd_good : GoodMesh Fl.env nearVerts oddFaces (-1) :=
  ⟨⟨by decide, fun r hr => by
    simp only [oddFaces, List.mem_cons, List.not_mem_nil, or_false] at hr
    rcases hr with rfl | rfl <;> exact ⟨by decide, by decide, by decide⟩⟩, by
      intro r hr p hp
      have : ∀ p ∈ nearVerts, p.x ≠ Fl.nan ∧ p.y ≠ Fl.nan := by decide +kernel
      unfold facePts at hp
      obtain ⟨k, _, hk⟩ := List.mem_filterMap.1 hp
      exact this p (List.mem_of_getElem? hk), nofun, nofun⟩

end Ex

set_option synthInstance.maxSize 1000 in
/-- The hypotheses of `C74_axis_edges_partial` are met by the mesh of two cells, a horizontal edge and a vertical one. -/
example : Ex.nearVerts = Ex.nearPts.map fp ∧ ModMesh (Ex.nearPts.map fp) Ex.gridFaces (-1) ∧
    (∀ e ∈ [(fp ⟨90, 105⟩, fp ⟨120, 105⟩), (fp ⟨103, 200⟩, fp ⟨103, 50⟩)], ∃ p q, e = (fp p, fp q) ∧ ModPt p ∧ ModPt q ∧
      AxisEdge p q) ∧
    ∃ t, Makes Fl.env Ex.nearVerts Ex.gridFaces (-1) 4 2 t ∧ GoodMesh Fl.env Ex.nearVerts Ex.gridFaces (-1) ∧
      t.intersectEdges Fl.env [(fp ⟨90, 105⟩, fp ⟨120, 105⟩), (fp ⟨103, 200⟩, fp ⟨103, 50⟩)] 1 [0] =
        .ok ([0, 0, 1], [0, 1, 0], [(some (fp ⟨100, 105⟩), some (fp ⟨105, 105⟩)), (some (fp ⟨105, 105⟩), some (fp ⟨110, 105⟩)),
          (some (fp ⟨103, 109.25⟩), some (fp ⟨103, 100.5⟩))]) := by
  refine ⟨by decide +kernel, Ex.modMesh_int Ex.near_int _ _, ?_, ?_⟩
  · intro e he
    simp only [List.mem_cons, List.not_mem_nil, or_false] at he
    rcases he with rfl | rfl
    · exact ⟨⟨90, 105⟩, ⟨120, 105⟩, rfl, Ex.IntPt.mod ⟨90, 105, by norm_num, by norm_num, by norm_num⟩,
        Ex.IntPt.mod ⟨120, 105, by norm_num, by norm_num, by norm_num⟩, Or.inl ⟨rfl, Or.inr (by norm_num)⟩⟩
    · exact ⟨⟨103, 200⟩, ⟨103, 50⟩, rfl, Ex.IntPt.mod ⟨103, 200, by norm_num, by norm_num, by norm_num⟩,
        Ex.IntPt.mod ⟨103, 50, by norm_num, by norm_num, by norm_num⟩, Or.inr ⟨rfl, Or.inr (by norm_num)⟩⟩
  · obtain ⟨t, h1, h2⟩ := bind_eq_ok.1 (show (CellTree.init Fl.env Ex.nearVerts Ex.gridFaces (-1) 4 2 [0, 1] >>= fun t =>
      t.intersectEdges Fl.env [(fp ⟨90, 105⟩, fp ⟨120, 105⟩), (fp ⟨103, 200⟩, fp ⟨103, 50⟩)] 1 [0]) =
        .ok ([0, 0, 1], [0, 1, 0], [(some (fp ⟨100, 105⟩), some (fp ⟨105, 105⟩)), (some (fp ⟨105, 105⟩), some (fp ⟨110, 105⟩)),
          (some (fp ⟨103, 109.25⟩), some (fp ⟨103, 100.5⟩))])
      by decide +kernel)
    exact ⟨t, ⟨_, by decide, h1⟩, Ex.near_good, h2⟩

/-- The hypotheses of `C77` are met by faces that are not convex; one of the boxes is not a number. -/
example : (∀ r ∈ Ex.oddFaces.rows, (facePts Ex.nearVerts (-1) r).length ≤ 5) ∧
    ∃ t, Makes Fl.env Ex.nearVerts Ex.oddFaces (-1) 4 2 t ∧ GoodMesh Fl.env Ex.nearVerts Ex.oddFaces (-1) ∧
      Ex.errOf (t.intersectBoxes [⟨fin 90, fin 110, fin 100, fin 120⟩, ⟨nan, fin 1, pinf, fin 3⟩] 1 [0] List.range) = none ∧
      Ex.errOf (t.intersectFacesH Fl.env [Ex.oddFaces] Ex.nearVerts 0 (-1) 1 [0, 1] [0] List.range List.range) = none := by
  refine ⟨by decide +kernel, ?_⟩
  obtain ⟨t, h1, h2⟩ := bind_eq_ok.1 (show (CellTree.init Fl.env Ex.nearVerts Ex.oddFaces (-1) 4 2 [0, 1] >>= fun t =>
    Except.ok (Ex.errOf (t.intersectBoxes [⟨fin 90, fin 110, fin 100, fin 120⟩, ⟨nan, fin 1, pinf, fin 3⟩] 1 [0] List.range),
      Ex.errOf (t.intersectFacesH Fl.env [Ex.oddFaces] Ex.nearVerts 0 (-1) 1 [0, 1] [0] List.range List.range))) =
      .ok (none, none) by decide +kernel)
  have h3 := Prod.mk.inj (Except.ok.inj h2)
  exact ⟨t, ⟨_, by decide, h1⟩, Ex.odd_good, h3.1, h3.2⟩

end Celltree
