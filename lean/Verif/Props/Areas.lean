import Verif.Props.PolyClip
import Verif.Props.Edges
import Verif.Props.BuildOk

/-!
# Areas as Lebesgue measures, violations and examples: C32 – C36, C59, C60
-/

set_option linter.unusedSectionVars false

namespace Celltree

open MeasureTheory

/-! ## Areas over the real numbers -/

theorem ConvexPoly.region_eq_faceRegion {l : List (Pt ℝ)} (h : ConvexPoly l) : region l = faceRegion l :=
  Set.ext fun _ => (h.inFace).symm

theorem faceRegion_reverse (l : List (Pt ℝ)) : faceRegion l.reverse = faceRegion l := Set.ext fun _ => inFace_reverse

/-- **C32** (real numbers): the computed area of a convex polygon, in either order, is the measure of the set of its points. -/
theorem C32_polygon_area_measure {l : List (Pt ℝ)} (h : ConvexPoly l ∨ ConvexPoly l.reverse) :
    polygonArea l = .ok (areaOf (faceRegion l)) := by
  rcases h with h | h
  · rw [h.polygonArea, ← h.areaOf_region, h.region_eq_faceRegion]
  · rw [h.polygonArea_reverse, ← h.areaOf_region, h.region_eq_faceRegion, faceRegion_reverse]

/-- **C33** (real numbers): the computed area of intersection of two convex polygons is the measure of the set of points that
they have in common. -/
theorem C33_clip_area_measure {l clipper : List (Pt ℝ)} (h : ConvexPoly l) (hc : ConvexPoly clipper)
    (hl : l.length ≤ maxNVertex) (hl' : clipper.length ≤ maxNVertex) :
    polygonPolygonClipArea l clipper = .ok (areaOf (region l ∩ region clipper)) :=
  clipArea_eq_measure h hc.ne_nil (by unfold clipMaxNVertex; omega)

/-- **C33** (real numbers): it makes no difference which of the two polygons is the clipping polygon. -/
theorem C33_clip_area_symmetric {l clipper : List (Pt ℝ)} (h : ConvexPoly l) (hc : ConvexPoly clipper)
    (hl : l.length ≤ maxNVertex) (hl' : clipper.length ≤ maxNVertex) :
    polygonPolygonClipArea l clipper = polygonPolygonClipArea clipper l := by
  rw [C33_clip_area_measure h hc hl hl', C33_clip_area_measure hc h hl' hl, Set.inter_comm]

/-- **C34** (real numbers): the computed area of intersection is between zero and the computed area of either polygon. -/
theorem C34_area_bounds {l clipper : List (Pt ℝ)} (h : ConvexPoly l) (hc : ConvexPoly clipper)
    (hl : l.length ≤ maxNVertex) (hl' : clipper.length ≤ maxNVertex) :
    ∃ a areaL areaC, polygonPolygonClipArea l clipper = .ok a ∧ polygonArea l = .ok areaL ∧
      polygonArea clipper = .ok areaC ∧ 0 ≤ a ∧ a ≤ areaL ∧ a ≤ areaC := by
  refine ⟨_, _, _, C33_clip_area_measure h hc hl hl', C32_polygon_area_measure (Or.inl h),
    C32_polygon_area_measure (Or.inl hc), ENNReal.toReal_nonneg, ?_, ?_⟩
  · rw [← h.region_eq_faceRegion]
    exact ENNReal.toReal_mono h.finite_region (measure_mono Set.inter_subset_left)
  · rw [← hc.region_eq_faceRegion]
    exact ENNReal.toReal_mono hc.finite_region (measure_mono Set.inter_subset_right)

/-- **C34** (real numbers): a polygon inside the clipping polygon has its own area in common with it. -/
theorem C34_contained {l clipper : List (Pt ℝ)} (h : ConvexPoly l) (hc : ConvexPoly clipper)
    (hl : l.length ≤ maxNVertex) (hl' : clipper.length ≤ maxNVertex) (hin : ∀ v ∈ l, InPoly clipper v) :
    polygonPolygonClipArea l clipper = polygonArea l := by
  rw [C33_clip_area_measure h hc hl hl', C32_polygon_area_measure (Or.inl h), ← h.region_eq_faceRegion]
  congr 2
  rw [Set.inter_eq_left]
  intro p hp s hs
  exact h.hull hp fun v hv => hin v hv s hs

section
variable {env : Env ℝ} {vertices : List (Pt ℝ)} {faces : IntArr} {fill nBuckets cellsPerLeaf : Int} {t : CellTree ℝ}

/-- The area of a set that is a convex polygon is positive. -/
theorem areaOf_of_poly {out : List (Pt ℝ)} (h : ConvexPoly out) {S : Set (ℝ × ℝ)}
    (hS : ∀ p : ℝ × ℝ, InPoly out ⟨p.1, p.2⟩ ↔ p ∈ S) : areaOf S = shoelace out := by
  rw [← h.areaOf_region]
  exact areaOf_congr fun p => (hS p).symm

/-- **C36** (real numbers, boxes): `intersect_boxes` reports a box, a face and an area exactly if the area is the measure of
what the box and the face have in common, and positive. -/
theorem C36_intersect_boxes_measure (hm : GoodMesh env vertices faces fill)
    (ht : Makes env vertices faces fill nBuckets cellsPerLeaf t)
    (hconv : ∀ r ∈ faces.rows, ConvexFace (facePts vertices fill r)) {boxes : List (Box ℝ)}
    (hbox : ∀ q ∈ boxes, q.xmin < q.xmax ∧ q.ymin < q.ymax)
    {nThreads : Nat} (hn : 0 < nThreads) {sched : List Nat} {sched2 : Nat → List Nat}
    (hs : sched.Perm (List.range nThreads)) (hs2 : ∀ n, (sched2 n).Perm (List.range n)) :
    ∃ ii jj areas, t.intersectBoxes boxes nThreads sched sched2 = .ok (ii, jj, areas) ∧
      ii.length = jj.length ∧ jj.length = areas.length ∧ (ii.zip jj).Nodup ∧ ii.Pairwise (· ≤ ·) ∧
      ∀ i j a, (i, j, a) ∈ ii.zip (jj.zip areas) ↔ ∃ q s, boxes[i]? = some q ∧ faces.rows[j]? = some s ∧
        a = areaOf (boxRegion q ∩ faceRegion (facePts vertices fill s)) ∧ 0 < a := by
  obtain ⟨ii, jj, areas, h1, h2, h3, h4, h5, h6, h7⟩ := C36_intersect_boxes_geometry hm ht hconv hbox hn hs hs2
  refine ⟨ii, jj, areas, h1, h2, h3, h4, h5, ?_⟩
  intro i j a
  constructor
  · intro h
    obtain ⟨hpos, q, s, out, hq, hs, ho, hin, ha⟩ := h7 i j a h
    exact ⟨q, s, hq, hs, by rw [ha]; exact (areaOf_of_poly ho fun p => hin _).symm, hpos⟩
  · rintro ⟨q, s, hq, hs, ha, hpos⟩
    -- a positive area means that the interiors overlap
    have hover : BoxFaceOverlap boxes vertices fill faces i j := by
      obtain ⟨hqx, hqy⟩ := hbox q (List.mem_of_getElem? hq)
      obtain ⟨hcol, _, bt, hc⟩ := ht.constructed' hm
      have hsm := List.mem_of_getElem? hs
      have cB := (hconv s hsm).stored (hm.row' hs)
      have iB := (hconv s hsm).inFaceInterior (hm.row' hs)
      have fB := (hconv s hsm).inFace (hm.row' hs)
      have l2 := (storedPts_cases hc.elements hcol hs).1
      have hlen : (copyBoxVertices q).length + (storedPts vertices fill faces.ncol s).length ≤ clipMaxNVertex := by
        unfold clipMaxNVertex maxNVertex; unfold maxNVertex at l2
        rw [show (copyBoxVertices q).length = 4 from rfl]; omega
      rcases clip_none_iff (boxPoly_convex hqx hqy) cB.1 hlen with ⟨_, _, _, _, p, p1, p2⟩ | ⟨g1, _⟩
      · exact ⟨q, s, hq, hs, p, (boxPoly_interior hqx hqy p).1 p1, (iB p).1 p2⟩
      · rw [clipArea_eq_measure (boxPoly_convex hqx hqy) cB.1.ne_nil hlen] at g1
        have g1 := Except.ok.inj g1
        rw [areaOf_congr (s := region (copyBoxVertices q) ∩ region (storedPts vertices fill faces.ncol s))
          (t := boxRegion q ∩ faceRegion (facePts vertices fill s)) fun p =>
          and_congr (boxPoly_inPoly hqx hqy _) (fB _), ← ha] at g1
        rw [g1] at hpos
        exact (lt_irrefl _ hpos).elim
    have hmem := (h6 i j).2 hover
    obtain ⟨k, hk⟩ := List.mem_iff_getElem?.1 hmem
    rw [List.getElem?_zip_eq_some] at hk
    have hlt : k < areas.length := by
      rw [← h3]; exact (List.getElem?_eq_some_iff.1 hk.2).1
    have hmem' : (i, j, areas[k]) ∈ ii.zip (jj.zip areas) := by
      apply List.mem_iff_getElem?.2
      refine ⟨k, ?_⟩
      rw [List.getElem?_zip_eq_some]
      refine ⟨hk.1, ?_⟩
      rw [List.getElem?_zip_eq_some]
      exact ⟨hk.2, by simp [hlt]⟩
    obtain ⟨_, q', s', out, hq', hs', ho, hin, ha'⟩ := h7 _ _ _ hmem'
    rw [hq] at hq'; cases hq'
    rw [hs] at hs'; cases hs'
    have : a = areas[k] := by rw [ha, ha']; exact areaOf_of_poly ho fun p => hin _
    rw [this]; exact hmem'

/-- **C36** (real numbers, faces): `intersect_faces` reports two faces and an area exactly if the area is the measure of what
the faces have in common, and positive. -/
theorem C36_intersect_faces_measure (hm : GoodMesh env vertices faces fill)
    (ht : Makes env vertices faces fill nBuckets cellsPerLeaf t)
    (hconv : ∀ r ∈ faces.rows, ConvexFace (facePts vertices fill r) ∧ SmallPts env (facePts vertices fill r))
    {verticesA : List (Pt ℝ)} {facesA : IntArr} {fillA : Int} (hvA : ValidFaces verticesA.length fillA facesA)
    (hcolA : facesA.ncol ≤ maxNVertex)
    (hconvA : ∀ r ∈ facesA.rows, ConvexFace (facePts verticesA fillA r) ∧ SmallPts env (facePts verticesA fillA r))
    {h : Heap} {ref : Nat} (href : h[ref]? = some facesA)
    {nThreads : Nat} (hn : 0 < nThreads) {sched sched1 : List Nat} {sched2 sched3 : Nat → List Nat}
    (hs : sched.Perm (List.range facesA.rows.length)) (hs1 : sched1.Perm (List.range nThreads))
    (hs2 : ∀ n, (sched2 n).Perm (List.range n)) (hs3 : ∀ n, (sched3 n).Perm (List.range n)) :
    ∃ h' ii jj areas, t.intersectFacesH env h verticesA ref fillA nThreads sched sched1 sched2 sched3 =
        .ok (h', ii, jj, areas) ∧
      ii.length = jj.length ∧ jj.length = areas.length ∧ (ii.zip jj).Nodup ∧ ii.Pairwise (· ≤ ·) ∧
      ∀ i j a, (i, j, a) ∈ ii.zip (jj.zip areas) ↔ ∃ r s, facesA.rows[i]? = some r ∧ faces.rows[j]? = some s ∧
        a = areaOf (faceRegion (facePts verticesA fillA r) ∩ faceRegion (facePts vertices fill s)) ∧ 0 < a := by
  obtain ⟨h', ii, jj, areas, h1, h2, h3, h4, h5, h6, h7⟩ :=
    C36_intersect_faces_geometry hm ht hconv hvA hcolA hconvA href hn hs hs1 hs2 hs3
  refine ⟨h', ii, jj, areas, h1, h2, h3, h4, h5, ?_⟩
  intro i j a
  constructor
  · intro h
    obtain ⟨hpos, q, s, out, hq, hs, ho, hin, ha⟩ := h7 i j a h
    exact ⟨q, s, hq, hs, by rw [ha]; exact (areaOf_of_poly ho fun p => hin _).symm, hpos⟩
  · rintro ⟨r, s, hr, hs', ha, hpos⟩
    have hover : FacesOverlap verticesA fillA facesA vertices fill faces i j := by
      obtain ⟨hcol, _, bt, hc⟩ := ht.constructed' hm
      obtain ⟨rows, _, ho⟩ := counterClockwise_oriented hvA hs
      have hrm := List.mem_of_getElem? hr
      have hsm := List.mem_of_getElem? hs'
      have cA := (hconvA r hrm).1.stored (Oriented.row_valid hvA hr)
      have cB := (hconv s hsm).1.stored (hm.row' hs')
      have iA := (hconvA r hrm).1.inFaceInterior (Oriented.row_valid hvA hr)
      have iB := (hconv s hsm).1.inFaceInterior (hm.row' hs')
      have fA := (hconvA r hrm).1.inFace (Oriented.row_valid hvA hr)
      have fB := (hconv s hsm).1.inFace (hm.row' hs')
      have l1 := (storedPts_cases ho hcolA hr).1
      have l2 := (storedPts_cases hc.elements hcol hs').1
      have hlen : (storedPts verticesA fillA facesA.ncol r).length + (storedPts vertices fill faces.ncol s).length ≤
          clipMaxNVertex := by unfold clipMaxNVertex; omega
      rcases clip_none_iff cA.1 cB.1 hlen with ⟨_, _, _, _, p, p1, p2⟩ | ⟨g1, _⟩
      · exact ⟨r, s, hr, hs', p, (iA p).1 p1, (iB p).1 p2⟩
      · rw [clipArea_eq_measure cA.1 cB.1.ne_nil hlen] at g1
        have g1 := Except.ok.inj g1
        rw [areaOf_congr (s := region (storedPts verticesA fillA facesA.ncol r) ∩ region (storedPts vertices fill faces.ncol s))
          (t := faceRegion (facePts verticesA fillA r) ∩ faceRegion (facePts vertices fill s)) fun p =>
          and_congr (fA _) (fB _), ← ha] at g1
        rw [g1] at hpos
        exact (lt_irrefl _ hpos).elim
    have hmem := (h6 i j).2 hover
    obtain ⟨k, hk⟩ := List.mem_iff_getElem?.1 hmem
    rw [List.getElem?_zip_eq_some] at hk
    have hlt : k < areas.length := by
      rw [← h3]; exact (List.getElem?_eq_some_iff.1 hk.2).1
    have hmem' : (i, j, areas[k]) ∈ ii.zip (jj.zip areas) := by
      apply List.mem_iff_getElem?.2
      refine ⟨k, ?_⟩
      rw [List.getElem?_zip_eq_some]
      refine ⟨hk.1, ?_⟩
      rw [List.getElem?_zip_eq_some]
      exact ⟨hk.2, by simp [hlt]⟩
    obtain ⟨_, q', s', out, hq', hs2', ho, hin, ha'⟩ := h7 _ _ _ hmem'
    rw [hr] at hq'; cases hq'
    rw [hs'] at hs2'; cases hs2'
    have : a = areas[k] := by rw [ha, ha']; exact areaOf_of_poly ho fun p => hin _
    rw [this]; exact hmem'

end

/-! ## C36 for arbitrary meshes and any arithmetic -/

section
variable {F : Type} [Add F] [Sub F] [Mul F] [Div F] [Neg F] [Zero F] [One F] [IntCast F]
  [LT F] [LE F] [BEq F] [DecidableLT F] [DecidableLE F]

theorem applyMask_zip {α : Type} (I J : List α) (A : List F) (h1 : I.length = A.length) (h2 : J.length = A.length) :
    (applyMask (A.map fun a => decide (a > 0)) I).zip ((applyMask (A.map fun a => decide (a > 0)) J).zip
        (applyMask (A.map fun a => decide (a > 0)) A)) =
      (I.zip (J.zip A)).filter (fun x => decide (x.2.2 > 0)) ∧
    (applyMask (A.map fun a => decide (a > 0)) I).length = (applyMask (A.map fun a => decide (a > 0)) A).length ∧
    (applyMask (A.map fun a => decide (a > 0)) J).length = (applyMask (A.map fun a => decide (a > 0)) A).length := by
  unfold applyMask
  induction A generalizing I J with
  | nil => simp_all
  | cons a A ih =>
    match I, J, h1, h2 with
    | i :: I, j :: J, h1, h2 =>
      obtain ⟨e1, e2, e3⟩ := ih I J (by simpa using h1) (by simpa using h2)
      simp only [List.map_cons, List.zip_cons_cons, List.filter_cons]
      by_cases hd : decide (a > 0) = true
      · simp only [hd, if_true, List.map_cons, List.zip_cons_cons, List.length_cons]
        exact ⟨by rw [e1], by omega, by omega⟩
      · simp only [hd]
        exact ⟨e1, e2, e3⟩

theorem prange_length {β : Type} {sched : List Nat} {n : Nat} {init : β} {body : Nat → M β} {res : List β}
    (h : prange sched n init body = .ok res) : res.length = n := by
  unfold prange at h
  have key : ∀ (sched : List Nat) (acc res : List β), sched.foldlM (fun out i => do wr out i (← body i)) acc = .ok res →
      res.length = acc.length := by
    intro sched
    induction sched with
    | nil => intro acc res h; cases h; rfl
    | cons k sched ih =>
      intro acc res h
      rw [List.foldlM_cons] at h
      obtain ⟨acc', h1, h2⟩ := bind_eq_ok.1 h
      obtain ⟨b, _, h1⟩ := bind_eq_ok.1 h1
      rw [ih _ _ h2, (wr_eq_ok.1 h1).2, List.length_set]
  rw [key _ _ _ h]; simp

/-- **C36** (boxes, any mesh, any arithmetic): the three arrays have the same length; the rows are those of the located pairs
with a positive area, in the same order. -/
theorem C36_intersect_boxes_aligned {t : CellTree F} {boxes : List (Box F)} {nThreads : Nat} {sched : List Nat}
    {sched2 : Nat → List Nat} {ii jj : List Nat} {areas : List F}
    (h : t.intersectBoxes boxes nThreads sched sched2 = .ok (ii, jj, areas)) :
    ∃ I J A, t.locateBoxes boxes nThreads sched = .ok (I, J) ∧
      boxAreaOfIntersection boxes t.data.vertices t.data.elements I J (sched2 I.length) = .ok A ∧ 
      A.length = I.length ∧ (J.length = I.length → ii.length = areas.length ∧ jj.length = areas.length ∧
        ii.zip (jj.zip areas) = (I.zip (J.zip A)).filter fun x => decide (x.2.2 > 0)) := by
  unfold CellTree.intersectBoxes at h
  obtain ⟨⟨I, J⟩, h1, h⟩ := bind_eq_ok.1 h
  obtain ⟨A, h2, h⟩ := bind_eq_ok.1 h
  have h := Except.ok.inj h
  simp only [Prod.mk.injEq] at h
  obtain ⟨rfl, rfl, rfl⟩ := h
  have hl := prange_length h2
  refine ⟨I, J, A, h1, h2, hl, fun hJ => ?_⟩
  obtain ⟨e1, e2, e3⟩ := applyMask_zip I J A hl.symm (by omega)
  exact ⟨e2, e3, e1⟩

end

/-! ## Violations -/

namespace Ex

/-- A comb with fifteen teeth: a simple polygon with 32 corners. -/
def comb : List (Pt ℚ) :=
  (List.range 15).flatMap (fun k => [⟨30 - 2 * k, 8⟩, ⟨29 - 2 * k, 0⟩]) ++ [⟨0, -5⟩, ⟨31, -5⟩]

/-- A convex polygon with eleven corners. -/
def dome : List (Pt ℚ) :=
  [⟨-10, 2⟩, ⟨40, 2⟩] ++ (List.range 9).map fun k => ⟨32 - 4 * k, 7 - ((32 - 4 * k) - 16) ^ 2 / 100⟩

def combFaces : IntArr := ⟨32, [(List.range 32).map Int.ofNat]⟩
def domeFaces : IntArr := ⟨11, [(List.range 11).map Int.ofNat]⟩

theorem dome_valid : ValidFaces dome.length (-1) domeFaces :=
  ⟨by decide +kernel, fun r hr => by
    have : r = (List.range 11).map Int.ofNat := by simpa [domeFaces] using hr
    subst this
    exact ⟨by decide +kernel, by decide +kernel, by decide +kernel⟩⟩

theorem comb_valid : ValidFaces comb.length (-1) combFaces :=
  ⟨by decide +kernel, fun r hr => by
    have : r = (List.range 32).map Int.ofNat := by simpa [combFaces] using hr
    subst this
    exact ⟨by decide +kernel, by decide +kernel, by decide +kernel⟩⟩

end Ex

/-- **C35**, the remark: for a face that is not convex `intersect_faces` can write outside its work arrays, also if no face
has more than 32 corners. -/
theorem C35_not_convex_overflows :
    ∃ t : CellTree ℚ, Makes Ex.qEnv Ex.dome Ex.domeFaces (-1) 4 2 t ∧ ValidFaces Ex.comb.length (-1) Ex.combFaces ∧
      Ex.combFaces.ncol ≤ 32 ∧
      t.intersectFacesH Ex.qEnv [Ex.combFaces] Ex.comb 0 (-1) 1 [0] [0] List.range List.range = .error .oob := by
  obtain ⟨t, h1, h2⟩ := bind_eq_ok.1 (show (CellTree.init Ex.qEnv Ex.dome Ex.domeFaces (-1) 4 2 [0] >>= fun t =>
    Except.ok (Ex.errOf (t.intersectFacesH Ex.qEnv [Ex.combFaces] Ex.comb 0 (-1) 1 [0] [0] List.range List.range))) =
    .ok (some .oob) by decide +kernel)
  exact ⟨t, ⟨_, by decide, h1⟩, Ex.comb_valid, by decide, Ex.eq_error_of_errOf (Except.ok.inj h2)⟩

/-- **C59** is violated: a query face that has exactly a side in common with a face of the tree is not reported, although
the documentation of `locate_faces` says that it is. Here the query square is on the right of the mesh, and its left side
is the right side of face 2. -/
theorem C59_shared_side_violated :
    ∃ t : CellTree ℚ, Makes Ex.qEnv Ex.qVerts Ex.faces (-999) 4 1 t ∧
      t.locateFaces Ex.qEnv [⟨4, 0⟩, ⟨6, 0⟩, ⟨6, 2⟩, ⟨4, 2⟩] ⟨4, [[0, 1, 2, 3]]⟩ 1 [0] [0] List.range =
        .ok ([[0, 1, 2, 3]], [], []) := by
  obtain ⟨t, h1, h2⟩ := bind_eq_ok.1 (show (CellTree.init Ex.qEnv Ex.qVerts Ex.faces (-999) 4 1 [2, 0, 3, 1] >>= fun t =>
    t.locateFaces Ex.qEnv [⟨4, 0⟩, ⟨6, 0⟩, ⟨6, 2⟩, ⟨4, 2⟩] ⟨4, [[0, 1, 2, 3]]⟩ 1 [0] [0] List.range) =
    .ok ([[0, 1, 2, 3]], [], []) by decide +kernel)
  exact ⟨t, ⟨_, by decide, h1⟩, h2⟩

section Exact

variable {K : Type} [Field K] [LinearOrder K] [IsStrictOrderedRing K]
variable {env : Env K} {vertices : List (Pt K)} {faces : IntArr} {fill nBuckets cellsPerLeaf : Int} {t : CellTree K}

/-- **C59**, partial: what is missing is the pairs with only a side in common. Pairs with a common interior point are
reported, and the pairs that are reported have one. -/
theorem C59_common_interior_partial (hm : GoodMesh env vertices faces fill)
    (ht : Makes env vertices faces fill nBuckets cellsPerLeaf t)
    (hconv : ∀ r ∈ faces.rows, ConvexFace (facePts vertices fill r) ∧ SmallPts env (facePts vertices fill r))
    {verticesA : List (Pt K)} {facesA : IntArr} (hvA : ValidFaces verticesA.length (-1) facesA)
    (hcolA : facesA.ncol ≤ maxNVertex)
    (hconvA : ∀ r ∈ facesA.rows, ConvexFace (facePts verticesA (-1) r) ∧ SmallPts env (facePts verticesA (-1) r))
    {nThreads : Nat} (hn : 0 < nThreads) {sched sched1 : List Nat} {sched2 : Nat → List Nat}
    (hs : sched.Perm (List.range facesA.rows.length)) (hs1 : sched1.Perm (List.range nThreads))
    (hs2 : ∀ n, (sched2 n).Perm (List.range n)) :
    ∃ rows ii jj, t.locateFaces env verticesA facesA nThreads sched sched1 sched2 = .ok (rows, ii, jj) ∧
      ∀ i j, FacesOverlap verticesA (-1) facesA vertices fill faces i j ↔ (i, j) ∈ ii.zip jj := by
  obtain ⟨rows, ii, jj, h, _, _, _, hb⟩ := C31_locate_faces_brute_force hm ht hconv hvA hcolA hconvA hn hs hs1 hs2
  exact ⟨rows, ii, jj, h, fun i j => (hb i j).symm⟩

/-- **C60**, partial: what is missing is query faces with another fill value than -1. Whatever the fill value of the tree,
query faces padded with -1 are accepted. -/
theorem C60_fill_minus_one_partial (hm : GoodMesh env vertices faces fill)
    (ht : Makes env vertices faces fill nBuckets cellsPerLeaf t)
    (hconv : ∀ r ∈ faces.rows, ConvexFace (facePts vertices fill r) ∧ SmallPts env (facePts vertices fill r))
    {verticesA : List (Pt K)} {facesA : IntArr} (hvA : ValidFaces verticesA.length (-1) facesA)
    (hcolA : facesA.ncol ≤ maxNVertex)
    (hconvA : ∀ r ∈ facesA.rows, ConvexFace (facePts verticesA (-1) r) ∧ SmallPts env (facePts verticesA (-1) r))
    {nThreads : Nat} (hn : 0 < nThreads) {sched sched1 : List Nat} {sched2 : Nat → List Nat}
    (hs : sched.Perm (List.range facesA.rows.length)) (hs1 : sched1.Perm (List.range nThreads))
    (hs2 : ∀ n, (sched2 n).Perm (List.range n)) :
    ∃ r, t.locateFaces env verticesA facesA nThreads sched sched1 sched2 = .ok r := by
  obtain ⟨rows, ii, jj, h, _⟩ := C31_locate_faces_brute_force hm ht hconv hvA hcolA hconvA hn hs hs1 hs2
  exact ⟨_, h⟩

end Exact

/-- **C60** is violated: `locate_faces` does not know the fill value of the tree. The table of faces that the tree has been
made from is accepted by the constructor, but as a query it leads to a read outside the array of vertices. -/
theorem C60_fill_value_violated :
    ∃ t : CellTree ℚ, Makes Ex.qEnv Ex.qVerts Ex.faces (-999) 4 1 t ∧
      t.locateFaces Ex.qEnv Ex.qVerts Ex.faces 1 [0, 1, 2, 3] [0] List.range = .error .oob := by
  obtain ⟨t, h1, h2⟩ := bind_eq_ok.1 (show (CellTree.init Ex.qEnv Ex.qVerts Ex.faces (-999) 4 1 [2, 0, 3, 1] >>= fun t =>
    Except.ok (Ex.errOf (t.locateFaces Ex.qEnv Ex.qVerts Ex.faces 1 [0, 1, 2, 3] [0] List.range))) =
    .ok (some .oob) by decide +kernel)
  exact ⟨t, ⟨_, by decide, h1⟩, Ex.eq_error_of_errOf (Except.ok.inj h2)⟩

/-! ## The hypotheses can be met -/

namespace Ex

/-- All faces of the example mesh are convex, and the coordinates are small. -/
theorem faces_convex : ∀ r ∈ faces.rows, ConvexFace (facePts qVerts (-999) r) ∧ SmallPts qEnv (facePts qVerts (-999) r) := by
  have h1 : ∀ r ∈ faces.rows, StrictlyConvex (facePts qVerts (-999) r) ∨ StrictlyConvex (facePts qVerts (-999) r).reverse := by
    decide +kernel
  have h2 : ∀ r ∈ faces.rows, ∀ v ∈ facePts qVerts (-999) r, |v.x| ≤ 4 ∧ |v.y| ≤ 4 := by decide +kernel
  exact fun r hr => ⟨StrictlyConvex.convexFace (h1 r hr), 4, h2 r hr, by decide +kernel, by decide +kernel⟩

/-- Query faces: a triangle given clockwise, and a quadrilateral. -/
def queryVerts : List (Pt ℚ) := [⟨1, 1⟩, ⟨1, 3⟩, ⟨3, 1⟩, ⟨-1, 0⟩, ⟨0, 0⟩, ⟨1, 5⟩, ⟨-1, 5⟩]
def queryFaces : IntArr := ⟨4, [[0, 1, 2, -1], [3, 4, 5, 6]]⟩

theorem query_valid : ValidFaces queryVerts.length (-1) queryFaces :=
  ⟨by decide, fun r hr => by
    simp only [queryFaces, List.mem_cons, List.not_mem_nil, or_false] at hr
    rcases hr with rfl | rfl <;> exact ⟨by decide, by decide, by decide⟩⟩

theorem query_convex : ∀ r ∈ queryFaces.rows,
    ConvexFace (facePts queryVerts (-1) r) ∧ SmallPts qEnv (facePts queryVerts (-1) r) := by
  have h1 : ∀ r ∈ queryFaces.rows, StrictlyConvex (facePts queryVerts (-1) r) ∨
      StrictlyConvex (facePts queryVerts (-1) r).reverse := by decide +kernel
  have h2 : ∀ r ∈ queryFaces.rows, ∀ v ∈ facePts queryVerts (-1) r, |v.x| ≤ 5 ∧ |v.y| ≤ 5 := by decide +kernel
  exact fun r hr => ⟨StrictlyConvex.convexFace (h1 r hr), 5, h2 r hr, by decide +kernel, by decide +kernel⟩

end Ex

/-- The search on the example mesh: the triangle overlaps faces 0, 1 and 3, the quadrilateral faces 0 and 3. -/
example : ∃ (t : CellTree ℚ) (ii jj : List Nat), Makes Ex.qEnv Ex.qVerts Ex.faces (-999) 4 1 t ∧
    t.locateFaces Ex.qEnv Ex.queryVerts Ex.queryFaces 2 [1, 0] [1, 0] List.range =
      .ok ([[2, 1, 0, -1], [3, 4, 5, 6]], ii, jj) ∧ ii.zip jj = [(0, 1), (0, 3), (0, 0), (1, 3), (1, 0)] := by
  obtain ⟨t, h1, h2⟩ := bind_eq_ok.1 (show (CellTree.init Ex.qEnv Ex.qVerts Ex.faces (-999) 4 1 [2, 0, 3, 1] >>= fun t =>
    t.locateFaces Ex.qEnv Ex.queryVerts Ex.queryFaces 2 [1, 0] [1, 0] List.range) =
      .ok ([[2, 1, 0, -1], [3, 4, 5, 6]], [0, 0, 0, 1, 1], [1, 3, 0, 3, 0]) by decide +kernel)
  exact ⟨t, _, _, ⟨_, by decide, h1⟩, h2, rfl⟩

set_option synthInstance.maxSize 1000 in
/-- Areas of intersection with the query faces, and with boxes: the second box has a side in common with face 2. -/
example : ∃ (t : CellTree ℚ) (h : Heap), Makes Ex.qEnv Ex.qVerts Ex.faces (-999) 4 1 t ∧
    t.intersectFacesH Ex.qEnv [Ex.queryFaces] Ex.queryVerts 0 (-1) 2 [1, 0] [1, 0] List.range List.range =
      .ok (h, [0, 0, 0, 1, 1], [1, 3, 0, 3, 0], [1 / 2, 1 / 2, 1, 4 / 15, 2 / 5]) ∧
    t.intersectBoxes [⟨1, 3, 1, 3⟩, ⟨4, 5, 0, 1⟩, ⟨-1, 10, -1, 10⟩] 2 [1, 0] List.range =
      .ok ([0, 0, 0, 0, 2, 2, 2, 2], [2, 1, 3, 0, 2, 1, 3, 0], [1 / 2, 1 / 2, 3 / 4, 1, 2, 2, 2, 4]) := by
  obtain ⟨t, h1, h2⟩ := bind_eq_ok.1 (show (CellTree.init Ex.qEnv Ex.qVerts Ex.faces (-999) 4 1 [2, 0, 3, 1] >>= fun t =>
    t.intersectFacesH Ex.qEnv [Ex.queryFaces] Ex.queryVerts 0 (-1) 2 [1, 0] [1, 0] List.range List.range >>= fun r =>
    t.intersectBoxes [⟨1, 3, 1, 3⟩, ⟨4, 5, 0, 1⟩, ⟨-1, 10, -1, 10⟩] 2 [1, 0] List.range >>= fun s =>
    Except.ok (r.2, s)) =
      .ok (([0, 0, 0, 1, 1], [1, 3, 0, 3, 0], [1 / 2, 1 / 2, 1, 4 / 15, 2 / 5]),
        ([0, 0, 0, 0, 2, 2, 2, 2], [2, 1, 3, 0, 2, 1, 3, 0], [1 / 2, 1 / 2, 3 / 4, 1, 2, 2, 2, 4])) by decide +kernel)
  obtain ⟨⟨h, r⟩, h3, h4⟩ := bind_eq_ok.1 h2
  obtain ⟨s, h5, h6⟩ := bind_eq_ok.1 h4
  have h6 := Except.ok.inj h6
  simp only [Prod.mk.injEq] at h6
  obtain ⟨e1, e2⟩ := h6
  subst e2
  subst e1
  exact ⟨t, h, ⟨_, by decide, h1⟩, h3, h5⟩

/-- A convex polygon with a straight corner, in both orders. -/
example : ConvexPoly ([⟨0, 0⟩, ⟨1, 0⟩, ⟨2, 0⟩, ⟨0, 2⟩] : List (Pt ℚ)) ∧
    polygonArea ([⟨0, 0⟩, ⟨1, 0⟩, ⟨2, 0⟩, ⟨0, 2⟩] : List (Pt ℚ)) = .ok 2 ∧
    polygonArea ([⟨0, 2⟩, ⟨2, 0⟩, ⟨1, 0⟩, ⟨0, 0⟩] : List (Pt ℚ)) = .ok 2 := by decide +kernel

set_option synthInstance.maxSize 1000 in
/-- Clipping with a result (with a repeated corner), and without. -/
example : polygonPolygonClip ([⟨0, 0⟩, ⟨4, 0⟩, ⟨0, 4⟩] : List (Pt ℚ)) [⟨1, 1⟩, ⟨3, 1⟩, ⟨3, 3⟩, ⟨1, 3⟩] =
      .ok (some [⟨1, 3⟩, ⟨1, 1⟩, ⟨3, 1⟩, ⟨1, 3⟩]) ∧
    polygonPolygonClip ([⟨0, 0⟩, ⟨4, 0⟩, ⟨0, 4⟩] : List (Pt ℚ)) [⟨4, 0⟩, ⟨5, 0⟩, ⟨5, 4⟩, ⟨0, 4⟩] = .ok none ∧
    ConvexPoly ([⟨0, 0⟩, ⟨4, 0⟩, ⟨0, 4⟩] : List (Pt ℚ)) ∧ ConvexPoly ([⟨4, 0⟩, ⟨5, 0⟩, ⟨5, 4⟩, ⟨0, 4⟩] : List (Pt ℚ)) := by
  decide +kernel

/-- Two squares over the real numbers. -/
example : ConvexPoly (copyBoxVertices (⟨0, 2, 0, 2⟩ : Box ℝ)) ∧ ConvexPoly (copyBoxVertices (⟨1, 3, 1, 3⟩ : Box ℝ)) :=
  ⟨boxPoly_convex (by norm_num) (by norm_num), boxPoly_convex (by norm_num) (by norm_num)⟩

/-- A mesh of one square and a box over the real numbers. -/
example : ∃ (env : Env ℝ) (vertices : List (Pt ℝ)) (faces : IntArr) (t : CellTree ℝ) (box : Box ℝ),
    GoodMesh env vertices faces (-1) ∧ Makes env vertices faces (-1) 4 2 t ∧
    (∀ r ∈ faces.rows, ConvexFace (facePts vertices (-1) r) ∧ SmallPts env (facePts vertices (-1) r)) ∧
    box.xmin < box.xmax ∧ box.ymin < box.ymax := by
  let env : Env ℝ := ⟨100, -100, 1, 1, id⟩
  let vs : List (Pt ℝ) := copyBoxVertices ⟨0, 2, 0, 2⟩
  let fs : IntArr := ⟨4, [[0, 1, 2, 3]]⟩
  have hv : ValidFaces vs.length (-1) fs := ⟨by decide, fun r hr => by
    simp only [fs, List.mem_cons, List.not_mem_nil, or_false] at hr
    subst hr
    exact ⟨by decide, by decide, by decide⟩⟩
  have hm : GoodMesh env vs fs (-1) := ⟨hv, fun _ _ _ _ => ⟨trivial, trivial⟩, trivial, trivial⟩
  have hp : ∀ r ∈ fs.rows, facePts vs (-1) r = vs := by
    intro r hr
    simp only [fs, List.mem_cons, List.not_mem_nil, or_false] at hr
    subst hr
    rfl
  obtain ⟨t, ht⟩ := C12_construction_succeeds (nBuckets := 4) (cellsPerLeaf := 2) hm (sched := [0]) (by decide) (by omega)
    (by omega) (by decide) (by decide)
    (fun r hr => by rw [hp r hr]; exact ⟨⟨0, 0⟩, by simp [vs, copyBoxVertices], ⟨2, 0⟩, by simp [vs, copyBoxVertices], by simp⟩)
    (fun r hr => by rw [hp r hr]; exact ⟨⟨0, 0⟩, by simp [vs, copyBoxVertices], ⟨2, 2⟩, by simp [vs, copyBoxVertices], by simp⟩)
    (by simp [fs, env]; norm_num)
  refine ⟨env, vs, fs, t, ⟨1, 3, 1, 3⟩, hm, ⟨_, by decide, ht⟩, ?_, by norm_num, by norm_num⟩
  intro r hr
  rw [hp r hr]
  refine ⟨Or.inl (boxPoly_convex (by norm_num) (by norm_num)), 2, ?_, ?_, ?_⟩
  · intro v hv
    simp only [vs, copyBoxVertices, List.mem_cons, List.not_mem_nil, or_false] at hv
    rcases hv with rfl | rfl | rfl | rfl <;> norm_num
  · norm_num [env]
  · norm_num [env]

end Celltree
