import Verif.Proofs.FaceSearch
import Verif.Props.Orient

/-!
# Overlap of faces and areas of intersection: C30 – C36

Exact arithmetic: `K` is any ordered field. Over the real numbers areas are Lebesgue measures.
-/

set_option linter.unusedSectionVars false

namespace Celltree

section
variable {K : Type} [Field K] [LinearOrder K] [IsStrictOrderedRing K]

/-! ## C30, C31: the separating axis test and the search for faces -/

/-- **C30** (exact arithmetic): for two convex counter-clockwise polygons the test of `locate_faces` holds exactly if their
interiors have a point in common. -/
theorem C30_separating_axes {env : Env K} {verticesA verticesB A B : List (Pt K)} {faceA faceB : List Int}
    (hA : copyVertices verticesA faceA = .ok A) (hB : copyVertices verticesB faceB = .ok B) (cA : ConvexPoly A)
    (cB : ConvexPoly B) (sA : SmallPts env A) (sB : SmallPts env B) :
    ∃ r, polygonsIntersect env verticesA verticesB [faceA] [faceB] [0] [0] [0] = .ok [r] ∧
      (r = true ↔ ∃ p, InInterior A p ∧ InInterior B p) := by
  obtain ⟨r, h1, h2⟩ := satTest_spec cA cB sA sB
  refine ⟨r, ?_, h2⟩
  unfold polygonsIntersect
  refine prange_pairs (L := [(0, 0)]) (sched := [0]) (List.Perm.refl _) false (f := fun _ => r) ?_
  intro i x hi
  have : i = 0 := by
    have := (List.getElem?_eq_some_iff.1 hi).1
    simpa using this
  subst this
  change (do
    let a ← copyVertices verticesA faceA
    let b ← copyVertices verticesB faceB
    satTest env a b) = _
  rw [hA, hB, ok_bind, ok_bind, h1]

/-- **C30** (exact arithmetic): polygons that only touch are not reported: if no corner of the first polygon is strictly on
the inner side of some side of the second one, the test is negative. -/
theorem C30_touching_not_reported {env : Env K} {verticesA verticesB A B : List (Pt K)} {faceA faceB : List Int}
    (hA : copyVertices verticesA faceA = .ok A) (hB : copyVertices verticesB faceB = .ok B) (cA : ConvexPoly A)
    (cB : ConvexPoly B) (sA : SmallPts env A) (sB : SmallPts env B)
    (hsep : ∃ s ∈ sides B, s.1 ≠ s.2 ∧ ∀ v ∈ A, orient s.1 s.2 v ≤ 0) :
    polygonsIntersect env verticesA verticesB [faceA] [faceB] [0] [0] [0] = .ok [false] := by
  obtain ⟨r, h1, h2⟩ := C30_separating_axes hA hB cA cB sA sB
  rw [h1]
  cases r with
  | false => rfl
  | true =>
    obtain ⟨p, hp1, hp2⟩ := h2.1 rfl
    obtain ⟨s, hs, hne, hv⟩ := hsep
    obtain ⟨v, hv', h3⟩ := cA.exists_gt hp1 (axis_ne hne)
    rw [along_axis, along_axis] at h3
    have := hv v hv'
    have := hp2 s hs hne
    linarith

variable {env : Env K} {vertices : List (Pt K)} {faces : IntArr} {fill nBuckets cellsPerLeaf : Int} {t : CellTree K}

/-- **C31** (exact arithmetic): for a tree of convex faces and convex query faces, `locate_faces` reports exactly the pairs
whose interiors have a point in common, each of them once, ordered by query face. -/
theorem C31_locate_faces_brute_force (hm : GoodMesh env vertices faces fill)
    (ht : Makes env vertices faces fill nBuckets cellsPerLeaf t)
    (hconv : ∀ r ∈ faces.rows, ConvexFace (facePts vertices fill r) ∧ SmallPts env (facePts vertices fill r))
    {verticesA : List (Pt K)} {facesA : IntArr} (hvA : ValidFaces verticesA.length (-1) facesA)
    (hcolA : facesA.ncol ≤ maxNVertex)
    (hconvA : ∀ r ∈ facesA.rows, ConvexFace (facePts verticesA (-1) r) ∧ SmallPts env (facePts verticesA (-1) r))
    {nThreads : Nat} (hn : 0 < nThreads) {sched sched1 : List Nat} {sched2 : Nat → List Nat}
    (hs : sched.Perm (List.range facesA.rows.length)) (hs1 : sched1.Perm (List.range nThreads))
    (hs2 : ∀ n, (sched2 n).Perm (List.range n)) :
    ∃ rows ii jj, t.locateFaces env verticesA facesA nThreads sched sched1 sched2 = .ok (rows, ii, jj) ∧
      ii.length = jj.length ∧ (ii.zip jj).Nodup ∧ ii.Pairwise (· ≤ ·) ∧
      ∀ i j, (i, j) ∈ ii.zip jj ↔ FacesOverlap verticesA (-1) facesA vertices fill faces i j := by
  obtain ⟨hcol, _, bt, hc⟩ := ht.constructed' hm
  obtain ⟨rows, hr, ho⟩ := counterClockwise_oriented hvA hs
  have hr' : counterClockwise verticesA facesA.rows sched = .ok rows := by
    rw [← hr]
    congr 1
    conv => lhs; rw [← List.map_id facesA.rows]
    exact List.map_congr_left fun r hr => padRow_of_valid (hvA.rows r hr) (hvA.rect r hr)
  obtain ⟨P, h1, h2, h3, h4⟩ := faceSearch_spec hc hm.valid hcol hcolA hvA ho hconv hconvA hn hs1 hs2
  refine ⟨rows, P.map Prod.fst, P.map Prod.snd, ?_, by simp, ?_, ?_, ?_⟩
  · unfold CellTree.locateFaces
    rw [hr', ok_bind]
    exact h1
  · rw [zip_fst_snd]; exact h2
  · rw [List.pairwise_map]; exact h3
  · intro i j
    rw [zip_fst_snd]; exact h4 i j

/-! ## C32: the area of a polygon -/

/-- **C32** (exact arithmetic): the area of a convex polygon, in either order, is the absolute value of the shoelace formula,
and it is positive. -/
theorem C32_polygon_area {l : List (Pt K)} (h : ConvexPoly l ∨ ConvexPoly l.reverse) :
    polygonArea l = .ok |shoelace l| ∧ 0 < |shoelace l| := by
  rcases h with h | h
  · rw [h.polygonArea, abs_of_pos h.shoelace_pos]; exact ⟨rfl, h.shoelace_pos⟩
  · have hp := h.shoelace_pos
    rw [h.polygonArea_reverse]
    rw [shoelace_reverse] at hp ⊢
    rw [abs_of_neg (by linarith)]
    exact ⟨rfl, hp⟩

/-- **C32** (exact arithmetic): the corner at which the polygon starts has no influence on the area. -/
theorem C32_first_corner_irrelevant {l l' : List (Pt K)} (h : ConvexPoly l ∨ ConvexPoly l.reverse) (hr : l ~r l') :
    polygonArea l' = polygonArea l := by
  have h' : ConvexPoly l' ∨ ConvexPoly l'.reverse :=
    h.imp (fun h => h.rotated hr) fun h => h.rotated (List.IsRotated.reverse hr)
  rw [(C32_polygon_area h').1, (C32_polygon_area h).1, shoelace_rotated hr]

/-! ## C33: clipping -/

/-- **C33** (exact arithmetic): clipping a convex polygon by another one gives a convex polygon with exactly the points that
are in both, and the computed area is the area of that polygon. If there is no result, then the interiors have no point in
common and the computed area is zero. -/
theorem C33_clip_is_intersection {l clipper : List (Pt K)} (h : ConvexPoly l) (hc : ConvexPoly clipper)
    (hl : l.length ≤ maxNVertex) (hl' : clipper.length ≤ maxNVertex) :
    (∃ out, polygonPolygonClip l clipper = .ok (some out) ∧ ConvexPoly out ∧
      (∀ p, InPoly out p ↔ InPoly l p ∧ InPoly clipper p) ∧ polygonPolygonClipArea l clipper = .ok (shoelace out)) ∨
    (polygonPolygonClip l clipper = .ok none ∧ polygonPolygonClipArea l clipper = .ok 0 ∧
      ¬ ∃ p, InInterior l p ∧ InInterior clipper p) := by
  have hlen : l.length + clipper.length ≤ clipMaxNVertex := by unfold clipMaxNVertex; omega
  rcases polygonPolygonClip_spec h hc.ne_nil hlen with ⟨out, h1, h2, _, h3⟩ | ⟨h1, q, hq, hne, h2⟩
  · refine Or.inl ⟨out, h1, h2, h3, ?_⟩
    unfold polygonPolygonClipArea
    rw [h1]
    exact h2.polygonArea
  · refine Or.inr ⟨h1, ?_, ?_⟩
    · unfold polygonPolygonClipArea; rw [h1]; rfl
    · rintro ⟨p, hp1, hp2⟩
      have := h2 p hp1.inPoly hp2.inPoly
      have := hp2 q hq hne
      linarith

/-! ## C34, C35 -/

/-- **C34** (exact arithmetic): if a side of the clipping polygon separates the polygons, the area is zero. -/
theorem C34_separated_zero {l clipper : List (Pt K)} (h : ConvexPoly l) (hc : ConvexPoly clipper)
    (hl : l.length ≤ maxNVertex) (hl' : clipper.length ≤ maxNVertex)
    (hsep : ∃ s ∈ sides clipper, s.1 ≠ s.2 ∧ ∀ v ∈ l, orient s.1 s.2 v ≤ 0) :
    polygonPolygonClipArea l clipper = .ok 0 := by
  rcases clip_none_iff h hc (by unfold clipMaxNVertex; omega) with ⟨_, _, _, _, p, hp1, hp2⟩ | ⟨h1, _⟩
  · obtain ⟨s, hs, hne, hv⟩ := hsep
    obtain ⟨v, hv', h3⟩ := h.exists_gt hp1 (axis_ne hne)
    rw [along_axis, along_axis] at h3
    have := hv v hv'
    have := hp2 s hs hne
    linarith
  · exact h1

/-- **C35** (exact arithmetic): clipping a convex face of at most 32 corners by any polygon of at most 32 corners does not
write outside the work arrays of 64 corners, and raises nothing. -/
theorem C35_clip_within_arrays {l clipper : List (Pt K)} (h : ConvexPoly l) (hne : clipper ≠ [])
    (hl : l.length ≤ maxNVertex) (hl' : clipper.length ≤ maxNVertex) :
    (∃ out, polygonPolygonClip l clipper = .ok out ∧ ∀ o, out = some o → o.length ≤ 64) ∧
      ∃ a, polygonPolygonClipArea l clipper = .ok a := by
  have hlen : l.length + clipper.length ≤ clipMaxNVertex := by unfold clipMaxNVertex; omega
  constructor
  · rcases polygonPolygonClip_spec h hne hlen with ⟨out, h1, _, h2, _⟩ | ⟨h1, _⟩
    · refine ⟨_, h1, ?_⟩
      intro o ho
      cases ho
      exact h2.trans hlen
    · exact ⟨_, h1, fun o ho => by cases ho⟩
  · rcases polygonPolygonClipArea_spec h hne hlen with ⟨out, h1, _⟩ | ⟨h1, _⟩
    · exact ⟨_, h1⟩
    · exact ⟨_, h1⟩

/-! ## C36: areas of intersection -/

/-- **C36** (exact arithmetic, boxes): for convex faces and boxes of positive width and height, `intersect_boxes` reports
exactly the pairs whose interiors have a point in common, each of them once and ordered by box; the area in the same
position is that of the intersection, and positive. -/
theorem C36_intersect_boxes_geometry (hm : GoodMesh env vertices faces fill)
    (ht : Makes env vertices faces fill nBuckets cellsPerLeaf t)
    (hconv : ∀ r ∈ faces.rows, ConvexFace (facePts vertices fill r)) {boxes : List (Box K)}
    (hbox : ∀ q ∈ boxes, q.xmin < q.xmax ∧ q.ymin < q.ymax)
    {nThreads : Nat} (hn : 0 < nThreads) {sched : List Nat} {sched2 : Nat → List Nat}
    (hs : sched.Perm (List.range nThreads)) (hs2 : ∀ n, (sched2 n).Perm (List.range n)) :
    ∃ ii jj areas, t.intersectBoxes boxes nThreads sched sched2 = .ok (ii, jj, areas) ∧
      ii.length = jj.length ∧ jj.length = areas.length ∧ (ii.zip jj).Nodup ∧ ii.Pairwise (· ≤ ·) ∧
      (∀ i j, (i, j) ∈ ii.zip jj ↔ BoxFaceOverlap boxes vertices fill faces i j) ∧
      ∀ i j a, (i, j, a) ∈ ii.zip (jj.zip areas) → 0 < a ∧ ∃ q s out, boxes[i]? = some q ∧ faces.rows[j]? = some s ∧
        ConvexPoly out ∧ (∀ p, InPoly out p ↔ InBox q p ∧ InFace (facePts vertices fill s) p) ∧ a = shoelace out := by
  obtain ⟨hcol, _, bt, hc⟩ := ht.constructed' hm
  obtain ⟨f, hf1, hf2⟩ := boxAreas_spec hc hm.valid hcol hconv hbox (hs2 (boxPairs t.data bt boxes).length)
  have hL := boxPairs_nodup hc.tree boxes
  have hpos : ∀ x ∈ boxPairs t.data bt boxes, decide (f x > 0) = true ↔ BoxFaceOverlap boxes vertices fill faces x.1 x.2 := by
    intro x hx
    rw [decide_eq_true_iff]
    rcases hf2 x hx with ⟨h1, h2⟩ | ⟨h1, q, s, out, _, _, h2, _, h3⟩
    · rw [h1]; simp [h2]
    · rw [h3]; simp [h1, h2.shoelace_pos]
  refine ⟨((boxPairs t.data bt boxes).filter fun x => decide (f x > 0)).map Prod.fst,
    ((boxPairs t.data bt boxes).filter fun x => decide (f x > 0)).map Prod.snd,
    ((boxPairs t.data bt boxes).filter fun x => decide (f x > 0)).map f, ?_, by simp, by simp, ?_, ?_, ?_, ?_⟩
  · unfold CellTree.intersectBoxes
    rw [locateBoxes_spec hc.tree boxes hn hs, ok_bind]
    simp only [List.length_map]
    rw [hf1, ok_bind]
    rw [List.map_map]
    change Except.ok (applyMask ((boxPairs t.data bt boxes).map fun x => decide (f x > 0)) _,
      applyMask ((boxPairs t.data bt boxes).map fun x => decide (f x > 0)) _,
      applyMask ((boxPairs t.data bt boxes).map fun x => decide (f x > 0)) _) = _
    rw [applyMask_map, applyMask_map, applyMask_map]
  · rw [zip_fst_snd]; exact hL.1.filter _
  · rw [List.pairwise_map]; exact hL.2.filter _
  · intro i j
    rw [zip_fst_snd, List.mem_filter]
    constructor
    · rintro ⟨h1, h2⟩; exact (hpos _ h1).1 h2
    · intro h
      have := boxFaceOverlap_mem hc hm.valid hcol hconv h
      exact ⟨this, (hpos _ this).2 h⟩
  · intro i j a hmem
    rw [zip_zip_map] at hmem
    obtain ⟨x, hx, he⟩ := List.mem_map.1 hmem
    rw [List.mem_filter] at hx
    simp only [Prod.mk.injEq] at he
    obtain ⟨rfl, rfl, rfl⟩ := he
    have hp := of_decide_eq_true hx.2
    refine ⟨hp, ?_⟩
    rcases hf2 x hx.1 with ⟨h1, _⟩ | ⟨_, h1⟩
    · rw [h1] at hp; exact (lt_irrefl _ hp).elim
    · exact h1

/-- **C36** (exact arithmetic, faces): for convex faces, `intersect_faces` reports exactly the pairs whose interiors have a
point in common, each of them once and ordered by query face; the area in the same position is that of the intersection,
and positive. -/
theorem C36_intersect_faces_geometry (hm : GoodMesh env vertices faces fill)
    (ht : Makes env vertices faces fill nBuckets cellsPerLeaf t)
    (hconv : ∀ r ∈ faces.rows, ConvexFace (facePts vertices fill r) ∧ SmallPts env (facePts vertices fill r))
    {verticesA : List (Pt K)} {facesA : IntArr} {fillA : Int} (hvA : ValidFaces verticesA.length fillA facesA)
    (hcolA : facesA.ncol ≤ maxNVertex)
    (hconvA : ∀ r ∈ facesA.rows, ConvexFace (facePts verticesA fillA r) ∧ SmallPts env (facePts verticesA fillA r))
    {h : Heap} {ref : Nat} (href : h[ref]? = some facesA)
    {nThreads : Nat} (hn : 0 < nThreads) {sched sched1 : List Nat} {sched2 sched3 : Nat → List Nat}
    (hs : sched.Perm (List.range facesA.rows.length)) (hs1 : sched1.Perm (List.range nThreads))
    (hs2 : ∀ n, (sched2 n).Perm (List.range n)) (hs3 : ∀ n, (sched3 n).Perm (List.range n)) :
    ∃ h' ii jj areas, t.intersectFacesH env h verticesA ref fillA nThreads sched sched1 sched2 sched3 =
        .ok (h', ii, jj, areas) ∧
      ii.length = jj.length ∧ jj.length = areas.length ∧ (ii.zip jj).Nodup ∧ ii.Pairwise (· ≤ ·) ∧
      (∀ i j, (i, j) ∈ ii.zip jj ↔ FacesOverlap verticesA fillA facesA vertices fill faces i j) ∧
      ∀ i j a, (i, j, a) ∈ ii.zip (jj.zip areas) → 0 < a ∧ ∃ r s out, facesA.rows[i]? = some r ∧
        faces.rows[j]? = some s ∧ ConvexPoly out ∧
        (∀ p, InPoly out p ↔ InFace (facePts verticesA fillA r) p ∧ InFace (facePts vertices fill s) p) ∧
        a = shoelace out := by
  obtain ⟨hcol, _, bt, hc⟩ := ht.constructed' hm
  obtain ⟨rows, hr, ho⟩ := counterClockwise_oriented hvA hs
  obtain ⟨P, h1, h2, h3, h4⟩ := faceSearch_spec hc hm.valid hcol hcolA hvA ho hconv hconvA hn hs1 hs2
  obtain ⟨f, hf1, hf2⟩ := faceAreas_spec hc hm.valid hcol hcolA hvA ho (fun r hr => (hconv r hr).1)
    (fun r hr => (hconvA r hr).1) (fun i j hij => (h4 i j).1 hij) (hs3 P.length)
  have hall : ∀ x ∈ P, decide (f x > 0) = true := by
    intro x hx
    obtain ⟨_, _, out, _, _, h5, _, h6⟩ := hf2 x hx
    rw [decide_eq_true_iff, h6]
    exact h5.shoelace_pos
  have hfil : P.filter (fun x => decide (f x > 0)) = P := List.filter_eq_self.2 hall
  refine ⟨h ++ [⟨facesA.ncol, rows⟩], P.map Prod.fst, P.map Prod.snd, P.map f, ?_, by simp, by simp, ?_, ?_, ?_, ?_⟩
  · unfold CellTree.intersectFacesH CellTree.locateFacesH CellTree.locateFaces
    rw [rd_of_some href, ok_bind, castFaces_spec hvA, if_neg (by omega), ok_bind]
    simp only
    have hget : ∀ x : IntArr, (h ++ [x])[h.length]? = some x := fun x => by
      rw [List.getElem?_append_right (Nat.le_refl _), Nat.sub_self]; rfl
    rw [rd_of_some (hget _), ok_bind, hr, ok_bind]
    change (do
      let x ← (do
        let x ← faceSearch env t verticesA rows nThreads sched1 sched2
        let h' ← wr (h ++ [(⟨facesA.ncol, facesA.rows.map fun r => padRow facesA.ncol (rowIndices fillA r)⟩ : IntArr)]) h.length ⟨facesA.ncol, x.1⟩
        Except.ok (h', x.2.1, x.2.2))
      let faces ← rd x.1 h.length
      let area ← areaOfIntersection verticesA t.data.vertices faces.rows t.data.elements x.2.1 x.2.2 (sched3 x.2.1.length)
      Except.ok (x.1, applyMask (area.map fun a => decide (a > 0)) x.2.1, applyMask (area.map fun a => decide (a > 0)) x.2.2,
        applyMask (area.map fun a => decide (a > 0)) area)) = _
    rw [h1, ok_bind]
    have hw : wr (h ++ [(⟨facesA.ncol, facesA.rows.map fun r => padRow facesA.ncol (rowIndices fillA r)⟩ : IntArr)]) h.length
        ⟨facesA.ncol, rows⟩ = .ok (h ++ [⟨facesA.ncol, rows⟩]) := by
      unfold wr
      rw [if_pos (by simp), List.set_append_right _ _ (Nat.le_refl _)]
      simp
    simp only
    rw [hw, ok_bind, ok_bind]
    simp only
    rw [rd_of_some (hget _), ok_bind]
    simp only [List.length_map]
    rw [hf1, ok_bind, List.map_map]
    have e1 := applyMask_map P (fun x => decide (f x > 0)) Prod.fst
    have e2 := applyMask_map P (fun x => decide (f x > 0)) Prod.snd
    have e3 := applyMask_map P (fun x => decide (f x > 0)) f
    rw [hfil] at e1 e2 e3
    change Except.ok (_, applyMask (P.map fun x => decide (f x > 0)) _, applyMask (P.map fun x => decide (f x > 0)) _,
      applyMask (P.map fun x => decide (f x > 0)) _) = _
    rw [e1, e2, e3]
  · rw [zip_fst_snd]; exact h2
  · rw [List.pairwise_map]; exact h3
  · intro i j
    rw [zip_fst_snd]; exact h4 i j
  · intro i j a hmem
    rw [zip_zip_map] at hmem
    obtain ⟨x, hx, he⟩ := List.mem_map.1 hmem
    simp only [Prod.mk.injEq] at he
    obtain ⟨rfl, rfl, rfl⟩ := he
    exact ⟨of_decide_eq_true (hall x hx), hf2 x hx⟩

end

end Celltree
