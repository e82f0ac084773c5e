import Verif.Proofs.ClipSize

/-!
# The areas reported by `intersect_boxes` and `intersect_faces`, in any arithmetic
-/

set_option linter.unusedSectionVars false

namespace Celltree

section
variable {F : Type} [Add F] [Sub F] [Mul F] [Div F] [Neg F] [Zero F] [One F] [IntCast F] [BEq F] [LT F] [LE F] [DecidableLT F] [DecidableLE F]
variable [NumOrd F]
variable {env : Env F} {vertices : List (Pt F)} {faces : IntArr} {fill : Int} {nb cpl : Nat} {t : CellTree F} {bt : BT}
variable {verticesA : List (Pt F)} {facesA : IntArr} {fillA : Int} {rows : List (List Int)}

theorem intersectBoxes_areas (hc : Constructed env vertices faces fill nb cpl t bt) (hcol : faces.ncol ≤ maxNVertex)
    {boxes : List (Box F)} {nThreads : Nat} (hn : 0 < nThreads) {sched : List Nat} {sched2 : Nat → List Nat}
    (hs : sched.Perm (List.range nThreads)) (hs2 : ∀ n, (sched2 n).Perm (List.range n))
    (harea : ∀ q ∈ boxes, ∀ s ∈ faces.rows, BoxOverlapsPts q (facePts vertices fill s) →
      ∃ a, polygonPolygonClipArea (copyBoxVertices q) (storedPts vertices fill faces.ncol s) = .ok a) :
    ∃ (L : List (Nat × Nat)) (f : Nat × Nat → F), t.intersectBoxes boxes nThreads sched sched2 =
        .ok ((L.filter fun x => decide (f x > 0)).map Prod.fst, (L.filter fun x => decide (f x > 0)).map Prod.snd,
          (L.filter fun x => decide (f x > 0)).map f) ∧ L.Nodup ∧ L.Pairwise (fun a b => a.1 ≤ b.1) ∧
      (∀ i j, (i, j) ∈ L ↔ ∃ q s, boxes[i]? = some q ∧ faces.rows[j]? = some s ∧ BoxOverlapsPts q (facePts vertices fill s)) ∧
      ∀ i j q s, (i, j) ∈ L → boxes[i]? = some q → faces.rows[j]? = some s →
        polygonPolygonClipArea (copyBoxVertices q) (storedPts vertices fill faces.ncol s) = .ok (f (i, j)) := by
  have hL := boxPairs_nodup hc.tree boxes
  have := prange_pairs_exists (L := boxPairs t.data bt boxes) (hs2 (boxPairs t.data bt boxes).length) (0 : F)
    (body := fun i => do
      let box ← rd boxes (← rd ((boxPairs t.data bt boxes).map Prod.fst) i)
      let face ← rd t.data.elements (← rd ((boxPairs t.data bt boxes).map Prod.snd) i)
      let a := copyBoxVertices box
      let b ← copyVertices t.data.vertices face
      polygonPolygonClipArea a b)
    (Q := fun x b => ∀ q s, boxes[x.1]? = some q → faces.rows[x.2]? = some s →
      polygonPolygonClipArea (copyBoxVertices q) (storedPts vertices fill faces.ncol s) = .ok b) (by
      rintro ⟨i, j⟩ hx
      obtain ⟨q, s, hq, hs, hov⟩ := (mem_boxPairs_iff' hc).1 hx
      obtain ⟨a, ha⟩ := harea q (List.mem_of_getElem? hq) s (List.mem_of_getElem? hs) hov
      refine ⟨a, fun q' s' hq' hs' => ?_, fun k hk => ?_⟩
      · rw [hq] at hq'; cases hq'
        rw [hs] at hs'; cases hs'
        exact ha
      · obtain ⟨y, hy1, hy2⟩ := bind_eq_ok.1 (hc.elements.polygon hcol hs).1
        rw [rd_of_some (show ((boxPairs t.data bt boxes).map Prod.fst)[k]? = some i by simp [hk]),
          rd_of_some (show ((boxPairs t.data bt boxes).map Prod.snd)[k]? = some j by simp [hk])]
        simp only [ok_bind]
        rw [hy1, rd_of_some hq]
        simp only [ok_bind]
        rw [hc.vertices_eq, hy2, ok_bind]
        exact ha)
  obtain ⟨f, h1, h2⟩ := this
  refine ⟨boxPairs t.data bt boxes, f, ?_, hL.1, hL.2, fun i j => mem_boxPairs_iff' hc, fun i j q s hx hq hs => h2 _ hx q s hq hs⟩
  unfold CellTree.intersectBoxes
  rw [locateBoxes_spec hc.tree boxes hn hs, ok_bind]
  simp only [List.length_map]
  unfold boxAreaOfIntersection
  rw [List.length_map, h1, ok_bind, List.map_map]
  change Except.ok (applyMask ((boxPairs t.data bt boxes).map fun x => decide (f x > 0)) _,
    applyMask ((boxPairs t.data bt boxes).map fun x => decide (f x > 0)) _,
    applyMask ((boxPairs t.data bt boxes).map fun x => decide (f x > 0)) _) = _
  rw [applyMask_map, applyMask_map, applyMask_map]

theorem intersectFaces_areas_tested (hc : Constructed env vertices faces fill nb cpl t bt) (hcol : faces.ncol ≤ maxNVertex)
    (hvA : ValidFaces verticesA.length fillA facesA) (hcolA : facesA.ncol ≤ maxNVertex) (hnA : NumFaces verticesA fillA facesA)
    {h : Heap} {ref : Nat} (href : h[ref]? = some facesA)
    {nThreads : Nat} (hn : 0 < nThreads) {sched sched1 : List Nat} {sched2 sched3 : Nat → List Nat}
    (hs : sched.Perm (List.range facesA.rows.length)) (hs1 : sched1.Perm (List.range nThreads))
    (hs2 : ∀ n, (sched2 n).Perm (List.range n)) (hs3 : ∀ n, (sched3 n).Perm (List.range n))
    (harea : ∀ r ∈ facesA.rows, ∀ s ∈ faces.rows,
      (∃ a, IsBBox (facePts verticesA fillA r) a ∧ BoxOverlapsPts a (facePts vertices fill s)) →
      separatingAxes env (storedPts verticesA fillA facesA.ncol r) (storedPts vertices fill faces.ncol s) = .ok true →
      separatingAxes env (storedPts vertices fill faces.ncol s) (storedPts verticesA fillA facesA.ncol r) = .ok true → ∃ a,
      polygonPolygonClipArea (storedPts verticesA fillA facesA.ncol r) (storedPts vertices fill faces.ncol s) = .ok a) :
    ∃ (h' : Heap) (L : List (Nat × Nat)) (f : Nat × Nat → F),
      t.intersectFacesH env h verticesA ref fillA nThreads sched sched1 sched2 sched3 =
        .ok (h', (L.filter fun x => decide (f x > 0)).map Prod.fst, (L.filter fun x => decide (f x > 0)).map Prod.snd,
          (L.filter fun x => decide (f x > 0)).map f) ∧ L.Nodup ∧ L.Pairwise (fun a b => a.1 ≤ b.1) ∧
      (∀ i j, (i, j) ∈ L → ∃ r s, facesA.rows[i]? = some r ∧ faces.rows[j]? = some s) ∧
      (∀ i j r s, facesA.rows[i]? = some r → faces.rows[j]? = some s → ((i, j) ∈ L ↔
        (∃ a, IsBBox (facePts verticesA fillA r) a ∧ BoxOverlapsPts a (facePts vertices fill s)) ∧
          separatingAxes env (storedPts verticesA fillA facesA.ncol r) (storedPts vertices fill faces.ncol s) = .ok true ∧
          separatingAxes env (storedPts vertices fill faces.ncol s) (storedPts verticesA fillA facesA.ncol r) = .ok true)) ∧
      ∀ i j r s, (i, j) ∈ L → facesA.rows[i]? = some r → faces.rows[j]? = some s →
        polygonPolygonClipArea (storedPts verticesA fillA facesA.ncol r) (storedPts vertices fill faces.ncol s) = .ok (f (i, j)) := by
  obtain ⟨rows, hr, ho⟩ := counterClockwise_oriented hvA hs
  obtain ⟨boxes, L, P, g, h1, h2, h3, hP, h4, h5, h6, h7⟩ := faceSearch_total hc hcol hcolA ho hnA hn hs1 hs2
  have := prange_pairs_exists (L := P) (hs3 P.length) (0 : F)
    (body := fun i => do
      let faceA ← rd rows (← rd (P.map Prod.fst) i)
      let faceB ← rd t.data.elements (← rd (P.map Prod.snd) i)
      let a ← copyVertices verticesA faceA
      let b ← copyVertices t.data.vertices faceB
      polygonPolygonClipArea a b)
    (Q := fun x b => ∀ r s, facesA.rows[x.1]? = some r → faces.rows[x.2]? = some s →
      polygonPolygonClipArea (storedPts verticesA fillA facesA.ncol r) (storedPts vertices fill faces.ncol s) = .ok b) (by
      rintro ⟨i, j⟩ hx
      obtain ⟨r, s, _, _, hr, hs, _⟩ := h6 i j hx
      obtain ⟨a, ha⟩ := harea r (List.mem_of_getElem? hr) s (List.mem_of_getElem? hs) ((h7 i j r s hr hs).1 hx).1
        ((h7 i j r s hr hs).1 hx).2.1 ((h7 i j r s hr hs).1 hx).2.2
      refine ⟨a, fun r' s' hr' hs' => ?_, fun k hk => ?_⟩
      · rw [hr] at hr'; cases hr'
        rw [hs] at hs'; cases hs'
        exact ha
      · obtain ⟨x, hx1, hx2⟩ := bind_eq_ok.1 (ho.polygon hcolA hr).1
        obtain ⟨y, hy1, hy2⟩ := bind_eq_ok.1 (hc.elements.polygon hcol hs).1
        rw [rd_of_some (show (P.map Prod.fst)[k]? = some i by simp [hk]),
          rd_of_some (show (P.map Prod.snd)[k]? = some j by simp [hk])]
        simp only [ok_bind]
        rw [hx1, hy1]
        simp only [ok_bind]
        rw [hx2, hc.vertices_eq, hy2]
        exact ha)
  obtain ⟨f, hf1, hf2⟩ := this
  have hf : areaOfIntersection verticesA t.data.vertices rows t.data.elements (P.map Prod.fst) (P.map Prod.snd)
      (sched3 P.length) = .ok (P.map f) := by
    unfold areaOfIntersection
    rw [List.length_map, hf1]
  refine ⟨h ++ [⟨facesA.ncol, rows⟩], P, f, ?_, h4, h5, fun i j hx => ?_, h7, fun i j r s hx hr hs => hf2 _ hx r s hr hs⟩
  · unfold CellTree.intersectFacesH CellTree.locateFacesH CellTree.locateFaces
    rw [rd_of_some href, ok_bind, castFaces_spec hvA, if_neg (by omega), ok_bind]
    simp only
    have hget : ∀ x : IntArr, (h ++ [x])[h.length]? = some x := fun x => by
      rw [List.getElem?_append_right (Nat.le_refl _), Nat.sub_self]; rfl
    rw [rd_of_some (hget _), ok_bind, hr, ok_bind, h1, ok_bind, h2, ok_bind]
    simp only [List.length_map]
    rw [h3, ok_bind, applyMask_map, applyMask_map, ← hP, ok_bind]
    have hw : wr (h ++ [(⟨facesA.ncol, facesA.rows.map fun r => padRow facesA.ncol (rowIndices fillA r)⟩ : IntArr)]) h.length
        ⟨facesA.ncol, rows⟩ = .ok (h ++ [⟨facesA.ncol, rows⟩]) := by
      unfold wr
      rw [if_pos (by simp), List.set_append_right _ _ (Nat.le_refl _)]
      simp
    simp only
    rw [hw, ok_bind, ok_bind]
    simp only
    rw [rd_of_some (hget _), ok_bind]
    simp only [List.length_map]
    rw [hf, ok_bind, List.map_map]
    change Except.ok (_, applyMask (P.map fun x => decide (f x > 0)) _, applyMask (P.map fun x => decide (f x > 0)) _,
      applyMask (P.map fun x => decide (f x > 0)) _) = _
    rw [applyMask_map, applyMask_map, applyMask_map]
  · obtain ⟨r, s, _, _, hr, hs, _⟩ := h6 i j hx
    exact ⟨r, s, hr, hs⟩

theorem intersectFaces_areas (hc : Constructed env vertices faces fill nb cpl t bt) (hcol : faces.ncol ≤ maxNVertex)
    (hvA : ValidFaces verticesA.length fillA facesA) (hcolA : facesA.ncol ≤ maxNVertex) (hnA : NumFaces verticesA fillA facesA)
    {h : Heap} {ref : Nat} (href : h[ref]? = some facesA)
    {nThreads : Nat} (hn : 0 < nThreads) {sched sched1 : List Nat} {sched2 sched3 : Nat → List Nat}
    (hs : sched.Perm (List.range facesA.rows.length)) (hs1 : sched1.Perm (List.range nThreads))
    (hs2 : ∀ n, (sched2 n).Perm (List.range n)) (hs3 : ∀ n, (sched3 n).Perm (List.range n))
    (harea : ∀ r ∈ facesA.rows, ∀ s ∈ faces.rows,
      (∃ a, IsBBox (facePts verticesA fillA r) a ∧ BoxOverlapsPts a (facePts vertices fill s)) → ∃ a,
      polygonPolygonClipArea (storedPts verticesA fillA facesA.ncol r) (storedPts vertices fill faces.ncol s) = .ok a) :
    ∃ (h' : Heap) (L : List (Nat × Nat)) (f : Nat × Nat → F),
      t.intersectFacesH env h verticesA ref fillA nThreads sched sched1 sched2 sched3 =
        .ok (h', (L.filter fun x => decide (f x > 0)).map Prod.fst, (L.filter fun x => decide (f x > 0)).map Prod.snd,
          (L.filter fun x => decide (f x > 0)).map f) ∧ L.Nodup ∧ L.Pairwise (fun a b => a.1 ≤ b.1) ∧
      (∀ i j, (i, j) ∈ L → ∃ r s, facesA.rows[i]? = some r ∧ faces.rows[j]? = some s) ∧
      (∀ i j r s, facesA.rows[i]? = some r → faces.rows[j]? = some s → ((i, j) ∈ L ↔
        (∃ a, IsBBox (facePts verticesA fillA r) a ∧ BoxOverlapsPts a (facePts vertices fill s)) ∧
          separatingAxes env (storedPts verticesA fillA facesA.ncol r) (storedPts vertices fill faces.ncol s) = .ok true ∧
          separatingAxes env (storedPts vertices fill faces.ncol s) (storedPts verticesA fillA facesA.ncol r) = .ok true)) ∧
      ∀ i j r s, (i, j) ∈ L → facesA.rows[i]? = some r → faces.rows[j]? = some s →
        polygonPolygonClipArea (storedPts verticesA fillA facesA.ncol r) (storedPts vertices fill faces.ncol s) = .ok (f (i, j)) :=
  intersectFaces_areas_tested hc hcol hvA hcolA hnA href hn hs hs1 hs2 hs3 fun r hr s hs h _ _ => harea r hr s hs h

end

end Celltree
