import Verif.Proofs.Reordered

/-!
# C105: the order of the faces, their first corners and their directions do not matter
-/

set_option linter.unusedSectionVars false

namespace Celltree

section Boxes
variable {F : Type} [Add F] [Sub F] [Mul F] [Div F] [Neg F] [Zero F] [One F] [IntCast F]
  [LT F] [LE F] [BEq F] [DecidableLT F] [DecidableLE F] [NumOrd F]
  {env : Env F} {vertices : List (Pt F)} {faces faces' : IntArr} {fill fill' nBuckets cellsPerLeaf nBuckets' cellsPerLeaf' : Int}
  {t t' : CellTree F} {σ : List Nat}

/-- **C105** (any arithmetic, also with rounding): `locate_boxes` reports the same faces, by their new numbers. -/
theorem C105_locate_boxes (hσ : Reordered σ fill faces fill' faces') (hm : GoodMesh env vertices faces fill)
    (hm' : GoodMesh env vertices faces' fill') (ht : Makes env vertices faces fill nBuckets cellsPerLeaf t)
    (ht' : Makes env vertices faces' fill' nBuckets' cellsPerLeaf' t') (boxes : List (Box F)) {nThreads nThreads' : Nat}
    (hn : 0 < nThreads) (hn' : 0 < nThreads') {sched sched' : List Nat} (hs : sched.Perm (List.range nThreads))
    (hs' : sched'.Perm (List.range nThreads')) :
    ∃ ii jj ii' jj', t.locateBoxes boxes nThreads sched = .ok (ii, jj) ∧ t'.locateBoxes boxes nThreads' sched' = .ok (ii', jj') ∧
      ((ii'.zip jj').map fun x => (x.1, origin σ x.2)).Perm (ii.zip jj) := by
  obtain ⟨ii, jj, h1, _, h3⟩ := C01_locate_boxes_exact hm ht boxes hn hs
  obtain ⟨_, _, g1, _, g2, _⟩ := C02_pairs_once_grouped hm ht boxes hn hs
  obtain ⟨rfl, rfl⟩ := Prod.mk.inj (Except.ok.inj (g1.symm.trans h1))
  obtain ⟨ii', jj', h1', _, h3'⟩ := C01_locate_boxes_exact hm' ht' boxes hn' hs'
  obtain ⟨_, _, g1', _, g2', _⟩ := C02_pairs_once_grouped hm' ht' boxes hn' hs'
  obtain ⟨rfl, rfl⟩ := Prod.mk.inj (Except.ok.inj (g1'.symm.trans h1'))
  refine ⟨_, _, _, _, h1, h1', table_perm₂ (f := id) h3 h3' g2 g2' ?_ ?_ ?_⟩
  · rintro i k ⟨q, r', e1, e2, e3⟩
    obtain ⟨r, _, e4, e5⟩ := hσ.row e2
    exact ⟨q, r, e1, e4, ((Reordered.pts vertices e5).overlaps q).1 e3⟩
  · rintro i j ⟨q, r, e1, e2, e3⟩
    obtain ⟨k, r', e4, e5, e6⟩ := hσ.row' e2
    exact ⟨i, k, rfl, e4, q, r', e1, e5, ((Reordered.pts vertices e6).overlaps q).2 e3⟩
  · rintro i k i' k' ⟨_, _, _, e2, _⟩ ⟨_, _, _, e4, _⟩ rfl e
    exact ⟨rfl, hσ.inj (List.getElem?_eq_some_iff.1 e2).1 (List.getElem?_eq_some_iff.1 e4).1 e⟩

end Boxes

section Areas
variable {env : Env ℝ} {vertices verticesA : List (Pt ℝ)} {faces faces' facesA facesA' : IntArr}
  {fill fill' fillA fillA' nBuckets cellsPerLeaf nBuckets' cellsPerLeaf' : Int} {t t' : CellTree ℝ} {σ σA : List Nat}

/-- **C105** (real numbers): `intersect_boxes` reports the same areas. -/
theorem C105_intersect_boxes (hσ : Reordered σ fill faces fill' faces') (hm : GoodMesh env vertices faces fill)
    (hm' : GoodMesh env vertices faces' fill') (ht : Makes env vertices faces fill nBuckets cellsPerLeaf t)
    (ht' : Makes env vertices faces' fill' nBuckets' cellsPerLeaf' t')
    (hconv : ∀ r ∈ faces.rows, ConvexFace (facePts vertices fill r))
    (hconv' : ∀ r ∈ faces'.rows, ConvexFace (facePts vertices fill' r)) {boxes : List (Box ℝ)}
    (hbox : ∀ q ∈ boxes, q.xmin < q.xmax ∧ q.ymin < q.ymax) {nThreads nThreads' : Nat}
    (hn : 0 < nThreads) (hn' : 0 < nThreads') {sched sched' : List Nat} {sched2 sched2' : Nat → List Nat}
    (hs : sched.Perm (List.range nThreads)) (hs2 : ∀ n, (sched2 n).Perm (List.range n))
    (hs' : sched'.Perm (List.range nThreads')) (hs2' : ∀ n, (sched2' n).Perm (List.range n)) :
    ∃ ii jj areas ii' jj' areas', t.intersectBoxes boxes nThreads sched sched2 = .ok (ii, jj, areas) ∧
      t'.intersectBoxes boxes nThreads' sched' sched2' = .ok (ii', jj', areas') ∧
      ((ii'.zip (jj'.zip areas')).map fun x => (x.1, origin σ x.2.1, x.2.2)).Perm (ii.zip (jj.zip areas)) := by
  obtain ⟨ii, jj, areas, h1, h2, h3, h4, _, h6⟩ := C36_intersect_boxes_measure hm ht hconv hbox hn hs hs2
  obtain ⟨ii', jj', areas', h1', h2', h3', h4', _, h6'⟩ := C36_intersect_boxes_measure hm' ht' hconv' hbox hn' hs' hs2'
  refine ⟨ii, jj, areas, ii', jj', areas', h1, h1', table_perm (f := id) h6 h6' (zip3_nodup h2 h3 h4) (zip3_nodup h2' h3' h4') ?_ ?_ ?_⟩
  · rintro i k a ⟨q, r', e1, e2, e3, e4⟩
    obtain ⟨r, _, e5, e6⟩ := hσ.row e2
    exact ⟨q, r, e1, e5, by rw [e3, (Reordered.pts vertices e6).faceRegion], e4⟩
  · rintro i j a ⟨q, r, e1, e2, e3, e4⟩
    obtain ⟨k, r', e5, e6, e7⟩ := hσ.row' e2
    exact ⟨i, k, rfl, e5, q, r', e1, e6, by rw [e3, (Reordered.pts vertices e7).faceRegion], e4⟩
  · rintro i k a i' k' ⟨_, _, _, e2, _⟩ ⟨_, _, _, e4, _⟩ rfl e
    exact ⟨rfl, hσ.inj (List.getElem?_eq_some_iff.1 e2).1 (List.getElem?_eq_some_iff.1 e4).1 e⟩

/-- **C105** (real numbers): `intersect_faces` reports the same areas, if the faces of both meshes are written differently. -/
theorem C105_intersect_faces (hσ : Reordered σ fill faces fill' faces') (hσA : Reordered σA fillA facesA fillA' facesA')
    (hm : GoodMesh env vertices faces fill) (hm' : GoodMesh env vertices faces' fill')
    (ht : Makes env vertices faces fill nBuckets cellsPerLeaf t)
    (ht' : Makes env vertices faces' fill' nBuckets' cellsPerLeaf' t')
    (hconv : ∀ r ∈ faces.rows, ConvexFace (facePts vertices fill r) ∧ SmallPts env (facePts vertices fill r))
    (hconv' : ∀ r ∈ faces'.rows, ConvexFace (facePts vertices fill' r) ∧ SmallPts env (facePts vertices fill' r))
    (hvA : ValidFaces verticesA.length fillA facesA) (hcolA : facesA.ncol ≤ maxNVertex)
    (hconvA : ∀ r ∈ facesA.rows, ConvexFace (facePts verticesA fillA r) ∧ SmallPts env (facePts verticesA fillA r))
    (hvA' : ValidFaces verticesA.length fillA' facesA') (hcolA' : facesA'.ncol ≤ maxNVertex)
    (hconvA' : ∀ r ∈ facesA'.rows, ConvexFace (facePts verticesA fillA' r) ∧ SmallPts env (facePts verticesA fillA' r))
    {h h' : Heap} {ref ref' : Nat} (href : h[ref]? = some facesA) (href' : h'[ref']? = some facesA')
    {nThreads nThreads' : Nat} (hn : 0 < nThreads) (hn' : 0 < nThreads')
    {sched sched1 sched' sched1' : List Nat} {sched2 sched3 sched2' sched3' : Nat → List Nat}
    (hs : sched.Perm (List.range facesA.rows.length)) (hs1 : sched1.Perm (List.range nThreads))
    (hs2 : ∀ n, (sched2 n).Perm (List.range n)) (hs3 : ∀ n, (sched3 n).Perm (List.range n))
    (hs' : sched'.Perm (List.range facesA'.rows.length)) (hs1' : sched1'.Perm (List.range nThreads'))
    (hs2' : ∀ n, (sched2' n).Perm (List.range n)) (hs3' : ∀ n, (sched3' n).Perm (List.range n)) :
    ∃ g ii jj areas g' ii' jj' areas',
      t.intersectFacesH env h verticesA ref fillA nThreads sched sched1 sched2 sched3 = .ok (g, ii, jj, areas) ∧
      t'.intersectFacesH env h' verticesA ref' fillA' nThreads' sched' sched1' sched2' sched3' = .ok (g', ii', jj', areas') ∧
      ((ii'.zip (jj'.zip areas')).map fun x => (origin σA x.1, origin σ x.2.1, x.2.2)).Perm (ii.zip (jj.zip areas)) := by
  obtain ⟨g, ii, jj, areas, h1, h2, h3, h4, _, h6⟩ := C36_intersect_faces_measure hm ht hconv hvA hcolA hconvA href hn hs hs1 hs2 hs3
  obtain ⟨g', ii', jj', areas', h1', h2', h3', h4', _, h6'⟩ :=
    C36_intersect_faces_measure hm' ht' hconv' hvA' hcolA' hconvA' href' hn' hs' hs1' hs2' hs3'
  refine ⟨g, ii, jj, areas, g', ii', jj', areas', h1, h1', table_perm h6 h6' (zip3_nodup h2 h3 h4) (zip3_nodup h2' h3' h4') ?_ ?_ ?_⟩
  · rintro i k a ⟨q', r', e1, e2, e3, e4⟩
    obtain ⟨q, _, b5, b6⟩ := hσA.row e1
    obtain ⟨r, _, e5, e6⟩ := hσ.row e2
    exact ⟨q, r, b5, e5, by rw [e3, (Reordered.pts vertices e6).faceRegion, (Reordered.pts verticesA b6).faceRegion], e4⟩
  · rintro i j a ⟨q, r, e1, e2, e3, e4⟩
    obtain ⟨m, q', b5, b6, b7⟩ := hσA.row' e1
    obtain ⟨k, r', e5, e6, e7⟩ := hσ.row' e2
    exact ⟨m, k, b5, e5, q', r', b6, e6, by
      rw [e3, (Reordered.pts vertices e7).faceRegion, (Reordered.pts verticesA b7).faceRegion], e4⟩
  · rintro i k a i' k' ⟨_, _, e1, e2, _⟩ ⟨_, _, e3, e4, _⟩ e e'
    exact ⟨hσA.inj (List.getElem?_eq_some_iff.1 e1).1 (List.getElem?_eq_some_iff.1 e3).1 e,
      hσ.inj (List.getElem?_eq_some_iff.1 e2).1 (List.getElem?_eq_some_iff.1 e4).1 e'⟩

end Areas

section Exact
variable {K : Type} [Field K] [LinearOrder K] [IsStrictOrderedRing K] {env : Env K} {vertices verticesA : List (Pt K)}
  {faces faces' facesA facesA' : IntArr} {fill fill' nBuckets cellsPerLeaf nBuckets' cellsPerLeaf' : Int} {t t' : CellTree K}
  {σ σA : List Nat}

/-- **C105** (exact arithmetic): `locate_faces` reports the same pairs. -/
theorem C105_locate_faces (hσ : Reordered σ fill faces fill' faces') (hσA : Reordered σA (-1) facesA (-1) facesA')
    (hm : GoodMesh env vertices faces fill) (hm' : GoodMesh env vertices faces' fill')
    (ht : Makes env vertices faces fill nBuckets cellsPerLeaf t)
    (ht' : Makes env vertices faces' fill' nBuckets' cellsPerLeaf' t')
    (hconv : ∀ r ∈ faces.rows, ConvexFace (facePts vertices fill r) ∧ SmallPts env (facePts vertices fill r))
    (hconv' : ∀ r ∈ faces'.rows, ConvexFace (facePts vertices fill' r) ∧ SmallPts env (facePts vertices fill' r))
    (hvA : ValidFaces verticesA.length (-1) facesA) (hcolA : facesA.ncol ≤ maxNVertex)
    (hconvA : ∀ r ∈ facesA.rows, ConvexFace (facePts verticesA (-1) r) ∧ SmallPts env (facePts verticesA (-1) r))
    (hvA' : ValidFaces verticesA.length (-1) facesA') (hcolA' : facesA'.ncol ≤ maxNVertex)
    (hconvA' : ∀ r ∈ facesA'.rows, ConvexFace (facePts verticesA (-1) r) ∧ SmallPts env (facePts verticesA (-1) r))
    {nThreads nThreads' : Nat} (hn : 0 < nThreads) (hn' : 0 < nThreads')
    {sched sched1 sched' sched1' : List Nat} {sched2 sched2' : Nat → List Nat}
    (hs : sched.Perm (List.range facesA.rows.length)) (hs1 : sched1.Perm (List.range nThreads))
    (hs2 : ∀ n, (sched2 n).Perm (List.range n))
    (hs' : sched'.Perm (List.range facesA'.rows.length)) (hs1' : sched1'.Perm (List.range nThreads'))
    (hs2' : ∀ n, (sched2' n).Perm (List.range n)) :
    ∃ rows ii jj rows' ii' jj', t.locateFaces env verticesA facesA nThreads sched sched1 sched2 = .ok (rows, ii, jj) ∧
      t'.locateFaces env verticesA facesA' nThreads' sched' sched1' sched2' = .ok (rows', ii', jj') ∧
      ((ii'.zip jj').map fun x => (origin σA x.1, origin σ x.2)).Perm (ii.zip jj) := by
  obtain ⟨rows, ii, jj, h1, _, h3, _, h5⟩ := C31_locate_faces_brute_force hm ht hconv hvA hcolA hconvA hn hs hs1 hs2
  obtain ⟨rows', ii', jj', h1', _, h3', _, h5'⟩ := C31_locate_faces_brute_force hm' ht' hconv' hvA' hcolA' hconvA' hn' hs' hs1' hs2'
  refine ⟨rows, ii, jj, rows', ii', jj', h1, h1', table_perm₂ h5 h5' h3 h3' ?_ ?_ ?_⟩
  · rintro i k ⟨q', r', e1, e2, p, e3, e4⟩
    obtain ⟨q, _, b5, b6⟩ := hσA.row e1
    obtain ⟨r, _, e5, e6⟩ := hσ.row e2
    exact ⟨q, r, b5, e5, p, ((Reordered.pts verticesA b6).inFaceInterior p).1 e3, ((Reordered.pts vertices e6).inFaceInterior p).1 e4⟩
  · rintro i j ⟨q, r, e1, e2, p, e3, e4⟩
    obtain ⟨m, q', b5, b6, b7⟩ := hσA.row' e1
    obtain ⟨k, r', e5, e6, e7⟩ := hσ.row' e2
    exact ⟨m, k, b5, e5, q', r', b6, e6, p, ((Reordered.pts verticesA b7).inFaceInterior p).2 e3,
      ((Reordered.pts vertices e7).inFaceInterior p).2 e4⟩
  · rintro i k i' k' ⟨_, _, e1, e2, _⟩ ⟨_, _, e3, e4, _⟩ e e'
    exact ⟨hσA.inj (List.getElem?_eq_some_iff.1 e1).1 (List.getElem?_eq_some_iff.1 e3).1 e,
      hσ.inj (List.getElem?_eq_some_iff.1 e2).1 (List.getElem?_eq_some_iff.1 e4).1 e'⟩

/-- **C105** (exact arithmetic): a point that is in the bounding box of every face that accepts it is located in both meshes or
in neither. It is located in a face that accepts it in the other mesh as well, and in the same face if there is no other. -/
theorem C105_locate_points (hσ : Reordered σ fill faces fill' faces')
    (hm : GoodMesh env vertices faces fill) (hm' : GoodMesh env vertices faces' fill')
    (ht : Makes env vertices faces fill nBuckets cellsPerLeaf t)
    (ht' : Makes env vertices faces' fill' nBuckets' cellsPerLeaf' t') {points : List (Pt K)} {tol : K}
    {sched sched' : List Nat} (hs : sched.Perm (List.range points.length)) (hs' : sched'.Perm (List.range points.length)) :
    ∃ res res', t.locatePoints env points (some tol) sched = .ok res ∧ t'.locatePoints env points (some tol) sched' = .ok res' ∧
      res.length = points.length ∧ res'.length = points.length ∧
      ∀ (i : Nat) p v v', points[i]? = some p → res[i]? = some v → res'[i]? = some v' →
        (∀ r ∈ faces.rows, Accepts tol (facePts vertices fill r) p → InBoxOf (facePts vertices fill r) p) →
        (v = -1 ↔ v' = -1) ∧
        ∀ k : Nat, v' = k → (∃ r, faces.rows[origin σ k]? = some r ∧ Accepts tol (facePts vertices fill r) p) ∧
          ((∀ (j : Nat) r, j ≠ origin σ k → faces.rows[j]? = some r → ¬ Accepts tol (facePts vertices fill r) p) → v = origin σ k) := by
  obtain ⟨res, h1, h2, h3⟩ := C06_C07_locate_points (tol := tol) hm ht hs
  obtain ⟨res', h1', h2', h3'⟩ := C06_C07_locate_points (tol := tol) hm' ht' hs'
  refine ⟨res, res', h1, h1', h2, h2', fun i p v v' hp hv hv' hin => ?_⟩
  have g := h3 i p v hp hv
  have g' := h3' i p v' hp hv'
  have none : v = -1 ↔ v' = -1 := by
    rcases g with ⟨j, r, rfl, e2, e3⟩ | ⟨rfl, e1⟩ <;> rcases g' with ⟨k, r', rfl, e2', e3'⟩ | ⟨rfl, e1'⟩
    · omega
    · refine absurd e3 fun e3 => ?_
      obtain ⟨k, r', _, e5, e6⟩ := hσ.row' e2
      have e6 := Reordered.pts vertices e6
      exact e1' r' (List.mem_of_getElem? e5) ((e6.inBoxOf p).2 (hin r (List.mem_of_getElem? e2) e3)) ((e6.accepts tol p).2 e3)
    · refine absurd e3' fun e3' => ?_
      obtain ⟨r, _, e5, e6⟩ := hσ.row e2'
      have e6 := (Reordered.pts vertices e6).accepts tol p
      exact e1 r (List.mem_of_getElem? e5) (hin r (List.mem_of_getElem? e5) (e6.1 e3')) (e6.1 e3')
    · simp
  refine ⟨none, ?_⟩
  rintro k rfl
  rcases g' with ⟨k', r', e1, e2', e3'⟩ | ⟨e1, _⟩
  swap
  · omega
  obtain rfl : k = k' := by omega
  obtain ⟨r, _, e5, e6⟩ := hσ.row e2'
  refine ⟨⟨r, e5, ((Reordered.pts vertices e6).accepts tol p).1 e3'⟩, fun hu => ?_⟩
  rcases g with ⟨j, r, rfl, e2, e3⟩ | ⟨rfl, _⟩
  · by_contra hne
    exact hu j r (fun e => hne (by rw [e])) e2 e3
  · omega

/-- **C105** (exact arithmetic): `intersect_edges` reports the same pieces of an edge for a strictly convex face, if the ends of
the edge are not just outside the face. -/
theorem C105_intersect_edges (hσ : Reordered σ fill faces fill' faces') (hmin : 0 < env.minTol)
    (hm : GoodMesh env vertices faces fill) (hm' : GoodMesh env vertices faces' fill')
    (ht : Makes env vertices faces fill nBuckets cellsPerLeaf t)
    (ht' : Makes env vertices faces' fill' nBuckets' cellsPerLeaf' t') (edges : List (Pt K × Pt K))
    {nThreads nThreads' : Nat} (hn : 0 < nThreads) (hn' : 0 < nThreads') {sched sched' : List Nat}
    (hs : sched.Perm (List.range nThreads)) (hs' : sched'.Perm (List.range nThreads')) :
    ∃ ii jj xy ii' jj' xy', t.intersectEdges env edges nThreads sched = .ok (ii, jj, xy) ∧
      t'.intersectEdges env edges nThreads' sched' = .ok (ii', jj', xy') ∧
      ∀ i k a b r' poly box, edges[i]? = some (a, b) → a ≠ b → faces'.rows[k]? = some r' → CcwFace vertices fill' r' poly →
        IsBBox poly box → ¬ InBand env poly box a → ¬ InBand env poly box b →
        ∀ cd, (i, k, cd) ∈ ii'.zip (jj'.zip xy') ↔ (i, origin σ k, cd) ∈ ii.zip (jj.zip xy) := by
  obtain ⟨ii, jj, xy, h1, _, _, _, _, h6⟩ := C40_intersect_edges_geometry hm hmin ht edges hn hs
  obtain ⟨ii', jj', xy', h1', _, _, _, _, h6'⟩ := C40_intersect_edges_geometry hm' hmin ht' edges hn' hs'
  refine ⟨ii, jj, xy, ii', jj', xy', h1, h1', ?_⟩
  intro i k a b r' poly box hi hab hk hc hb ha hb' cd
  obtain ⟨r, _, e1, e2⟩ := hσ.row hk
  have e2 := Reordered.pts vertices e2
  -- the same corners, counter-clockwise
  obtain ⟨poly', hr, hc'⟩ : ∃ poly', poly ~r poly' ∧ CcwFace vertices fill r poly' := by
    obtain ⟨hs, hp⟩ := hc
    have same : SameCorners poly (facePts vertices fill r) := by
      rcases hp with rfl | rfl
      · exact e2
      · rcases e2 with e2 | e2
        · exact Or.inr e2.reverse
        · have := e2.reverse
          rw [List.reverse_reverse] at this
          exact Or.inl this
    rcases same with h | h
    · exact ⟨_, h, hs.rotated h, Or.inl rfl⟩
    · exact ⟨_, h, hs.rotated h, Or.inr rfl⟩
  have hb2 : IsBBox poly' box := hb.of_mem fun q => hr.perm.mem_iff.symm
  have band : ∀ p, InBand env poly' box p ↔ InBand env poly box p := by
    intro p
    unfold InBand
    rw [inPoly_rotated hr]
    simp only [(sides_isRotated hr).mem_iff]
  rw [h6' i k a b r' poly box hi hab hk hc hb ha hb', h6 i (origin σ k) a b r poly' box hi hab e1 hc' hb2
    (fun h => ha ((band a).1 h)) fun h => hb' ((band b).1 h)]
  have : InPoly poly = InPoly poly' := funext fun p => propext (inPoly_rotated hr p)
  rw [this]

/-- **C105** (exact arithmetic): on a conforming mesh of strictly convex faces the interpolated values are the same, also on
shared sides and vertices. (The condition on the points is that of `C61_located_partial`.) -/
theorem C105_values (hσ : Reordered σ fill faces fill' faces')
    (hm : GoodMesh env vertices faces fill) (hm' : GoodMesh env vertices faces' fill')
    (ht : Makes env vertices faces fill nBuckets cellsPerLeaf t)
    (ht' : Makes env vertices faces' fill' nBuckets' cellsPerLeaf' t') (hsq : IsSqrt env.sqrt)
    (hconv : ∀ r ∈ faces.rows, StrictlyConvex (facePts vertices fill r) ∨ StrictlyConvex (facePts vertices fill r).reverse)
    (hconf : Conforming vertices fill faces)
    {points : List (Pt K)} {tol tol' : Option K} {τ τ' : K} (htol : t.tolerance env tol = .ok τ) (hτ : 0 < τ)
    (htol' : t'.tolerance env tol' = .ok τ') (hτ' : 0 < τ')
    (hon : ∀ p ∈ points, ∀ r ∈ faces.rows, Accepts τ (facePts vertices fill r) p →
      ∀ s ∈ sides (facePts vertices fill r), NearLine τ s.1 s.2 p → OnSide p s)
    (hon' : ∀ p ∈ points, ∀ r ∈ faces.rows, Accepts τ' (facePts vertices fill r) p →
      ∀ s ∈ sides (facePts vertices fill r), NearLine τ' s.1 s.2 p → OnSide p s)
    {sched sched1 sched' sched1' : List Nat} (hs : sched.Perm (List.range points.length))
    (hs1 : sched1.Perm (List.range points.length)) (hs' : sched'.Perm (List.range points.length))
    (hs1' : sched1'.Perm (List.range points.length)) :
    ∃ idx rows idx' rows', t.barycentricWeights env points tol sched sched1 = .ok (idx, rows) ∧
      t'.barycentricWeights env points tol' sched' sched1' = .ok (idx', rows') ∧
      idx.length = points.length ∧ rows.length = points.length ∧ idx'.length = points.length ∧ rows'.length = points.length ∧
      ∀ (i : Nat) p v row v' row', points[i]? = some p → idx[i]? = some v → rows[i]? = some row → idx'[i]? = some v' →
        rows'[i]? = some row' → (v = -1 ↔ v' = -1) ∧
        (v ≠ -1 → ∃ (j j' : Nat) (face face' : List Int), v = j ∧ v' = j' ∧ t.data.elements[j]? = some face ∧
          t'.data.elements[j']? = some face' ∧ ∀ f : Int → K, interpolated f face row = interpolated f face' row') := by
  have back : ∀ r' ∈ faces'.rows, ∃ r ∈ faces.rows, SameCorners (facePts vertices fill' r') (facePts vertices fill r) := by
    intro r' hr'
    obtain ⟨k, hk⟩ := List.getElem?_of_mem hr'
    obtain ⟨r, _, e1, e2⟩ := hσ.row hk
    exact ⟨r, List.mem_of_getElem? e1, Reordered.pts vertices e2⟩
  have hconv' : ∀ r ∈ faces'.rows, StrictlyConvex (facePts vertices fill' r) ∨ StrictlyConvex (facePts vertices fill' r).reverse := by
    intro r' hr'
    obtain ⟨r, h1, h2⟩ := back r' hr'
    exact h2.strict (hconv r h1)
  have hon2 : ∀ p ∈ points, ∀ r ∈ faces'.rows, Accepts τ' (facePts vertices fill' r) p →
      ∀ s ∈ sides (facePts vertices fill' r), NearLine τ' s.1 s.2 p → OnSide p s := by
    intro p hp r' hr' hacc s hs hn
    obtain ⟨r, h1, h2⟩ := back r' hr'
    have := hon' p hp r h1 ((h2.accepts τ' p).1 hacc)
    rcases (h2.sides_mem s.1 s.2).1 (Or.inl hs) with h | h
    · exact this s h hn
    · exact onSide_swap.1 (this (s.2, s.1) h (nearLine_swap.1 hn))
  obtain ⟨idx, rows, h1, h2, h3, h4⟩ := C102_value hm ht hsq hconv htol hτ hon hs hs1
  obtain ⟨idx', rows', h1', h2', h3', h4'⟩ := C102_value hm' ht' hsq hconv' htol' hτ' hon2 hs' hs1'
  refine ⟨idx, rows, idx', rows', h1, h1', h2, h3, h2', h3', fun i p v row v' row' hp hv hrow hv' hrow' => ?_⟩
  obtain ⟨g1, g2⟩ := h4 i p v row hp hv hrow
  obtain ⟨g1', g2'⟩ := h4' i p v' row' hp hv' hrow'
  have gg : v = -1 ↔ v' = -1 := by
    rw [g1, g1']
    constructor
    · intro h r' hr' hin
      obtain ⟨r, m1, m2⟩ := back r' hr'
      exact h r m1 ((m2.inFace p).1 hin)
    · intro h r hr hin
      obtain ⟨j, hj⟩ := List.getElem?_of_mem hr
      obtain ⟨k, r', _, e1, e2⟩ := hσ.row' hj
      exact h r' (List.mem_of_getElem? e1) (((Reordered.pts vertices e2).inFace p).2 hin)
  refine ⟨gg, fun hne => ?_⟩
  obtain ⟨j, r, face, k1, k2, k3, k4, k5, k6⟩ := g2 hne
  obtain ⟨j', r', face', l1, l2, l3, l4, l5, l6⟩ := g2' fun e => hne (gg.2 e)
  refine ⟨j, j', face, face', k1, l1, k3, l3, fun f => ?_⟩
  -- the face of the first table in which the point is located in the second
  obtain ⟨s, _, m2, m3⟩ := hσ.row l2
  have m4 := Reordered.pts vertices m3
  rw [m4.inFace] at l4
  have mr := List.mem_of_getElem? k2
  have line : ∀ v w u, ((v, w) ∈ sides (rowIndices fill r) ∨ (w, v) ∈ sides (rowIndices fill r)) →
      ((v, w) ∈ sides (rowIndices fill s) ∨ (w, v) ∈ sides (rowIndices fill s)) →
      p = lineAt (posOf vertices v) (posOf vertices w) u → interpolated f face row = interpolated f face' row' := by
    intro v w u a1 a2 e
    rw [k6 v w u a1 e f, l6 v w u ((m3.sides_mem v w).2 a2) e f]
  by_cases hj : j = origin σ j'
  · subst hj
    rw [k2] at m2; cases m2
    by_cases hside : ∃ s ∈ sides (facePts vertices fill r), OnSide p s
    · obtain ⟨s, hs, u, _, _, e⟩ := hside
      rw [facePts_posOf (hm.valid.rows r mr), sides_map, List.mem_map] at hs
      obtain ⟨⟨v, w⟩, hvw, rfl⟩ := hs
      exact line v w u (Or.inl hvw) (Or.inl hvw) e
    · push Not at hside
      rw [k5 hside f, l5 ?_ f]
      · exact (m3.wachspress (by have := (hm.valid.rows r mr).three; omega) _ _ _).symm
      · intro s hs hon
        rcases (m4.sides_mem s.1 s.2).1 (Or.inl hs) with h | h
        · exact hside s h hon
        · exact hside (s.2, s.1) h (onSide_swap.1 hon)
  · rcases hconf j (origin σ j') r s hj k2 m2 p k4 l4 with ⟨v, v1, v2, v3⟩ | ⟨v, w, a, b, v1, v2, v3, v4, u, _, _, v5⟩
    · have e : posOf vertices v = p := by unfold posOf; rw [v3]; rfl
      have z : ∀ q w : Pt K, q = lineAt q w 0 := by intro q w; unfold lineAt; apply Pt.ext' <;> simp
      obtain ⟨w, hw⟩ := mem_sides_of_mem v1
      obtain ⟨w', hw'⟩ := mem_sides_of_mem v2
      rw [k6 v w 0 (Or.inl hw) (by rw [e]; exact z _ _) f, l6 v w' 0 ((m3.sides_mem v w').2 (Or.inl hw')) (by rw [e]; exact z _ _) f]
      ring
    · have e1 : posOf vertices v = a := by unfold posOf; rw [v3]; rfl
      have e2 : posOf vertices w = b := by unfold posOf; rw [v4]; rfl
      exact line v w u v1 v2 (by rw [e1, e2]; exact v5)

end Exact

/-! ## C106: straight corners -/

section Straight
variable {env : Env ℝ} {vertices : List (Pt ℝ)} {faces faces' : IntArr}
  {fill fill' nBuckets cellsPerLeaf nBuckets' cellsPerLeaf' : Int} {t t' : CellTree ℝ} {σ : List Nat}

/-- What remains of **C106** for convex faces with straight corners: the first corner and the direction have no influence on the
areas, if a face that is clockwise in one of the two tables does not end with a straight corner there. Missing: clockwise faces
whose last corner is straight (see below). -/
theorem C106_first_corner_partial (hm : GoodMesh env vertices faces fill) (hm' : GoodMesh env vertices faces' fill')
    (ht : Makes env vertices faces fill nBuckets cellsPerLeaf t)
    (ht' : Makes env vertices faces' fill' nBuckets' cellsPerLeaf' t')
    (hsame : List.Forall₂ (fun r' r => SameCorners (rowIndices fill' r') (rowIndices fill r)) faces'.rows faces.rows)
    (hconv : ∀ r ∈ faces.rows, ConvexPoly (facePts vertices fill r) ∨ ConvexPoly (facePts vertices fill r).reverse)
    (hlast : ∀ r ∈ faces.rows, ConvexPoly (facePts vertices fill r).reverse →
      ∃ l a b c, facePts vertices fill r = c :: l ++ [a, b] ∧ orient a b c ≠ 0)
    (hlast' : ∀ r ∈ faces'.rows, ConvexPoly (facePts vertices fill' r).reverse →
      ∃ l a b c, facePts vertices fill' r = c :: l ++ [a, b] ∧ orient a b c ≠ 0) {boxes : List (Box ℝ)}
    (hbox : ∀ q ∈ boxes, q.xmin < q.xmax ∧ q.ymin < q.ymax) {nThreads nThreads' : Nat}
    (hn : 0 < nThreads) (hn' : 0 < nThreads') {sched sched' : List Nat} {sched2 sched2' : Nat → List Nat}
    (hs : sched.Perm (List.range nThreads)) (hs2 : ∀ n, (sched2 n).Perm (List.range n))
    (hs' : sched'.Perm (List.range nThreads')) (hs2' : ∀ n, (sched2' n).Perm (List.range n)) :
    ∃ ii jj areas ii' jj' areas', t.intersectBoxes boxes nThreads sched sched2 = .ok (ii, jj, areas) ∧
      t'.intersectBoxes boxes nThreads' sched' sched2' = .ok (ii', jj', areas') ∧
      (ii'.zip (jj'.zip areas')).Perm (ii.zip (jj.zip areas)) := by
  have hlen := hsame.length_eq
  have hσ : Reordered (List.range faces.rows.length) fill faces fill' faces' := by
    refine ⟨List.Perm.refl _, by simpa using hlen, fun k j r' r h1 h2 h3 => ?_⟩
    obtain ⟨h4, h5⟩ := List.getElem?_eq_some_iff.1 h1
    simp only [List.getElem_range] at h5
    subst h5
    obtain ⟨k1, e1⟩ := List.getElem?_eq_some_iff.1 h2
    obtain ⟨k2, e2⟩ := List.getElem?_eq_some_iff.1 h3
    have := (List.forall₂_iff_get.1 hsame).2 k k1 k2
    simp only [List.get_eq_getElem, e1, e2] at this
    exact this
  have c1 : ∀ r ∈ faces.rows, ConvexFace (facePts vertices fill r) := fun r hr =>
    (hconv r hr).imp id fun h => ⟨h, hlast r hr h⟩
  have c2 : ∀ r ∈ faces'.rows, ConvexFace (facePts vertices fill' r) := by
    intro r' hr'
    obtain ⟨k, hk⟩ := List.getElem?_of_mem hr'
    obtain ⟨r, _, e1, e2⟩ := hσ.row hk
    have e3 := hconv r (List.mem_of_getElem? e1)
    have : ConvexPoly (facePts vertices fill' r') ∨ ConvexPoly (facePts vertices fill' r').reverse := by
      rcases Reordered.pts vertices e2 with e | e
      · exact e3.imp (fun g => g.rotated e.symm) fun g => g.rotated e.reverse.symm
      · refine e3.symm.imp (fun g => g.rotated e.symm) fun g => g.rotated ?_
        have := e.reverse.symm
        rwa [List.reverse_reverse] at this
    exact this.imp id fun h => ⟨h, hlast' r' hr' h⟩
  obtain ⟨ii, jj, areas, ii', jj', areas', h1, h2, h3⟩ := C105_intersect_boxes hσ hm hm' ht ht' c1 c2 hbox hn hn' hs hs2 hs' hs2'
  refine ⟨ii, jj, areas, ii', jj', areas', h1, h2, ?_⟩
  -- the numbers of the faces are the same
  obtain ⟨ia, ja, aa, g1, _, _, _, _, g6⟩ := C36_intersect_boxes_measure hm' ht' c2 hbox hn' hs' hs2'
  obtain ⟨rfl, e⟩ := Prod.mk.inj (Except.ok.inj (g1.symm.trans h2))
  obtain ⟨rfl, rfl⟩ := Prod.mk.inj e
  have e : (ia.zip (ja.zip aa)).map (fun x => (x.1, origin (List.range faces.rows.length) x.2.1, x.2.2)) = ia.zip (ja.zip aa) := by
    conv_rhs => rw [← List.map_id (ia.zip (ja.zip aa))]
    refine List.map_congr_left fun x hx => ?_
    obtain ⟨_, _, _, k2, _⟩ := (g6 x.1 x.2.1 x.2.2).1 hx
    have hlt : x.2.1 < faces.rows.length := hlen ▸ (List.getElem?_eq_some_iff.1 k2).1
    have : origin (List.range faces.rows.length) x.2.1 = x.2.1 := by
      unfold origin
      rw [List.getD_eq_getElem?_getD, List.getElem?_range hlt]; rfl
    rw [this]; rfl
  rwa [e] at h3

set_option synthInstance.maxSize 1000 in
/-- **C106** is violated: a clockwise triangle with a hanging node has an area of intersection of 4 with a box, or none at all,
depending on the corner with which it starts. -/
theorem C106_first_corner_violated : ∃ (vertices : List (Pt ℚ)) (t t' : CellTree ℚ),
    [0, 3, 2, 1] ~r ([3, 2, 1, 0] : List Int) ∧ ConvexPoly (facePts vertices (-1) [3, 2, 1, 0]).reverse ∧
    Makes Ex.qEnv vertices ⟨4, [[3, 2, 1, 0]]⟩ (-1) 2 2 t ∧ Makes Ex.qEnv vertices ⟨4, [[0, 3, 2, 1]]⟩ (-1) 2 2 t' ∧
    t.intersectBoxes [⟨1, 3, -1, 3⟩] 1 [0] List.range = .ok ([0], [0], [4]) ∧
    t'.intersectBoxes [⟨1, 3, -1, 3⟩] 1 [0] List.range = .ok ([], [], []) := by
  obtain ⟨t, h1, h2⟩ := bind_eq_ok.1 (show (CellTree.init Ex.qEnv [⟨0, 0⟩, ⟨2, 0⟩, ⟨4, 0⟩, ⟨0, 4⟩] ⟨4, [[3, 2, 1, 0]]⟩ (-1) 2 2 [0] >>=
    fun t => t.intersectBoxes [⟨1, 3, -1, 3⟩] 1 [0] List.range) = .ok ([0], [0], [4]) by decide +kernel)
  obtain ⟨t', h1', h2'⟩ := bind_eq_ok.1 (show (CellTree.init Ex.qEnv [⟨0, 0⟩, ⟨2, 0⟩, ⟨4, 0⟩, ⟨0, 4⟩] ⟨4, [[0, 3, 2, 1]]⟩ (-1) 2 2 [0] >>=
    fun t => t.intersectBoxes [⟨1, 3, -1, 3⟩] 1 [0] List.range) = .ok ([], [], []) by decide +kernel)
  exact ⟨[⟨0, 0⟩, ⟨2, 0⟩, ⟨4, 0⟩, ⟨0, 4⟩], t, t', ⟨1, rfl⟩, by decide +kernel, ⟨_, by decide, h1⟩, ⟨_, by decide, h1'⟩, h2, h2'⟩

end Straight

/-! ## The hypotheses can be met -/

namespace Ex

/-- The faces of `faces` in another order, with other first corners, some reversed, with another fill value. -/
def shuffled : IntArr := ⟨4, [[6, 4, 3, -1], [1, 4, 3, 0], [4, 1, 2, -1], [5, 4, 2, -1]]⟩

theorem reordered : Reordered [3, 0, 1, 2] (-999) faces (-1) shuffled where
  perm := by decide
  length := rfl
  corners := by
    intro k j r' r h1 h2 h3
    rcases k with _ | _ | _ | _ | k
    · cases h1; cases h2; cases h3; exact Or.inr ⟨0, by decide⟩
    · cases h1; cases h2; cases h3; exact Or.inl ⟨3, by decide⟩
    · cases h1; cases h2; cases h3; exact Or.inr ⟨2, by decide⟩
    · cases h1; cases h2; cases h3; exact Or.inl ⟨2, by decide⟩
    · cases h2

theorem shuffledGood : GoodMesh qEnv qVerts shuffled (-1) :=
  ⟨⟨by decide, fun r hr => by
    simp only [shuffled, List.mem_cons, List.not_mem_nil, or_false] at hr
    rcases hr with rfl | rfl | rfl | rfl <;> exact ⟨by decide, by decide, by decide⟩⟩, fun _ _ _ _ => ⟨trivial, trivial⟩, trivial, trivial⟩

/-- The same for `realFaces`. -/
def realShuffled : IntArr := ⟨4, [[5, 2, 4, -9], [3, 2, 1, 0], [2, 1, 4, -9]]⟩

theorem real_reordered : Reordered [2, 0, 1] (-1) realFaces (-9) realShuffled where
  perm := by decide
  length := rfl
  corners := by
    intro k j r' r h1 h2 h3
    rcases k with _ | _ | _ | k
    · cases h1; cases h2; cases h3; exact Or.inl ⟨1, by decide⟩
    · cases h1; cases h2; cases h3; exact Or.inr ⟨0, by decide⟩
    · cases h1; cases h2; cases h3; exact Or.inr ⟨2, by decide⟩
    · cases h2

theorem real_good2 : GoodMesh realEnv realVerts realShuffled (-9) :=
  ⟨⟨by decide, fun r hr => by
    simp only [realShuffled, List.mem_cons, List.not_mem_nil, or_false] at hr
    rcases hr with rfl | rfl | rfl <;> exact ⟨by decide, by decide, by decide⟩⟩, fun _ _ _ _ => ⟨trivial, trivial⟩, trivial, trivial⟩

theorem real_pts2 {P : List (Pt ℝ) → Prop} (h1 : P [⟨4, 3⟩, ⟨2, 2⟩, ⟨4, 1⟩]) (h2 : P [⟨0, 2⟩, ⟨2, 2⟩, ⟨2, 0⟩, ⟨0, 0⟩])
    (h3 : P [⟨2, 2⟩, ⟨2, 0⟩, ⟨4, 1⟩]) : ∀ r ∈ realShuffled.rows, P (facePts realVerts (-9) r) := by
  intro r hr
  simp only [realShuffled, List.mem_cons, List.not_mem_nil, or_false] at hr
  rcases hr with rfl | rfl | rfl
  · exact h1
  · exact h2
  · exact h3

theorem real_makes2 : ∃ t, Makes realEnv realVerts realShuffled (-9) 3 2 t := by
  obtain ⟨t, h⟩ := C12_construction_succeeds (nBuckets := 3) (cellsPerLeaf := 2) real_good2 (sched := [0, 1, 2]) (by decide) (by decide)
    (by decide) (by decide) (by decide)
    (by refine real_pts2 (P := fun l => ∃ u ∈ l, ∃ v ∈ l, u.x < v.x) ?_ ?_ ?_ <;> norm_num)
    (by refine real_pts2 (P := fun l => ∃ u ∈ l, ∃ v ∈ l, u.y < v.y) ?_ ?_ ?_ <;> norm_num)
    (by
      simp only [realShuffled, realEnv, List.length_cons, List.length_nil]
      calc ((3 : Int) : ℝ) * ((0 + 1 + 1 + 1 : Nat) : ℝ) < 10 ^ 2 := by norm_num
        _ ≤ 10 ^ 300 := pow_le_pow_right₀ (by norm_num) (by norm_num))
  exact ⟨t, _, by decide, h⟩

theorem real_convex2 : ∀ r ∈ realShuffled.rows, ConvexFace (facePts realVerts (-9) r) ∧ SmallPts realEnv (facePts realVerts (-9) r) := by
  intro r' hr'
  obtain ⟨k, hk⟩ := List.getElem?_of_mem hr'
  obtain ⟨r, _, e1, e2⟩ := real_reordered.row hk
  have e3 := Reordered.pts realVerts e2
  have hr := List.mem_of_getElem? e1
  refine ⟨StrictlyConvex.convexFace (e3.strict (real_strict r hr)), ?_⟩
  obtain ⟨B, h1, h2⟩ := (real_small r hr).1
  exact ⟨B, fun v hv => h1 v ((e3.mem v).1 hv), h2⟩

theorem real_convex1 : ∀ r ∈ realFaces.rows, ConvexFace (facePts realVerts (-1) r) ∧ SmallPts realEnv (facePts realVerts (-1) r) :=
  fun r hr => ⟨real_convex r hr, (real_small r hr).1⟩

end Ex

/-- Areas of the mesh with itself, if the faces of the tree and of the query are written differently. -/
example : ∃ t t' g ii jj areas g' ii' jj' areas', Makes Ex.realEnv Ex.realVerts Ex.realFaces (-1) 4 1 t ∧
    Makes Ex.realEnv Ex.realVerts Ex.realShuffled (-9) 3 2 t' ∧
    t.intersectFacesH Ex.realEnv [Ex.realFaces] Ex.realVerts 0 (-1) 1 [0, 1, 2] [0] List.range List.range = .ok (g, ii, jj, areas) ∧
    t'.intersectFacesH Ex.realEnv [Ex.realShuffled] Ex.realVerts 0 (-9) 2 [2, 0, 1] [1, 0] List.range List.range =
      .ok (g', ii', jj', areas') ∧
    ((ii'.zip (jj'.zip areas')).map fun x => (origin [2, 0, 1] x.1, origin [2, 0, 1] x.2.1, x.2.2)).Perm (ii.zip (jj.zip areas)) := by
  obtain ⟨t, ht⟩ := Ex.real_makes
  obtain ⟨t', ht'⟩ := Ex.real_makes2
  obtain ⟨g, ii, jj, areas, g', ii', jj', areas', h⟩ := C105_intersect_faces (verticesA := Ex.realVerts) (σ := [2, 0, 1]) (σA := [2, 0, 1]) Ex.real_reordered
    Ex.real_reordered Ex.real_good Ex.real_good2 ht ht' Ex.real_convex1 Ex.real_convex2 Ex.real_valid (by decide) Ex.real_convex1
    Ex.real_good2.valid (by decide) Ex.real_convex2 (h := [Ex.realFaces]) (ref := 0) rfl (h' := [Ex.realShuffled]) (ref' := 0) rfl
    (nThreads := 1) (nThreads' := 2) (by decide) (by decide) (sched := [0, 1, 2]) (sched1 := [0]) (sched2 := List.range)
    (sched3 := List.range) (sched' := [2, 0, 1]) (sched1' := [1, 0]) (sched2' := List.range) (sched3' := List.range) (by decide)
    (by decide) (fun _ => List.Perm.refl _) (fun _ => List.Perm.refl _) (by decide) (by decide) (fun _ => List.Perm.refl _)
    (fun _ => List.Perm.refl _)
  exact ⟨t, t', g, ii, jj, areas, g', ii', jj', areas', ht, ht', h⟩

/-- A point on a shared side and one inside. -/
example : ∃ t t' idx rows idx' rows', Makes Ex.realEnv Ex.realVerts Ex.realFaces (-1) 4 1 t ∧
    Makes Ex.realEnv Ex.realVerts Ex.realShuffled (-9) 3 2 t' ∧
    t.barycentricWeights Ex.realEnv [⟨2, 1⟩, ⟨1, 1⟩] (some (1 / 100)) [0, 1] [1, 0] = .ok (idx, rows) ∧
    t'.barycentricWeights Ex.realEnv [⟨2, 1⟩, ⟨1, 1⟩] (some (1 / 100)) [1, 0] [0, 1] = .ok (idx', rows') ∧
    ∀ (v : Int) row (v' : Int) row', idx[0]? = some v → rows[0]? = some row → idx'[0]? = some v' → rows'[0]? = some row' → v ≠ -1 →
      ∃ (j j' : Nat) (face face' : List Int), v = j ∧ v' = j' ∧ t.data.elements[j]? = some face ∧
        t'.data.elements[j']? = some face' ∧ ∀ f : Int → ℝ, interpolated f face row = interpolated f face' row' := by
  obtain ⟨t, ht⟩ := Ex.real_makes
  obtain ⟨t', ht'⟩ := Ex.real_makes2
  obtain ⟨idx, rows, idx', rows', h1, h2, _, _, _, _, h3⟩ := C105_values Ex.real_reordered Ex.real_good Ex.real_good2 ht ht'
    (fun x hx => ⟨Real.sqrt_nonneg x, Real.mul_self_sqrt hx⟩) Ex.real_strict Ex.real_conforming (tol := some (1 / 100))
    (tol' := some (1 / 100)) (τ := 1 / 100) (τ' := 1 / 100) rfl (by norm_num) rfl (by norm_num) Ex.real_on Ex.real_on (sched := [0, 1])
    (sched1 := [1, 0]) (sched' := [1, 0]) (sched1' := [0, 1]) (by decide) (by decide) (by decide) (by decide)
  exact ⟨t, t', idx, rows, idx', rows', ht, ht', h1, h2, fun v row v' row' e1 e2 e3 e4 hne =>
    (h3 0 _ v row v' row' rfl e1 e2 e3 e4).2 hne⟩

set_option synthInstance.maxSize 4000 in
set_option synthInstance.maxHeartbeats 200000 in
/-- Boxes, edges and points for the mesh of four faces: the second table gives the same with other numbers. -/
example : ∃ t t', Makes Ex.qEnv Ex.qVerts Ex.faces (-999) 4 1 t ∧ Makes Ex.qEnv Ex.qVerts Ex.shuffled (-1) 2 2 t' ∧
    t.intersectBoxes [⟨1, 3, 1, 3⟩] 1 [0] List.range = .ok ([0, 0, 0, 0], [2, 1, 3, 0], [1 / 2, 1 / 2, 3 / 4, 1]) ∧
    t'.intersectBoxes [⟨1, 3, 1, 3⟩] 1 [0] List.range = .ok ([0, 0, 0, 0], [2, 3, 0, 1], [1 / 2, 1 / 2, 3 / 4, 1]) ∧
    t.intersectEdges Ex.qEnv [(⟨-1, 1⟩, ⟨5, 1⟩)] 1 [0] = .ok ([0, 0, 0], [2, 1, 0],
      [(some ⟨3, 1⟩, some ⟨4, 1⟩), (some ⟨2, 1⟩, some ⟨3, 1⟩), (some ⟨0, 1⟩, some ⟨2, 1⟩)]) ∧
    t'.intersectEdges Ex.qEnv [(⟨-1, 1⟩, ⟨5, 1⟩)] 1 [0] = .ok ([0, 0, 0], [2, 3, 1],
      [(some ⟨2, 1⟩, some ⟨3, 1⟩), (some ⟨3, 1⟩, some ⟨4, 1⟩), (some ⟨0, 1⟩, some ⟨2, 1⟩)]) ∧
    t.locatePoints Ex.qEnv [⟨1, 1⟩, ⟨2, 1⟩, ⟨3, 1 / 2⟩] (some (1 / 100)) [0, 1, 2] = .ok [0, 0, 1] ∧
    t'.locatePoints Ex.qEnv [⟨1, 1⟩, ⟨2, 1⟩, ⟨3, 1 / 2⟩] (some (1 / 100)) [0, 1, 2] = .ok [1, 1, 2] := by
  obtain ⟨t, h1, h2⟩ := bind_eq_ok.1 (show (CellTree.init Ex.qEnv Ex.qVerts Ex.faces (-999) 4 1 [2, 0, 3, 1] >>= fun t =>
    t.intersectBoxes [⟨1, 3, 1, 3⟩] 1 [0] List.range >>= fun r => t.intersectEdges Ex.qEnv [(⟨-1, 1⟩, ⟨5, 1⟩)] 1 [0] >>= fun s =>
      t.locatePoints Ex.qEnv [⟨1, 1⟩, ⟨2, 1⟩, ⟨3, 1 / 2⟩] (some (1 / 100)) [0, 1, 2] >>= fun p => .ok (r, s, p)) =
    .ok (([0, 0, 0, 0], [2, 1, 3, 0], [1 / 2, 1 / 2, 3 / 4, 1]), ([0, 0, 0], [2, 1, 0],
      [(some ⟨3, 1⟩, some ⟨4, 1⟩), (some ⟨2, 1⟩, some ⟨3, 1⟩), (some ⟨0, 1⟩, some ⟨2, 1⟩)]), [0, 0, 1]) by decide +kernel)
  obtain ⟨t', h1', h2'⟩ := bind_eq_ok.1 (show (CellTree.init Ex.qEnv Ex.qVerts Ex.shuffled (-1) 2 2 [2, 0, 3, 1] >>= fun t =>
    t.intersectBoxes [⟨1, 3, 1, 3⟩] 1 [0] List.range >>= fun r => t.intersectEdges Ex.qEnv [(⟨-1, 1⟩, ⟨5, 1⟩)] 1 [0] >>= fun s =>
      t.locatePoints Ex.qEnv [⟨1, 1⟩, ⟨2, 1⟩, ⟨3, 1 / 2⟩] (some (1 / 100)) [0, 1, 2] >>= fun p => .ok (r, s, p)) =
    .ok (([0, 0, 0, 0], [2, 3, 0, 1], [1 / 2, 1 / 2, 3 / 4, 1]), ([0, 0, 0], [2, 3, 1],
      [(some ⟨2, 1⟩, some ⟨3, 1⟩), (some ⟨3, 1⟩, some ⟨4, 1⟩), (some ⟨0, 1⟩, some ⟨2, 1⟩)]), [1, 1, 2]) by decide +kernel)
  obtain ⟨r, e1, h2⟩ := bind_eq_ok.1 h2
  obtain ⟨s, e2, h2⟩ := bind_eq_ok.1 h2
  obtain ⟨p, e3, h2⟩ := bind_eq_ok.1 h2
  obtain ⟨a1, h2⟩ := Prod.mk.inj (Except.ok.inj h2)
  obtain ⟨a2, a3⟩ := Prod.mk.inj h2
  subst a1 a2 a3
  obtain ⟨r', f1, h2'⟩ := bind_eq_ok.1 h2'
  obtain ⟨s', f2, h2'⟩ := bind_eq_ok.1 h2'
  obtain ⟨p', f3, h2'⟩ := bind_eq_ok.1 h2'
  obtain ⟨b1, h2'⟩ := Prod.mk.inj (Except.ok.inj h2')
  obtain ⟨b2, b3⟩ := Prod.mk.inj h2'
  subst b1 b2 b3
  exact ⟨t, t', ⟨_, by decide, h1⟩, ⟨_, by decide, h1'⟩, e1, f1, e2, f2, e3, f3⟩

namespace Ex

/-- A triangle with a hanging node. -/
def nodeVerts : List (Pt ℝ) := [⟨0, 0⟩, ⟨2, 0⟩, ⟨4, 0⟩, ⟨0, 4⟩]

theorem node_makes (r : List Int) (h1 : rowIndices (-1) r = r) (h2 : r.Perm [0, 1, 2, 3]) :
    GoodMesh realEnv nodeVerts ⟨4, [r]⟩ (-1) ∧ ∃ t, Makes realEnv nodeVerts ⟨4, [r]⟩ (-1) 4 2 t := by
  have hl : r.length = 4 := h2.length_eq
  have hr : ∀ v ∈ r, 0 ≤ v ∧ v < 4 := by
    intro v hv
    have := h2.mem_iff.1 hv
    simp only [List.mem_cons, List.not_mem_nil, or_false] at this
    omega
  have hg : GoodMesh realEnv nodeVerts ⟨4, [r]⟩ (-1) := by
    refine ⟨⟨by simpa using hl, ?_⟩, fun _ _ _ _ => ⟨trivial, trivial⟩, trivial, trivial⟩
    intro r' hr'
    obtain rfl := List.mem_singleton.1 hr'
    refine ⟨by rw [h1, hl]; decide, by rw [h1]; exact hr, ?_⟩
    rw [h1]; simp
  have hmem : ∀ v ∈ nodeVerts, v ∈ facePts nodeVerts (-1) r := by
    intro v hv
    obtain ⟨k, hk⟩ := List.mem_iff_getElem?.1 hv
    have hk4 : k < 4 := (List.getElem?_eq_some_iff.1 hk).1
    refine List.mem_filterMap.2 ⟨(k : Int), ?_, by simpa using hk⟩
    rw [h1]
    refine h2.mem_iff.2 ?_
    simp only [List.mem_cons, List.not_mem_nil, or_false]
    omega
  refine ⟨hg, ?_⟩
  obtain ⟨t, h⟩ := C12_construction_succeeds (nBuckets := 4) (cellsPerLeaf := 2) hg (sched := [0]) (List.Perm.refl _) (by decide) (by decide)
    (by change 4 ≤ 32; decide) (by simp)
    (by
      intro r' hr'
      obtain rfl := List.mem_singleton.1 hr'
      exact ⟨⟨0, 0⟩, hmem _ (by simp [nodeVerts]), ⟨2, 0⟩, hmem _ (by simp [nodeVerts]), by norm_num⟩)
    (by
      intro r' hr'
      obtain rfl := List.mem_singleton.1 hr'
      exact ⟨⟨0, 0⟩, hmem _ (by simp [nodeVerts]), ⟨0, 4⟩, hmem _ (by simp [nodeVerts]), by norm_num⟩)
    (by
      simp only [realEnv, List.length_cons, List.length_nil]
      calc ((4 : Int) : ℝ) * ((0 + 1 : Nat) : ℝ) < 10 ^ 2 := by norm_num
        _ ≤ 10 ^ 300 := pow_le_pow_right₀ (by norm_num) (by norm_num))
  exact ⟨t, _, List.Perm.refl _, h⟩

theorem node_convex : ConvexPoly (facePts nodeVerts (-1) [1, 2, 3, 0]) ∧ ConvexPoly (facePts nodeVerts (-1) [3, 2, 1, 0]).reverse := by
  rw [show facePts nodeVerts (-1) [1, 2, 3, 0] = [⟨2, 0⟩, ⟨4, 0⟩, ⟨0, 4⟩, ⟨0, 0⟩] from rfl,
    show (facePts nodeVerts (-1) [3, 2, 1, 0]).reverse = [⟨0, 0⟩, ⟨2, 0⟩, ⟨4, 0⟩, ⟨0, 4⟩] from rfl, convexPoly_iff, convexPoly_iff]
  simp only [triples, triples.pairsOf, List.map_cons, List.map_nil, List.cons_append, List.nil_append, List.append_nil, List.mem_cons,
    List.not_mem_nil, forall_eq_or_imp, exists_eq_or_imp, or_false, forall_eq, orient]
  norm_num

end Ex

/-- A clockwise triangle with a hanging node that is not the last corner, and the same triangle counter-clockwise from the
hanging node. -/
example : ∃ t t' ii jj areas ii' jj' areas', Makes Ex.realEnv Ex.nodeVerts ⟨4, [[3, 2, 1, 0]]⟩ (-1) 4 2 t ∧
    Makes Ex.realEnv Ex.nodeVerts ⟨4, [[1, 2, 3, 0]]⟩ (-1) 4 2 t' ∧
    t.intersectBoxes [⟨1, 3, -1, 3⟩] 1 [0] List.range = .ok (ii, jj, areas) ∧
    t'.intersectBoxes [⟨1, 3, -1, 3⟩] 2 [1, 0] List.range = .ok (ii', jj', areas') ∧
    (ii'.zip (jj'.zip areas')).Perm (ii.zip (jj.zip areas)) := by
  obtain ⟨hg, t, ht⟩ := Ex.node_makes [3, 2, 1, 0] (by decide) (by decide)
  obtain ⟨hg', t', ht'⟩ := Ex.node_makes [1, 2, 3, 0] (by decide) (by decide)
  obtain ⟨ii, jj, areas, ii', jj', areas', h⟩ := C106_first_corner_partial hg hg' ht ht'
    (.cons (Or.inr ⟨3, by decide⟩) .nil)
    (by intro r hr; obtain rfl := List.mem_singleton.1 hr; exact Or.inr Ex.node_convex.2)
    (by
      intro r hr _
      obtain rfl := List.mem_singleton.1 hr
      exact ⟨[⟨4, 0⟩], ⟨2, 0⟩, ⟨0, 0⟩, ⟨0, 4⟩, rfl, by norm_num [orient]⟩)
    (by
      intro r hr h
      obtain rfl := List.mem_singleton.1 hr
      exact absurd h Ex.node_convex.1.not_reverse)
    (boxes := [⟨1, 3, -1, 3⟩]) (by simp; norm_num) (nThreads := 1) (nThreads' := 2) (by decide) (by decide) (sched := [0])
    (sched' := [1, 0]) (sched2 := List.range) (sched2' := List.range) (by decide) (fun _ => List.Perm.refl _) (by decide)
    (fun _ => List.Perm.refl _)
  exact ⟨t, t', ii, jj, areas, ii', jj', areas', ht, ht', h⟩

end Celltree
