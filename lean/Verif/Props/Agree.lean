import Verif.Props.Areas
import Verif.Props.Edges
import Verif.Props.Convex
import Verif.Props.Weights

/-!
# Different queries agree with each other: C83
-/

set_option linter.unusedSectionVars false

namespace Celltree

/-! ## Any arithmetic -/

section
variable {F : Type} [Add F] [Sub F] [Mul F] [Div F] [Neg F] [Zero F] [One F] [IntCast F]
  [LT F] [LE F] [BEq F] [DecidableLT F] [DecidableLE F]

theorem applyMask_sublist {α β : Type} (m : List Bool) (I : List α) (J : List β) :
    ((applyMask m I).zip (applyMask m J)).Sublist (I.zip J) := by
  unfold applyMask
  induction m generalizing I J with
  | nil => simp
  | cons b m ih =>
    match I, J with
    | [], _ => simp
    | _ :: _, [] => simp
    | i :: I, j :: J =>
      have := ih I J
      simp only [List.zip_cons_cons, List.filter_cons]
      cases b with
      | true => simpa using this
      | false => simpa using this.cons (i, j)

/-- **C83** (any mesh, any arithmetic): the faces returned by `compute_barycentric_weights` are those of `locate_points`. -/
theorem C83_weights_same_faces {env : Env F} {t : CellTree F} {points : List (Pt F)} {tol : Option F}
    {sched sched1 : List Nat} {idx : List Int} {weights : List (List F)}
    (h : t.barycentricWeights env points tol sched sched1 = .ok (idx, weights)) :
    t.locatePoints env points tol sched = .ok idx := by
  unfold CellTree.barycentricWeights at h
  obtain ⟨τ, h1, h⟩ := bind_eq_ok.1 h
  obtain ⟨idx', h2, h⟩ := bind_eq_ok.1 h
  have h : idx' = idx := by
    simp only at h
    split at h <;>
    · obtain ⟨w, _, h⟩ := bind_eq_ok.1 h
      cases h
      rfl
  subst h
  unfold CellTree.locatePoints at h2 ⊢
  rw [h1]
  exact h2

/-- **C83** (any mesh, any arithmetic): every pair reported by `intersect_boxes` is reported by `locate_boxes`, in the same
order. -/
theorem C83_intersect_boxes_located {t : CellTree F} {boxes : List (Box F)} {nThreads : Nat} {sched : List Nat}
    {sched2 : Nat → List Nat} {ii jj : List Nat} {areas : List F}
    (h : t.intersectBoxes boxes nThreads sched sched2 = .ok (ii, jj, areas)) :
    ∃ I J, t.locateBoxes boxes nThreads sched = .ok (I, J) ∧ (ii.zip jj).Sublist (I.zip J) := by
  unfold CellTree.intersectBoxes at h
  obtain ⟨⟨I, J⟩, h1, h⟩ := bind_eq_ok.1 h
  obtain ⟨A, h2, h⟩ := bind_eq_ok.1 h
  cases h
  exact ⟨I, J, h1, applyMask_sublist _ _ _⟩

/-- **C83** (any mesh, any arithmetic): every pair reported by `locate_faces` is reported by `locate_boxes` for the bounding
boxes of the query faces, in the same order. -/
theorem C83_locate_faces_located {env : Env F} {t : CellTree F} {verticesA : List (Pt F)} {facesA : IntArr} {nThreads : Nat}
    {sched sched1 : List Nat} {sched2 : Nat → List Nat} {rows : List (List Int)} {ii jj : List Nat}
    (h : t.locateFaces env verticesA facesA nThreads sched sched1 sched2 = .ok (rows, ii, jj)) :
    ∃ boxes I J, buildFaceBboxes rows verticesA = .ok boxes ∧ t.locateBoxes boxes nThreads sched1 = .ok (I, J) ∧
      (ii.zip jj).Sublist (I.zip J) := by
  unfold CellTree.locateFaces at h
  obtain ⟨rows', h1, h⟩ := bind_eq_ok.1 h
  obtain ⟨boxes, h2, h⟩ := bind_eq_ok.1 h
  obtain ⟨⟨I, J⟩, h3, h⟩ := bind_eq_ok.1 h
  obtain ⟨m, h4, h⟩ := bind_eq_ok.1 h
  cases h
  exact ⟨boxes, I, J, h2, h3, applyMask_sublist _ _ _⟩

/-- **C83** (any mesh, any arithmetic): every pair reported by `intersect_faces` is reported by `locate_faces` for the same
faces with fill value -1, in the same order. -/
theorem C83_intersect_faces_located {env : Env F} {t : CellTree F} {h h' : Heap} {verticesA : List (Pt F)} {ref : Nat}
    {facesA : IntArr} (href : h[ref]? = some facesA) {fill : Int} {nThreads : Nat} {sched sched1 : List Nat}
    {sched2 sched3 : Nat → List Nat} {ii jj : List Nat} {areas : List F}
    (he : t.intersectFacesH env h verticesA ref fill nThreads sched sched1 sched2 sched3 = .ok (h', ii, jj, areas)) :
    ∃ facesB rows I J, castFaces facesA fill = .ok facesB ∧
      t.locateFaces env verticesA facesB nThreads sched sched1 sched2 = .ok (rows, I, J) ∧
      (ii.zip jj).Sublist (I.zip J) := by
  unfold CellTree.intersectFacesH at he
  rw [rd_of_some href, ok_bind] at he
  obtain ⟨facesB, h1, he⟩ := bind_eq_ok.1 he
  obtain ⟨⟨h2, I, J⟩, h3, he⟩ := bind_eq_ok.1 he
  obtain ⟨f, _, he⟩ := bind_eq_ok.1 he
  obtain ⟨A, _, he⟩ := bind_eq_ok.1 he
  cases he
  unfold CellTree.locateFacesH at h3
  obtain ⟨f', h4, h3⟩ := bind_eq_ok.1 h3
  obtain ⟨⟨rows, I', J'⟩, h5, h3⟩ := bind_eq_ok.1 h3
  obtain ⟨h6, _, h3⟩ := bind_eq_ok.1 h3
  cases h3
  rw [rd_of_some (show (h ++ [facesB])[h.length]? = some facesB by simp)] at h4
  cases h4
  exact ⟨facesB, rows, I, J, h1, h5, applyMask_sublist _ _ _⟩

end

/-! ## Exact arithmetic -/

section
variable {K : Type} [Field K] [LinearOrder K] [IsStrictOrderedRing K]
variable {env : Env K} {vertices : List (Pt K)} {faces : IntArr} {fill nBuckets cellsPerLeaf : Int} {t : CellTree K}

/-- **C83** (exact arithmetic): for convex faces, `intersect_faces` and `locate_faces` report the same pairs. -/
theorem C83_intersect_iff_locate (hm : GoodMesh env vertices faces fill)
    (ht : Makes env vertices faces fill nBuckets cellsPerLeaf t)
    (hconv : ∀ r ∈ faces.rows, ConvexFace (facePts vertices fill r) ∧ SmallPts env (facePts vertices fill r))
    {verticesA : List (Pt K)} {facesA : IntArr} (hvA : ValidFaces verticesA.length (-1) facesA)
    (hcolA : facesA.ncol ≤ maxNVertex)
    (hconvA : ∀ r ∈ facesA.rows, ConvexFace (facePts verticesA (-1) r) ∧ SmallPts env (facePts verticesA (-1) r))
    {h : Heap} {ref : Nat} (href : h[ref]? = some facesA)
    {nThreads : Nat} (hn : 0 < nThreads) {sched sched1 : List Nat} {sched2 sched3 : Nat → List Nat}
    (hs : sched.Perm (List.range facesA.rows.length)) (hs1 : sched1.Perm (List.range nThreads))
    (hs2 : ∀ n, (sched2 n).Perm (List.range n)) (hs3 : ∀ n, (sched3 n).Perm (List.range n)) :
    ∃ h' rows ii jj areas,
      t.intersectFacesH env h verticesA ref (-1) nThreads sched sched1 sched2 sched3 = .ok (h', ii, jj, areas) ∧
      t.locateFaces env verticesA facesA nThreads sched sched1 sched2 = .ok (rows, ii, jj) := by
  obtain ⟨h', ii, jj, areas, a1, a2, a3, a4, a5, a6, _⟩ :=
    C36_intersect_faces_geometry hm ht hconv hvA hcolA hconvA href hn hs hs1 hs2 hs3
  obtain ⟨rows, I, J, b1, b2, b3, b4, b5⟩ := C31_locate_faces_brute_force hm ht hconv hvA hcolA hconvA hn hs hs1 hs2
  obtain ⟨facesB, rows', I', J', c1, c2, c3⟩ := C83_intersect_faces_located href a1
  rw [castFaces_spec hvA] at c1
  split at c1
  · cases c1
  have e : (facesA.rows.map fun r => padRow facesA.ncol (rowIndices (-1) r)) = facesA.rows := by
    conv => rhs; rw [← List.map_id facesA.rows]
    exact List.map_congr_left fun r hr => (padRow_of_valid (hvA.rows r hr) (hvA.rect r hr)).symm
  rw [e] at c1
  cases c1
  rw [b1] at c2
  cases c2
  have hp : (ii.zip jj).Perm (I.zip J) := (List.perm_ext_iff_of_nodup a4 b3).2 fun x => by
    obtain ⟨i, j⟩ := x
    rw [a6, b5]
  have hz : ii.zip jj = I.zip J := c3.eq_of_length hp.length_eq
  refine ⟨h', rows, ii, jj, areas, a1, ?_⟩
  have e1 : ii = I := by
    have := congrArg (List.map Prod.fst) hz
    rwa [List.map_fst_zip (by omega), List.map_fst_zip (by omega)] at this
  have e2 : jj = J := by
    have := congrArg (List.map Prod.snd) hz
    rwa [List.map_snd_zip (by omega), List.map_snd_zip (by omega)] at this
  rw [e1, e2]; exact b1

/-- **C83** (exact arithmetic): a point of a piece that `intersect_edges` reports is located by `locate_points`, for every
positive tolerance. (The ends of the edge are not just outside of the face.) -/
theorem C83_piece_located (hm : GoodMesh env vertices faces fill) (hmin : 0 < env.minTol)
    (ht : Makes env vertices faces fill nBuckets cellsPerLeaf t) (edges : List (Pt K × Pt K)) {nThreads : Nat}
    (hn : 0 < nThreads) {sched : List Nat} (hs : sched.Perm (List.range nThreads)) {points : List (Pt K)}
    {sched1 : List Nat} (hs1 : sched1.Perm (List.range points.length)) {tol : K} (htol : 0 < tol) :
    ∃ ii jj xy res, t.intersectEdges env edges nThreads sched = .ok (ii, jj, xy) ∧
      t.locatePoints env points (some tol) sched1 = .ok res ∧
      ∀ i j a b r poly box c d, edges[i]? = some (a, b) → a ≠ b → faces.rows[j]? = some r → CcwFace vertices fill r poly →
        IsBBox poly box → ¬ InBand env poly box a → ¬ InBand env poly box b →
        (i, j, some c, some d) ∈ ii.zip (jj.zip xy) →
        ∀ (k : Nat) w, 0 ≤ w → w ≤ 1 → points[k]? = some (lineAt c d w) → ∃ v, res[k]? = some v ∧ v ≠ -1 := by
  obtain ⟨ii, jj, xy, h1, _, _, _, _, h2⟩ := C40_intersect_edges_geometry hm hmin ht edges hn hs
  obtain ⟨res, h3, h4, _⟩ := C06_C07_locate_points (tol := tol) hm ht hs1
  refine ⟨ii, jj, xy, res, h1, h3, ?_⟩
  intro i j a b r poly box c d hi hab hj hp hb n1 n2 hmem k w w1 w2 hk
  obtain ⟨c', d', e, s, u, q1, q2, q3, e1, e2, q4⟩ := (h2 i j a b r poly box hi hab hj hp hb n1 n2 _).1 hmem
  simp only [Prod.mk.injEq, Option.some.injEq] at e
  obtain ⟨rfl, rfl⟩ := e
  have hin : InPoly poly (lineAt c d w) := by
    have hline : lineAt c d w = lineAt a b (s + w * (u - s)) := by
      rw [e1, e2]; unfold lineAt
      simp only [Pt.mk.injEq]
      constructor <;> ring
    have m1 : 0 ≤ w * (u - s) := mul_nonneg w1 (by linarith)
    have m2 : w * (u - s) ≤ u - s := mul_le_of_le_one_left (by linarith) w2
    rw [hline]
    exact (q4 _ (by linarith) (by linarith)).2 ⟨by linarith, by linarith⟩
  obtain ⟨res', v, g1, g2, g3⟩ := C24_located hm ht hs1 htol hk (List.mem_of_getElem? hj) hp.1.convex
    (hp.2.imp (fun e => e.symm) fun e => by rw [e, List.reverse_reverse]) hin
  rw [h3] at g1
  cases g1
  exact ⟨v, g2, g3⟩

end

section
variable {env : Env ℝ} {vertices : List (Pt ℝ)} {faces : IntArr} {fill nBuckets cellsPerLeaf : Int} {t : CellTree ℝ}

/-- **C83** (real numbers): the two meshes can be exchanged. A tree of the first mesh queried with the faces of the second one,
and a tree of the second mesh queried with the faces of the first one, report the same pairs with the same areas. -/
theorem C83_meshes_exchanged (hm : GoodMesh env vertices faces fill)
    (ht : Makes env vertices faces fill nBuckets cellsPerLeaf t)
    (hconv : ∀ r ∈ faces.rows, ConvexFace (facePts vertices fill r) ∧ SmallPts env (facePts vertices fill r))
    {verticesA : List (Pt ℝ)} {facesA : IntArr} {fillA : Int} (hmA : GoodMesh env verticesA facesA fillA)
    {nBucketsA cellsPerLeafA : Int} {tA : CellTree ℝ} (htA : Makes env verticesA facesA fillA nBucketsA cellsPerLeafA tA)
    (hconvA : ∀ r ∈ facesA.rows, ConvexFace (facePts verticesA fillA r) ∧ SmallPts env (facePts verticesA fillA r))
    {h hA : Heap} {ref refA : Nat} (href : h[ref]? = some facesA) (hrefA : hA[refA]? = some faces)
    {n nA : Nat} (hn : 0 < n) (hnA : 0 < nA) {sched sched1 schedA schedA1 : List Nat} {sched2 sched3 schedA2 schedA3 : Nat → List Nat}
    (hs : sched.Perm (List.range facesA.rows.length)) (hs1 : sched1.Perm (List.range n))
    (hs2 : ∀ n, (sched2 n).Perm (List.range n)) (hs3 : ∀ n, (sched3 n).Perm (List.range n))
    (hsA : schedA.Perm (List.range faces.rows.length)) (hsA1 : schedA1.Perm (List.range nA))
    (hsA2 : ∀ n, (schedA2 n).Perm (List.range n)) (hsA3 : ∀ n, (schedA3 n).Perm (List.range n)) :
    ∃ h' ii jj areas h'' ii' jj' areas',
      t.intersectFacesH env h verticesA ref fillA n sched sched1 sched2 sched3 = .ok (h', ii, jj, areas) ∧
      tA.intersectFacesH env hA vertices refA fill nA schedA schedA1 schedA2 schedA3 = .ok (h'', ii', jj', areas') ∧
      ∀ i j a, (i, j, a) ∈ ii.zip (jj.zip areas) ↔ (j, i, a) ∈ ii'.zip (jj'.zip areas') := by
  obtain ⟨hcol, _⟩ := ht.constructed' hm
  obtain ⟨hcolA, _⟩ := htA.constructed' hmA
  obtain ⟨h', ii, jj, areas, a1, _, _, _, _, a6⟩ :=
    C36_intersect_faces_measure hm ht hconv hmA.valid hcolA hconvA href hn hs hs1 hs2 hs3
  obtain ⟨h'', ii', jj', areas', b1, _, _, _, _, b6⟩ :=
    C36_intersect_faces_measure hmA htA hconvA hm.valid hcol hconv hrefA hnA hsA hsA1 hsA2 hsA3
  refine ⟨h', ii, jj, areas, h'', ii', jj', areas', a1, b1, fun i j a => ?_⟩
  rw [a6, b6]
  constructor
  · rintro ⟨r, s, g1, g2, g3, g4⟩
    exact ⟨s, r, g2, g1, by rw [Set.inter_comm]; exact g3, g4⟩
  · rintro ⟨s, r, g2, g1, g3, g4⟩
    exact ⟨r, s, g1, g2, by rw [Set.inter_comm]; exact g3, g4⟩

/-- **C83** (real numbers): a box can be given as a face. `intersect_boxes` and `intersect_faces` report the same faces and
areas for boxes and for rectangles with the same corners. -/
theorem C83_box_as_face (hm : GoodMesh env vertices faces fill)
    (ht : Makes env vertices faces fill nBuckets cellsPerLeaf t)
    (hconv : ∀ r ∈ faces.rows, ConvexFace (facePts vertices fill r) ∧ SmallPts env (facePts vertices fill r))
    {boxes : List (Box ℝ)} (hbox : ∀ q ∈ boxes, q.xmin < q.xmax ∧ q.ymin < q.ymax)
    {verticesA : List (Pt ℝ)} {facesA : IntArr} {fillA : Int} (hvA : ValidFaces verticesA.length fillA facesA)
    (hcolA : facesA.ncol ≤ maxNVertex)
    (hsmall : ∀ r ∈ facesA.rows, SmallPts env (facePts verticesA fillA r))
    (hcorners : facesA.rows.map (facePts verticesA fillA) =
      boxes.map fun q => [⟨q.xmin, q.ymin⟩, ⟨q.xmax, q.ymin⟩, ⟨q.xmax, q.ymax⟩, ⟨q.xmin, q.ymax⟩])
    {h : Heap} {ref : Nat} (href : h[ref]? = some facesA)
    {n n' : Nat} (hn : 0 < n) (hn' : 0 < n') {sched sched1 sched' : List Nat} {sched2 sched3 sched2' : Nat → List Nat}
    (hs : sched.Perm (List.range facesA.rows.length)) (hs1 : sched1.Perm (List.range n))
    (hs2 : ∀ n, (sched2 n).Perm (List.range n)) (hs3 : ∀ n, (sched3 n).Perm (List.range n))
    (hs' : sched'.Perm (List.range n')) (hs2' : ∀ n, (sched2' n).Perm (List.range n)) :
    ∃ h' ii jj areas ii' jj' areas',
      t.intersectFacesH env h verticesA ref fillA n sched sched1 sched2 sched3 = .ok (h', ii, jj, areas) ∧
      t.intersectBoxes boxes n' sched' sched2' = .ok (ii', jj', areas') ∧
      ∀ i j a, (i, j, a) ∈ ii.zip (jj.zip areas) ↔ (i, j, a) ∈ ii'.zip (jj'.zip areas') := by
  have key : ∀ i : Nat, (facesA.rows[i]?).map (facePts verticesA fillA) = (boxes[i]?).map copyBoxVertices := by
    intro i
    rw [← List.getElem?_map, ← List.getElem?_map, hcorners]
    rfl
  have hconvA : ∀ r ∈ facesA.rows, ConvexFace (facePts verticesA fillA r) ∧ SmallPts env (facePts verticesA fillA r) := by
    intro r hr
    refine ⟨?_, hsmall r hr⟩
    obtain ⟨i, hi⟩ := List.mem_iff_getElem?.1 hr
    have := key i
    rw [hi] at this
    cases hq : boxes[i]? with
    | none => rw [hq] at this; cases this
    | some q =>
      rw [hq] at this
      have e := Option.some.inj this
      obtain ⟨hx, hy⟩ := hbox q (List.mem_of_getElem? hq)
      rw [e]
      exact Or.inl (boxPoly_convex hx hy)
  obtain ⟨h', ii, jj, areas, a1, _, _, _, _, a6⟩ :=
    C36_intersect_faces_measure hm ht hconv hvA hcolA hconvA href hn hs hs1 hs2 hs3
  obtain ⟨ii', jj', areas', b1, _, _, _, _, b6⟩ :=
    C36_intersect_boxes_measure hm ht (fun r hr => (hconv r hr).1) hbox hn' hs' hs2'
  have hreg : ∀ (i : Nat) r q, facesA.rows[i]? = some r → boxes[i]? = some q →
      faceRegion (facePts verticesA fillA r) = boxRegion q := by
    intro i r q hr hq
    have := key i
    rw [hr, hq] at this
    have e := Option.some.inj this
    obtain ⟨hx, hy⟩ := hbox q (List.mem_of_getElem? hq)
    ext p
    rw [e]
    exact ((boxPoly_convex hx hy).inFace).trans (boxPoly_inPoly hx hy _)
  refine ⟨h', ii, jj, areas, ii', jj', areas', a1, b1, fun i j a => ?_⟩
  rw [a6, b6]
  constructor
  · rintro ⟨r, s, g1, g2, g3, g4⟩
    have := key i
    rw [g1] at this
    cases hq : boxes[i]? with
    | none => rw [hq] at this; cases this
    | some q => exact ⟨q, s, rfl, g2, by rw [← hreg i r q g1 hq]; exact g3, g4⟩
  · rintro ⟨q, s, g1, g2, g3, g4⟩
    have := key i
    rw [g1] at this
    cases hr : facesA.rows[i]? with
    | none => rw [hr] at this; cases this
    | some r => exact ⟨r, s, rfl, g2, by rw [hreg i r q hr g1]; exact g3, g4⟩

end

/-! ## Examples -/

/-- Two rectangles, as boxes and as faces. The second one overlaps the bounding box of face 3, but not the face. -/
def Ex.agreeBoxes : List (Box ℚ) := [⟨1 / 2, 5 / 2, 1, 3⟩, ⟨0, 2 / 5, 3, 4⟩]
def Ex.agreeVerts : List (Pt ℚ) :=
  [⟨1 / 2, 1⟩, ⟨5 / 2, 1⟩, ⟨5 / 2, 3⟩, ⟨1 / 2, 3⟩, ⟨0, 3⟩, ⟨2 / 5, 3⟩, ⟨2 / 5, 4⟩, ⟨0, 4⟩]
def Ex.agreeFaces : IntArr := ⟨4, [[0, 1, 2, 3], [4, 5, 6, 7]]⟩

example : Ex.agreeFaces.rows.map (facePts Ex.agreeVerts (-1)) =
    Ex.agreeBoxes.map fun q => [⟨q.xmin, q.ymin⟩, ⟨q.xmax, q.ymin⟩, ⟨q.xmax, q.ymax⟩, ⟨q.xmin, q.ymax⟩] := by decide +kernel

/-- The four queries for the two rectangles. -/
example : ∃ t, Makes Ex.qEnv Ex.qVerts Ex.faces (-999) 4 1 t ∧
    t.locateBoxes Ex.agreeBoxes 1 [0] = .ok ([0, 0, 0, 0, 1], [2, 1, 3, 0, 3]) ∧
    t.intersectBoxes Ex.agreeBoxes 1 [0] List.range = .ok ([0, 0, 0, 0], [2, 1, 3, 0], [1 / 8, 3 / 8, 5 / 4, 3 / 2]) ∧
    t.locateFaces Ex.qEnv Ex.agreeVerts Ex.agreeFaces 1 [0, 1] [0] List.range =
      .ok (Ex.agreeFaces.rows, [0, 0, 0, 0], [2, 1, 3, 0]) ∧
    t.intersectFacesH Ex.qEnv [Ex.agreeFaces] Ex.agreeVerts 0 (-1) 1 [0, 1] [0] List.range List.range =
      .ok ([Ex.agreeFaces, Ex.agreeFaces], [0, 0, 0, 0], [2, 1, 3, 0], [1 / 8, 3 / 8, 5 / 4, 3 / 2]) := by
  obtain ⟨t, h1, h2⟩ := bind_eq_ok.1 (show (CellTree.init Ex.qEnv Ex.qVerts Ex.faces (-999) 4 1 [2, 0, 3, 1] >>= fun t =>
    .ok (decide (t.locateBoxes Ex.agreeBoxes 1 [0] = .ok ([0, 0, 0, 0, 1], [2, 1, 3, 0, 3]) ∧
      t.intersectBoxes Ex.agreeBoxes 1 [0] List.range = .ok ([0, 0, 0, 0], [2, 1, 3, 0], [1 / 8, 3 / 8, 5 / 4, 3 / 2]) ∧
      t.locateFaces Ex.qEnv Ex.agreeVerts Ex.agreeFaces 1 [0, 1] [0] List.range =
        .ok (Ex.agreeFaces.rows, [0, 0, 0, 0], [2, 1, 3, 0]) ∧
      t.intersectFacesH Ex.qEnv [Ex.agreeFaces] Ex.agreeVerts 0 (-1) 1 [0, 1] [0] List.range List.range =
        .ok ([Ex.agreeFaces, Ex.agreeFaces], [0, 0, 0, 0], [2, 1, 3, 0], [1 / 8, 3 / 8, 5 / 4, 3 / 2])))) = .ok true by
    decide +kernel)
  exact ⟨t, ⟨_, by decide, h1⟩, of_decide_eq_true (Except.ok.inj h2)⟩

end Celltree
