import Verif.Proofs.Conserve
import Verif.Props.Areas
import Verif.Props.Weights

/-!
# Areas add up: C81
-/

set_option linter.unusedSectionVars false

namespace Celltree

open MeasureTheory

variable {env : Env ℝ} {vertices : List (Pt ℝ)} {faces : IntArr} {fill nBuckets cellsPerLeaf : Int} {t : CellTree ℝ}

theorem meshRegion_eq : meshRegion vertices fill faces =
    {p | ∃ j < faces.rows.length, p ∈ faceRegion (facePts vertices fill (faces.rows.getD j []))} := by
  ext p
  simp only [meshRegion, Set.mem_ofPred_eq]
  constructor
  · rintro ⟨r, hr, h⟩
    obtain ⟨j, hj⟩ := List.mem_iff_getElem?.1 hr
    refine ⟨j, (List.getElem?_eq_some_iff.1 hj).1, ?_⟩
    rw [List.getD_eq_getElem?_getD, hj]; exact h
  · rintro ⟨j, hj, h⟩
    refine ⟨faces.rows[j], List.getElem_mem hj, ?_⟩
    rwa [List.getD_eq_getElem?_getD, List.getElem?_eq_getElem hj] at h

theorem NoOverlap.volume (h : NoOverlap vertices fill faces) (hconv : ∀ r ∈ faces.rows, ConvexFace (facePts vertices fill r)) :
    ∀ j < faces.rows.length, ∀ k < faces.rows.length, j ≠ k →
      volume (faceRegion (facePts vertices fill (faces.rows.getD j [])) ∩
        faceRegion (facePts vertices fill (faces.rows.getD k []))) = 0 := by
  intro j hj k hk hne
  simp only [List.getD_eq_getElem?_getD, List.getElem?_eq_getElem hj, List.getElem?_eq_getElem hk, Option.getD_some]
  refine volume_inter_of_disjoint (hconv _ (List.getElem_mem hj)) (hconv _ (List.getElem_mem hk)) ?_
  rintro ⟨p, h1, h2⟩
  exact h j k hne ⟨_, _, List.getElem?_eq_getElem hj, List.getElem?_eq_getElem hk, p, h1, h2⟩

theorem boxRegion_finite {q : Box ℝ} (h : q.xmin < q.xmax ∧ q.ymin < q.ymax) : volume (boxRegion q) ≠ ⊤ := by
  have e : boxRegion q = region (copyBoxVertices q) := Set.ext fun p => (boxPoly_inPoly h.1 h.2 _).symm
  rw [e]
  exact (boxPoly_convex h.1 h.2).finite_region

theorem ConvexFace.finite {l : List (Pt ℝ)} (h : ConvexFace l) : volume (faceRegion l) ≠ ⊤ := by
  rcases h with h | ⟨h, _⟩
  · rw [← h.region_eq_faceRegion]; exact h.finite_region
  · rw [← faceRegion_reverse, ← h.region_eq_faceRegion]; exact h.finite_region

/-- **C81** (real numbers, boxes): for a mesh of convex faces that do not overlap, the areas reported by `intersect_boxes` for
a box add up to the area that the box and the mesh have in common. -/
theorem C81_box_areas_add_up (hm : GoodMesh env vertices faces fill)
    (ht : Makes env vertices faces fill nBuckets cellsPerLeaf t)
    (hconv : ∀ r ∈ faces.rows, ConvexFace (facePts vertices fill r)) (hno : NoOverlap vertices fill faces)
    {boxes : List (Box ℝ)} (hbox : ∀ q ∈ boxes, q.xmin < q.xmax ∧ q.ymin < q.ymax)
    {nThreads : Nat} (hn : 0 < nThreads) {sched : List Nat} {sched2 : Nat → List Nat}
    (hs : sched.Perm (List.range nThreads)) (hs2 : ∀ n, (sched2 n).Perm (List.range n)) :
    ∃ ii jj areas, t.intersectBoxes boxes nThreads sched sched2 = .ok (ii, jj, areas) ∧
      ∀ i q, boxes[i]? = some q → total ii areas i = areaOf (boxRegion q ∩ meshRegion vertices fill faces) := by
  obtain ⟨ii, jj, areas, h1, h2, h3, h4, _, h6⟩ := C36_intersect_boxes_measure hm ht hconv hbox hn hs hs2
  refine ⟨ii, jj, areas, h1, fun i q hq => ?_⟩
  rw [total_row h2 h3, meshRegion_eq]
  refine sum_areas (nodup_row h2 h3 h4 i) ?_ (boxRegion_measurable q) (boxRegion_finite (hbox q (List.mem_of_getElem? hq)))
    (fun j _ => faceRegion_measurable _) (hno.volume hconv)
  intro j a
  have e : (j, a) ∈ (((ii.zip (jj.zip areas)).filter fun x => x.1 = i).map (·.2)) ↔ (i, j, a) ∈ ii.zip (jj.zip areas) := by
    simp only [List.mem_map, List.mem_filter, decide_eq_true_eq]
    constructor
    · rintro ⟨x, ⟨h, rfl⟩, h'⟩
      rw [← h']; exact h
    · intro h
      exact ⟨_, ⟨h, rfl⟩, rfl⟩
  rw [e, h6]
  constructor
  · rintro ⟨q', s, hq', hs', ha, hpos⟩
    rw [hq] at hq'; cases hq'
    refine ⟨(List.getElem?_eq_some_iff.1 hs').1, ?_, hpos⟩
    rw [List.getD_eq_getElem?_getD, hs']; exact ha
  · rintro ⟨hj, ha, hpos⟩
    refine ⟨q, faces.rows[j], hq, List.getElem?_eq_getElem hj, ?_, hpos⟩
    rwa [List.getD_eq_getElem?_getD, List.getElem?_eq_getElem hj] at ha

/-- **C81** (real numbers, boxes): if the mesh covers the box, the areas add up to the area of the box. -/
theorem C81_box_covered (hm : GoodMesh env vertices faces fill)
    (ht : Makes env vertices faces fill nBuckets cellsPerLeaf t)
    (hconv : ∀ r ∈ faces.rows, ConvexFace (facePts vertices fill r)) (hno : NoOverlap vertices fill faces)
    {boxes : List (Box ℝ)} (hbox : ∀ q ∈ boxes, q.xmin < q.xmax ∧ q.ymin < q.ymax)
    {nThreads : Nat} (hn : 0 < nThreads) {sched : List Nat} {sched2 : Nat → List Nat}
    (hs : sched.Perm (List.range nThreads)) (hs2 : ∀ n, (sched2 n).Perm (List.range n)) :
    ∃ ii jj areas, t.intersectBoxes boxes nThreads sched sched2 = .ok (ii, jj, areas) ∧
      ∀ i q, boxes[i]? = some q → (∀ p, InBox q p → ∃ r ∈ faces.rows, InFace (facePts vertices fill r) p) →
        total ii areas i = (q.xmax - q.xmin) * (q.ymax - q.ymin) := by
  obtain ⟨ii, jj, areas, h1, h2⟩ := C81_box_areas_add_up hm ht hconv hno hbox hn hs hs2
  refine ⟨ii, jj, areas, h1, fun i q hq hcov => ?_⟩
  obtain ⟨hx, hy⟩ := hbox q (List.mem_of_getElem? hq)
  have hsub : boxRegion q ⊆ meshRegion vertices fill faces := fun p hp => hcov _ hp
  rw [h2 i q hq, Set.inter_eq_left.2 hsub]
  have e : boxRegion q = region (copyBoxVertices q) := Set.ext fun p => (boxPoly_inPoly hx hy _).symm
  rw [e, (boxPoly_convex hx hy).areaOf_region]
  unfold shoelace copyBoxVertices
  simp [sides, pairs]
  ring

/-- **C81** (real numbers, faces): for a mesh of convex faces that do not overlap, the areas reported by `intersect_faces` for
a query face add up to the area that the query face and the mesh have in common; if the query faces do not overlap, the areas
reported for a face of the mesh add up to the area that it has in common with the query faces. -/
theorem C81_face_areas_add_up (hm : GoodMesh env vertices faces fill)
    (ht : Makes env vertices faces fill nBuckets cellsPerLeaf t)
    (hconv : ∀ r ∈ faces.rows, ConvexFace (facePts vertices fill r) ∧ SmallPts env (facePts vertices fill r))
    {verticesA : List (Pt ℝ)} {facesA : IntArr} {fillA : Int} (hvA : ValidFaces verticesA.length fillA facesA)
    (hcolA : facesA.ncol ≤ maxNVertex)
    (hconvA : ∀ r ∈ facesA.rows, ConvexFace (facePts verticesA fillA r) ∧ SmallPts env (facePts verticesA fillA r))
    {h : Heap} {ref : Nat} (href : h[ref]? = some facesA)
    {nThreads : Nat} (hn : 0 < nThreads) {sched sched1 : List Nat} {sched2 sched3 : Nat → List Nat}
    (hs : sched.Perm (List.range facesA.rows.length)) (hs1 : sched1.Perm (List.range nThreads))
    (hs2 : ∀ n, (sched2 n).Perm (List.range n)) (hs3 : ∀ n, (sched3 n).Perm (List.range n)) :
    ∃ h' ii jj areas, t.intersectFacesH env h verticesA ref fillA nThreads sched sched1 sched2 sched3 =
        .ok (h', ii, jj, areas) ∧
      (NoOverlap vertices fill faces → ∀ (i : Nat) r, facesA.rows[i]? = some r →
        total ii areas i = areaOf (faceRegion (facePts verticesA fillA r) ∩ meshRegion vertices fill faces)) ∧
      (NoOverlap verticesA fillA facesA → ∀ (j : Nat) s, faces.rows[j]? = some s →
        total jj areas j = areaOf (faceRegion (facePts vertices fill s) ∩ meshRegion verticesA fillA facesA)) := by
  obtain ⟨h', ii, jj, areas, h1, h2, h3, h4, _, h6⟩ :=
    C36_intersect_faces_measure hm ht hconv hvA hcolA hconvA href hn hs hs1 hs2 hs3
  refine ⟨h', ii, jj, areas, h1, fun hno i r hr => ?_, fun hno j s hj => ?_⟩
  · rw [total_row h2 h3, meshRegion_eq]
    refine sum_areas (nodup_row h2 h3 h4 i) ?_ (faceRegion_measurable _) (hconvA r (List.mem_of_getElem? hr)).1.finite
      (fun j _ => faceRegion_measurable _) (hno.volume fun r hr => (hconv r hr).1)
    intro j a
    have e : (j, a) ∈ (((ii.zip (jj.zip areas)).filter fun x => x.1 = i).map (·.2)) ↔ (i, j, a) ∈ ii.zip (jj.zip areas) := by
      simp only [List.mem_map, List.mem_filter, decide_eq_true_eq]
      constructor
      · rintro ⟨x, ⟨h, rfl⟩, h'⟩
        rw [← h']; exact h
      · intro h
        exact ⟨_, ⟨h, rfl⟩, rfl⟩
    rw [e, h6]
    constructor
    · rintro ⟨r', s, hr', hs', ha, hpos⟩
      rw [hr] at hr'; cases hr'
      refine ⟨(List.getElem?_eq_some_iff.1 hs').1, ?_, hpos⟩
      rw [List.getD_eq_getElem?_getD, hs']; exact ha
    · rintro ⟨hj, ha, hpos⟩
      refine ⟨r, faces.rows[j], hr, List.getElem?_eq_getElem hj, ?_, hpos⟩
      rwa [List.getD_eq_getElem?_getD, List.getElem?_eq_getElem hj] at ha
  · rw [total_col h2 h3, meshRegion_eq]
    refine sum_areas (nodup_col h2 h3 h4 j) ?_ (faceRegion_measurable _) (hconv s (List.mem_of_getElem? hj)).1.finite
      (fun j _ => faceRegion_measurable _) (hno.volume fun r hr => (hconvA r hr).1)
    intro i a
    have e : (i, a) ∈ (((ii.zip (jj.zip areas)).filter fun x => x.2.1 = j).map fun x => (x.1, x.2.2)) ↔
        (i, j, a) ∈ ii.zip (jj.zip areas) := by
      simp only [List.mem_map, List.mem_filter, decide_eq_true_eq]
      constructor
      · rintro ⟨x, ⟨h, rfl⟩, h'⟩
        rw [← (Prod.mk.inj h').1, ← (Prod.mk.inj h').2]; exact h
      · intro h
        exact ⟨_, ⟨h, rfl⟩, rfl⟩
    rw [e, h6]
    constructor
    · rintro ⟨r, s', hr, hs', ha, hpos⟩
      rw [hj] at hs'; cases hs'
      refine ⟨(List.getElem?_eq_some_iff.1 hr).1, ?_, hpos⟩
      rw [List.getD_eq_getElem?_getD, hr, Set.inter_comm]; exact ha
    · rintro ⟨hi, ha, hpos⟩
      refine ⟨facesA.rows[i], s, List.getElem?_eq_getElem hi, hj, ?_, hpos⟩
      rwa [List.getD_eq_getElem?_getD, List.getElem?_eq_getElem hi, Set.inter_comm] at ha

/-- **C81** (real numbers, faces): if the mesh covers the query face, the areas add up to the area of the query face. -/
theorem C81_face_covered (hm : GoodMesh env vertices faces fill)
    (ht : Makes env vertices faces fill nBuckets cellsPerLeaf t)
    (hconv : ∀ r ∈ faces.rows, ConvexFace (facePts vertices fill r) ∧ SmallPts env (facePts vertices fill r))
    (hno : NoOverlap vertices fill faces)
    {verticesA : List (Pt ℝ)} {facesA : IntArr} {fillA : Int} (hvA : ValidFaces verticesA.length fillA facesA)
    (hcolA : facesA.ncol ≤ maxNVertex)
    (hconvA : ∀ r ∈ facesA.rows, ConvexFace (facePts verticesA fillA r) ∧ SmallPts env (facePts verticesA fillA r))
    {h : Heap} {ref : Nat} (href : h[ref]? = some facesA)
    {nThreads : Nat} (hn : 0 < nThreads) {sched sched1 : List Nat} {sched2 sched3 : Nat → List Nat}
    (hs : sched.Perm (List.range facesA.rows.length)) (hs1 : sched1.Perm (List.range nThreads))
    (hs2 : ∀ n, (sched2 n).Perm (List.range n)) (hs3 : ∀ n, (sched3 n).Perm (List.range n)) :
    ∃ h' ii jj areas, t.intersectFacesH env h verticesA ref fillA nThreads sched sched1 sched2 sched3 =
        .ok (h', ii, jj, areas) ∧
      ∀ (i : Nat) r, facesA.rows[i]? = some r →
        (∀ p, InFace (facePts verticesA fillA r) p → ∃ s ∈ faces.rows, InFace (facePts vertices fill s) p) →
        total ii areas i = |shoelace (facePts verticesA fillA r)| := by
  obtain ⟨h', ii, jj, areas, h1, h2, _⟩ := C81_face_areas_add_up hm ht hconv hvA hcolA hconvA href hn hs hs1 hs2 hs3
  refine ⟨h', ii, jj, areas, h1, fun i r hr hcov => ?_⟩
  have hsub : faceRegion (facePts verticesA fillA r) ⊆ meshRegion vertices fill faces := fun p hp => hcov _ hp
  rw [h2 hno i r hr, Set.inter_eq_left.2 hsub]
  rcases (hconvA r (List.mem_of_getElem? hr)).1 with g | ⟨g, _⟩
  · rw [← g.region_eq_faceRegion, g.areaOf_region, abs_of_pos g.shoelace_pos]
  · have := g.shoelace_pos
    rw [← faceRegion_reverse, ← g.region_eq_faceRegion, g.areaOf_region]
    rw [shoelace_reverse] at this ⊢
    rw [abs_of_neg (by linarith)]

/-! ## The hypotheses can be met -/

namespace Ex

theorem real_convex : ∀ r ∈ realFaces.rows, ConvexFace (facePts realVerts (-1) r) := by
  refine real_pts (P := ConvexFace) ?_ ?_ ?_
  · refine StrictlyConvex.convexFace (Or.inl ?_)
    simp only [List.reverse_cons, List.reverse_nil, List.nil_append, List.cons_append, strictlyConvex_iff, triples,
      triples.pairsOf, List.map_cons, List.map_nil, List.mem_cons, List.not_mem_nil, forall_eq_or_imp, or_false,
      forall_eq, orient, List.length_cons, List.length_nil]
    norm_num
  · refine StrictlyConvex.convexFace (Or.inr ?_)
    simp only [List.reverse_cons, List.reverse_nil, List.nil_append, List.cons_append, strictlyConvex_iff, triples,
      triples.pairsOf, List.map_cons, List.map_nil, List.mem_cons, List.not_mem_nil, forall_eq_or_imp, or_false,
      forall_eq, orient, List.length_cons, List.length_nil]
    norm_num
  · refine StrictlyConvex.convexFace (Or.inl ?_)
    simp only [List.reverse_cons, List.reverse_nil, List.nil_append, List.cons_append, strictlyConvex_iff, triples,
      triples.pairsOf, List.map_cons, List.map_nil, List.mem_cons, List.not_mem_nil, forall_eq_or_imp, or_false,
      forall_eq, orient, List.length_cons, List.length_nil]
    norm_num

/-- No two faces of the example mesh overlap: the square is on the left, and a line separates the two triangles. -/
theorem real_noOverlap : NoOverlap realVerts (-1) realFaces := by
  have f0 : ∀ p, InFaceInterior (facePts realVerts (-1) [0, 1, 2, 3]) p → p.x < 2 := by
    change ∀ p, InFaceInterior ([⟨0, 0⟩, ⟨2, 0⟩, ⟨2, 2⟩, ⟨0, 2⟩] : List (Pt ℝ)) p → p.x < 2
    rintro p (⟨_, hi⟩ | ⟨hc, _⟩)
    · have := hi (⟨2, 0⟩, ⟨2, 2⟩) (by simp [sides, pairs]) (by simp)
      simp only [orient] at this
      linarith
    · have := hc.turn ⟨0, 2⟩ ⟨2, 2⟩ ⟨2, 0⟩ (by simp [List.sublist_cons_iff])
      norm_num [orient] at this
  have f1 : ∀ p, InFaceInterior (facePts realVerts (-1) [1, 2, 4, -1]) p → 2 < p.x ∧ p.x + 2 * p.y < 6 := by
    change ∀ p, InFaceInterior ([⟨2, 0⟩, ⟨2, 2⟩, ⟨4, 1⟩] : List (Pt ℝ)) p → 2 < p.x ∧ p.x + 2 * p.y < 6
    rintro p (⟨hc, _⟩ | ⟨_, hi⟩)
    · have := hc.turn ⟨2, 0⟩ ⟨2, 2⟩ ⟨4, 1⟩ (List.Sublist.refl _)
      norm_num [orient] at this
    · have h1 := hi (⟨4, 1⟩, ⟨2, 2⟩) (by simp [sides, pairs]) (by simp)
      have h2 := hi (⟨2, 2⟩, ⟨2, 0⟩) (by simp [sides, pairs]) (by simp)
      simp only [orient] at h1 h2
      constructor <;> linarith
  have f2 : ∀ p, InFaceInterior (facePts realVerts (-1) [2, 4, 5, -1]) p → 2 < p.x ∧ 6 < p.x + 2 * p.y := by
    change ∀ p, InFaceInterior ([⟨2, 2⟩, ⟨4, 1⟩, ⟨4, 3⟩] : List (Pt ℝ)) p → 2 < p.x ∧ 6 < p.x + 2 * p.y
    rintro p (⟨_, hi⟩ | ⟨hc, _⟩)
    · have h1 := hi (⟨2, 2⟩, ⟨4, 1⟩) (by simp [sides, pairs]) (by simp)
      have h2 := hi (⟨4, 3⟩, ⟨2, 2⟩) (by simp [sides, pairs]) (by simp)
      simp only [orient] at h1 h2
      constructor <;> linarith
    · have := hc.turn ⟨4, 3⟩ ⟨4, 1⟩ ⟨2, 2⟩ (List.Sublist.refl _)
      norm_num [orient] at this
  rintro i j hne ⟨r, s, hr, hs, p, h1, h2⟩
  have hr' := (List.getElem?_eq_some_iff.1 hr).1
  have hs' := (List.getElem?_eq_some_iff.1 hs).1
  simp only [realFaces, List.length_cons, List.length_nil] at hr' hs'
  interval_cases i <;> interval_cases j <;>
    simp only [realFaces, List.getElem?_cons_zero, List.getElem?_cons_succ, Option.some.injEq] at hr hs <;> subst hr <;>
    subst hs
  · exact hne rfl
  · have := f0 p h1; have := f1 p h2; linarith
  · have := f0 p h1; have := f2 p h2; linarith
  · have := f1 p h1; have := f0 p h2; linarith
  · exact hne rfl
  · have := f1 p h1; have := f2 p h2; linarith
  · have := f2 p h1; have := f0 p h2; linarith
  · have := f2 p h1; have := f1 p h2; linarith
  · exact hne rfl

end Ex

/-- The example mesh, and a box that is covered by the square and the first triangle. -/
example : ∃ t ii jj areas, Makes Ex.realEnv Ex.realVerts Ex.realFaces (-1) 4 1 t ∧
    t.intersectBoxes [⟨1, 3, 3 / 4, 5 / 4⟩] 1 [0] List.range = .ok (ii, jj, areas) ∧ total ii areas 0 = 1 := by
  obtain ⟨t, ht⟩ := Ex.real_makes
  obtain ⟨ii, jj, areas, h1, h2⟩ := C81_box_covered (boxes := [⟨1, 3, 3 / 4, 5 / 4⟩]) (nThreads := 1) (sched := [0])
    (sched2 := List.range) Ex.real_good ht Ex.real_convex Ex.real_noOverlap
    (by intro q hq; simp only [List.mem_cons, List.not_mem_nil, or_false] at hq; subst hq; norm_num) (by omega) (by decide)
    (fun n => List.Perm.refl _)
  refine ⟨t, ii, jj, areas, ht, h1, ?_⟩
  rw [h2 0 ⟨1, 3, 3 / 4, 5 / 4⟩ rfl ?_]
  · norm_num
  · rintro p ⟨p1, p2, p3, p4⟩
    simp only at p1 p2 p3 p4
    by_cases h : p.x ≤ 2
    · refine ⟨[0, 1, 2, 3], by decide, Or.inl ?_⟩
      change InPoly ([⟨0, 0⟩, ⟨2, 0⟩, ⟨2, 2⟩, ⟨0, 2⟩] : List (Pt ℝ)) p
      intro s hs
      simp only [sides, pairs, List.cons_append, List.nil_append, List.mem_cons, List.not_mem_nil, or_false] at hs
      rcases hs with rfl | rfl | rfl | rfl <;> simp only [orient] <;> linarith
    · refine ⟨[1, 2, 4, -1], by decide, Or.inr ?_⟩
      change InPoly ([⟨4, 1⟩, ⟨2, 2⟩, ⟨2, 0⟩] : List (Pt ℝ)) p
      intro s hs
      simp only [sides, pairs, List.cons_append, List.nil_append, List.mem_cons, List.not_mem_nil, or_false] at hs
      rcases hs with rfl | rfl | rfl <;> simp only [orient] <;> linarith

end Celltree
