import Verif.Proofs.FloatPolyStored
import Verif.Props.FloatRects
import Verif.Props.CyrusBeck

/-!
# Areas of intersection of convex polygons in binary64: C97
-/

set_option linter.unusedSectionVars false

namespace Celltree.Fl

variable {vertices verticesA : List (Pt Fl)} {faces facesA : IntArr} {fill fillA nBuckets cellsPerLeaf : Int} {t : CellTree Fl}
  {M : ℚ}

theorem faceIs_length_le {r : List Int} {c : List (Pt ℚ)} {n ncol : Nat} (h : FaceIs vertices fill r c)
    (hr : Row n ncol (rowIndices fill r)) : c.length ≤ ncol := by
  have h1 : (facePts vertices fill r).length ≤ ncol := (List.length_filterMap_le _ _).trans hr.le
  rcases h with h | h <;> rw [h] at h1 <;> simpa using h1

theorem faceIs_mem {r : List Int} {c : List (Pt ℚ)} (h : FaceIs vertices fill r c) {v : Pt ℚ} (hv : v ∈ c) :
    fp v ∈ facePts vertices fill r := by
  rcases h with h | h <;> rw [h]
  · exact List.mem_map_of_mem hv
  · exact List.mem_map_of_mem (List.mem_reverse.2 hv)

/-- If a polygon in a box has an interior point in common with a face, the box overlaps the bounding box of the face. -/
theorem box_overlap {q : Box ℚ} {l c : List (Pt ℚ)} {s : List Int} (hq : ConvexPoly l) (hc : ConvexPoly c)
    (hs : FaceIs vertices fill s c) (hin : ∃ p, InInterior l p ∧ InInterior c p)
    (hb : ∀ v ∈ l, InBox q v) : BoxOverlapsPts (fbox q) (facePts vertices fill s) := by
  obtain ⟨p, h1, h2⟩ := hin
  obtain ⟨⟨v1, m1, k1⟩, ⟨v2, m2, k2⟩, ⟨v3, m3, k3⟩, v4, m4, k4⟩ := overlap_of_interior hq hc h1 h2 (q := q) hb
  exact ⟨⟨_, faceIs_mem hs m1, (lt_fin _ _).2 k1⟩, ⟨_, faceIs_mem hs m2, (lt_fin _ _).2 k2⟩,
    ⟨_, faceIs_mem hs m3, (lt_fin _ _).2 k3⟩, _, faceIs_mem hs m4, (lt_fin _ _).2 k4⟩

theorem rect_corners {q : Box ℚ} (hq : q.xmin ≤ q.xmax ∧ q.ymin ≤ q.ymax) : ∀ v ∈ rectPts q, InBox q v := by
  intro v hv
  unfold rectPts at hv
  simp only [List.mem_cons, List.not_mem_nil, or_false] at hv
  rcases hv with rfl | rfl | rfl | rfl
  · exact ⟨le_rfl, hq.1, le_rfl, hq.2⟩
  · exact ⟨hq.1, le_rfl, le_rfl, hq.2⟩
  · exact ⟨hq.1, le_rfl, hq.2, le_rfl⟩
  · exact ⟨le_rfl, hq.1, hq.2, le_rfl⟩

/-- **C97** (boxes): if every box is in general position with the faces that it may overlap, `intersect_boxes` in binary64
returns, and gives for every box and every such face the area that they have in common, up to `pairAcc`. A pair without common
area is not reported. -/
theorem C97_intersect_boxes_accuracy (hm : GoodMesh Fl.env vertices faces fill)
    (ht : Makes Fl.env vertices faces fill nBuckets cellsPerLeaf t) (hM : 1 / 2 ^ 100 ≤ M) (hM' : M ≤ 2 ^ 198)
    {boxes : List (Box ℚ)} (hbox : ∀ q ∈ boxes, q.xmin ≤ q.xmax ∧ q.ymin ≤ q.ymax)
    (hgen : ∀ q ∈ boxes, ∀ s ∈ faces.rows, BoxOverlapsPts (fbox q) (facePts vertices fill s) →
      ∃ c E ρ σ, FaceIs vertices fill s c ∧ GenPair M E ρ σ (rectPts q) c)
    {nThreads : Nat} (hn : 0 < nThreads) {sched : List Nat} {sched2 : Nat → List Nat}
    (hs : sched.Perm (List.range nThreads)) (hs2 : ∀ n, (sched2 n).Perm (List.range n)) :
    ∃ ii jj areas, t.intersectBoxes (boxes.map fbox) nThreads sched sched2 = .ok (ii, jj, areas) ∧
      ii.length = jj.length ∧ jj.length = areas.length ∧ (ii.zip jj).Nodup ∧ ii.Pairwise (· ≤ ·) ∧
      (∀ i j x, (i, j, x) ∈ ii.zip (jj.zip areas) → ∃ q s, boxes[i]? = some q ∧ faces.rows[j]? = some s ∧
        BoxOverlapsPts (fbox q) (facePts vertices fill s)) ∧
      ∀ i j q s c E ρ σ, boxes[i]? = some q → faces.rows[j]? = some s → FaceIs vertices fill s c →
        GenPair M E ρ σ (rectPts q) c →
        ∃ a : ℚ, 0 ≤ a ∧ |(a : ℝ) - commonArea (rectPts q) c| ≤ (pairAcc M E σ (rectPts q) c : ℚ) ∧
          (commonArea (rectPts q) c = 0 → a = 0) ∧
          ∀ x, (i, j, x) ∈ ii.zip (jj.zip areas) ↔ x = fin a ∧ 0 < a := by
  obtain ⟨hcol, _, bt, hc⟩ := ht.constructed' hm
  have key : ∀ (q : Box ℚ) (j : Nat) s, faces.rows[j]? = some s → ∀ c E ρ σ, FaceIs vertices fill s c →
      GenPair M E ρ σ (rectPts q) c →
      ∃ x : ℚ, polygonPolygonClipArea (copyBoxVertices (fbox q)) (storedPts vertices fill faces.ncol s) = .ok (fin x) ∧ 0 ≤ x ∧
        |(x : ℝ) - commonArea (rectPts q) c| ≤ (pairAcc M E σ (rectPts q) c : ℚ) ∧ (commonArea (rectPts q) c = 0 → x = 0) ∧
        ((¬ ∃ p, InInterior (rectPts q) p ∧ InInterior c p) → x = 0) := by
    intro q j s hs c E ρ σ h1 h2
    have hr := (hm.valid.rows s (List.mem_of_getElem? hs)).row (hm.valid.rect s (List.mem_of_getElem? hs))
    rw [h2.stored_clipper hM hM' hr h1]
    exact h2.area_common hM hM' (by unfold rectPts; simp) ((faceIs_length_le h1 hr).trans hcol)
  obtain ⟨L, f, h1, h2, h3, h4, h5⟩ := intersectBoxes_areas hc hcol (boxes := boxes.map fbox) hn hs hs2 (by
    intro q' hq' s hs hov
    obtain ⟨q, hq, rfl⟩ := List.mem_map.1 hq'
    obtain ⟨j, hj⟩ := List.mem_iff_getElem?.1 hs
    obtain ⟨c, E, ρ, σ, hc1, hc2⟩ := hgen q hq s hs hov
    obtain ⟨x, hx, _⟩ := key q j s hj c E ρ σ hc1 hc2
    exact ⟨_, hx⟩)
  refine ⟨_, _, _, h1, by simp, by simp, ?_, ?_, ?_, ?_⟩
  · rw [zip_fst_snd]; exact h2.filter _
  · rw [List.pairwise_map]; exact h3.filter _
  · intro i j x hx
    obtain ⟨q, s, g1, g2, g3⟩ := (h4 i j).1 (filtered_mem.1 hx).1
    rw [List.getElem?_map] at g1
    obtain ⟨q', g4, e⟩ := Option.map_eq_some_iff.1 g1
    exact ⟨q', s, g4, g2, by rw [e]; exact g3⟩
  · intro i j q s c E ρ σ hi hj r1 r2
    have hi' : (boxes.map fbox)[i]? = some (fbox q) := by rw [List.getElem?_map, hi]; rfl
    obtain ⟨x, x1, x2, x3, x4, x5⟩ := key q j s hj c E ρ σ r1 r2
    refine ⟨x, x2, x3, x4, fun y => ?_⟩
    rw [filtered_mem]
    by_cases hmem : (i, j) ∈ L
    · have e := Except.ok.inj ((h5 i j _ s hmem hi' hj).symm.trans x1)
      rw [e, gt_iff_lt, zero_def, lt_fin]
      exact ⟨fun h => h.2, fun h => ⟨hmem, h⟩⟩
    · have h0 : x = 0 := x5 (by
        intro hin
        exact hmem ((h4 i j).2 ⟨_, s, hi', hj,
          box_overlap r2.subject.convex r2.clipper.convex r1 hin (rect_corners (hbox q (List.mem_of_getElem? hi)))⟩))
      constructor
      · intro h; exact absurd h.1 hmem
      · intro h; rw [h0] at h; exact absurd h.2 (lt_irrefl _)

/-- **C97** (faces): the same for `intersect_faces`. The condition `M / 2 ^ 47 ≤ ρ ^ 2 * E` makes sure that what two faces have
in common is not too small to be found by the separating axis test. -/
theorem C97_intersect_faces_accuracy (hm : GoodMesh Fl.env vertices faces fill)
    (ht : Makes Fl.env vertices faces fill nBuckets cellsPerLeaf t) (hM : 1 / 2 ^ 100 ≤ M) (hM' : M ≤ 2 ^ 198)
    (hvA : ValidFaces verticesA.length fillA facesA) (hcolA : facesA.ncol ≤ maxNVertex) (hnA : NumFaces verticesA fillA facesA)
    (hgen : ∀ r ∈ facesA.rows, ∀ s ∈ faces.rows,
      (∃ a, IsBBox (facePts verticesA fillA r) a ∧ BoxOverlapsPts a (facePts vertices fill s)) →
      ∃ l c E ρ σ, FaceIs verticesA fillA r l ∧ FaceIs vertices fill s c ∧ GenPair M E ρ σ l c)
    {h : Heap} {ref : Nat} (href : h[ref]? = some facesA)
    {nThreads : Nat} (hn : 0 < nThreads) {sched sched1 : List Nat} {sched2 sched3 : Nat → List Nat}
    (hs : sched.Perm (List.range facesA.rows.length)) (hs1 : sched1.Perm (List.range nThreads))
    (hs2 : ∀ n, (sched2 n).Perm (List.range n)) (hs3 : ∀ n, (sched3 n).Perm (List.range n)) :
    ∃ h' ii jj areas, t.intersectFacesH Fl.env h verticesA ref fillA nThreads sched sched1 sched2 sched3 =
        .ok (h', ii, jj, areas) ∧
      ii.length = jj.length ∧ jj.length = areas.length ∧ (ii.zip jj).Nodup ∧ ii.Pairwise (· ≤ ·) ∧
      (∀ i j x, (i, j, x) ∈ ii.zip (jj.zip areas) → ∃ r s, facesA.rows[i]? = some r ∧ faces.rows[j]? = some s ∧
        ∃ a, IsBBox (facePts verticesA fillA r) a ∧ BoxOverlapsPts a (facePts vertices fill s)) ∧
      ∀ i j r s l c E ρ σ, facesA.rows[i]? = some r → faces.rows[j]? = some s → FaceIs verticesA fillA r l →
        FaceIs vertices fill s c → GenPair M E ρ σ l c → M / 2 ^ 47 ≤ ρ ^ 2 * E →
        ∃ a : ℚ, 0 ≤ a ∧ |(a : ℝ) - commonArea l c| ≤ (pairAcc M E σ l c : ℚ) ∧ (commonArea l c = 0 → a = 0) ∧
          ∀ x, (i, j, x) ∈ ii.zip (jj.zip areas) ↔ x = fin a ∧ 0 < a := by
  obtain ⟨hcol, _, bt, hc⟩ := ht.constructed' hm
  have key : ∀ (i : Nat) r, facesA.rows[i]? = some r → ∀ (j : Nat) s, faces.rows[j]? = some s → ∀ l c E ρ σ,
      FaceIs verticesA fillA r l → FaceIs vertices fill s c → GenPair M E ρ σ l c →
      (∃ x : ℚ, polygonPolygonClipArea (storedPts verticesA fillA facesA.ncol r) (storedPts vertices fill faces.ncol s) =
          .ok (fin x) ∧ 0 ≤ x ∧ |(x : ℝ) - commonArea l c| ≤ (pairAcc M E σ l c : ℚ) ∧ (commonArea l c = 0 → x = 0) ∧
        ((¬ ∃ p, InInterior l p ∧ InInterior c p) → x = 0)) ∧ l.length ≤ 32 ∧ c.length ≤ 32 := by
    intro i r hr j s hs l c E ρ σ g1 h1 h2
    have hr' := (hvA.rows r (List.mem_of_getElem? hr)).row (hvA.rect r (List.mem_of_getElem? hr))
    have hs' := (hm.valid.rows s (List.mem_of_getElem? hs)).row (hm.valid.rect s (List.mem_of_getElem? hs))
    have n1 : l.length ≤ 32 := (faceIs_length_le g1 hr').trans hcolA
    have n2 : c.length ≤ 32 := (faceIs_length_le h1 hs').trans hcol
    rw [h2.stored_clipper hM hM' hs' h1, h2.stored_subject hM hM' hr' g1]
    exact ⟨h2.area_common hM hM' n1 n2, n1, n2⟩
  obtain ⟨h', L, f, h1, h2, h3, h4, h5, h6⟩ := intersectFaces_areas (env := Fl.env) hc hcol hvA hcolA hnA href hn hs hs1 hs2 hs3 (by
    intro r hr s hs hov
    obtain ⟨i, hi⟩ := List.mem_iff_getElem?.1 hr
    obtain ⟨j, hj⟩ := List.mem_iff_getElem?.1 hs
    obtain ⟨l, c, E, ρ, σ, c1, c2, c3⟩ := hgen r hr s hs hov
    obtain ⟨⟨x, hx, _⟩, _⟩ := key i r hi j s hj l c E ρ σ c1 c2 c3
    exact ⟨_, hx⟩)
  refine ⟨h', _, _, _, h1, by simp, by simp, ?_, ?_, ?_, ?_⟩
  · rw [zip_fst_snd]; exact h2.filter _
  · rw [List.pairwise_map]; exact h3.filter _
  · intro i j x hx
    have hx' := (filtered_mem.1 hx).1
    obtain ⟨r, s, g1, g2⟩ := h4 i j hx'
    exact ⟨r, s, g1, g2, ((h5 i j r s g1 g2).1 hx').1⟩
  · intro i j r s l c E ρ σ hi hj fl fc g hρ
    obtain ⟨⟨x, x1, x2, x3, x4, x5⟩, n1, n2⟩ := key i r hi j s hj l c E ρ σ fl fc g
    refine ⟨x, x2, x3, x4, fun y => ?_⟩
    rw [filtered_mem]
    by_cases hmem : (i, j) ∈ L
    · have e := Except.ok.inj ((h6 i j r s hmem hi hj).symm.trans x1)
      rw [e, gt_iff_lt, zero_def, lt_fin]
      exact ⟨fun h => h.2, fun h => ⟨hmem, h⟩⟩
    · have h0 : x = 0 := x5 (by
        intro hin
        obtain ⟨p, s1, s2⟩ := g.square hM hM' hρ n1 n2 hin
        have gA := g.sat_subject hM hM'
        have gB := g.sat_clipper hM hM'
        have big : ∀ {l : List (Pt ℚ)}, SatPoly M l → ∀ v ∈ l, Bnd (2 ^ 400) v := fun g v hv =>
          ⟨(g.bnd v hv).1.trans (hM'.trans (pow_le_pow_right₀ (by norm_num) (by norm_num))),
            (g.bnd v hv).2.trans (hM'.trans (pow_le_pow_right₀ (by norm_num) (by norm_num)))⟩
        obtain ⟨rows, _, ho⟩ := counterClockwise_oriented hvA hs
        obtain ⟨_, _, hb⟩ := buildFaceBboxes_spec ho hnA
        obtain ⟨a, _, ha⟩ := hb.box i r hi
        obtain ⟨t1, t2, t3⟩ := overlap_tests hM fl fc gA gB s1 s2 ha
        refine hmem ((h5 i j r s hi hj).2 ⟨t1, ?_⟩)
        obtain ⟨A', hA', eA⟩ := FaceIs.poly fl (ho.polygon hcolA hi).2.1
        obtain ⟨B', hB', eB⟩ := FaceIs.poly fc (hc.elements.polygon hcol hj).2.1
        rw [eA, eB, separatingAxes_fl rfl rfl (big gA) (big gB) gA.convex.ne_nil gB.convex.ne_nil hA' hB',
          separatingAxes_fl rfl rfl (big gB) (big gA) gB.convex.ne_nil gA.convex.ne_nil hB' hA']
        exact ⟨t2, t3⟩)
      constructor
      · intro h; exact absurd h.1 hmem
      · intro h; rw [h0] at h; exact absurd h.2 (lt_irrefl _)

/-! ## Checking that two polygons are in general position -/

/-- Where the lines of two sides meet. -/
def meetPt (s t : Pt ℚ × Pt ℚ) : Pt ℚ :=
  let a := orient t.1 t.2 s.1 / sideCross s t
  ⟨s.1.x + a * (s.2.x - s.1.x), s.1.y + a * (s.2.y - s.1.y)⟩

theorem meetPt_eq {s t : Pt ℚ × Pt ℚ} (h : sideCross s t ≠ 0) {p : Pt ℚ} (h1 : orient s.1 s.2 p = 0) (h2 : orient t.1 t.2 p = 0) :
    p = meetPt s t := by
  refine meet_unique h h1 h2 (by unfold meetPt orient; ring) ?_
  have e : orient t.1 t.2 (meetPt s t) = orient t.1 t.2 s.1 - orient t.1 t.2 s.1 / sideCross s t * sideCross s t := by
    unfold meetPt
    generalize orient t.1 t.2 s.1 / sideCross s t = a
    unfold orient sideCross
    ring
  rw [e, div_mul_cancel₀ _ h, sub_self]

theorem GenPair.of_meet {E ρ σ : ℚ} {l c : List (Pt ℚ)} (subject : StrictlyConvex l) (clipper : StrictlyConvex c)
    (rep : ∀ v ∈ l ++ c, IsRep v.x ∧ IsRep v.y) (bnd : ∀ v ∈ l ++ c, |v.x| ≤ M ∧ |v.y| ≤ M)
    (size : ∀ v ∈ l ++ c, ∀ w ∈ l ++ c, |v.x - w.x| ≤ E ∧ |v.y - w.y| ≤ E) (size_le : E ≤ 2 * M) (other : ∀ s ∈ sides l, s ∉ sides c)
    (angle : ∀ s ∈ sides l ++ sides c, ∀ t ∈ sides l ++ sides c, sideCross s t = 0 ∨ σ * E ^ 2 ≤ |sideCross s t|)
    (meet : ∀ s ∈ sides l ++ sides c, ∀ t ∈ sides l ++ sides c, ∀ k ∈ sides l ++ sides c, s ≠ t → k ≠ s → k ≠ t →
      sideCross s t ≠ 0 → (∀ x ∈ sides l, 0 ≤ orient x.1 x.2 (meetPt s t)) → ρ * E ^ 2 ≤ |orient k.1 k.2 (meetPt s t)|)
    (rho : 0 < ρ ∧ ρ ≤ 1) (sigma : 0 < σ ∧ σ ≤ 1) (clear : M / 2 ^ 35 ≤ ρ * σ * E) : GenPair M E ρ σ l c :=
  ⟨subject, clipper, rep, bnd, size, size_le, other, angle, fun s hs t ht k hk h1 h2 h3 h4 p hp e1 e2 => by
    have e := meetPt_eq h4 e1 e2
    rw [e] at hp ⊢
    exact meet s hs t ht k hk h1 h2 h3 h4 hp, rho, sigma, clear⟩

end Celltree.Fl

/-! ## An example: two triangles with decimal coordinates -/

namespace Celltree.Ex

open Fl

/-- Two triangles. The second is clockwise. -/
def triVerts : List (Pt Fl) := [fp ⟨dec1, dec1⟩, fp ⟨dec4, dec2⟩, fp ⟨dec3, dec4⟩, fp ⟨dec1, dec3⟩]
def triFaces : IntArr := ⟨3, [[0, 1, 2], [0, 3, 2]]⟩

def tri1 : List (Pt ℚ) := [⟨dec1, dec1⟩, ⟨dec4, dec2⟩, ⟨dec3, dec4⟩]
def tri2 : List (Pt ℚ) := [⟨dec3, dec4⟩, ⟨dec1, dec3⟩, ⟨dec1, dec1⟩]

/-- A box, and a box that is outside the mesh. -/
def triBox : Box ℚ := ⟨dec2, dec3, dec2, dec3⟩
def triBoxes : List (Box ℚ) := [triBox, ⟨dec4, 1 / 2, dec3, dec4⟩]

/-- A query face, clockwise. -/
def triQueryVerts : List (Pt Fl) := [fp ⟨dec2, dec1⟩, fp ⟨dec2, dec4⟩, fp ⟨dec4, dec3⟩]
def triQueryFaces : IntArr := ⟨3, [[0, 1, 2]]⟩
def triQuery : List (Pt ℚ) := [⟨dec4, dec3⟩, ⟨dec2, dec4⟩, ⟨dec2, dec1⟩]

theorem tri_good : GoodMesh Fl.env triVerts triFaces (-1) :=
  ⟨⟨by decide, fun r hr => by
    simp only [triFaces, List.mem_cons, List.not_mem_nil, or_false] at hr
    rcases hr with rfl | rfl <;> exact ⟨by decide, by decide, by decide⟩⟩, by
      intro r hr p hp
      have : ∀ p ∈ triVerts, p.x ≠ Fl.nan ∧ p.y ≠ Fl.nan := by decide +kernel
      unfold facePts at hp
      obtain ⟨k, _, hk⟩ := List.mem_filterMap.1 hp
      exact this p (List.mem_of_getElem? hk), nofun, nofun⟩

theorem tri1_is : FaceIs triVerts (-1) [0, 1, 2] tri1 := Or.inl (by decide +kernel)
theorem tri2_is : FaceIs triVerts (-1) [0, 3, 2] tri2 := Or.inr (by decide +kernel)
theorem triQuery_is : FaceIs triQueryVerts (-1) [0, 1, 2] triQuery := Or.inr (by decide +kernel)

theorem dec_rep {l : List (Pt ℚ)} (h : ∀ v ∈ l, v.x ∈ [dec1, dec2, dec3, dec4] ∧ v.y ∈ [dec1, dec2, dec3, dec4]) :
    ∀ v ∈ l, IsRep v.x ∧ IsRep v.y := fun v hv =>
  ⟨(dec_usual (by simpa using (h v hv).1)).1, (dec_usual (by simpa using (h v hv).2)).1⟩

theorem tri_box1 : GenPair (1 / 2) (1 / 3) (1 / 40) (1 / 20) (rectPts triBox) tri1 :=
  .of_meet (by decide +kernel) (by decide +kernel) (dec_rep (by decide +kernel)) (by decide +kernel) (by decide +kernel)
    (by norm_num) (by decide +kernel) (by decide +kernel) (by decide +kernel) (by norm_num) (by norm_num) (by norm_num)

theorem tri_box2 : GenPair (1 / 2) (1 / 3) (1 / 40) (1 / 20) (rectPts triBox) tri2 :=
  .of_meet (by decide +kernel) (by decide +kernel) (dec_rep (by decide +kernel)) (by decide +kernel) (by decide +kernel)
    (by norm_num) (by decide +kernel) (by decide +kernel) (by decide +kernel) (by norm_num) (by norm_num) (by norm_num)

theorem tri_query1 : GenPair (1 / 2) (1 / 3) (1 / 40) (1 / 20) triQuery tri1 :=
  .of_meet (by decide +kernel) (by decide +kernel) (dec_rep (by decide +kernel)) (by decide +kernel) (by decide +kernel)
    (by norm_num) (by decide +kernel) (by decide +kernel) (by decide +kernel) (by norm_num) (by norm_num) (by norm_num)

theorem tri_query2 : GenPair (1 / 2) (1 / 3) (1 / 40) (1 / 20) triQuery tri2 :=
  .of_meet (by decide +kernel) (by decide +kernel) (dec_rep (by decide +kernel)) (by decide +kernel) (by decide +kernel)
    (by norm_num) (by decide +kernel) (by decide +kernel) (by decide +kernel) (by norm_num) (by norm_num) (by norm_num)

theorem tri_gen : ∀ q ∈ triBoxes, ∀ s ∈ triFaces.rows, BoxOverlapsPts (fbox q) (facePts triVerts (-1) s) →
    ∃ c E ρ σ, FaceIs triVerts (-1) s c ∧ GenPair (1 / 2) E ρ σ (rectPts q) c := by
  intro q hq s hs ho
  simp only [triFaces, triBoxes, List.mem_cons, List.not_mem_nil, or_false] at hs hq
  rcases hq with rfl | rfl
  · rcases hs with rfl | rfl
    · exact ⟨_, _, _, _, tri1_is, tri_box1⟩
    · exact ⟨_, _, _, _, tri2_is, tri_box2⟩
  · exfalso
    revert ho
    rcases hs with rfl | rfl <;> unfold BoxOverlapsPts <;> decide +kernel

/-- The run: both areas are near the exact ones. The second box is not reported. -/
theorem tri_run : ∃ t, Makes Fl.env triVerts triFaces (-1) 4 2 t ∧
    t.intersectBoxes (triBoxes.map fbox) 1 [0] List.range =
      .ok ([0, 0], [0, 1], [fin (5284223562781379 / 2 ^ 59), fin (3843071682022811 / 2 ^ 62)]) := by
  obtain ⟨t, h1, h2⟩ := bind_eq_ok.1 (show (CellTree.init Fl.env triVerts triFaces (-1) 4 2 [0, 1] >>= fun t =>
      t.intersectBoxes (triBoxes.map fbox) 1 [0] List.range) =
        .ok ([0, 0], [0, 1], [fin (5284223562781379 / 2 ^ 59), fin (3843071682022811 / 2 ^ 62)])
      by decide +kernel)
  exact ⟨t, ⟨_, by decide, h1⟩, h2⟩

theorem triQuery_valid : ValidFaces triQueryVerts.length (-1) triQueryFaces :=
  ⟨by decide, fun r hr => by
    simp only [triQueryFaces, List.mem_cons, List.not_mem_nil, or_false] at hr
    subst hr
    exact ⟨by decide, by decide, by decide⟩⟩

theorem triQuery_num : NumFaces triQueryVerts (-1) triQueryFaces := by
  intro r hr p hp
  have : ∀ p ∈ triQueryVerts, p.x ≠ Fl.nan ∧ p.y ≠ Fl.nan := by decide +kernel
  unfold facePts at hp
  obtain ⟨k, _, hk⟩ := List.mem_filterMap.1 hp
  exact this p (List.mem_of_getElem? hk)

end Celltree.Ex

namespace Celltree.Fl

theorem cast_small {x : ℚ} {n : ℕ} (h : x ≤ 1 / 10 ^ n) : (x : ℝ) ≤ 1 / 10 ^ n := by
  have := (Rat.cast_le (K := ℝ)).2 h
  push_cast at this
  exact this

/-- The area that the box has in common with the first triangle is about `11 / 1200`. -/
theorem tri_area : |commonArea (rectPts Ex.triBox) Ex.tri1 - 11 / 1200| ≤ 1 / 10 ^ 15 := by
  have h : ∃ A : ℚ, polygonPolygonClipArea (rectPts Ex.triBox) Ex.tri1 = .ok A ∧ |A - 11 / 1200| ≤ 1 / 10 ^ 15 :=
    ⟨463374083341651467136266419664786941847973260666090222420554783 / 50549900000907448211959081450494772384173572317388590660039213056,
      by decide +kernel, by decide +kernel⟩
  obtain ⟨A, h1, h2⟩ := h
  rw [← clipArea_real Ex.tri_box1.subject.convex Ex.tri_box1.clipper.convex (by decide) h1]
  have e : ((A : ℝ) - 11 / 1200) = ((A - 11 / 1200 : ℚ) : ℝ) := by push_cast; ring
  rw [e, ← Rat.cast_abs]
  exact cast_small h2

example : ∃ (t : CellTree Fl) (ii jj : List Nat) (areas : List Fl) (a : ℚ), Makes Fl.env Ex.triVerts Ex.triFaces (-1) 4 2 t ∧
    t.intersectBoxes (Ex.triBoxes.map fbox) 1 [0] List.range = .ok (ii, jj, areas) ∧ (0, 0, fin a) ∈ ii.zip (jj.zip areas) ∧
    |(a : ℝ) - 11 / 1200| ≤ 1 / 10 ^ 8 := by
  obtain ⟨t, h1, h0⟩ := Ex.tri_run
  obtain ⟨ii, jj, areas, g1, _, _, _, _, _, g2⟩ := C97_intersect_boxes_accuracy (M := 1 / 2) Ex.tri_good h1 (by norm_num) (by norm_num)
    (by decide +kernel) Ex.tri_gen (nThreads := 1) (by decide) (sched := [0]) (sched2 := List.range) (by decide)
    (fun n => List.Perm.refl _)
  obtain ⟨a, _, a2, _, a4⟩ := g2 0 0 _ _ _ _ _ _ rfl rfl Ex.tri1_is Ex.tri_box1
  have e1 : pairAcc (1 / 2) (1 / 3) (1 / 20) (rectPts Ex.triBox) Ex.tri1 ≤ 1 / 10 ^ 9 := by decide +kernel
  have e2 : ((pairAcc (1 / 2) (1 / 3) (1 / 20) (rectPts Ex.triBox) Ex.tri1 : ℚ) : ℝ) ≤ 1 / 10 ^ 9 := cast_small e1
  have e3 := tri_area
  have e4 : |(a : ℝ) - 11 / 1200| ≤ 1 / 10 ^ 8 := by
    rw [abs_le] at a2 e3 ⊢
    constructor <;> linarith [a2.1, a2.2, e3.1, e3.2]
  refine ⟨t, ii, jj, areas, a, h1, g1, (a4 _).2 ⟨rfl, ?_⟩, e4⟩
  rw [abs_le] at e4
  have : (0 : ℝ) < a := by linarith [e4.1]
  exact_mod_cast this

example : ∃ (t : CellTree Fl) (h' : Heap) (ii jj : List Nat) (areas : List Fl), Makes Fl.env Ex.triVerts Ex.triFaces (-1) 4 2 t ∧
    t.intersectFacesH Fl.env [Ex.triQueryFaces] Ex.triQueryVerts 0 (-1) 1 [0] [0] List.range List.range = .ok (h', ii, jj, areas) ∧
    ∃ a : ℚ, |(a : ℝ) - commonArea Ex.triQuery Ex.tri1| ≤ 1 / 10 ^ 9 ∧
      ∀ x, (0, 0, x) ∈ ii.zip (jj.zip areas) ↔ x = fin a ∧ 0 < a := by
  obtain ⟨t, h1, _⟩ := Ex.tri_run
  obtain ⟨h', ii, jj, areas, g1, _, _, _, _, _, g2⟩ := C97_intersect_faces_accuracy (M := 1 / 2) Ex.tri_good h1 (by norm_num)
    (by norm_num) Ex.triQuery_valid (by decide) Ex.triQuery_num (by
      intro r hr s hs _
      simp only [Ex.triFaces, Ex.triQueryFaces, List.mem_cons, List.not_mem_nil, or_false] at hs hr
      subst hr
      rcases hs with rfl | rfl
      · exact ⟨_, _, _, _, _, Ex.triQuery_is, Ex.tri1_is, Ex.tri_query1⟩
      · exact ⟨_, _, _, _, _, Ex.triQuery_is, Ex.tri2_is, Ex.tri_query2⟩)
    (h := [Ex.triQueryFaces]) (ref := 0) rfl (nThreads := 1) (by decide) (sched := [0]) (sched1 := [0]) (sched2 := List.range)
    (sched3 := List.range) (by decide) (by decide) (fun n => List.Perm.refl _) (fun n => List.Perm.refl _)
  obtain ⟨a, _, a2, _, a4⟩ := g2 0 0 _ _ _ _ _ _ _ rfl rfl Ex.triQuery_is Ex.tri1_is Ex.tri_query1 (by norm_num)
  have e1 : pairAcc (1 / 2) (1 / 3) (1 / 20) Ex.triQuery Ex.tri1 ≤ 1 / 10 ^ 9 := by decide +kernel
  exact ⟨t, h', ii, jj, areas, h1, g1, a, a2.trans (cast_small e1), a4⟩

end Celltree.Fl
