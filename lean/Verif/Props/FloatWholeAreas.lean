import Verif.Proofs.FloatWholeClip
import Verif.Props.FloatWholeFaces
import Verif.Props.FloatPolygons
import Verif.Props.SelfIntersect

/-!
# Areas at integer coordinates in binary64: C124
-/

set_option linter.unusedSectionVars false

namespace Celltree.Fl

variable {vertices verticesA : List (Pt Fl)} {faces facesA : IntArr} {fill fillA nBuckets cellsPerLeaf : Int} {t : CellTree Fl}
  {cs ls : List (List (Pt ℚ))}

/-- The faces of a table are the strictly convex polygons `cs` with integer coordinates. -/
def WholeFaces (vertices : List (Pt Fl)) (fill : Int) (faces : IntArr) (cs : List (List (Pt ℚ))) : Prop :=
  List.Forall₂ (fun r c => FaceIs vertices fill r c ∧ StrictlyConvex c ∧ WholePoly c) faces.rows cs

theorem WholeFaces.at (h : WholeFaces vertices fill faces cs) {k : Nat} {r : List Int} (hr : faces.rows[k]? = some r) :
    ∃ c, cs[k]? = some c ∧ FaceIs vertices fill r c ∧ StrictlyConvex c ∧ WholePoly c := by
  obtain ⟨k1, rfl⟩ := List.getElem?_eq_some_iff.1 hr
  have k2 : k < cs.length := by rw [← h.length_eq]; exact k1
  exact ⟨cs[k], List.getElem?_eq_getElem k2, (List.forall₂_iff_get.1 h).2 k k1 k2⟩

theorem WholeFaces.row (h : WholeFaces vertices fill faces cs) {k : Nat} {c : List (Pt ℚ)} (hc : cs[k]? = some c) :
    ∃ r, faces.rows[k]? = some r ∧ FaceIs vertices fill r c ∧ StrictlyConvex c ∧ WholePoly c := by
  obtain ⟨k1, rfl⟩ := List.getElem?_eq_some_iff.1 hc
  have k2 : k < faces.rows.length := by rw [h.length_eq]; exact k1
  exact ⟨faces.rows[k], List.getElem?_eq_getElem k2, (List.forall₂_iff_get.1 h).2 k k2 k1⟩

theorem WholeFaces.num (h : WholeFaces vertices fill faces cs) : NumFaces vertices fill faces := by
  intro r hr p hp
  obtain ⟨k, hk⟩ := List.mem_iff_getElem?.1 hr
  obtain ⟨c, _, hc, _⟩ := h.at hk
  obtain ⟨v, _, rfl⟩ := (hc.mem p).1 hp
  exact ⟨by unfold fp; exact nofun, by unfold fp; exact nofun⟩

theorem whole_stored {ncol : Nat} {r : List Int} {c : List (Pt ℚ)} (hc : StrictlyConvex c) (hw : WholePoly c)
    (hr : Row vertices.length ncol (rowIndices fill r)) (h : FaceIs vertices fill r c) : storedPts vertices fill ncol r = c.map fp := by
  refine poly_stored (M := 2 ^ 25) (E := 2 ^ 18) (by norm_num) (pow_le_pow_right₀ (by norm_num) (by norm_num)) (by norm_num) hc
    (fun v hv => ⟨(hw.corner v hv).1.abs_le, (hw.corner v hv).2.abs_le⟩) (fun v hv w hw' => hw.small w hw' v hv) (fun e he f hf => ?_) hr h
  obtain ⟨e1, e2⟩ := mem_sides_mem he
  obtain ⟨f1, f2⟩ := mem_sides_mem hf
  have w1 := (hw.corner _ e2).1.sub (hw.corner _ e1).1
  have w2 := (hw.corner _ e2).2.sub (hw.corner _ e1).2
  have w3 := (hw.corner _ f2).1.sub (hw.corner _ f1).1
  have w4 := (hw.corner _ f2).2.sub (hw.corner _ f1).2
  have w5 : Whole 53 (sideCross e f) := (w1.mul w4).sub (w2.mul w3)
  by_cases h0 : sideCross e f = 0
  · exact Or.inl h0
  · right
    have := w5.one_le h0
    have h1 : 1 ≤ |sideCross e f| := by
      rw [← abs_mul_abs_self] at this
      nlinarith [abs_nonneg (sideCross e f)]
    refine le_trans ?_ h1
    unfold u
    norm_num

/-- **C124**: `intersect_faces` is exact in binary64 at integer coordinates if every query face that overlaps a face of the mesh is
inside it: exactly the pairs whose interiors have a point in common are reported, each with the exact area of the query face. The
faces may be in any order and direction, with any number of threads and any schedule. -/
theorem C124_refinement_exact (hm : GoodMesh Fl.env vertices faces fill)
    (ht : Makes Fl.env vertices faces fill nBuckets cellsPerLeaf t) (hcs : WholeFaces vertices fill faces cs)
    (hvA : ValidFaces verticesA.length fillA facesA) (hcolA : facesA.ncol ≤ maxNVertex) (hls : WholeFaces verticesA fillA facesA ls)
    (hin : ∀ l ∈ ls, ∀ c ∈ cs, (∃ p, InInterior l p ∧ InInterior c p) → ∀ v ∈ l, InPoly c v)
    {h : Heap} {ref : Nat} (href : h[ref]? = some facesA)
    {nThreads : Nat} (hn : 0 < nThreads) {sched sched1 : List Nat} {sched2 sched3 : Nat → List Nat}
    (hs : sched.Perm (List.range facesA.rows.length)) (hs1 : sched1.Perm (List.range nThreads))
    (hs2 : ∀ n, (sched2 n).Perm (List.range n)) (hs3 : ∀ n, (sched3 n).Perm (List.range n)) :
    ∃ h' ii jj areas, t.intersectFacesH Fl.env h verticesA ref fillA nThreads sched sched1 sched2 sched3 = .ok (h', ii, jj, areas) ∧
      ii.length = jj.length ∧ jj.length = areas.length ∧ (ii.zip jj).Nodup ∧ ii.Pairwise (· ≤ ·) ∧
      ∀ i j x, (i, j, x) ∈ ii.zip (jj.zip areas) ↔ ∃ l c, ls[i]? = some l ∧ cs[j]? = some c ∧
        (∃ p, InInterior l p ∧ InInterior c p) ∧ x = fin (shoelace l) := by
  obtain ⟨hcol, _, bt, hc⟩ := ht.constructed' hm
  obtain ⟨rows, _, ho⟩ := counterClockwise_oriented hvA hs
  obtain ⟨_, _, hb⟩ := buildFaceBboxes_spec ho hls.num
  have sat : ∀ (i : Nat) r, facesA.rows[i]? = some r → ∀ (j : Nat) s, faces.rows[j]? = some s → ∀ l c, FaceIs verticesA fillA r l →
      FaceIs vertices fill s c → StrictlyConvex l → StrictlyConvex c → WholePoly l → WholePoly c →
      (((∃ a, IsBBox (facePts verticesA fillA r) a ∧ BoxOverlapsPts a (facePts vertices fill s)) ∧
        separatingAxes Fl.env (storedPts verticesA fillA facesA.ncol r) (storedPts vertices fill faces.ncol s) = .ok true ∧
        separatingAxes Fl.env (storedPts vertices fill faces.ncol s) (storedPts verticesA fillA facesA.ncol r) = .ok true) ↔
        ∃ p, InInterior l p ∧ InInterior c p) := by
    intro i r hi j s hj l c fl fc sl sc wl wc
    obtain ⟨a, _, ha⟩ := hb.box i r hi
    obtain ⟨A', hA', eA⟩ := FaceIs.poly fl (ho.polygon hcolA hi).2.1
    obtain ⟨B', hB', eB⟩ := FaceIs.poly fc (hc.elements.polygon hcol hj).2.1
    rw [eA, eB, separatingAxes_fl rfl rfl (whole_big wl.corner) (whole_big wc.corner) sl.convex.ne_nil sc.convex.ne_nil hA' hB',
      separatingAxes_fl rfl rfl (whole_big wc.corner) (whole_big wl.corner) sc.convex.ne_nil sl.convex.ne_nil hB' hA']
    exact whole_overlap fl fc sl.convex sc.convex wl.corner wc.corner ha
  have key : ∀ (i : Nat) r, facesA.rows[i]? = some r → ∀ (j : Nat) s, faces.rows[j]? = some s → ∀ l c, FaceIs verticesA fillA r l →
      FaceIs vertices fill s c → StrictlyConvex l → StrictlyConvex c → WholePoly l → WholePoly c → (∀ v ∈ l, InPoly c v) →
      polygonPolygonClipArea (storedPts verticesA fillA facesA.ncol r) (storedPts vertices fill faces.ncol s) = .ok (fin (shoelace l)) := by
    intro i r hr j s hs l c fl fc sl sc wl wc hin
    have hr' := (hvA.rows r (List.mem_of_getElem? hr)).row (hvA.rect r (List.mem_of_getElem? hr))
    have hs' := (hm.valid.rows s (List.mem_of_getElem? hs)).row (hm.valid.rect s (List.mem_of_getElem? hs))
    rw [whole_stored sl wl hr' fl, whole_stored sc wc hs' fc]
    exact whole_clipArea sl.convex sc.convex wl wc.corner ((faceIs_length_le fl hr').trans hcolA) ((faceIs_length_le fc hs').trans hcol) hin
  obtain ⟨h', L, f, h1, h2, h3, h4, h5, h6⟩ := intersectFaces_areas_tested (env := Fl.env) hc hcol hvA hcolA hls.num href hn hs hs1 hs2 hs3 (by
    intro r hr s hs o1 o2 o3
    obtain ⟨i, hi⟩ := List.mem_iff_getElem?.1 hr
    obtain ⟨j, hj⟩ := List.mem_iff_getElem?.1 hs
    obtain ⟨l, el, fl, sl, wl⟩ := hls.at hi
    obtain ⟨c, ec, fc, sc, wc⟩ := hcs.at hj
    exact ⟨_, key i r hi j s hj l c fl fc sl sc wl wc (hin l (List.mem_of_getElem? el) c (List.mem_of_getElem? ec)
      ((sat i r hi j s hj l c fl fc sl sc wl wc).1 ⟨o1, o2, o3⟩))⟩)
  refine ⟨h', _, _, _, h1, by simp, by simp, ?_, ?_, ?_⟩
  · rw [zip_fst_snd]; exact h2.filter _
  · rw [List.pairwise_map]; exact h3.filter _
  · intro i j x
    rw [filtered_mem]
    constructor
    · rintro ⟨hx, rfl, _⟩
      obtain ⟨r, s, hi, hj⟩ := h4 i j hx
      obtain ⟨l, el, fl, sl, wl⟩ := hls.at hi
      obtain ⟨c, ec, fc, sc, wc⟩ := hcs.at hj
      have hp := (sat i r hi j s hj l c fl fc sl sc wl wc).1 ((h5 i j r s hi hj).1 hx)
      exact ⟨l, c, el, ec, hp, Except.ok.inj ((h6 i j r s hx hi hj).symm.trans
        (key i r hi j s hj l c fl fc sl sc wl wc (hin l (List.mem_of_getElem? el) c (List.mem_of_getElem? ec) hp)))⟩
    · rintro ⟨l, c, el, ec, hp, rfl⟩
      obtain ⟨r, hi, fl, sl, wl⟩ := hls.row el
      obtain ⟨s, hj, fc, sc, wc⟩ := hcs.row ec
      have hx := (h5 i j r s hi hj).2 ((sat i r hi j s hj l c fl fc sl sc wl wc).2 hp)
      have e := Except.ok.inj ((h6 i j r s hx hi hj).symm.trans
        (key i r hi j s hj l c fl fc sl sc wl wc (hin l (List.mem_of_getElem? el) c (List.mem_of_getElem? ec) hp)))
      refine ⟨hx, e.symm, ?_⟩
      rw [e, gt_iff_lt, zero_def, lt_fin]
      exact sl.convex.shoelace_pos

/-- **C124**: a mesh at integer coordinates without overlap, intersected with itself (in any numbering, order and direction), gives
in binary64 exactly every face with itself, in order, with its exact area. -/
theorem C124_itself_exact (hm : GoodMesh Fl.env vertices faces fill)
    (ht : Makes Fl.env vertices faces fill nBuckets cellsPerLeaf t) (hcs : WholeFaces vertices fill faces cs)
    (hno : cs.Pairwise fun a b => ¬ ∃ p, InInterior a p ∧ InInterior b p)
    (hvA : ValidFaces verticesA.length fillA facesA) (hcolA : facesA.ncol ≤ maxNVertex) (hls : WholeFaces verticesA fillA facesA cs)
    {h : Heap} {ref : Nat} (href : h[ref]? = some facesA)
    {nThreads : Nat} (hn : 0 < nThreads) {sched sched1 : List Nat} {sched2 sched3 : Nat → List Nat}
    (hs : sched.Perm (List.range facesA.rows.length)) (hs1 : sched1.Perm (List.range nThreads))
    (hs2 : ∀ n, (sched2 n).Perm (List.range n)) (hs3 : ∀ n, (sched3 n).Perm (List.range n)) :
    ∃ h', t.intersectFacesH Fl.env h verticesA ref fillA nThreads sched sched1 sched2 sched3 =
      .ok (h', List.range cs.length, List.range cs.length, cs.map fun c => fin (shoelace c)) := by
  have only : ∀ (i j : Nat) (a b : List (Pt ℚ)), cs[i]? = some a → cs[j]? = some b → (∃ p, InInterior a p ∧ InInterior b p) → i = j := by
    intro i j a b hi hj hp
    obtain ⟨ki, rfl⟩ := List.getElem?_eq_some_iff.1 hi
    obtain ⟨kj, rfl⟩ := List.getElem?_eq_some_iff.1 hj
    rcases lt_trichotomy i j with h | h | h
    · exact absurd hp (List.pairwise_iff_getElem.1 hno i j ki kj h)
    · exact h
    · exact absurd (hp.imp fun p h => ⟨h.2, h.1⟩) (List.pairwise_iff_getElem.1 hno j i kj ki h)
  have conv : ∀ (i : Nat) (c : List (Pt ℚ)), cs[i]? = some c → ConvexPoly c := fun i c hi => by
    obtain ⟨_, _, _, h, _⟩ := hcs.row hi
    exact h.convex
  obtain ⟨h', ii, jj, areas, h1, h2, h3, h4, h5, h6⟩ := C124_refinement_exact hm ht hcs hvA hcolA hls (by
    intro l hl c hc hp v hv
    obtain ⟨i, hi⟩ := List.mem_iff_getElem?.1 hl
    obtain ⟨j, hj⟩ := List.mem_iff_getElem?.1 hc
    have e := only i j l c hi hj hp
    subst e
    rw [hi] at hj
    cases hj
    exact (conv i l hi).corner_inPoly hv) href hn hs hs1 hs2 hs3
  obtain ⟨e1, e2, e3⟩ := diagonal_table (n := cs.length) h2 h3 h4 h5 (by
    intro i j a hmem
    obtain ⟨l, c, el, ec, hp, _⟩ := (h6 i j a).1 hmem
    exact ⟨only i j l c el ec hp, (List.getElem?_eq_some_iff.1 el).1⟩) (fun i hi => by
      have hi' := List.getElem?_eq_getElem hi
      obtain ⟨p, hp⟩ := (conv i _ hi').exists_interior
      exact ⟨_, (h6 i i _).2 ⟨_, _, hi', hi', ⟨p, hp, hp⟩, rfl⟩⟩)
  subst e1 e2
  refine ⟨h', h1.trans ?_⟩
  congr 4
  refine List.ext_getElem (by simpa using e3) fun k hk hk' => ?_
  have hmem : (k, k, areas[k]) ∈ (List.range cs.length).zip ((List.range cs.length).zip areas) :=
    List.mem_iff_getElem.2 ⟨k, by simp; omega, by simp⟩
  obtain ⟨l, c, el, ec, _, hx⟩ := (h6 k k _).1 hmem
  rw [hx]
  obtain ⟨_, rfl⟩ := List.getElem?_eq_some_iff.1 el
  simp

theorem rectPts_convex {q : Box ℚ} (h1 : q.xmin < q.xmax) (h2 : q.ymin < q.ymax) : ConvexPoly (rectPts q) := boxPoly_convex h1 h2

/-- **C124**: `intersect_boxes` is exact in binary64 at integer coordinates for boxes which are inside every face whose bounding box
they overlap: exactly the faces that contain the box are reported, each with the exact area of the box. -/
theorem C124_boxes_exact (hm : GoodMesh Fl.env vertices faces fill)
    (ht : Makes Fl.env vertices faces fill nBuckets cellsPerLeaf t) (hcs : WholeFaces vertices fill faces cs)
    {boxes : List (Box ℚ)} (hbox : ∀ q ∈ boxes, q.xmin < q.xmax ∧ q.ymin < q.ymax ∧ WholePoly (rectPts q))
    (hin : ∀ q ∈ boxes, ∀ c ∈ cs, BoxOverlapsPts q c → ∀ v ∈ rectPts q, InPoly c v)
    {nThreads : Nat} (hn : 0 < nThreads) {sched : List Nat} {sched2 : Nat → List Nat}
    (hs : sched.Perm (List.range nThreads)) (hs2 : ∀ n, (sched2 n).Perm (List.range n)) :
    ∃ ii jj areas, t.intersectBoxes (boxes.map fbox) nThreads sched sched2 = .ok (ii, jj, areas) ∧
      ii.length = jj.length ∧ jj.length = areas.length ∧ (ii.zip jj).Nodup ∧ ii.Pairwise (· ≤ ·) ∧
      ∀ i j x, (i, j, x) ∈ ii.zip (jj.zip areas) ↔ ∃ q c, boxes[i]? = some q ∧ cs[j]? = some c ∧ (∀ v ∈ rectPts q, InPoly c v) ∧
        x = fin ((q.xmax - q.xmin) * (q.ymax - q.ymin)) := by
  obtain ⟨hcol, _, bt, hc⟩ := ht.constructed' hm
  have ov : ∀ (q : Box ℚ) s c, FaceIs vertices fill s c → (BoxOverlapsPts (fbox q) (facePts vertices fill s) ↔ BoxOverlapsPts q c) := by
    intro q s c hc
    unfold BoxOverlapsPts fbox
    simp only [hc.mem]
    constructor
    · rintro ⟨⟨_, ⟨v1, g1, rfl⟩, k1⟩, ⟨_, ⟨v2, g2, rfl⟩, k2⟩, ⟨_, ⟨v3, g3, rfl⟩, k3⟩, ⟨_, ⟨v4, g4, rfl⟩, k4⟩⟩
      exact ⟨⟨v1, g1, (lt_fin _ _).1 k1⟩, ⟨v2, g2, (lt_fin _ _).1 k2⟩, ⟨v3, g3, (lt_fin _ _).1 k3⟩, v4, g4, (lt_fin _ _).1 k4⟩
    · rintro ⟨⟨v1, g1, k1⟩, ⟨v2, g2, k2⟩, ⟨v3, g3, k3⟩, ⟨v4, g4, k4⟩⟩
      exact ⟨⟨_, ⟨v1, g1, rfl⟩, (lt_fin _ _).2 k1⟩, ⟨_, ⟨v2, g2, rfl⟩, (lt_fin _ _).2 k2⟩, ⟨_, ⟨v3, g3, rfl⟩, (lt_fin _ _).2 k3⟩,
        _, ⟨v4, g4, rfl⟩, (lt_fin _ _).2 k4⟩
  have key : ∀ q ∈ boxes, ∀ (j : Nat) s, faces.rows[j]? = some s → ∀ c, FaceIs vertices fill s c → StrictlyConvex c → WholePoly c →
      (∀ v ∈ rectPts q, InPoly c v) → polygonPolygonClipArea (copyBoxVertices (fbox q)) (storedPts vertices fill faces.ncol s) =
        .ok (fin ((q.xmax - q.xmin) * (q.ymax - q.ymin))) := by
    intro q hq j s hs c fc sc wc hin
    obtain ⟨b1, b2, b3⟩ := hbox q hq
    have hs' := (hm.valid.rows s (List.mem_of_getElem? hs)).row (hm.valid.rect s (List.mem_of_getElem? hs))
    rw [whole_stored sc wc hs' fc]
    have := whole_clipArea (rectPts_convex b1 b2) sc.convex b3 wc.corner (by unfold rectPts; simp) ((faceIs_length_le fc hs').trans hcol) hin
    rw [show shoelace (rectPts q) = (q.xmax - q.xmin) * (q.ymax - q.ymin) by unfold shoelace rectPts sides; simp; ring] at this
    exact this
  have sub : ∀ q ∈ boxes, ∀ c, ConvexPoly c → (∀ v ∈ rectPts q, InPoly c v) → BoxOverlapsPts q c := by
    intro q hq c hc hin
    obtain ⟨b1, b2, b3⟩ := hbox q hq
    have hq := rectPts_convex b1 b2
    obtain ⟨p, hp⟩ := hq.exists_interior
    exact overlap_of_interior hq hc hp (InInterior.mono hq hin hp) (rect_corners ⟨b1.le, b2.le⟩)
  obtain ⟨L, f, h1, h2, h3, h4, h5⟩ := intersectBoxes_areas hc hcol (boxes := boxes.map fbox) hn hs hs2 (by
    intro q' hq' s hs hov
    obtain ⟨q, hq, rfl⟩ := List.mem_map.1 hq'
    obtain ⟨j, hj⟩ := List.mem_iff_getElem?.1 hs
    obtain ⟨c, ec, fc, sc, wc⟩ := hcs.at hj
    exact ⟨_, key q hq j s hj c fc sc wc (hin q hq c (List.mem_of_getElem? ec) ((ov q s c fc).1 hov))⟩)
  refine ⟨_, _, _, h1, by simp, by simp, ?_, ?_, ?_⟩
  · rw [zip_fst_snd]; exact h2.filter _
  · rw [List.pairwise_map]; exact h3.filter _
  · intro i j x
    rw [filtered_mem]
    have at' : ∀ q', (boxes.map fbox)[i]? = some q' → ∃ q, boxes[i]? = some q ∧ fbox q = q' := by
      intro q' h
      rw [List.getElem?_map] at h
      exact Option.map_eq_some_iff.1 h
    constructor
    · rintro ⟨hx, rfl, _⟩
      obtain ⟨q', s, hi, hj, hov⟩ := (h4 i j).1 hx
      obtain ⟨q, hq, rfl⟩ := at' q' hi
      obtain ⟨c, ec, fc, sc, wc⟩ := hcs.at hj
      have hqm := List.mem_of_getElem? hq
      have hi' := hin q hqm c (List.mem_of_getElem? ec) ((ov q s c fc).1 hov)
      exact ⟨q, c, hq, ec, hi', Except.ok.inj ((h5 i j _ s hx hi hj).symm.trans (key q hqm j s hj c fc sc wc hi'))⟩
    · rintro ⟨q, c, hq, ec, hi', rfl⟩
      obtain ⟨s, hj, fc, sc, wc⟩ := hcs.row ec
      have hqm := List.mem_of_getElem? hq
      have hi : (boxes.map fbox)[i]? = some (fbox q) := by rw [List.getElem?_map, hq]; rfl
      have hx := (h4 i j).2 ⟨_, s, hi, hj, (ov q s c fc).2 (sub q hqm c sc.convex hi')⟩
      have e := Except.ok.inj ((h5 i j _ s hx hi hj).symm.trans (key q hqm j s hj c fc sc wc hi'))
      refine ⟨hx, e.symm, ?_⟩
      rw [e, gt_iff_lt, zero_def, lt_fin]
      obtain ⟨b1, b2, _⟩ := hbox q hqm
      exact mul_pos (sub_pos.2 b1) (sub_pos.2 b2)

/-! ## Examples -/

set_option synthInstance.maxSize 1000

theorem _root_.Celltree.Ex.whole_wholeFaces : WholeFaces Ex.wholeVerts (-1) Ex.wholeFaces [Ex.wholeCell, Ex.wholeCell'] :=
  .cons ⟨by decide +kernel, by decide +kernel, Ex.wholeCell_whole⟩ (.cons ⟨by decide +kernel, by decide +kernel, Ex.wholeCell'_whole⟩ .nil)

theorem _root_.Celltree.Ex.whole_apart {l c : List (Pt ℚ)} (h1 : ((⟨155006, 463001⟩ : Pt ℚ), (⟨155004, 463009⟩ : Pt ℚ)) ∈ sides l)
    (h2 : ((⟨155004, 463009⟩ : Pt ℚ), (⟨155006, 463001⟩ : Pt ℚ)) ∈ sides c) : ¬ ∃ p, InInterior l p ∧ InInterior c p := by
  rintro ⟨p, g1, g2⟩
  have k1 := g1 _ h1 (by decide +kernel)
  have k2 := g2 _ h2 (by decide +kernel)
  unfold orient at k1 k2
  simp only at k1 k2
  linarith

/-- Two cells at whole metres with a slanted side in common, and the same cells in the other order of the corners: each cell with
itself, and the areas are exact. -/
example : ∃ t h', Makes Fl.env Ex.wholeVerts Ex.wholeFaces (-1) 4 2 t ∧
    t.intersectFacesH Fl.env [⟨4, [[3, 2, 1, 0], [2, 5, 4, 1]]⟩] Ex.wholeVerts 0 (-1) 2 [1, 0] [1, 0] List.range List.range =
      .ok (h', [0, 1], [0, 1], [fin (shoelace Ex.wholeCell), fin (shoelace Ex.wholeCell')]) ∧
    shoelace Ex.wholeCell = 45 ∧ shoelace Ex.wholeCell' = 45 := by
  obtain ⟨t, h1, _⟩ := bind_eq_ok.1 (show (CellTree.init Fl.env Ex.wholeVerts Ex.wholeFaces (-1) 4 2 [0, 1] >>= fun t => .ok 0) =
    .ok 0 by decide +kernel)
  have hmk : Makes Fl.env Ex.wholeVerts Ex.wholeFaces (-1) 4 2 t := ⟨_, by decide, h1⟩
  obtain ⟨h', g⟩ := C124_itself_exact (verticesA := Ex.wholeVerts) (facesA := ⟨4, [[3, 2, 1, 0], [2, 5, 4, 1]]⟩) (fillA := -1)
    (h := [⟨4, [[3, 2, 1, 0], [2, 5, 4, 1]]⟩]) (ref := 0) (nThreads := 2) (sched := [1, 0]) (sched1 := [1, 0]) (sched2 := List.range)
    (sched3 := List.range) Ex.whole_good hmk Ex.whole_wholeFaces
    (List.pairwise_pair.2 (Ex.whole_apart (by decide +kernel) (by decide +kernel)))
    ⟨by decide, fun r hr => by
      simp only [List.mem_cons, List.not_mem_nil, or_false] at hr
      rcases hr with rfl | rfl <;> exact ⟨by decide, by decide, by decide⟩⟩ (by decide)
    (.cons ⟨by decide +kernel, by decide +kernel, Ex.wholeCell_whole⟩
      (.cons ⟨by decide +kernel, by decide +kernel, Ex.wholeCell'_whole⟩ .nil))
    rfl (by decide) (by decide) (by decide) (fun n => List.Perm.refl _) (fun n => List.Perm.refl _)
  exact ⟨t, h', hmk, g, by norm_num [shoelace, sides, Ex.wholeCell], by norm_num [shoelace, sides, Ex.wholeCell']⟩

/-- A refinement: the first cell divided in two triangles. -/
example : ∃ t h' ii jj areas, Makes Fl.env Ex.wholeVerts Ex.wholeFaces (-1) 4 2 t ∧
    t.intersectFacesH Fl.env [⟨3, [[0, 1, 2], [3, 2, 0]]⟩] Ex.wholeVerts 0 (-1) 1 [0, 1] [0] List.range List.range =
      .ok (h', ii, jj, areas) ∧ (1, 0, fin 20) ∈ ii.zip (jj.zip areas) ∧ ∀ i x, (i, 1, x) ∉ ii.zip (jj.zip areas) := by
  obtain ⟨t, h1, _⟩ := bind_eq_ok.1 (show (CellTree.init Fl.env Ex.wholeVerts Ex.wholeFaces (-1) 4 2 [0, 1] >>= fun t => .ok 0) =
    .ok 0 by decide +kernel)
  have hmk : Makes Fl.env Ex.wholeVerts Ex.wholeFaces (-1) 4 2 t := ⟨_, by decide, h1⟩
  let a : List (Pt ℚ) := [⟨155000, 463000⟩, ⟨155006, 463001⟩, ⟨155004, 463009⟩]
  let b : List (Pt ℚ) := [⟨155000, 463000⟩, ⟨155004, 463009⟩, ⟨155000, 463010⟩]
  have apart : ∀ l ∈ [a, b], ¬ ∃ p, InInterior l p ∧ InInterior Ex.wholeCell' p := by
    intro l hl hp
    have sub : ∀ v ∈ l, InPoly Ex.wholeCell v := by
      simp only [List.mem_cons, List.not_mem_nil, or_false] at hl
      rcases hl with rfl | rfl <;> decide +kernel
    have hc : ConvexPoly l := by
      simp only [List.mem_cons, List.not_mem_nil, or_false] at hl
      rcases hl with rfl | rfl <;> decide +kernel
    obtain ⟨p, h1, h2⟩ := hp
    exact Ex.whole_apart (by decide +kernel) (by decide +kernel) ⟨p, InInterior.mono hc sub h1, h2⟩
  obtain ⟨h', ii, jj, areas, g1, _, _, _, _, g⟩ := C124_refinement_exact (verticesA := Ex.wholeVerts) (facesA := ⟨3, [[0, 1, 2], [3, 2, 0]]⟩)
    (fillA := -1) (ls := [a, b]) (h := [⟨3, [[0, 1, 2], [3, 2, 0]]⟩]) (ref := 0) (nThreads := 1) (sched := [0, 1]) (sched1 := [0])
    (sched2 := List.range) (sched3 := List.range) Ex.whole_good hmk Ex.whole_wholeFaces
    ⟨by decide, fun r hr => by
      simp only [List.mem_cons, List.not_mem_nil, or_false] at hr
      rcases hr with rfl | rfl <;> exact ⟨by decide, by decide, by decide⟩⟩ (by decide)
    (.cons ⟨by decide +kernel, by decide +kernel, Ex.wholePoly_iff (by decide +kernel) (by decide +kernel)⟩
      (.cons ⟨by decide +kernel, by decide +kernel, Ex.wholePoly_iff (by decide +kernel) (by decide +kernel)⟩ .nil))
    (by
      intro l hl c hc hp
      simp only [List.mem_cons, List.not_mem_nil, or_false] at hc
      rcases hc with rfl | rfl
      · simp only [List.mem_cons, List.not_mem_nil, or_false] at hl
        rcases hl with rfl | rfl <;> decide +kernel
      · exact absurd hp (apart l hl))
    rfl (by decide) (by decide) (by decide) (fun n => List.Perm.refl _) (fun n => List.Perm.refl _)
  refine ⟨t, h', ii, jj, areas, hmk, g1, (g _ _ _).2 ⟨b, Ex.wholeCell, rfl, rfl, ?_, by decide +kernel⟩, fun i x hx => ?_⟩
  · have hb : ConvexPoly b := by decide +kernel
    obtain ⟨p, hp⟩ := hb.exists_interior
    exact ⟨p, hp, InInterior.mono hb (by decide +kernel) hp⟩
  · obtain ⟨l, c, el, ec, hp, _⟩ := (g _ _ _).1 hx
    cases ec
    exact apart l (List.mem_of_getElem? el) hp

/-- A box in the first cell. -/
example : ∃ t ii jj areas, Makes Fl.env Ex.wholeVerts Ex.wholeFaces (-1) 4 2 t ∧
    t.intersectBoxes [fbox ⟨155000, 155003, 463002, 463008⟩] 1 [0] List.range = .ok (ii, jj, areas) ∧
      ((0, 0, fin 18) ∈ ii.zip (jj.zip areas)) := by
  obtain ⟨t, h1, _⟩ := bind_eq_ok.1 (show (CellTree.init Fl.env Ex.wholeVerts Ex.wholeFaces (-1) 4 2 [0, 1] >>= fun t => .ok 0) =
    .ok 0 by decide +kernel)
  have hmk : Makes Fl.env Ex.wholeVerts Ex.wholeFaces (-1) 4 2 t := ⟨_, by decide, h1⟩
  obtain ⟨ii, jj, areas, g1, _, _, _, _, g⟩ := C124_boxes_exact (boxes := [⟨155000, 155003, 463002, 463008⟩]) (nThreads := 1) (sched := [0])
    (sched2 := List.range) Ex.whole_good hmk Ex.whole_wholeFaces
    (by
      intro q hq
      rw [List.mem_singleton] at hq
      subst hq
      exact ⟨by norm_num, by norm_num, Ex.wholePoly_iff (by decide +kernel) (by decide +kernel)⟩)
    (by
      intro q hq c hc
      rw [List.mem_singleton] at hq
      subst hq
      simp only [List.mem_cons, List.not_mem_nil, or_false] at hc
      rcases hc with rfl | rfl
      · exact fun _ => by decide +kernel
      · rintro ⟨_, h, _⟩
        exact absurd h (by decide +kernel))
    (by decide) (by decide) (fun n => List.Perm.refl _)
  exact ⟨t, ii, jj, areas, hmk, g1, (g _ _ _).2 ⟨_, _, rfl, rfl, by decide +kernel, by decide +kernel⟩⟩

/-- That the query face is inside matters: a rectangle of 22 by 3 has an area of exactly 21 in common with a cell of 7 by 5, but more
than 21 is computed, although all coordinates are small integers. -/
theorem C124_cut_inexact : ∃ t h' x, Makes Fl.env ([⟨0, 0⟩, ⟨7, 0⟩, ⟨7, 5⟩, ⟨0, 5⟩].map fp) ⟨4, [[0, 1, 2, 3]]⟩ (-1) 4 2 t ∧
    t.intersectFacesH Fl.env [⟨4, [[0, 1, 2, 3]]⟩] ([⟨0, 0⟩, ⟨22, 0⟩, ⟨22, 3⟩, ⟨0, 3⟩].map fp) 0 (-1) 1 [0] [0] List.range List.range =
      .ok (h', [0], [0], [fin x]) ∧ 21 < x ∧
    commonArea [⟨0, 0⟩, ⟨22, 0⟩, ⟨22, 3⟩, ⟨0, 3⟩] [⟨0, 0⟩, ⟨7, 0⟩, ⟨7, 5⟩, ⟨0, 5⟩] = 21 := by
  obtain ⟨t, h1, h2⟩ := bind_eq_ok.1 (show (CellTree.init Fl.env ([⟨0, 0⟩, ⟨7, 0⟩, ⟨7, 5⟩, ⟨0, 5⟩].map fp) ⟨4, [[0, 1, 2, 3]]⟩ (-1) 4 2 [0] >>=
    fun t => t.intersectFacesH Fl.env [⟨4, [[0, 1, 2, 3]]⟩] ([⟨0, 0⟩, ⟨22, 0⟩, ⟨22, 3⟩, ⟨0, 3⟩].map fp) 0 (-1) 1 [0] [0] List.range List.range) =
      .ok ([⟨4, [[0, 1, 2, 3]]⟩, ⟨4, [[0, 1, 2, 3]]⟩], [0], [0], [fin (5910974510923777 / 281474976710656)]) by decide +kernel)
  refine ⟨t, _, _, ⟨_, by decide, h1⟩, h2, by norm_num, ?_⟩
  have := clipArea_real (l := [⟨0, 0⟩, ⟨22, 0⟩, ⟨22, 3⟩, ⟨0, 3⟩]) (c := [⟨0, 0⟩, ⟨7, 0⟩, ⟨7, 5⟩, ⟨0, 5⟩]) (by decide +kernel) (by decide +kernel)
    (by decide) (A := 21) (by decide +kernel)
  rw [← this]
  norm_num

end Celltree.Fl
