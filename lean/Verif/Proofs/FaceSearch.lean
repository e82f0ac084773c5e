import Verif.Proofs.Separating

/-!
# Searching for faces and boxes that overlap faces of the tree
-/

set_option linter.unusedSectionVars false

namespace Celltree

/-! ## Lists of pairs -/

theorem prange_pairs_exists {β : Type} {L : List (Nat × Nat)} {sched : List Nat} (hs : sched.Perm (List.range L.length))
    (init : β) {body : Nat → M β} {Q : Nat × Nat → β → Prop}
    (h : ∀ x ∈ L, ∃ b, Q x b ∧ ∀ i, L[i]? = some x → body i = .ok b) :
    ∃ f : Nat × Nat → β, prange sched L.length init body = .ok (L.map f) ∧ ∀ x ∈ L, Q x (f x) := by
  classical
  refine ⟨fun x => if hx : x ∈ L then (h x hx).choose else init, prange_pairs hs init fun i x hi => ?_, fun x hx => ?_⟩
  · have hx := List.mem_of_getElem? hi
    rw [dif_pos hx]
    exact (h x hx).choose_spec.2 i hi
  · simp only [dif_pos hx]
    exact (h x hx).choose_spec.1

theorem zip_zip_map {α β γ δ : Type} (L : List α) (f : α → β) (g : α → γ) (k : α → δ) :
    (L.map f).zip ((L.map g).zip (L.map k)) = L.map fun x => (f x, g x, k x) := by
  rw [List.zip_map', List.zip_map']

section
variable {K : Type} [Field K] [LinearOrder K] [IsStrictOrderedRing K]

/-! ## Stored polygons -/

theorem storedPts_cases {vertices : List (Pt K)} {fill : Int} {faces : IntArr} {rows : List (List Int)}
    (h : Oriented vertices fill faces rows) (hc : faces.ncol ≤ maxNVertex) {i : Nat} {r : List Int}
    (hi : faces.rows[i]? = some r) : (storedPts vertices fill faces.ncol r).length ≤ maxNVertex ∧
      ∀ v, v ∈ storedPts vertices fill faces.ncol r ↔ v ∈ facePts vertices fill r := by
  obtain ⟨h1, h2, h3⟩ := h.polygon hc hi
  constructor
  · obtain ⟨B, g1, _, g3, g4⟩ := h.row i r hi
    rw [storedPts_eq g3 g4, (ptsOf_spec g3.range).1]
    exact g3.le.trans hc
  · intro v
    rcases h2 with h2 | h2 <;> rw [h2]
    simp

theorem Oriented.row_valid {vertices : List (Pt K)} {fill : Int} {faces : IntArr}
    (hv : ValidFaces vertices.length fill faces) {i : Nat} {r : List Int} (hi : faces.rows[i]? = some r) :
    Row vertices.length faces.ncol (rowIndices fill r) :=
  (hv.rows r (List.mem_of_getElem? hi)).row (hv.rect r (List.mem_of_getElem? hi))

theorem SmallPts.of_mem {env : Env K} {l l' : List (Pt K)} (h : SmallPts env l) (hm : ∀ v ∈ l', v ∈ l) : SmallPts env l' := by
  obtain ⟨B, h1, h2, h3⟩ := h
  exact ⟨B, fun v hv => h1 v (hm v hv), h2, h3⟩

/-! ## Boxes -/

theorem boxPoly_interior {b : Box K} (hx : b.xmin < b.xmax) (hy : b.ymin < b.ymax) (p : Pt K) :
    InInterior (copyBoxVertices b) p ↔ InBoxInterior b p := by
  have h1 := sub_pos.2 hx
  have h2 := sub_pos.2 hy
  have n1 : (⟨b.xmin, b.ymin⟩ : Pt K) ≠ ⟨b.xmax, b.ymin⟩ := fun e => hx.ne (congrArg Pt.x e)
  have n2 : (⟨b.xmax, b.ymin⟩ : Pt K) ≠ ⟨b.xmax, b.ymax⟩ := fun e => hy.ne (congrArg Pt.y e)
  have n3 : (⟨b.xmax, b.ymax⟩ : Pt K) ≠ ⟨b.xmin, b.ymax⟩ := fun e => hx.ne' (congrArg Pt.x e)
  have n4 : (⟨b.xmin, b.ymax⟩ : Pt K) ≠ ⟨b.xmin, b.ymin⟩ := fun e => hy.ne' (congrArg Pt.y e)
  unfold copyBoxVertices InInterior InBoxInterior
  simp only [sides, List.cons_append, List.nil_append, pairs_cons_cons, pairs_single, List.mem_cons, List.not_mem_nil,
    or_false, forall_eq_or_imp, forall_eq, n1, n2, n3, n4, ne_eq, not_false_eq_true, forall_true_left]
  have e1 : orient (⟨b.xmin, b.ymin⟩ : Pt K) ⟨b.xmax, b.ymin⟩ p = (b.xmax - b.xmin) * (p.y - b.ymin) := by unfold orient; ring
  have e2 : orient (⟨b.xmax, b.ymin⟩ : Pt K) ⟨b.xmax, b.ymax⟩ p = (b.ymax - b.ymin) * (b.xmax - p.x) := by unfold orient; ring
  have e3 : orient (⟨b.xmax, b.ymax⟩ : Pt K) ⟨b.xmin, b.ymax⟩ p = (b.xmax - b.xmin) * (b.ymax - p.y) := by unfold orient; ring
  have e4 : orient (⟨b.xmin, b.ymax⟩ : Pt K) ⟨b.xmin, b.ymin⟩ p = (b.ymax - b.ymin) * (p.x - b.xmin) := by unfold orient; ring
  rw [e1, e2, e3, e4, mul_pos_iff_of_pos_left h1, mul_pos_iff_of_pos_left h2, mul_pos_iff_of_pos_left h1,
    mul_pos_iff_of_pos_left h2]
  simp only [sub_pos]
  tauto

/-- A common interior point makes the bounding boxes overlap. -/
theorem overlap_of_interior {A B : List (Pt K)} (hA : ConvexPoly A) (hB : ConvexPoly B) {p : Pt K} (hpA : InInterior A p)
    (hpB : InInterior B p) {q : Box K} (hq : ∀ v ∈ A, InBox q v) : BoxOverlapsPts q B := by
  have dx : (⟨1, 0⟩ : Pt K).x ≠ 0 ∨ (⟨1, 0⟩ : Pt K).y ≠ 0 := Or.inl one_ne_zero
  have dy : (⟨0, 1⟩ : Pt K).x ≠ 0 ∨ (⟨0, 1⟩ : Pt K).y ≠ 0 := Or.inr one_ne_zero
  have ax : ∀ v : Pt K, along ⟨1, 0⟩ v = v.x := fun v => by unfold along; simp
  have ay : ∀ v : Pt K, along ⟨0, 1⟩ v = v.y := fun v => by unfold along; simp
  refine ⟨?_, ?_, ?_, ?_⟩
  · obtain ⟨v, hv, h1⟩ := hA.exists_lt hpA dx
    obtain ⟨w, hw, h2⟩ := hB.exists_gt hpB dx
    rw [ax, ax] at h1 h2
    exact ⟨w, hw, ((hq v hv).1.trans_lt h1).trans h2⟩
  · obtain ⟨v, hv, h1⟩ := hA.exists_gt hpA dx
    obtain ⟨w, hw, h2⟩ := hB.exists_lt hpB dx
    rw [ax, ax] at h1 h2
    exact ⟨w, hw, h2.trans (h1.trans_le (hq v hv).2.1)⟩
  · obtain ⟨v, hv, h1⟩ := hA.exists_lt hpA dy
    obtain ⟨w, hw, h2⟩ := hB.exists_gt hpB dy
    rw [ay, ay] at h1 h2
    exact ⟨w, hw, ((hq v hv).2.2.1.trans_lt h1).trans h2⟩
  · obtain ⟨v, hv, h1⟩ := hA.exists_gt hpA dy
    obtain ⟨w, hw, h2⟩ := hB.exists_lt hpB dy
    rw [ay, ay] at h1 h2
    exact ⟨w, hw, h2.trans (h1.trans_le (hq v hv).2.2.2)⟩

theorem BoxOverlapsPts.of_mem {q : Box K} {l l' : List (Pt K)} (h : BoxOverlapsPts q l) (hm : ∀ v ∈ l, v ∈ l') :
    BoxOverlapsPts q l' := by
  obtain ⟨⟨a, ha, h1⟩, ⟨b, hb, h2⟩, ⟨c, hc, h3⟩, d, hd, h4⟩ := h
  exact ⟨⟨a, hm a ha, h1⟩, ⟨b, hm b hb, h2⟩, ⟨c, hm c hc, h3⟩, d, hm d hd, h4⟩

/-- The pairs found by the search, in terms of the points of the faces. -/
theorem mem_boxPairs_iff {env : Env K} {vertices : List (Pt K)} {faces : IntArr} {fill : Int} {nb cpl : Nat} {t : CellTree K}
    {bt : BT} (hc : Constructed env vertices faces fill nb cpl t bt) {boxes : List (Box K)} {i j : Nat} :
    (i, j) ∈ boxPairs t.data bt boxes ↔ ∃ q r, boxes[i]? = some q ∧ faces.rows[j]? = some r ∧
        BoxOverlapsPts q (facePts vertices fill r) := by
  rw [mem_boxPairs]
  constructor
  · rintro ⟨q, hq, hj⟩
    obtain ⟨b, hb, hb'⟩ := (mem_boxHits hc.tree q j).1 hj
    have hlt : j < faces.rows.length := by
      rw [← hc.boxes.length]; exact (List.getElem?_eq_some_iff.1 hb).1
    obtain ⟨b', c1, c2⟩ := hc.boxes.box j faces.rows[j] (by simp)
    rw [hb] at c1
    cases c1
    exact ⟨q, _, hq, by simp [hlt], (c2.overlap_iff q).1 hb'⟩
  · rintro ⟨q, r, hq, hr, ho⟩
    obtain ⟨b, c1, c2⟩ := hc.boxes.box j r hr
    exact ⟨q, hq, (mem_boxHits hc.tree q j).2 ⟨b, c1, (c2.overlap_iff q).2 ho⟩⟩

/-! ## Faces -/

section
variable {env : Env K} {vertices : List (Pt K)} {faces : IntArr} {fill : Int} {nb cpl : Nat} {t : CellTree K} {bt : BT}
variable {verticesA : List (Pt K)} {facesA : IntArr} {fillA : Int} {rows : List (List Int)}

/-- What follows after the orientation of the query faces has been normalised. -/
def faceSearch (env : Env K) (t : CellTree K) (verticesA : List (Pt K)) (rows : List (List Int)) (nThreads : Nat)
    (sched1 : List Nat) (sched2 : Nat → List Nat) : M (List (List Int) × List Nat × List Nat) := do
  let boxes ← buildFaceBboxes rows verticesA
  let (i, j) ← Celltree.locateBoxes boxes t.data nThreads sched1
  let intersects ← polygonsIntersect env verticesA t.data.vertices rows t.data.elements i j (sched2 i.length)
  .ok (rows, applyMask intersects i, applyMask intersects j)

theorem faceSearch_spec (hc : Constructed env vertices faces fill nb cpl t bt) (hv : ValidFaces vertices.length fill faces)
    (hcol : faces.ncol ≤ maxNVertex) (hcolA : facesA.ncol ≤ maxNVertex) (hvA : ValidFaces verticesA.length fillA facesA)
    (ho : Oriented verticesA fillA facesA rows)
    (hconv : ∀ r ∈ faces.rows, ConvexFace (facePts vertices fill r) ∧ SmallPts env (facePts vertices fill r))
    (hconvA : ∀ r ∈ facesA.rows, ConvexFace (facePts verticesA fillA r) ∧ SmallPts env (facePts verticesA fillA r))
    {nThreads : Nat} (hn : 0 < nThreads) {sched1 : List Nat} (hs1 : sched1.Perm (List.range nThreads))
    {sched2 : Nat → List Nat} (hs2 : ∀ n, (sched2 n).Perm (List.range n)) :
    ∃ P : List (Nat × Nat), faceSearch env t verticesA rows nThreads sched1 sched2 =
        .ok (rows, P.map Prod.fst, P.map Prod.snd) ∧ P.Nodup ∧ P.Pairwise (fun a b => a.1 ≤ b.1) ∧
      ∀ i j, (i, j) ∈ P ↔ FacesOverlap verticesA fillA facesA vertices fill faces i j := by
  obtain ⟨boxes, hb1, hb2⟩ := buildFaceBboxes_spec ho (fun r _ p _ => ⟨trivial, trivial⟩)
  let L := boxPairs t.data bt boxes
  have hL := boxPairs_nodup hc.tree boxes
  -- the test
  obtain ⟨f, hf1, hf2⟩ := prange_pairs_exists (L := L) (sched := sched2 L.length) (hs2 _) false
    (body := fun i => do
      let faceA ← rd rows (← rd (L.map Prod.fst) i)
      let faceB ← rd t.data.elements (← rd (L.map Prod.snd) i)
      let a ← copyVertices verticesA faceA
      let b ← copyVertices t.data.vertices faceB
      let ab ← separatingAxes env a b
      if ab then separatingAxes env b a else .ok false)
    (Q := fun x b => b = true ↔ FacesOverlap verticesA fillA facesA vertices fill faces x.1 x.2) (by
      rintro ⟨i, j⟩ hx
      obtain ⟨q, s, hq, hs, _⟩ := (mem_boxPairs_iff hc).1 hx
      have hi : i < facesA.rows.length := by rw [← hb2.length]; exact (List.getElem?_eq_some_iff.1 hq).1
      have hr : facesA.rows[i]? = some facesA.rows[i] := by simp [hi]
      generalize facesA.rows[i] = r at hr
      have hrm := List.mem_of_getElem? hr
      have hsm := List.mem_of_getElem? hs
      have cA := (hconvA r hrm).1.stored (Oriented.row_valid hvA hr)
      have cB := (hconv s hsm).1.stored (Oriented.row_valid hv hs)
      have iA := (hconvA r hrm).1.inFaceInterior (Oriented.row_valid hvA hr)
      have iB := (hconv s hsm).1.inFaceInterior (Oriented.row_valid hv hs)
      obtain ⟨b, e1, e2⟩ := satTest_spec (env := env) cA.1 cB.1
        ((hconvA r hrm).2.of_mem fun v hv => ((storedPts_cases ho hcolA hr).2 v).1 hv)
        ((hconv s hsm).2.of_mem fun v hv => ((storedPts_cases hc.elements hcol hs).2 v).1 hv)
      refine ⟨b, ?_, ?_⟩
      · rw [e2]
        constructor
        · rintro ⟨p, p1, p2⟩
          exact ⟨r, s, hr, hs, p, (iA p).1 p1, (iB p).1 p2⟩
        · rintro ⟨r', s', hr', hs', p, p1, p2⟩
          rw [hr] at hr'; cases hr'
          rw [hs] at hs'; cases hs'
          exact ⟨p, (iA p).2 p1, (iB p).2 p2⟩
      · intro k hk
        have pA := (ho.polygon hcolA hr).1
        have pB := (hc.elements.polygon hcol hs).1
        obtain ⟨x, hx1, hx2⟩ := bind_eq_ok.1 pA
        obtain ⟨y, hy1, hy2⟩ := bind_eq_ok.1 pB
        rw [rd_of_some (show (L.map Prod.fst)[k]? = some i by simp [hk]),
          rd_of_some (show (L.map Prod.snd)[k]? = some j by simp [hk])]
        simp only [ok_bind]
        rw [hx1, hy1]
        simp only [ok_bind]
        rw [hx2, hc.vertices_eq, hy2]
        exact e1)
  refine ⟨L.filter f, ?_, hL.1.filter _, hL.2.filter _, ?_⟩
  · unfold faceSearch
    rw [hb1, ok_bind, locateBoxes_spec hc.tree boxes hn hs1, ok_bind]
    simp only [List.length_map]
    unfold polygonsIntersect
    rw [List.length_map, hf1, ok_bind]
    rw [applyMask_map, applyMask_map]
  · intro i j
    rw [List.mem_filter]
    constructor
    · rintro ⟨h1, h2⟩
      exact (hf2 _ h1).1 h2
    · intro h
      have h0 := h
      obtain ⟨r, s, hr, hs, p, p1, p2⟩ := h0
      have hrm := List.mem_of_getElem? hr
      have hsm := List.mem_of_getElem? hs
      have cA := (hconvA r hrm).1.stored (Oriented.row_valid hvA hr)
      have cB := (hconv s hsm).1.stored (Oriented.row_valid hv hs)
      have iA := ((hconvA r hrm).1.inFaceInterior (Oriented.row_valid hvA hr) p).2 p1
      have iB := ((hconv s hsm).1.inFaceInterior (Oriented.row_valid hv hs) p).2 p2
      obtain ⟨q, hq, hq'⟩ := hb2.box i r hr
      have hm : (i, j) ∈ L := by
        refine (mem_boxPairs_iff hc).2 ⟨q, s, hq, hs, ?_⟩
        refine (overlap_of_interior cA.1 cB.1 iA iB fun v hv => ?_).of_mem fun v hv => ((storedPts_cases hc.elements hcol hs).2 v).1 hv
        exact hq'.contains v (((storedPts_cases ho hcolA hr).2 v).1 hv)
      exact ⟨hm, (hf2 _ hm).2 h⟩

/-- The areas of pairs of overlapping faces. -/
theorem faceAreas_spec (hc : Constructed env vertices faces fill nb cpl t bt) (hv : ValidFaces vertices.length fill faces)
    (hcol : faces.ncol ≤ maxNVertex) (hcolA : facesA.ncol ≤ maxNVertex) (hvA : ValidFaces verticesA.length fillA facesA)
    (ho : Oriented verticesA fillA facesA rows)
    (hconv : ∀ r ∈ faces.rows, ConvexFace (facePts vertices fill r))
    (hconvA : ∀ r ∈ facesA.rows, ConvexFace (facePts verticesA fillA r))
    {P : List (Nat × Nat)} (hP : ∀ i j, (i, j) ∈ P → FacesOverlap verticesA fillA facesA vertices fill faces i j)
    {sched : List Nat} (hs : sched.Perm (List.range P.length)) :
    ∃ f, areaOfIntersection verticesA t.data.vertices rows t.data.elements (P.map Prod.fst) (P.map Prod.snd) sched =
        .ok (P.map f) ∧
      ∀ x ∈ P, ∃ r s out, facesA.rows[x.1]? = some r ∧ faces.rows[x.2]? = some s ∧ ConvexPoly out ∧
        (∀ p, InPoly out p ↔ InFace (facePts verticesA fillA r) p ∧ InFace (facePts vertices fill s) p) ∧ f x = shoelace out := by
  have := prange_pairs_exists (L := P) hs (0 : K)
    (body := fun i => do
      let faceA ← rd rows (← rd (P.map Prod.fst) i)
      let faceB ← rd t.data.elements (← rd (P.map Prod.snd) i)
      let a ← copyVertices verticesA faceA
      let b ← copyVertices t.data.vertices faceB
      polygonPolygonClipArea a b)
    (Q := fun x b => ∃ r s out, facesA.rows[x.1]? = some r ∧ faces.rows[x.2]? = some s ∧ ConvexPoly out ∧
        (∀ p, InPoly out p ↔ InFace (facePts verticesA fillA r) p ∧ InFace (facePts vertices fill s) p) ∧ b = shoelace out) (by
      rintro ⟨i, j⟩ hx
      obtain ⟨r, s, hr, hs, p, p1, p2⟩ := hP i j hx
      have hrm := List.mem_of_getElem? hr
      have hsm := List.mem_of_getElem? hs
      have cA := (hconvA r hrm).stored (Oriented.row_valid hvA hr)
      have cB := (hconv s hsm).stored (Oriented.row_valid hv hs)
      have iA := (hconvA r hrm).inFaceInterior (Oriented.row_valid hvA hr)
      have iB := (hconv s hsm).inFaceInterior (Oriented.row_valid hv hs)
      have fA := (hconvA r hrm).inFace (Oriented.row_valid hvA hr)
      have fB := (hconv s hsm).inFace (Oriented.row_valid hv hs)
      have l1 := (storedPts_cases ho hcolA hr).1
      have l2 := (storedPts_cases hc.elements hcol hs).1
      rcases clip_none_iff cA.1 cB.1 (by unfold clipMaxNVertex; omega) with ⟨out, h1, h2, h3, _⟩ | ⟨_, hno⟩
      · refine ⟨shoelace out, ⟨r, s, out, hr, hs, h2, fun p => ?_, rfl⟩, ?_⟩
        · rw [h3, fA, fB]
        · intro k hk
          have pA := (ho.polygon hcolA hr).1
          have pB := (hc.elements.polygon hcol hs).1
          obtain ⟨x, hx1, hx2⟩ := bind_eq_ok.1 pA
          obtain ⟨y, hy1, hy2⟩ := bind_eq_ok.1 pB
          rw [rd_of_some (show (P.map Prod.fst)[k]? = some i by simp [hk]),
            rd_of_some (show (P.map Prod.snd)[k]? = some j by simp [hk])]
          simp only [ok_bind]
          rw [hx1, hy1]
          simp only [ok_bind]
          rw [hx2, hc.vertices_eq, hy2]
          exact h1
      · exact (hno ⟨p, (iA p).2 p1, (iB p).2 p2⟩).elim)
  obtain ⟨f, h1, h2⟩ := this
  refine ⟨f, ?_, h2⟩
  unfold areaOfIntersection
  rw [List.length_map, h1]

/-- The areas of the boxes with the faces found by the search. -/
theorem boxAreas_spec (hc : Constructed env vertices faces fill nb cpl t bt) (hv : ValidFaces vertices.length fill faces)
    (hcol : faces.ncol ≤ maxNVertex) (hconv : ∀ r ∈ faces.rows, ConvexFace (facePts vertices fill r)) {boxes : List (Box K)}
    (hbox : ∀ q ∈ boxes, q.xmin < q.xmax ∧ q.ymin < q.ymax)
    {sched : List Nat} (hs : sched.Perm (List.range (boxPairs t.data bt boxes).length)) :
    ∃ f, boxAreaOfIntersection boxes t.data.vertices t.data.elements ((boxPairs t.data bt boxes).map Prod.fst)
        ((boxPairs t.data bt boxes).map Prod.snd) sched = .ok ((boxPairs t.data bt boxes).map f) ∧
      ∀ x ∈ boxPairs t.data bt boxes, 
        (f x = 0 ∧ ¬ BoxFaceOverlap boxes vertices fill faces x.1 x.2) ∨
        (BoxFaceOverlap boxes vertices fill faces x.1 x.2 ∧ ∃ q s out, boxes[x.1]? = some q ∧ faces.rows[x.2]? = some s ∧
          ConvexPoly out ∧ (∀ p, InPoly out p ↔ InBox q p ∧ InFace (facePts vertices fill s) p) ∧ f x = shoelace out) := by
  have := prange_pairs_exists (L := boxPairs t.data bt boxes) hs (0 : K)
    (body := fun i => do
      let box ← rd boxes (← rd ((boxPairs t.data bt boxes).map Prod.fst) i)
      let face ← rd t.data.elements (← rd ((boxPairs t.data bt boxes).map Prod.snd) i)
      let a := copyBoxVertices box
      let b ← copyVertices t.data.vertices face
      polygonPolygonClipArea a b)
    (Q := fun x b => (b = 0 ∧ ¬ BoxFaceOverlap boxes vertices fill faces x.1 x.2) ∨
        (BoxFaceOverlap boxes vertices fill faces x.1 x.2 ∧ ∃ q s out, boxes[x.1]? = some q ∧ faces.rows[x.2]? = some s ∧
          ConvexPoly out ∧ (∀ p, InPoly out p ↔ InBox q p ∧ InFace (facePts vertices fill s) p) ∧ b = shoelace out)) (by
      rintro ⟨i, j⟩ hx
      obtain ⟨q, s, hq, hs, _⟩ := (mem_boxPairs_iff hc).1 hx
      have hsm := List.mem_of_getElem? hs
      obtain ⟨hqx, hqy⟩ := hbox q (List.mem_of_getElem? hq)
      have cB := (hconv s hsm).stored (Oriented.row_valid hv hs)
      have iB := (hconv s hsm).inFaceInterior (Oriented.row_valid hv hs)
      have fB := (hconv s hsm).inFace (Oriented.row_valid hv hs)
      have iA := boxPoly_interior hqx hqy
      have l2 := (storedPts_cases hc.elements hcol hs).1
      have hbody : ∀ k, (boxPairs t.data bt boxes)[k]? = some (i, j) → (do
          let box ← rd boxes (← rd ((boxPairs t.data bt boxes).map Prod.fst) k)
          let face ← rd t.data.elements (← rd ((boxPairs t.data bt boxes).map Prod.snd) k)
          let a := copyBoxVertices box
          let b ← copyVertices t.data.vertices face
          polygonPolygonClipArea a b) = polygonPolygonClipArea (copyBoxVertices q) (storedPts vertices fill faces.ncol s) := by
        intro k hk
        obtain ⟨y, hy1, hy2⟩ := bind_eq_ok.1 (hc.elements.polygon hcol hs).1
        rw [rd_of_some (show ((boxPairs t.data bt boxes).map Prod.fst)[k]? = some i by simp [hk]),
          rd_of_some (show ((boxPairs t.data bt boxes).map Prod.snd)[k]? = some j by simp [hk])]
        simp only [ok_bind]
        rw [hy1, rd_of_some hq]
        simp only [ok_bind]
        rw [hc.vertices_eq, hy2, ok_bind]
      have hover : BoxFaceOverlap boxes vertices fill faces i j ↔
          ∃ p, InInterior (copyBoxVertices q) p ∧ InInterior (storedPts vertices fill faces.ncol s) p := by
        constructor
        · rintro ⟨q', s', hq', hs', p, p1, p2⟩
          rw [hq] at hq'; cases hq'
          rw [hs] at hs'; cases hs'
          exact ⟨p, (iA p).2 p1, (iB p).2 p2⟩
        · rintro ⟨p, p1, p2⟩
          exact ⟨q, s, hq, hs, p, (iA p).1 p1, (iB p).1 p2⟩
      rcases clip_none_iff (boxPoly_convex hqx hqy) cB.1 (by
        unfold clipMaxNVertex maxNVertex; unfold maxNVertex at l2
        rw [show (copyBoxVertices q).length = 4 from rfl]; omega) with
        ⟨out, h1, h2, h3, h4⟩ | ⟨h1, hno⟩
      · refine ⟨shoelace out, Or.inr ⟨hover.2 h4, q, s, out, hq, hs, h2, fun p => ?_, rfl⟩, fun k hk => ?_⟩
        · rw [h3, fB, boxPoly_inPoly hqx hqy]
        · exact (hbody k hk).trans h1
      · exact ⟨0, Or.inl ⟨rfl, fun h => hno (hover.1 h)⟩, fun k hk => (hbody k hk).trans h1⟩)
  obtain ⟨f, h1, h2⟩ := this
  refine ⟨f, ?_, h2⟩
  unfold boxAreaOfIntersection
  rw [List.length_map, h1]

/-- Every overlapping pair is found by the search. -/
theorem boxFaceOverlap_mem (hc : Constructed env vertices faces fill nb cpl t bt) (hv : ValidFaces vertices.length fill faces)
    (hcol : faces.ncol ≤ maxNVertex) (hconv : ∀ r ∈ faces.rows, ConvexFace (facePts vertices fill r)) {boxes : List (Box K)}
    {i j : Nat} (h : BoxFaceOverlap boxes vertices fill faces i j) : (i, j) ∈ boxPairs t.data bt boxes := by
  obtain ⟨q, s, hq, hs, p, p1, p2⟩ := h
  have hx : q.xmin < q.xmax := p1.1.trans p1.2.1
  have hy : q.ymin < q.ymax := p1.2.2.1.trans p1.2.2.2
  have hsm := List.mem_of_getElem? hs
  have cB := (hconv s hsm).stored (Oriented.row_valid hv hs)
  have iB := ((hconv s hsm).inFaceInterior (Oriented.row_valid hv hs) p).2 p2
  refine (mem_boxPairs_iff hc).2 ⟨q, s, hq, hs, ?_⟩
  refine (overlap_of_interior (boxPoly_convex hx hy) cB.1 ((boxPoly_interior hx hy p).2 p1) iB fun v hv => ?_).of_mem
    fun v hv => ((storedPts_cases hc.elements hcol hs).2 v).1 hv
  exact (boxPoly_inPoly hx hy v).1 ((boxPoly_convex hx hy).corner_inPoly hv)

end
end
end Celltree
