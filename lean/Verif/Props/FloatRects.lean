import Verif.Proofs.FloatRectStored
import Verif.Proofs.PairAreas
import Verif.Props.FloatFaces
import Verif.Props.FloatPieces

/-!
# Areas of intersection of rectangles in binary64: C92
-/

set_option linter.unusedSectionVars false

namespace Celltree.Fl

variable {vertices verticesA : List (Pt Fl)} {faces facesA : IntArr} {fill fillA nBuckets cellsPerLeaf : Int} {t : CellTree Fl}
  {M : ℚ}

/-! ## Rectangles as polygons -/

section
variable {c : Box ℚ} (hM : 1 / 2 ^ 100 ≤ M) (hM' : M ≤ 2 ^ 198) (hc : GoodRect M c)
include hM hM' hc

theorem GoodRect.pos : c.xmin < c.xmax ∧ c.ymin < c.ymax :=
  ⟨(gap_small hM hM' hc hc hc.wide).1, (gap_small hM hM' hc hc hc.high).1⟩

theorem GoodRect.sat {l : List (Pt ℚ)} (hl : l ~r rectPts c) : SatPoly M l := by
  obtain ⟨x1, x2⟩ := gap_small hM hM' hc hc hc.wide
  obtain ⟨y1, y2⟩ := gap_small hM hM' hc hc hc.high
  have t900 : (1 : ℚ) / 2 ^ 900 ≤ 1 / 2 ^ 200 := inv_pow_le (by norm_num)
  have X1 : 1 / 2 ^ 900 ≤ |c.xmax - c.xmin| := by rw [abs_of_pos (by linarith)]; exact t900.trans x2
  have Y1 : 1 / 2 ^ 900 ≤ |c.ymax - c.ymin| := by rw [abs_of_pos (by linarith)]; exact t900.trans y2
  have X2 : 1 / 2 ^ 900 ≤ |c.xmin - c.xmax| := by rw [abs_sub_comm]; exact X1
  have Y2 : 1 / 2 ^ 900 ≤ |c.ymin - c.ymax| := by rw [abs_sub_comm]; exact Y1
  refine ⟨(boxPoly_convex x1 y1).rotated hl.symm, fun v hv => ?_, fun s hs _ => ?_⟩
  · have := hl.mem_iff.1 hv
    unfold rectPts at this
    simp only [List.mem_cons, List.not_mem_nil, or_false] at this
    rcases this with rfl | rfl | rfl | rfl
    · exact ⟨hc.usual.xmin.2.1, hc.usual.ymin.2.1⟩
    · exact ⟨hc.usual.xmax.2.1, hc.usual.ymin.2.1⟩
    · exact ⟨hc.usual.xmax.2.1, hc.usual.ymax.2.1⟩
    · exact ⟨hc.usual.xmin.2.1, hc.usual.ymax.2.1⟩
  · have := (sides_isRotated hl).mem_iff.1 hs
    unfold rectPts sides at this
    simp only [List.cons_append, List.nil_append, pairs, List.mem_cons, List.not_mem_nil, or_false] at this
    rcases this with rfl | rfl | rfl | rfl
    · exact Or.inl X1
    · exact Or.inr Y1
    · exact Or.inl X2
    · exact Or.inr Y2

theorem GoodRect.square {l : List (Pt ℚ)} (hl : l ~r rectPts c) {p : Pt ℚ} {d : ℚ} (h1 : c.xmin + d ≤ p.x) (h2 : p.x + d ≤ c.xmax)
    (h3 : c.ymin + d ≤ p.y) (h4 : p.y + d ≤ c.ymax) : SquareIn l p d := by
  obtain ⟨x1, y1⟩ := hc.pos hM hM'
  intro q hx hy
  rw [abs_le] at hx hy
  exact ((boxPoly_inPoly x1 y1 q).2 ⟨by linarith [hx.1], by linarith [hx.2], by linarith [hy.1], by linarith [hy.2]⟩).rotated hl.symm

end

theorem common_pos {a c : Box ℚ} (hx : commonX a c ≠ 0) : max a.xmin c.xmin < min a.xmax c.xmax := by
  by_contra h
  exact hx (max_eq_left (by linarith [not_lt.1 h]))

theorem common_pos' {a c : Box ℚ} (hy : commonY a c ≠ 0) : max a.ymin c.ymin < min a.ymax c.ymax := by
  by_contra h
  exact hy (max_eq_left (by linarith [not_lt.1 h]))

theorem rect_mem {pts : List (Pt Fl)} {c : Box ℚ} (h : IsRect pts c) :
    fp ⟨c.xmin, c.ymin⟩ ∈ pts ∧ fp ⟨c.xmax, c.ymax⟩ ∈ pts := by
  obtain ⟨l, hl, h⟩ := h
  have m1 : (⟨c.xmin, c.ymin⟩ : Pt ℚ) ∈ l := hl.mem_iff.2 (by simp [rectPts])
  have m2 : (⟨c.xmax, c.ymax⟩ : Pt ℚ) ∈ l := hl.mem_iff.2 (by simp [rectPts])
  rcases h with h | h <;> rw [h]
  · exact ⟨List.mem_map_of_mem m1, List.mem_map_of_mem m2⟩
  · exact ⟨List.mem_map_of_mem (List.mem_reverse.2 m1), List.mem_map_of_mem (List.mem_reverse.2 m2)⟩

theorem rect_overlap {pts : List (Pt Fl)} {a c : Box ℚ} (h : IsRect pts c) (hx : commonX a c ≠ 0) (hy : commonY a c ≠ 0) :
    BoxOverlapsPts (fbox a) pts := by
  obtain ⟨m1, m2⟩ := rect_mem h
  have h1 := common_pos hx
  have h2 := common_pos' hy
  rw [max_lt_iff, lt_min_iff, lt_min_iff] at h1 h2
  exact ⟨⟨_, m2, (lt_fin _ _).2 h1.1.2⟩, ⟨_, m1, (lt_fin _ _).2 h1.2.1⟩, ⟨_, m2, (lt_fin _ _).2 h2.1.2⟩, _, m1, (lt_fin _ _).2 h2.2.1⟩

theorem filtered_mem {L : List (Nat × Nat)} {f : Nat × Nat → Fl} {i j : Nat} {x : Fl} :
    (i, j, x) ∈ ((L.filter fun x => decide (f x > 0)).map Prod.fst).zip
      (((L.filter fun x => decide (f x > 0)).map Prod.snd).zip ((L.filter fun x => decide (f x > 0)).map f)) ↔
      (i, j) ∈ L ∧ x = f (i, j) ∧ f (i, j) > 0 := by
  rw [zip_zip_map, List.mem_map]
  constructor
  · rintro ⟨y, hy, e⟩
    obtain ⟨h1, h2⟩ := List.mem_filter.1 hy
    simp only [Prod.mk.injEq] at e
    obtain ⟨rfl, rfl, rfl⟩ := e
    exact ⟨h1, rfl, of_decide_eq_true h2⟩
  · rintro ⟨h1, rfl, h2⟩
    exact ⟨(i, j), List.mem_filter.2 ⟨h1, decide_eq_true h2⟩, rfl⟩

/-- **C92** (boxes): in a mesh of rectangles, `intersect_boxes` in binary64 gives for every box and every face the area that
they have in common, up to an error of `2⁻⁴⁰` times the largest coordinate, times the size of what they have in common. A pair
with nothing in common, and a pair that only touches, is not reported. The sides of boxes and faces may be on the same lines,
and corners may coincide. -/
theorem C92_intersect_boxes_accuracy (hm : GoodMesh Fl.env vertices faces fill)
    (ht : Makes Fl.env vertices faces fill nBuckets cellsPerLeaf t) (hM : 1 / 2 ^ 100 ≤ M) (hM' : M ≤ 2 ^ 198)
    (hrect : ∀ r ∈ faces.rows, ∃ c, IsRect (facePts vertices fill r) c ∧ GoodRect M c)
    {boxes : List (Box ℚ)} (hbox : ∀ q ∈ boxes, GoodRect M q)
    {nThreads : Nat} (hn : 0 < nThreads) {sched : List Nat} {sched2 : Nat → List Nat}
    (hs : sched.Perm (List.range nThreads)) (hs2 : ∀ n, (sched2 n).Perm (List.range n)) :
    ∃ ii jj areas, t.intersectBoxes (boxes.map fbox) nThreads sched sched2 = .ok (ii, jj, areas) ∧
      ii.length = jj.length ∧ jj.length = areas.length ∧ (ii.zip jj).Nodup ∧ ii.Pairwise (· ≤ ·) ∧
      (∀ i j x, (i, j, x) ∈ ii.zip (jj.zip areas) → i < boxes.length ∧ j < faces.rows.length) ∧
      ∀ i j q s c, boxes[i]? = some q → faces.rows[j]? = some s → IsRect (facePts vertices fill s) c → GoodRect M c →
        ∃ a, 0 ≤ a ∧ |a - commonX q c * commonY q c| ≤ rectAcc M q c ∧ (commonX q c = 0 ∨ commonY q c = 0 → a = 0) ∧
          ∀ x, (i, j, x) ∈ ii.zip (jj.zip areas) ↔ x = fin a ∧ 0 < a := by
  obtain ⟨hcol, _, bt, hc⟩ := ht.constructed' hm
  have key : ∀ q ∈ boxes, ∀ (j : Nat) s, faces.rows[j]? = some s → ∀ c, IsRect (facePts vertices fill s) c → GoodRect M c →
      ∃ x, polygonPolygonClipArea (copyBoxVertices (fbox q)) (storedPts vertices fill faces.ncol s) = .ok (fin x) ∧ 0 ≤ x ∧
        |x - commonX q c * commonY q c| ≤ rectAcc M q c ∧ (commonX q c = 0 ∨ commonY q c = 0 → x = 0) := by
    intro q hq j s hs c h1 h2
    obtain ⟨l, hl, e⟩ := rect_stored hM hM' h2 ((hm.valid.rows s (List.mem_of_getElem? hs)).row (hm.valid.rect s (List.mem_of_getElem? hs))) h1
    rw [e]
    exact rect_area hM hM' (hbox q hq) h2 (List.IsRotated.refl (rectPts q)) hl
  obtain ⟨L, f, h1, h2, h3, h4, h5⟩ := intersectBoxes_areas hc hcol (boxes := boxes.map fbox) hn hs hs2 (by
    intro q' hq' s hs _
    obtain ⟨q, hq, rfl⟩ := List.mem_map.1 hq'
    obtain ⟨j, hj⟩ := List.mem_iff_getElem?.1 hs
    obtain ⟨c, hc1, hc2⟩ := hrect s hs
    obtain ⟨x, hx, _⟩ := key q hq j s hj c hc1 hc2
    exact ⟨_, hx⟩)
  refine ⟨_, _, _, h1, by simp, by simp, ?_, ?_, ?_, ?_⟩
  · rw [zip_fst_snd]; exact h2.filter _
  · rw [List.pairwise_map]; exact h3.filter _
  · intro i j x hx
    obtain ⟨q, s, g1, g2, _⟩ := (h4 i j).1 (filtered_mem.1 hx).1
    rw [List.getElem?_map] at g1
    obtain ⟨q', g1, _⟩ := Option.map_eq_some_iff.1 g1
    exact ⟨(List.getElem?_eq_some_iff.1 g1).1, (List.getElem?_eq_some_iff.1 g2).1⟩
  · intro i j q s c hi hj r1 r2
    have hi' : (boxes.map fbox)[i]? = some (fbox q) := by rw [List.getElem?_map, hi]; rfl
    obtain ⟨x, x1, x2, x3, x4⟩ := key q (List.mem_of_getElem? hi) j s hj c r1 r2
    refine ⟨x, x2, x3, x4, fun y => ?_⟩
    rw [filtered_mem]
    by_cases hmem : (i, j) ∈ L
    · have e := Except.ok.inj ((h5 i j _ s hmem hi' hj).symm.trans x1)
      rw [e, gt_iff_lt, zero_def, lt_fin]
      exact ⟨fun h => h.2, fun h => ⟨hmem, h⟩⟩
    · have h0 : x = 0 := x4 (by
        by_contra hno
        push Not at hno
        exact hmem ((h4 i j).2 ⟨_, s, hi', hj, rect_overlap r1 hno.1 hno.2⟩))
      constructor
      · intro h; exact absurd h.1 hmem
      · intro h; rw [h0] at h; exact absurd h.2 (lt_irrefl _)

/-- **C92** (faces): the same for `intersect_faces`, if the query faces are rectangles. -/
theorem C92_intersect_faces_accuracy (hm : GoodMesh Fl.env vertices faces fill)
    (ht : Makes Fl.env vertices faces fill nBuckets cellsPerLeaf t) (hM : 1 / 2 ^ 100 ≤ M) (hM' : M ≤ 2 ^ 198)
    (hrect : ∀ r ∈ faces.rows, ∃ c, IsRect (facePts vertices fill r) c ∧ GoodRect M c)
    (hvA : ValidFaces verticesA.length fillA facesA) (hcolA : facesA.ncol ≤ maxNVertex)
    (hrectA : ∀ r ∈ facesA.rows, ∃ c, IsRect (facePts verticesA fillA r) c ∧ GoodRect M c)
    {h : Heap} {ref : Nat} (href : h[ref]? = some facesA)
    {nThreads : Nat} (hn : 0 < nThreads) {sched sched1 : List Nat} {sched2 sched3 : Nat → List Nat}
    (hs : sched.Perm (List.range facesA.rows.length)) (hs1 : sched1.Perm (List.range nThreads))
    (hs2 : ∀ n, (sched2 n).Perm (List.range n)) (hs3 : ∀ n, (sched3 n).Perm (List.range n)) :
    ∃ h' ii jj areas, t.intersectFacesH Fl.env h verticesA ref fillA nThreads sched sched1 sched2 sched3 =
        .ok (h', ii, jj, areas) ∧
      ii.length = jj.length ∧ jj.length = areas.length ∧ (ii.zip jj).Nodup ∧ ii.Pairwise (· ≤ ·) ∧
      (∀ i j x, (i, j, x) ∈ ii.zip (jj.zip areas) → i < facesA.rows.length ∧ j < faces.rows.length) ∧
      ∀ i j r s q c, facesA.rows[i]? = some r → faces.rows[j]? = some s → IsRect (facePts verticesA fillA r) q → GoodRect M q →
        IsRect (facePts vertices fill s) c → GoodRect M c →
        ∃ a, 0 ≤ a ∧ |a - commonX q c * commonY q c| ≤ rectAcc M q c ∧ (commonX q c = 0 ∨ commonY q c = 0 → a = 0) ∧
          ∀ x, (i, j, x) ∈ ii.zip (jj.zip areas) ↔ x = fin a ∧ 0 < a := by
  obtain ⟨hcol, _, bt, hc⟩ := ht.constructed' hm
  have hM0 : 0 < M := lt_of_lt_of_le (by positivity) hM
  have key : ∀ (i : Nat) r, facesA.rows[i]? = some r → ∀ (j : Nat) s, faces.rows[j]? = some s →
      ∀ q, IsRect (facePts verticesA fillA r) q → GoodRect M q → ∀ c, IsRect (facePts vertices fill s) c → GoodRect M c →
      ∃ x, polygonPolygonClipArea (storedPts verticesA fillA facesA.ncol r) (storedPts vertices fill faces.ncol s) =
          .ok (fin x) ∧ 0 ≤ x ∧
        |x - commonX q c * commonY q c| ≤ rectAcc M q c ∧ (commonX q c = 0 ∨ commonY q c = 0 → x = 0) := by
    intro i r hr j s hs q g1 g2 c h1 h2
    obtain ⟨l, hl, e⟩ := rect_stored hM hM' h2 ((hm.valid.rows s (List.mem_of_getElem? hs)).row (hm.valid.rect s (List.mem_of_getElem? hs))) h1
    obtain ⟨l', hl', e'⟩ := rect_stored hM hM' g2 ((hvA.rows r (List.mem_of_getElem? hr)).row (hvA.rect r (List.mem_of_getElem? hr))) g1
    rw [e, e']
    exact rect_area hM hM' g2 h2 hl' hl
  have hnA : NumFaces verticesA fillA facesA := by
    intro r hr p hp
    obtain ⟨q, ⟨l, _, hl⟩, _⟩ := hrectA r hr
    have : ∃ v : Pt ℚ, p = fp v := by
      rcases hl with hl | hl <;> rw [hl] at hp <;> obtain ⟨v, _, e⟩ := List.mem_map.1 hp <;> exact ⟨v, e.symm⟩
    obtain ⟨v, rfl⟩ := this
    exact ⟨(nofun : fin _ ≠ nan), (nofun : fin _ ≠ nan)⟩
  obtain ⟨h', L, f, h1, h2, h3, h4, h5, h6⟩ := intersectFaces_areas (env := Fl.env) hc hcol hvA hcolA hnA href hn hs hs1 hs2 hs3 (by
    intro r hr s hs _
    obtain ⟨i, hi⟩ := List.mem_iff_getElem?.1 hr
    obtain ⟨j, hj⟩ := List.mem_iff_getElem?.1 hs
    obtain ⟨c, hc1, hc2⟩ := hrect s hs
    obtain ⟨q, hq1, hq2⟩ := hrectA r hr
    obtain ⟨x, hx, _⟩ := key i r hi j s hj q hq1 hq2 c hc1 hc2
    exact ⟨_, hx⟩)
  refine ⟨h', _, _, _, h1, by simp, by simp, ?_, ?_, ?_, ?_⟩
  · rw [zip_fst_snd]; exact h2.filter _
  · rw [List.pairwise_map]; exact h3.filter _
  · intro i j x hx
    obtain ⟨r, s, g1, g2⟩ := h4 i j (filtered_mem.1 hx).1
    exact ⟨(List.getElem?_eq_some_iff.1 g1).1, (List.getElem?_eq_some_iff.1 g2).1⟩
  · intro i j r s q c hi hj g1 g2 r1 r2
    obtain ⟨x, x1, x2, x3, x4⟩ := key i r hi j s hj q g1 g2 c r1 r2
    by_cases hmem : (i, j) ∈ L
    · refine ⟨x, x2, x3, x4, fun y => ?_⟩
      have e := Except.ok.inj ((h6 i j r s hmem hi hj).symm.trans x1)
      rw [filtered_mem, e, gt_iff_lt, zero_def, lt_fin]
      exact ⟨fun h => h.2, fun h => ⟨hmem, h⟩⟩
    · have hW : 0 ≤ commonX q c := le_max_left _ _
      have hH : 0 ≤ commonY q c := le_max_left _ _
      refine ⟨0, le_rfl, ?_, fun _ => rfl, fun y => ?_⟩
      · -- a pair that is not found has almost nothing in common
        have small : commonX q c ≤ M / 2 ^ 50 ∨ commonY q c ≤ M / 2 ^ 50 := by
          by_contra hno
          push Not at hno
          have hd : 0 < M / 2 ^ 50 := by positivity
          have e51 : M / 2 ^ 50 = 2 * (M / 2 ^ 51) := by ring
          have hx := common_pos (a := q) (c := c) (by linarith [hno.1])
          have hy := common_pos' (a := q) (c := c) (by linarith [hno.2])
          have ex : commonX q c = min q.xmax c.xmax - max q.xmin c.xmin := max_eq_right (by linarith)
          have ey : commonY q c = min q.ymax c.ymax - max q.ymin c.ymin := max_eq_right (by linarith)
          rw [ex, ey, e51] at hno
          obtain ⟨l, hl, fl⟩ := g1
          obtain ⟨l', hl', fl'⟩ := r1
          have a1 := min_le_left q.xmax c.xmax
          have a2 := min_le_right q.xmax c.xmax
          have a3 := le_max_left q.xmin c.xmin
          have a4 := le_max_right q.xmin c.xmin
          have a5 := min_le_left q.ymax c.ymax
          have a6 := min_le_right q.ymax c.ymax
          have a7 := le_max_left q.ymin c.ymin
          have a8 := le_max_right q.ymin c.ymin
          have s1 := g2.square hM hM' hl (p := ⟨max q.xmin c.xmin + M / 2 ^ 51, max q.ymin c.ymin + M / 2 ^ 51⟩) (d := M / 2 ^ 51)
            (by simp only; linarith) (by simp only; linarith) (by simp only; linarith) (by simp only; linarith)
          have s2 := r2.square hM hM' hl' (p := ⟨max q.xmin c.xmin + M / 2 ^ 51, max q.ymin c.ymin + M / 2 ^ 51⟩) (d := M / 2 ^ 51)
            (by simp only; linarith) (by simp only; linarith) (by simp only; linarith) (by simp only; linarith)
          have gA := g2.sat hM hM' hl
          have gB := r2.sat hM hM' hl'
          have big : ∀ {l : List (Pt ℚ)}, SatPoly M l → ∀ v ∈ l, Bnd (2 ^ 400) v := fun g v hv =>
            ⟨(g.bnd v hv).1.trans (hM'.trans (pow_le_pow_right₀ (by norm_num) (by norm_num))),
              (g.bnd v hv).2.trans (hM'.trans (pow_le_pow_right₀ (by norm_num) (by norm_num)))⟩
          obtain ⟨rows, _, ho⟩ := counterClockwise_oriented hvA hs
          obtain ⟨_, _, hb⟩ := buildFaceBboxes_spec ho hnA
          obtain ⟨a, _, ha⟩ := hb.box i r hi
          obtain ⟨t1, t2, t3⟩ := overlap_tests hM fl fl' gA gB s1 s2 ha
          refine hmem ((h5 i j r s hi hj).2 ⟨t1, ?_⟩)
          obtain ⟨A', hA', eA⟩ := FaceIs.poly fl (ho.polygon hcolA hi).2.1
          obtain ⟨B', hB', eB⟩ := FaceIs.poly fl' (hc.elements.polygon hcol hj).2.1
          rw [eA, eB, separatingAxes_fl rfl rfl (big gA) (big gB) gA.convex.ne_nil gB.convex.ne_nil hA' hB',
            separatingAxes_fl rfl rfl (big gB) (big gA) gB.convex.ne_nil gA.convex.ne_nil hB' hA']
          exact ⟨t2, t3⟩
        rw [zero_sub, abs_neg, abs_of_nonneg (mul_nonneg hW hH)]
        unfold rectAcc
        have e50 : M / 2 ^ 40 = 1024 * (M / 2 ^ 50) := by ring
        have hd : 0 < M / 2 ^ 50 := by positivity
        rw [e50]
        generalize M / 2 ^ 50 = d at *
        generalize commonX q c = W at *
        generalize commonY q c = H at *
        rcases small with h | h
        · nlinarith [mul_le_mul_of_nonneg_right h hH, mul_nonneg hd.le hW, mul_nonneg hd.le hH, mul_pos hd hd]
        · nlinarith [mul_le_mul_of_nonneg_left h hW, mul_nonneg hd.le hW, mul_nonneg hd.le hH, mul_pos hd hd]
      · rw [filtered_mem]
        constructor
        · intro h; exact absurd h.1 hmem
        · intro h; exact absurd h.2 (lt_irrefl _)

/-! ## An example: cells of 0.1 by 0.2 -/

end Celltree.Fl

namespace Celltree.Ex

open Fl

/-- `0.1`, `0.2`, `0.3` and `0.4` in binary64. -/
def dec1 : ℚ := 3602879701896397 / 2 ^ 55
def dec2 : ℚ := 3602879701896397 / 2 ^ 54
def dec3 : ℚ := 5404319552844595 / 2 ^ 54
def dec4 : ℚ := 3602879701896397 / 2 ^ 53

/-- Two cells. The first is clockwise. -/
def decVerts : List (Pt Fl) :=
  [fp ⟨dec1, dec1⟩, fp ⟨dec2, dec1⟩, fp ⟨dec3, dec1⟩, fp ⟨dec1, dec3⟩, fp ⟨dec2, dec3⟩, fp ⟨dec3, dec3⟩]
def decFaces : IntArr := ⟨4, [[1, 0, 3, 4], [4, 1, 2, 5]]⟩

/-- The lower half of the mesh, and a box that touches the mesh. -/
def decBoxes : List (Box ℚ) := [⟨dec1, dec3, dec1, dec2⟩, ⟨dec3, dec4, dec1, dec2⟩]

theorem dec_usual {x : ℚ} (h : x = dec1 ∨ x = dec2 ∨ x = dec3 ∨ x = dec4) : Usual 1 x := by
  have e55 : (2 : ℚ) ^ (-55 : ℤ) = 1 / 2 ^ 55 := by rw [zpow_neg, one_div]; rfl
  have e54 : (2 : ℚ) ^ (-54 : ℤ) = 1 / 2 ^ 54 := by rw [zpow_neg, one_div]; rfl
  have e53 : (2 : ℚ) ^ (-53 : ℤ) = 1 / 2 ^ 53 := by rw [zpow_neg, one_div]; rfl
  rcases h with rfl | rfl | rfl | rfl
  · exact ⟨⟨3602879701896397, -55, by rw [e55]; unfold dec1; norm_num, by norm_num, by norm_num⟩, by decide +kernel, Or.inr (by decide +kernel)⟩
  · exact ⟨⟨3602879701896397, -54, by rw [e54]; unfold dec2; norm_num, by norm_num, by norm_num⟩, by decide +kernel, Or.inr (by decide +kernel)⟩
  · exact ⟨⟨5404319552844595, -54, by rw [e54]; unfold dec3; norm_num, by norm_num, by norm_num⟩, by decide +kernel, Or.inr (by decide +kernel)⟩
  · exact ⟨⟨3602879701896397, -53, by rw [e53]; unfold dec4; norm_num, by norm_num, by norm_num⟩, by decide +kernel, Or.inr (by decide +kernel)⟩

theorem dec_rect {c : Box ℚ} (h1 : c.xmin ∈ [dec1, dec2, dec3, dec4]) (h2 : c.xmax ∈ [dec1, dec2, dec3, dec4])
    (h3 : c.ymin ∈ [dec1, dec2, dec3, dec4]) (h4 : c.ymax ∈ [dec1, dec2, dec3, dec4])
    (hx : c.xmin + 1 / 2 ^ 42 ≤ c.xmax) (hy : c.ymin + 1 / 2 ^ 42 ≤ c.ymax) : GoodRect 1 c := by
  have hp : (0 : ℚ) < 1 / 2 ^ 42 := by positivity
  exact ⟨⟨dec_usual (by simpa using h1), dec_usual (by simpa using h2), dec_usual (by simpa using h3), dec_usual (by simpa using h4),
    by linarith, by linarith⟩, hx, hy⟩

theorem dec_good : GoodMesh Fl.env decVerts decFaces (-1) :=
  ⟨⟨by decide, fun r hr => by
    simp only [decFaces, List.mem_cons, List.not_mem_nil, or_false] at hr
    rcases hr with rfl | rfl <;> exact ⟨by decide, by decide, by decide⟩⟩, by
      intro r hr p hp
      have : ∀ p ∈ decVerts, p.x ≠ Fl.nan ∧ p.y ≠ Fl.nan := by decide +kernel
      unfold facePts at hp
      obtain ⟨k, _, hk⟩ := List.mem_filterMap.1 hp
      exact this p (List.mem_of_getElem? hk), nofun, nofun⟩

def decCell : Box ℚ := ⟨dec1, dec2, dec1, dec3⟩
def decCell2 : Box ℚ := ⟨dec2, dec3, dec1, dec3⟩

theorem decCell_good : GoodRect 1 decCell :=
  dec_rect (by decide +kernel) (by decide +kernel) (by decide +kernel) (by decide +kernel) (by decide +kernel) (by decide +kernel)

theorem decCell2_good : GoodRect 1 decCell2 :=
  dec_rect (by decide +kernel) (by decide +kernel) (by decide +kernel) (by decide +kernel) (by decide +kernel) (by decide +kernel)

theorem decCell_rect : IsRect (facePts decVerts (-1) [1, 0, 3, 4]) decCell :=
  ⟨[⟨dec2, dec3⟩, ⟨dec1, dec3⟩, ⟨dec1, dec1⟩, ⟨dec2, dec1⟩], ⟨2, by decide +kernel⟩, Or.inr (by decide +kernel)⟩

theorem decCell2_rect : IsRect (facePts decVerts (-1) [4, 1, 2, 5]) decCell2 :=
  ⟨[⟨dec2, dec3⟩, ⟨dec2, dec1⟩, ⟨dec3, dec1⟩, ⟨dec3, dec3⟩], ⟨1, by decide +kernel⟩, Or.inl (by decide +kernel)⟩

theorem dec_rects : ∀ r ∈ decFaces.rows, ∃ c, IsRect (facePts decVerts (-1) r) c ∧ GoodRect 1 c := by
  intro r hr
  simp only [decFaces, List.mem_cons, List.not_mem_nil, or_false] at hr
  rcases hr with rfl | rfl
  · exact ⟨_, decCell_rect, decCell_good⟩
  · exact ⟨_, decCell2_rect, decCell2_good⟩

theorem decBoxes_good : ∀ q ∈ decBoxes, GoodRect 1 q := by
  intro q hq
  simp only [decBoxes, List.mem_cons, List.not_mem_nil, or_false] at hq
  rcases hq with rfl | rfl
  · exact dec_rect (by decide +kernel) (by decide +kernel) (by decide +kernel) (by decide +kernel) (by decide +kernel) (by decide +kernel)
  · exact dec_rect (by decide +kernel) (by decide +kernel) (by decide +kernel) (by decide +kernel) (by decide +kernel) (by decide +kernel)

/-- The run: two areas of about `0.01`, with different rounding errors. The second box is not reported. -/
theorem dec_run : ∃ t, Makes Fl.env decVerts decFaces (-1) 4 2 t ∧
    t.intersectBoxes (decBoxes.map fbox) 1 [0] List.range =
      .ok ([0, 0], [0, 1], [fin (1441151880758559 / 2 ^ 57), fin (2882303761517117 / 2 ^ 58)]) := by
  obtain ⟨t, h1, h2⟩ := bind_eq_ok.1 (show (CellTree.init Fl.env decVerts decFaces (-1) 4 2 [0, 1] >>= fun t =>
      t.intersectBoxes (decBoxes.map fbox) 1 [0] List.range) =
        .ok ([0, 0], [0, 1], [fin (1441151880758559 / 2 ^ 57), fin (2882303761517117 / 2 ^ 58)])
      by decide +kernel)
  exact ⟨t, ⟨_, by decide, h1⟩, h2⟩

/-- The same with the mesh as query: each cell has an area in common with itself only. -/
theorem dec_run_faces : ∃ t h', Makes Fl.env decVerts decFaces (-1) 4 2 t ∧
    t.intersectFacesH Fl.env [decFaces] decVerts 0 (-1) 1 [0, 1] [0] List.range List.range =
      .ok (h', [0, 1], [0, 1], [fin (5764607523034235 / 2 ^ 58), fin (5764607523034233 / 2 ^ 58)]) := by
  obtain ⟨t, h1, h2⟩ := bind_eq_ok.1 (show (CellTree.init Fl.env decVerts decFaces (-1) 4 2 [0, 1] >>= fun t =>
      t.intersectFacesH Fl.env [decFaces] decVerts 0 (-1) 1 [0, 1] [0] List.range List.range) =
        .ok ([decFaces, ⟨4, [[4, 3, 0, 1], [4, 1, 2, 5]]⟩], [0, 1], [0, 1], [fin (5764607523034235 / 2 ^ 58), fin (5764607523034233 / 2 ^ 58)])
      by decide +kernel)
  exact ⟨t, _, ⟨_, by decide, h1⟩, h2⟩

end Celltree.Ex

namespace Celltree.Fl

example : ∃ (t : CellTree Fl) (ii jj : List Nat) (areas : List Fl) (a : ℚ), Makes Fl.env Ex.decVerts Ex.decFaces (-1) 4 2 t ∧
    t.intersectBoxes (Ex.decBoxes.map fbox) 1 [0] List.range = .ok (ii, jj, areas) ∧ (0, 1, fin a) ∈ ii.zip (jj.zip areas) ∧
    |a - 1 / 100| ≤ 1 / 10 ^ 11 := by
  obtain ⟨t, h1, _⟩ := Ex.dec_run
  obtain ⟨ii, jj, areas, g1, _, _, _, _, _, g2⟩ := C92_intersect_boxes_accuracy (M := 1) Ex.dec_good h1 (by norm_num) (by norm_num)
    Ex.dec_rects Ex.decBoxes_good (nThreads := 1) (by decide) (sched := [0]) (sched2 := List.range) (by decide) (fun n => List.Perm.refl _)
  obtain ⟨a, _, a2, _, a4⟩ := g2 0 1 _ _ _ rfl rfl Ex.decCell2_rect Ex.decCell2_good
  have e1 : rectAcc 1 ⟨Ex.dec1, Ex.dec3, Ex.dec1, Ex.dec2⟩ Ex.decCell2 ≤ 1 / 10 ^ 12 := by decide +kernel
  have e2 : |commonX ⟨Ex.dec1, Ex.dec3, Ex.dec1, Ex.dec2⟩ Ex.decCell2 * commonY ⟨Ex.dec1, Ex.dec3, Ex.dec1, Ex.dec2⟩ Ex.decCell2 -
      1 / 100| ≤ 1 / 10 ^ 15 := by decide +kernel
  have e3 : |a - 1 / 100| ≤ 1 / 10 ^ 11 := by
    rw [abs_le] at a2 e2 ⊢
    constructor <;> linarith [a2.1, a2.2, e2.1, e2.2]
  refine ⟨t, ii, jj, areas, a, h1, g1, (a4 _).2 ⟨rfl, ?_⟩, e3⟩
  rw [abs_le] at e3
  linarith [e3.1]

end Celltree.Fl
