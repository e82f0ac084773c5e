import Verif.Proofs.FloatSeparate
import Verif.Props.FloatQueries

/-!
# Search for faces in binary64: C76 and C78
-/

set_option linter.unusedSectionVars false

namespace Celltree.Fl

variable {vertices verticesA : List (Pt Fl)} {faces facesA : IntArr} {fill nBuckets cellsPerLeaf : Int} {t : CellTree Fl}
  {M : ℚ}

/-- What `locate_faces` reports, in terms of the computed projections. -/
theorem locateFaces_fl (hm : GoodMesh Fl.env vertices faces fill) (ht : Makes Fl.env vertices faces fill nBuckets cellsPerLeaf t)
    (hvA : ValidFaces verticesA.length (-1) facesA) (hcolA : facesA.ncol ≤ maxNVertex)
    (hnA : ∀ r ∈ facesA.rows, NumPts (facePts verticesA (-1) r))
    {nThreads : Nat} (hn : 0 < nThreads) {sched sched1 : List Nat} {sched2 : Nat → List Nat}
    (hs : sched.Perm (List.range facesA.rows.length)) (hs1 : sched1.Perm (List.range nThreads))
    (hs2 : ∀ n, (sched2 n).Perm (List.range n)) :
    ∃ rows ii jj, t.locateFaces Fl.env verticesA facesA nThreads sched sched1 sched2 = .ok (rows, ii, jj) ∧
      ∀ i j r s A B, facesA.rows[i]? = some r → faces.rows[j]? = some s → FaceIs verticesA (-1) r A → FaceIs vertices fill s B →
        (∀ v ∈ A, Bnd (2 ^ 400) v) → (∀ v ∈ B, Bnd (2 ^ 400) v) → A ≠ [] → B ≠ [] →
        (∃ a, IsBBox (facePts verticesA (-1) r) a) ∧ ((i, j) ∈ ii.zip jj ↔
          (∃ a, IsBBox (facePts verticesA (-1) r) a ∧ BoxOverlapsPts a (facePts vertices fill s)) ∧
          (∀ s ∈ sides A, nv s ≠ ⟨0, 0⟩ → OverlapOn (nv s) A B) ∧ ∀ s ∈ sides B, nv s ≠ ⟨0, 0⟩ → OverlapOn (nv s) B A) := by
  obtain ⟨hcol, _, bt, hc⟩ := ht.constructed' hm
  obtain ⟨rows, hr, ho⟩ := counterClockwise_oriented hvA hs
  have hr' : counterClockwise verticesA facesA.rows sched = .ok rows := by
    rw [← hr]
    congr 1
    conv => lhs; rw [← List.map_id facesA.rows]
    exact List.map_congr_left fun r hr => padRow_of_valid (hvA.rows r hr) (hvA.rect r hr)
  obtain ⟨boxes, L, P, f, h1, h2, h3, rfl, _, _, _, h8⟩ := faceSearch_total hc hcol hcolA ho hnA hn hs1 hs2
  refine ⟨rows, (L.filter f).map Prod.fst, (L.filter f).map Prod.snd, ?_, ?_⟩
  · unfold CellTree.locateFaces
    rw [hr', ok_bind, h1, ok_bind, h2, ok_bind]
    simp only [List.length_map]
    rw [h3, ok_bind, applyMask_map, applyMask_map]
  · intro i j r s A B hi hj fA fB bA bB nA nB
    obtain ⟨_, _, hb⟩ := buildFaceBboxes_spec ho hnA
    refine ⟨(hb.box i r hi).imp fun _ h => h.2, ?_⟩
    rw [zip_fst_snd, h8 i j r s hi hj]
    obtain ⟨A', hA', eA⟩ := fA.poly (ho.polygon hcolA hi).2.1
    obtain ⟨B', hB', eB⟩ := fB.poly (hc.elements.polygon hcol hj).2.1
    rw [eA, eB, separatingAxes_fl rfl rfl bA bB nA nB hA' hB', separatingAxes_fl rfl rfl bB bA nB nA hB' hA']

theorem _root_.Celltree.FaceIs.mem {r : List Int} {l : List (Pt ℚ)} (h : FaceIs vertices fill r l) (p : Pt Fl) :
    p ∈ facePts vertices fill r ↔ ∃ v ∈ l, fp v = p := by
  rcases h with h | h <;> rw [h] <;> simp

/-- Two polygons with a square in common pass the tests of `locate_faces`. -/
theorem overlap_tests {fillA : Int} {r s : List Int} {A B : List (Pt ℚ)} {c : Pt ℚ} {a : Box Fl} (hM : 1 / 2 ^ 100 ≤ M)
    (fA : FaceIs verticesA fillA r A) (fB : FaceIs vertices fill s B) (gA : SatPoly M A) (gB : SatPoly M B)
    (sA : SquareIn A c (M / 2 ^ 51)) (sB : SquareIn B c (M / 2 ^ 51)) (ha : IsBBox (facePts verticesA fillA r) a) :
    (∃ a, IsBBox (facePts verticesA fillA r) a ∧ BoxOverlapsPts a (facePts vertices fill s)) ∧
      (∀ s ∈ sides A, nv s ≠ ⟨0, 0⟩ → OverlapOn (nv s) A B) ∧ ∀ s ∈ sides B, nv s ≠ ⟨0, 0⟩ → OverlapOn (nv s) B A := by
  have hM0 : 0 < M := lt_of_lt_of_le (by positivity) hM
  have hr0 : 0 < M / 2 ^ 51 := by positivity
  refine ⟨?_, fun x hx h0 => ?_, fun x hx h0 => ?_⟩
  · refine ⟨a, ha, ?_⟩
    have pick : ∀ d : Pt ℚ, d.x ≠ 0 ∨ d.y ≠ 0 → ∀ qa qb : Pt ℚ, InPoly A qa → InPoly B qb → along d qa < along d qb →
        ∃ v ∈ A, ∃ w ∈ B, along d v < along d w := by
      intro d hd qa qb ia ib hlt
      obtain ⟨v, hv, v1⟩ := gA.convex.exists_le ia hd
      obtain ⟨w, hw, w1⟩ := gB.convex.exists_ge ib hd
      exact ⟨v, hv, w, hw, by linarith⟩
    have q1 : |(⟨c.x - M / 2 ^ 51, c.y - M / 2 ^ 51⟩ : Pt ℚ).x - c.x| ≤ M / 2 ^ 51 := by
      simp only; rw [sub_sub_cancel_left, abs_neg, abs_of_pos hr0]
    have q2 : |(⟨c.x - M / 2 ^ 51, c.y - M / 2 ^ 51⟩ : Pt ℚ).y - c.y| ≤ M / 2 ^ 51 := by
      simp only; rw [sub_sub_cancel_left, abs_neg, abs_of_pos hr0]
    have q3 : |(⟨c.x + M / 2 ^ 51, c.y + M / 2 ^ 51⟩ : Pt ℚ).x - c.x| ≤ M / 2 ^ 51 := by
      simp only; rw [add_sub_cancel_left, abs_of_pos hr0]
    have q4 : |(⟨c.x + M / 2 ^ 51, c.y + M / 2 ^ 51⟩ : Pt ℚ).y - c.y| ≤ M / 2 ^ 51 := by
      simp only; rw [add_sub_cancel_left, abs_of_pos hr0]
    have inb := fun v (hv : v ∈ A) => ha.contains _ ((fA.mem (fp v)).2 ⟨v, hv, rfl⟩)
    refine ⟨?_, ?_, ?_, ?_⟩
    · obtain ⟨v, hv, w, hw, hlt⟩ := pick ⟨1, 0⟩ (Or.inl one_ne_zero) _ _ (sA _ q1 q2) (sB _ q3 q4)
        (by unfold along; simp only; linarith)
      unfold along at hlt
      simp only at hlt
      exact ⟨fp w, (fB.mem _).2 ⟨w, hw, rfl⟩, NumOrd.lt_of_le_of_lt (inb v hv).1 ((lt_fin _ _).2 (by linarith))⟩
    · obtain ⟨v, hv, w, hw, hlt⟩ := pick ⟨-1, 0⟩ (Or.inl (by norm_num)) _ _ (sA _ q3 q4) (sB _ q1 q2)
        (by unfold along; simp only; linarith)
      unfold along at hlt
      simp only at hlt
      exact ⟨fp w, (fB.mem _).2 ⟨w, hw, rfl⟩, NumOrd.lt_of_lt_of_le ((lt_fin _ _).2 (by linarith)) (inb v hv).2.1⟩
    · obtain ⟨v, hv, w, hw, hlt⟩ := pick ⟨0, 1⟩ (Or.inr one_ne_zero) _ _ (sA _ q1 q2) (sB _ q3 q4)
        (by unfold along; simp only; linarith)
      unfold along at hlt
      simp only at hlt
      exact ⟨fp w, (fB.mem _).2 ⟨w, hw, rfl⟩, NumOrd.lt_of_le_of_lt (inb v hv).2.2.1 ((lt_fin _ _).2 (by linarith))⟩
    · obtain ⟨v, hv, w, hw, hlt⟩ := pick ⟨0, -1⟩ (Or.inr (by norm_num)) _ _ (sA _ q3 q4) (sB _ q1 q2)
        (by unfold along; simp only; linarith)
      unfold along at hlt
      simp only at hlt
      exact ⟨fp w, (fB.mem _).2 ⟨w, hw, rfl⟩, NumOrd.lt_of_lt_of_le ((lt_fin _ _).2 (by linarith)) (inb v hv).2.2.2⟩
  · by_cases e : x.1 = x.2
    · exact absurd (nv_eq e) h0
    · exact overlapOn_of_square gA.convex gB.convex gA.bnd gB.bnd sA sB hM (nrm_nv (gA.apart x hx e)) le_rfl
  · by_cases e : x.1 = x.2
    · exact absurd (nv_eq e) h0
    · exact overlapOn_of_square gB.convex gA.convex gB.bnd gA.bnd sB sA hM (nrm_nv (gB.apart x hx e)) le_rfl

/-- **C78**: `locate_faces` in binary64 finds every pair of convex faces that have a square in common with a half-width of
`2⁻⁵¹` times the largest coordinate, with any number of threads and any schedule. -/
theorem C78_overlap_found (hm : GoodMesh Fl.env vertices faces fill)
    (ht : Makes Fl.env vertices faces fill nBuckets cellsPerLeaf t)
    (hvA : ValidFaces verticesA.length (-1) facesA) (hcolA : facesA.ncol ≤ maxNVertex)
    (hnA : ∀ r ∈ facesA.rows, NumPts (facePts verticesA (-1) r))
    {nThreads : Nat} (hn : 0 < nThreads) {sched sched1 : List Nat} {sched2 : Nat → List Nat}
    (hs : sched.Perm (List.range facesA.rows.length)) (hs1 : sched1.Perm (List.range nThreads))
    (hs2 : ∀ n, (sched2 n).Perm (List.range n)) (hM : 1 / 2 ^ 100 ≤ M) (hM' : M ≤ 2 ^ 400) :
    ∃ rows ii jj, t.locateFaces Fl.env verticesA facesA nThreads sched sched1 sched2 = .ok (rows, ii, jj) ∧
      ∀ i j r s A B c, facesA.rows[i]? = some r → faces.rows[j]? = some s →
        FaceIs verticesA (-1) r A → FaceIs vertices fill s B → SatPoly M A → SatPoly M B →
        SquareIn A c (M / 2 ^ 51) → SquareIn B c (M / 2 ^ 51) → (i, j) ∈ ii.zip jj := by
  obtain ⟨rows, ii, jj, h1, h2⟩ := locateFaces_fl hm ht hvA hcolA hnA hn hs hs1 hs2
  refine ⟨rows, ii, jj, h1, fun i j r s A B c hi hj fA fB gA gB sA sB => ?_⟩
  have big : ∀ {l : List (Pt ℚ)}, SatPoly M l → ∀ v ∈ l, Bnd (2 ^ 400) v := fun g v hv =>
    ⟨(g.bnd v hv).1.trans hM', (g.bnd v hv).2.trans hM'⟩
  obtain ⟨⟨a, ha⟩, h3⟩ := h2 i j r s A B hi hj fA fB (big gA) (big gB) gA.convex.ne_nil gB.convex.ne_nil
  rw [h3]
  exact overlap_tests hM fA fB gA gB sA sB ha

/-- **C76**, the part that holds: a pair of convex faces that `locate_faces` reports overlaps, in binary64, up to rounding:
for every side of one of the faces a corner of the other face is on the inner side of the line through that side, or beyond it
by at most `2⁻⁴⁹` times the largest coordinate. Missing: that the faces overlap. -/
theorem C76_reported_close_partial (hm : GoodMesh Fl.env vertices faces fill)
    (ht : Makes Fl.env vertices faces fill nBuckets cellsPerLeaf t)
    (hvA : ValidFaces verticesA.length (-1) facesA) (hcolA : facesA.ncol ≤ maxNVertex)
    (hnA : ∀ r ∈ facesA.rows, NumPts (facePts verticesA (-1) r))
    {nThreads : Nat} (hn : 0 < nThreads) {sched sched1 : List Nat} {sched2 : Nat → List Nat}
    (hs : sched.Perm (List.range facesA.rows.length)) (hs1 : sched1.Perm (List.range nThreads))
    (hs2 : ∀ n, (sched2 n).Perm (List.range n)) (hM : 1 / 2 ^ 100 ≤ M) (hM' : M ≤ 2 ^ 400) :
    ∃ rows ii jj, t.locateFaces Fl.env verticesA facesA nThreads sched sched1 sched2 = .ok (rows, ii, jj) ∧
      ∀ i j r s A B, (i, j) ∈ ii.zip jj → facesA.rows[i]? = some r → faces.rows[j]? = some s →
        FaceIs verticesA (-1) r A → FaceIs vertices fill s B → SatPoly M A → SatPoly M B →
        (∀ x ∈ sides A, x.1 ≠ x.2 → Reaches M x.1 x.2 B) ∧ ∀ x ∈ sides B, x.1 ≠ x.2 → Reaches M x.1 x.2 A := by
  obtain ⟨rows, ii, jj, h1, h2⟩ := locateFaces_fl hm ht hvA hcolA hnA hn hs hs1 hs2
  refine ⟨rows, ii, jj, h1, fun i j r s A B hij hi hj fA fB gA gB => ?_⟩
  have big : ∀ {l : List (Pt ℚ)}, SatPoly M l → ∀ v ∈ l, Bnd (2 ^ 400) v := fun g v hv =>
    ⟨(g.bnd v hv).1.trans hM', (g.bnd v hv).2.trans hM'⟩
  rw [(h2 i j r s A B hi hj fA fB (big gA) (big gB) gA.convex.ne_nil gB.convex.ne_nil).2] at hij
  have ne : ∀ {n : Pt ℚ}, 1 / 2 ^ 900 ≤ nrm n → n ≠ ⟨0, 0⟩ := by
    intro n hn e
    rw [e] at hn
    have : (0 : ℚ) < 1 / 2 ^ 900 := by positivity
    unfold nrm at hn
    simp only [abs_zero, add_zero] at hn
    exact absurd hn (not_le.2 this)
  refine ⟨fun x hx e => ?_, fun x hx e => ?_⟩
  · exact reaches_of_overlapOn gA.bnd gB.bnd hM (gA.apart x hx e) (fun v hv => gA.convex.support hx hv)
      (hij.2.1 x hx (ne (nrm_nv (gA.apart x hx e))))
  · exact reaches_of_overlapOn gB.bnd gA.bnd hM (gB.apart x hx e) (fun v hv => gB.convex.support hx hv)
      (hij.2.2 x hx (ne (nrm_nv (gB.apart x hx e))))

/-! ## Examples -/

theorem squareIn_of {l : List (Pt ℚ)} {c : Pt ℚ} {r : ℚ}
    (h : ∀ s ∈ sides l, r * (|s.2.x - s.1.x| + |s.2.y - s.1.y|) ≤ orient s.1 s.2 c) : SquareIn l c r := by
  intro q hx hy s hs
  have h1 := h s hs
  have e : orient s.1 s.2 q = orient s.1 s.2 c + ((s.2.x - s.1.x) * (q.y - c.y) - (s.2.y - s.1.y) * (q.x - c.x)) := by
    unfold orient; ring
  have h2 : |(s.2.x - s.1.x) * (q.y - c.y)| ≤ |s.2.x - s.1.x| * r := by
    rw [abs_mul]; exact mul_le_mul_of_nonneg_left hy (abs_nonneg _)
  have h3 : |(s.2.y - s.1.y) * (q.x - c.x)| ≤ |s.2.y - s.1.y| * r := by
    rw [abs_mul]; exact mul_le_mul_of_nonneg_left hx (abs_nonneg _)
  have h4 := abs_le.1 h2
  have h5 := abs_le.1 h3
  rw [e]
  linarith [h4.1, h5.2]

namespace Ex

theorem grid_good : GoodMesh Fl.env Ex.gridVerts Ex.gridFaces (-1) :=
  ⟨⟨by decide, fun r hr => by
    simp only [Ex.gridFaces, List.mem_cons, List.not_mem_nil, or_false] at hr
    rcases hr with rfl | rfl <;> exact ⟨by decide, by decide, by decide⟩⟩, by
      intro r hr p hp
      have : ∀ p ∈ Ex.gridVerts, p.x ≠ Fl.nan ∧ p.y ≠ Fl.nan := by decide +kernel
      unfold facePts at hp
      obtain ⟨k, _, hk⟩ := List.mem_filterMap.1 hp
      exact this p (List.mem_of_getElem? hk), nofun, nofun⟩

/-- A triangle in the national grid. -/
def gridTri : List (Pt ℚ) := [⟨155001.25, 463001.75⟩, ⟨155004.125, 463002.25⟩, ⟨155001.5, 463015⟩]

end Ex

/-- Cells of 10 m in the national grid and a triangle: the triangle overlaps the first cell and `C78` applies; the pair is
reported. The second cell is not reported: the triangle does not reach its left side. -/
example : GoodMesh Fl.env Ex.gridVerts Ex.gridFaces (-1) ∧ ValidFaces (Ex.gridTri.map fp).length (-1) Ex.oneFace ∧
    FaceIs (Ex.gridTri.map fp) (-1) [0, 1, 2] Ex.gridTri ∧ FaceIs Ex.gridVerts (-1) [0, 1, 2, 3] Ex.gridCell ∧
    SatPoly 500000 Ex.gridTri ∧ SatPoly 500000 Ex.gridCell ∧
    SquareIn Ex.gridTri ⟨155002.5, 463005⟩ (500000 / 2 ^ 51) ∧ SquareIn Ex.gridCell ⟨155002.5, 463005⟩ (500000 / 2 ^ 51) ∧
    ∃ t, Makes Fl.env Ex.gridVerts Ex.gridFaces (-1) 4 2 t ∧
      t.locateFaces Fl.env (Ex.gridTri.map fp) Ex.oneFace 1 [0] [0] List.range = .ok ([[0, 1, 2]], [0], [0]) := by
  refine ⟨Ex.grid_good, ⟨by decide, fun r hr => ?_⟩, by decide +kernel, by decide +kernel,
    ⟨by decide +kernel, by decide +kernel, by decide +kernel⟩, ⟨by decide +kernel, by decide +kernel, by decide +kernel⟩,
    squareIn_of (by decide +kernel), squareIn_of (by decide +kernel), ?_⟩
  · simp only [Ex.oneFace, List.mem_cons, List.not_mem_nil, or_false] at hr
    subst hr
    exact ⟨by decide, by decide, by decide⟩
  · obtain ⟨t, h1, h2⟩ := bind_eq_ok.1 (show (CellTree.init Fl.env Ex.gridVerts Ex.gridFaces (-1) 4 2 [0, 1] >>= fun t =>
      t.locateFaces Fl.env (Ex.gridTri.map fp) Ex.oneFace 1 [0] [0] List.range) = .ok ([[0, 1, 2]], [0], [0])
      by decide +kernel)
    exact ⟨t, ⟨_, by decide, h1⟩, h2⟩

end Celltree.Fl
