import Verif.Proofs.StretchEdges
import Verif.Props.StretchAreas

/-!
# C117: `intersect_edges` does not depend on the unit and the origin

The clip of a segment by a cell has a tolerance: a fraction of the size of the box of the cell, but no less than a lower limit. Only that
limit depends on the unit.
-/

set_option linter.unusedSectionVars false

namespace Celltree

section
variable {K : Type} [Field K] [LinearOrder K] [IsStrictOrderedRing K] {env : Env K} {k x0 y0 : K} {vertices : List (Pt K)}
  {faces : IntArr} {fill nBuckets cellsPerLeaf : Int} {sched : List Nat} {t t' : CellTree K}

/-- **C117**, `intersect_edges` (exact arithmetic): mesh and segments are translated and scaled by one factor for both axes. The pairs are
the same, in the same order, and the ends of the clipped segments are the images of the former ones. For a factor other than one, the
lower limit of the tolerance may matter for no cell of the two meshes. -/
theorem C117_intersect_edges (hk : 0 < k) (hin : InRange env vertices) (hin' : InRange env (vertices.map (mapPt (stretch k k x0 y0))))
    (ht : CellTree.init env vertices faces fill nBuckets cellsPerLeaf sched = .ok t)
    (ht' : CellTree.init env (vertices.map (mapPt (stretch k k x0 y0))) faces fill nBuckets cellsPerLeaf sched = .ok t')
    (hm : k = 1 ∨ LimitIdle env t.data.bbCoords ∧ LimitIdle env t'.data.bbCoords) (edges : List (Pt K × Pt K)) (nThreads : Nat)
    (s : List Nat) :
    t'.intersectEdges env (edges.map fun e => (mapPt (stretch k k x0 y0) e.1, mapPt (stretch k k x0 y0) e.2)) nThreads s =
      (fun r => (r.1, r.2.1, r.2.2.map fun q => (q.1.map (mapPt (stretch k k x0 y0)), q.2.map (mapPt (stretch k k x0 y0))))) <$>
        t.intersectEdges env edges nThreads s := by
  have h := stretch_tree hk hk hin hin' ht ht'
  have he : List.Forall₂ (PairRel (PtRel (StretchRel k k x0 y0))) edges
      (edges.map fun e => (mapPt (stretch k k x0 y0) e.1, mapPt (stretch k k x0 y0) e.2)) := by
    rw [List.forall₂_map_right_iff, List.forall₂_same]
    exact fun e _ => ⟨⟨rfl, rfl⟩, rfl, rfl⟩
  refine RelM.map_eq (locateEdges_rel (stretch_sides hk hk) (stretch_clip hk hk) h
    (fun a a' b b' ha hb j => edgeFaceIntersect_rel hk h hm ha hb j) he nThreads s) ?_
  rintro ⟨i, j, xy⟩ ⟨i', j', xy'⟩ ⟨h1, h2, h3⟩
  simp only at h1 h2 h3 ⊢
  subst h1 h2
  have ho : ∀ {o o' : Option (Pt K)}, OptRel (PtRel (StretchRel k k x0 y0)) o o' → o' = o.map (mapPt (stretch k k x0 y0)) := by
    intro o o' h
    match o, o', h with
    | none, none, _ => rfl
    | some p, some p', h => exact congrArg some (Pt.ext' h.1 h.2)
  have hq : List.Forall₂ (fun q q' => q' = (q.1.map (mapPt (stretch k k x0 y0)), q.2.map (mapPt (stretch k k x0 y0)))) xy xy' :=
    forall₂_mono h3 fun q q' hq => Prod.ext (ho hq.1) (ho hq.2)
  rw [forall₂_map_of hq]

end

instance {boxes : List (Box ℚ)} {env : Env ℚ} : Decidable (LimitIdle env boxes) :=
  inferInstanceAs (Decidable (∀ b ∈ boxes, env.minTol ≤ env.tolFactor * max (b.xmax - b.xmin) (b.ymax - b.ymin)))

/-- The boxes of the cells of the example. -/
def Ex.qBoxes : List (Box ℚ) := [⟨0, 2, 0, 2⟩, ⟨2, 4, 0, 2⟩, ⟨2, 4, 0, 2⟩, ⟨0, 2, 2, 4⟩]

set_option synthInstance.maxSize 1000 in
/-- A segment across three cells, and one along the common side of two cells, in other units. -/
example : ∃ t t', CellTree.init Ex.qEnv Ex.qVerts Ex.faces (-999) 4 1 [2, 0, 3, 1] = .ok t ∧
    CellTree.init Ex.qEnv (Ex.qVerts.map (mapPt Ex.meters)) Ex.faces (-999) 4 1 [2, 0, 3, 1] = .ok t' ∧
    (LimitIdle Ex.qEnv t.data.bbCoords ∧ LimitIdle Ex.qEnv t'.data.bbCoords) ∧
    t'.intersectEdges Ex.qEnv ([(⟨1, 1⟩, ⟨3, 2⟩), (⟨2, -1⟩, ⟨2, 1⟩), (⟨9, 9⟩, ⟨10, 10⟩)].map fun e => (mapPt Ex.meters e.1, mapPt Ex.meters e.2))
      2 [1, 0] = .ok ([0, 0, 0, 1, 1], [2, 1, 0, 1, 0],
        [(some ⟨7 / 9 - 100, 5 / 9 + 50⟩, some ⟨1 - 100, 2 / 3 + 50⟩), (some ⟨2 / 3 - 100, 1 / 2 + 50⟩, some ⟨7 / 9 - 100, 5 / 9 + 50⟩),
          (some ⟨1 / 3 - 100, 1 / 3 + 50⟩, some ⟨2 / 3 - 100, 1 / 2 + 50⟩), (some ⟨2 / 3 - 100, 50⟩, some ⟨2 / 3 - 100, 1 / 3 + 50⟩),
          (some ⟨2 / 3 - 100, 50⟩, some ⟨2 / 3 - 100, 1 / 3 + 50⟩)]) := by
  obtain ⟨t, h1, h2⟩ := bind_eq_ok.1 (show (CellTree.init Ex.qEnv Ex.qVerts Ex.faces (-999) 4 1 [2, 0, 3, 1] >>= fun t =>
    t.intersectEdges Ex.qEnv [(⟨1, 1⟩, ⟨3, 2⟩), (⟨2, -1⟩, ⟨2, 1⟩), (⟨9, 9⟩, ⟨10, 10⟩)] 2 [1, 0] >>= fun r =>
    Except.ok (r, t.data.bbCoords)) = .ok (([0, 0, 0, 1, 1], [2, 1, 0, 1, 0],
        [(some ⟨7 / 3, 5 / 3⟩, some ⟨3, 2⟩), (some ⟨2, 3 / 2⟩, some ⟨7 / 3, 5 / 3⟩), (some ⟨1, 1⟩, some ⟨2, 3 / 2⟩),
          (some ⟨2, 0⟩, some ⟨2, 1⟩), (some ⟨2, 0⟩, some ⟨2, 1⟩)]), Ex.qBoxes) by decide +kernel)
  obtain ⟨r, h3, h4⟩ := bind_eq_ok.1 h2
  obtain ⟨rfl, h5⟩ := Prod.mk.inj (Except.ok.inj h4)
  have u1 : InRange Ex.qEnv Ex.qVerts := by decide +kernel
  have u2 : InRange Ex.qEnv (Ex.qVerts.map (mapPt Ex.meters)) := by decide +kernel
  obtain ⟨t', h1', h6⟩ := (C115_same_tree (kx := 1 / 3) (ky := 1 / 3) (x0 := -100) (y0 := 50) (by norm_num) (by norm_num) u1 u2).1 t h1
  have hm : LimitIdle Ex.qEnv t.data.bbCoords ∧ LimitIdle Ex.qEnv t'.data.bbCoords := by
    rw [h6.1.boxes, h5]
    show LimitIdle Ex.qEnv Ex.qBoxes ∧ LimitIdle Ex.qEnv (Ex.qBoxes.map (mapBox Ex.meters))
    decide +kernel
  refine ⟨t, t', h1, h1', hm, ?_⟩
  have := C117_intersect_edges (k := 1 / 3) (by norm_num) u1 u2 h1 h1' (Or.inr hm)
    [(⟨1, 1⟩, ⟨3, 2⟩), (⟨2, -1⟩, ⟨2, 1⟩), (⟨9, 9⟩, ⟨10, 10⟩)] 2 [1, 0]
  rw [h3] at this
  refine this.trans ?_
  decide +kernel

end Celltree
