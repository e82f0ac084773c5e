import Verif.Proofs.StretchWeights
import Verif.Props.StretchAreas

/-!
# C118: interpolation weights do not depend on the unit and the origin
-/

set_option linter.unusedSectionVars false

namespace Celltree

section
variable {K : Type} [Field K] [LinearOrder K] [IsStrictOrderedRing K] {env : Env K} {k x0 y0 : K} {vertices : List (Pt K)}
  {faces : IntArr} {fill nBuckets cellsPerLeaf : Int} {sched : List Nat} {t t' : CellTree K}

/-- **C118** (exact arithmetic): mesh and points are translated, and mesh, points and tolerance are scaled by one factor. The faces and the
weights are the same. The square root is used for meshes with faces of more than three vertices only. -/
theorem C118_weights {tol : K} (hk : 0 < k) (hin : InRange env vertices) (hin' : InRange env (vertices.map (mapPt (stretch k k x0 y0))))
    (hsqrt : t.nMaxVert ≤ 3 ∨ ∀ x, env.sqrt (k * k * x) = k * env.sqrt x)
    (ht : CellTree.init env vertices faces fill nBuckets cellsPerLeaf sched = .ok t)
    (ht' : CellTree.init env (vertices.map (mapPt (stretch k k x0 y0))) faces fill nBuckets cellsPerLeaf sched = .ok t')
    (points : List (Pt K)) (s s1 : List Nat) :
    t'.barycentricWeights env (points.map (mapPt (stretch k k x0 y0))) (some (k * tol)) s s1 =
      t.barycentricWeights env points (some tol) s s1 := by
  have h := stretch_tree hk hk hin hin' ht ht'
  have hp : List.Forall₂ (PtRel (StretchRel k k x0 y0)) points (points.map (mapPt (stretch k k x0 y0))) :=
    forall₂_mapPt (f := stretch k k x0 y0) fun p _ => ⟨rfl, rfl⟩
  unfold CellTree.barycentricWeights
  simp only [CellTree.tolerance, ok_bind]
  rw [C115_locate_points hk hin hin' ht ht' points s]
  refine RelM.eq ?_
  refine (RelM.of_eq rfl).bind fun f f' hf => ?_
  subst hf
  rw [← h.nMaxVert, ← h.elements]
  split
  · next h3 =>
    rw [barycentricWachspressWeights_rel hk (hsqrt.resolve_left (by omega)) hp h.vertices]
    exact RelM.of_eq rfl
  · rw [barycentricTriangleWeights_rel hk hp h.vertices]
    exact RelM.of_eq rfl

/-- **C118**, default tolerance (exact arithmetic): the faces and the weights are the same for a translated mesh. They are the same for a
scaled one if the lower limit of the tolerance matters for none of the two meshes. -/
theorem C118_weights_default (hk : 0 < k) (hin : InRange env vertices) (hin' : InRange env (vertices.map (mapPt (stretch k k x0 y0))))
    (hm : GoodMesh env vertices faces fill) (hsched : sched.Perm (List.range faces.rows.length))
    (hsqrt : ∀ x, env.sqrt (k * k * x) = k * env.sqrt x) (hf : 0 ≤ env.tolFactor)
    (hbig : k = 1 ∨ ∃ b ∈ t.data.bbCoords, env.minTol ≤ env.tolFactor * diagonal env b ∧
      env.minTol ≤ k * (env.tolFactor * diagonal env b))
    (ht : CellTree.init env vertices faces fill nBuckets cellsPerLeaf sched = .ok t)
    (ht' : CellTree.init env (vertices.map (mapPt (stretch k k x0 y0))) faces fill nBuckets cellsPerLeaf sched = .ok t')
    (points : List (Pt K)) (s s1 : List Nat) :
    t'.barycentricWeights env (points.map (mapPt (stretch k k x0 y0))) none s s1 = t.barycentricWeights env points none s s1 := by
  obtain ⟨tol, htol⟩ := Makes.tolerance_ok hm ⟨sched, hsched, ht⟩ none
  have htol' := stretch_tolerance hk hin hin' hm hsched hsqrt hf hbig ht ht' htol
  have e : ∀ {u : CellTree K} {c : K} (ps : List (Pt K)), u.tolerance env none = .ok c →
      u.barycentricWeights env ps none s s1 = u.barycentricWeights env ps (some c) s s1 := by
    intro u c ps h
    unfold CellTree.barycentricWeights
    rw [h]
    rfl
  rw [e _ htol, e _ htol']
  exact C118_weights hk hin hin' (Or.inr hsqrt) ht ht' points s s1

end

/-- A mesh of three triangles. -/
def Ex.threeTriangles : IntArr := ⟨3, [[0, 1, 4], [1, 2, 5], [1, 5, 4]]⟩

set_option synthInstance.maxSize 1000 in
/-- Weights in three triangles, in other units: a point on a side, a point on a common side, a point inside and a point outside. -/
example : ∃ t t', CellTree.init Ex.qEnv Ex.qVerts Ex.threeTriangles (-1) 4 1 [2, 0, 1] = .ok t ∧
    CellTree.init Ex.qEnv (Ex.qVerts.map (mapPt Ex.meters)) Ex.threeTriangles (-1) 4 1 [2, 0, 1] = .ok t' ∧
    t'.barycentricWeights Ex.qEnv ([⟨2, 1⟩, ⟨5 / 2, 1 / 2⟩, ⟨1, 1 / 3⟩, ⟨9, 9⟩].map (mapPt Ex.meters)) (some (1 / 3 * (1 / 1000)))
      [3, 1, 0, 2] [3, 1, 0, 2] =
      .ok ([0, 1, 0, -1], [[0, 1 / 2, 1 / 2], [3 / 4, 0, 1 / 4], [1 / 2, 1 / 3, 1 / 6], [0, 0, 0]]) := by
  obtain ⟨t, h1, h2⟩ := bind_eq_ok.1 (show (CellTree.init Ex.qEnv Ex.qVerts Ex.threeTriangles (-1) 4 1 [2, 0, 1] >>= fun t =>
    t.barycentricWeights Ex.qEnv [⟨2, 1⟩, ⟨5 / 2, 1 / 2⟩, ⟨1, 1 / 3⟩, ⟨9, 9⟩] (some (1 / 1000)) [3, 1, 0, 2] [3, 1, 0, 2] >>= fun r =>
    Except.ok (r, t.nMaxVert)) =
      .ok (([0, 1, 0, -1], [[0, 1 / 2, 1 / 2], [3 / 4, 0, 1 / 4], [1 / 2, 1 / 3, 1 / 6], [0, 0, 0]]), 3) by decide +kernel)
  obtain ⟨r, h3, h4⟩ := bind_eq_ok.1 h2
  obtain ⟨rfl, h5⟩ := Prod.mk.inj (Except.ok.inj h4)
  have u1 : InRange Ex.qEnv Ex.qVerts := by decide +kernel
  have u2 : InRange Ex.qEnv (Ex.qVerts.map (mapPt Ex.meters)) := by decide +kernel
  obtain ⟨t', h1', -⟩ := (C115_same_tree (kx := 1 / 3) (ky := 1 / 3) (x0 := -100) (y0 := 50) (by norm_num) (by norm_num) u1 u2).1 t h1
  refine ⟨t, t', h1, h1', ?_⟩
  rw [← h3]
  exact C118_weights (k := 1 / 3) (by norm_num) u1 u2 (Or.inl h5.le) h1 h1' _ _ _

set_option synthInstance.maxSize 1000 in
/-- Weights in a mesh of a square and triangles with another origin, with the default tolerance. -/
example : ∃ t t', CellTree.init Ex.qEnv Ex.qVerts Ex.faces (-999) 4 1 [2, 0, 3, 1] = .ok t ∧
    CellTree.init Ex.qEnv (Ex.qVerts.map (mapPt (stretch 1 1 (-100) 50))) Ex.faces (-999) 4 1 [2, 0, 3, 1] = .ok t' ∧
    t'.barycentricWeights Ex.qEnv ([⟨5 / 2, 1 / 2⟩, ⟨1, 1 / 3⟩, ⟨9, 9⟩].map (mapPt (stretch 1 1 (-100) 50))) none [1, 0, 2] [1, 0, 2] =
      .ok ([1, 0, -1], [[1 / 4, 1 / 4, 1 / 2, 0], [5 / 12, 5 / 12, 1 / 12, 1 / 12], [0, 0, 0, 0]]) := by
  obtain ⟨t, h1, h2⟩ := bind_eq_ok.1 (show (CellTree.init Ex.qEnv Ex.qVerts Ex.faces (-999) 4 1 [2, 0, 3, 1] >>= fun t =>
    t.barycentricWeights Ex.qEnv [⟨5 / 2, 1 / 2⟩, ⟨1, 1 / 3⟩, ⟨9, 9⟩] none [1, 0, 2] [1, 0, 2]) =
      .ok ([1, 0, -1], [[1 / 4, 1 / 4, 1 / 2, 0], [5 / 12, 5 / 12, 1 / 12, 1 / 12], [0, 0, 0, 0]]) by decide +kernel)
  have u1 : InRange Ex.qEnv Ex.qVerts := by decide +kernel
  have u2 : InRange Ex.qEnv (Ex.qVerts.map (mapPt (stretch 1 1 (-100) 50))) := by decide +kernel
  obtain ⟨t', h1', -⟩ := (C115_same_tree (kx := 1) (ky := 1) (x0 := -100) (y0 := 50) (by norm_num) (by norm_num) u1 u2).1 t h1
  refine ⟨t, t', h1, h1', ?_⟩
  rw [← h2]
  exact C118_weights_default (k := 1) (by norm_num) u1 u2 ⟨Ex.faces_valid, fun _ _ _ _ => ⟨trivial, trivial⟩, trivial, trivial⟩
    (by decide) (fun x => by rw [one_mul, one_mul, one_mul]) (by decide +kernel) (Or.inl rfl) h1 h1' _ _ _

end Celltree
