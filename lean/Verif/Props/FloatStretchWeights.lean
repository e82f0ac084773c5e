import Verif.Proofs.FloatStretchWeights

/-!
# Interpolation weights in other units, in binary64: C120
-/

set_option linter.unusedSectionVars false

namespace Celltree

open Fl

variable {vertices : List (Pt Fl)} {faces : IntArr} {fill nBuckets cellsPerLeaf : Int} {sched : List Nat} {t t' : CellTree Fl}

theorem init_vertices_fl (ht : CellTree.init Fl.env vertices faces fill nBuckets cellsPerLeaf sched = .ok t) : t.data.vertices = vertices := by
  unfold CellTree.init at ht
  split at ht
  · cases ht
  split at ht
  · cases ht
  obtain ⟨_, _, ht⟩ := bind_eq_ok.1 ht
  obtain ⟨_, _, ht⟩ := bind_eq_ok.1 ht
  unfold CellTree.ofFaces at ht
  obtain ⟨_, _, ht⟩ := bind_eq_ok.1 ht
  obtain ⟨_, _, ht⟩ := bind_eq_ok.1 ht
  obtain ⟨_, _, ht⟩ := bind_eq_ok.1 ht
  cases ht
  rfl

/-- **C120** (binary64): the coordinates of mesh and points, and the tolerance, are multiplied by the same power of two.
`compute_barycentric_weights` gives the same faces and the same floats, with all the rounding errors of the two computations. -/
theorem C120_weights {k : Int} {tol : Fl} (hk : |k| ≤ 100) (hnb : nBuckets ≤ 2 ^ 53) (hv : PlainPts vertices) (htol : Coarse 200 tol)
    (hn : t.nMaxVert ≤ 50)
    (ht : CellTree.init Fl.env vertices faces fill nBuckets cellsPerLeaf sched = .ok t)
    (ht' : CellTree.init Fl.env (vertices.map (mapPt (rescale k k))) faces fill nBuckets cellsPerLeaf sched = .ok t')
    {points : List (Pt Fl)} (hp : PlainPts points) (s s1 : List Nat) :
    t'.barycentricWeights Fl.env (points.map (mapPt (rescale k k))) (some (pow2 k * tol)) s s1 =
      t.barycentricWeights Fl.env points (some tol) s s1 := by
  have hk' := natAbs_le_of_abs hk
  obtain ⟨t'', h1, h⟩ := (scale_init hk' hk' hnb hv.1).ok_left ht
  rw [ht'] at h1
  cases h1
  have hv' : List.Forall₂ (PtRel (PlainRel k)) t.data.vertices t'.data.vertices := by
    rw [init_vertices_fl ht, init_vertices_fl ht']
    exact forall₂_plain hk' hv
  have hp' := forall₂_plain hk' hp
  unfold CellTree.barycentricWeights
  simp only [CellTree.tolerance, ok_bind]
  rw [C116_locate_points hk hnb hv.1 htol ht ht' hp.1 s]
  refine RelM.eq ?_
  refine (RelM.of_eq rfl).bind fun f f' hf => ?_
  subst hf
  rw [← h.nMaxVert, ← h.elements]
  split
  · rw [wachspress_pow hk' (htol.sc hk' (by omega)) hp' hv' _ _ hn]
    exact RelM.of_eq rfl
  · rw [triangles_pow hk' hp' hv']
    exact RelM.of_eq rfl

namespace Ex

/-- Points in the triangles of `tenths`, and one outside. -/
def tenthInside : List (Pt Fl) :=
  [⟨rnd (2 / 10), rnd (3 / 10)⟩, ⟨rnd (1 / 3), rnd (1 / 3)⟩, ⟨rnd (3 / 10), rnd (1 / 2)⟩, ⟨fin 9, fin 9⟩]

/-- The quadrilateral of the two triangles. -/
def tenthQuad : IntArr := ⟨4, [[0, 1, 2, 3]]⟩

theorem tenths_plain : PlainPts tenths ∧ PlainPts tenthInside := by
  have h : ∀ l : List (Pt Fl), (l.all fun p => coarseTest 100 p.x && coarseTest 100 p.y) = true → CoarsePts l := by
    intro l hl p hp
    have := List.all_eq_true.1 hl p hp
    rw [Bool.and_eq_true] at this
    exact ⟨coarse_of this.1, coarse_of this.2⟩
  exact ⟨⟨tenths_coarse.1, by decide +kernel⟩, h _ (by decide +kernel), by decide +kernel⟩

end Ex

set_option synthInstance.maxSize 1000 in
/-- Weights in two triangles if the unit is divided by 1024: the same floats. The weights of the first point have a sum that is not 1. -/
example : ∃ t t', CellTree.init Fl.env Ex.tenths Ex.tenthFaces (-1) 4 1 [0, 1] = .ok t ∧
    CellTree.init Fl.env (Ex.tenths.map (mapPt (rescale 10 10))) Ex.tenthFaces (-1) 4 1 [0, 1] = .ok t' ∧
    t'.barycentricWeights Fl.env (Ex.tenthInside.map (mapPt (rescale 10 10))) (some (pow2 10 * 0)) [1, 0, 3, 2] [1, 0, 3, 2] =
      .ok ([1, 0, 1, -1], [
        [fin (1447585594511945 / 2251799813685248), fin (7720456504063707 / 36028797018963968), fin (5146971002709139 / 36028797018963968)],
        [fin (3002399751580331 / 9007199254740992), fin (1501199875790165 / 4503599627370496), fin (3002399751580331 / 9007199254740992)],
        [fin (321685687669321 / 1125899906842624), fin (7720456504063705 / 18014398509481984), fin (643371375338643 / 2251799813685248)],
        [0, 0, 0]]) := by
  obtain ⟨t, h1, h2⟩ := bind_eq_ok.1 (show (CellTree.init Fl.env Ex.tenths Ex.tenthFaces (-1) 4 1 [0, 1] >>= fun t =>
    t.barycentricWeights Fl.env Ex.tenthInside (some 0) [1, 0, 3, 2] [1, 0, 3, 2] >>= fun r => Except.ok (r, t.nMaxVert)) =
      .ok (([1, 0, 1, -1], [
        [fin (1447585594511945 / 2251799813685248), fin (7720456504063707 / 36028797018963968), fin (5146971002709139 / 36028797018963968)],
        [fin (3002399751580331 / 9007199254740992), fin (1501199875790165 / 4503599627370496), fin (3002399751580331 / 9007199254740992)],
        [fin (321685687669321 / 1125899906842624), fin (7720456504063705 / 18014398509481984), fin (643371375338643 / 2251799813685248)],
        [0, 0, 0]]), 3) by decide +kernel)
  obtain ⟨r, h3, h4⟩ := bind_eq_ok.1 h2
  obtain ⟨rfl, h5⟩ := Prod.mk.inj (Except.ok.inj h4)
  obtain ⟨t', h1', -⟩ := (C116_same_tree (kx := 10) (ky := 10) (by norm_num) (by norm_num) (by norm_num) Ex.tenths_coarse.1).1 t h1
  refine ⟨t, t', h1, h1', ?_⟩
  rw [← h3]
  exact C120_weights (by norm_num) (by norm_num) Ex.tenths_plain.1 (Fl.coarse_of (by decide +kernel)) (by omega) h1 h1' Ex.tenths_plain.2 _ _

/-- **C120**, what does not hold: with other units than powers of two, the weights are other floats. Here the coordinates of a
quadrilateral are multiplied by 8, and by 3; only the first weight of each point is shown. -/
theorem C120_other_units_differ :
    (CellTree.init Fl.env Ex.tenths Ex.tenthQuad (-1) 4 1 [0] >>= fun t =>
      (t.barycentricWeights Fl.env Ex.tenthInside (some 0) [1, 0, 3, 2] [1, 0, 3, 2]).map fun r => r.2.map fun w => w.take 1) =
      .ok [[fin (2274777362804485 / 4503599627370496)], [fin (2001599834386887 / 9007199254740992)],
        [fin (5882252574524729 / 36028797018963968)], [0]] ∧
    (CellTree.init Fl.env (Ex.tenths.map (mapPt (rescale 3 3))) Ex.tenthQuad (-1) 4 1 [0] >>= fun t =>
      (t.barycentricWeights Fl.env (Ex.tenthInside.map (mapPt (rescale 3 3))) (some 0) [1, 0, 3, 2] [1, 0, 3, 2]).map
        fun r => r.2.map fun w => w.take 1) =
      .ok [[fin (2274777362804485 / 4503599627370496)], [fin (2001599834386887 / 9007199254740992)],
        [fin (5882252574524729 / 36028797018963968)], [0]] ∧
    (CellTree.init Fl.env (Ex.tenths.map (mapPt fun _ x => fin 3 * x)) Ex.tenthQuad (-1) 4 1 [0] >>= fun t =>
      (t.barycentricWeights Fl.env (Ex.tenthInside.map (mapPt fun _ x => fin 3 * x)) (some 0) [1, 0, 3, 2] [1, 0, 3, 2]).map
        fun r => r.2.map fun w => w.take 1) =
      .ok [[fin (4549554725608971 / 9007199254740992)], [fin (4003199668773775 / 18014398509481984)],
        [fin (735281571815591 / 4503599627370496)], [0]] := by
  refine ⟨?_, ?_, ?_⟩ <;> decide +kernel

end Celltree
