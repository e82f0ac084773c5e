import Verif.Props.FloatStretchWeights
import Verif.Props.Cast
import Verif.Props.Floats

/-!
# The default tolerance in other units, in binary64: C116 and C120
-/

set_option linter.unusedSectionVars false

namespace Celltree

namespace Fl

theorem sc_tolFactor : Sc 0 93 0 env.tolFactor env.tolFactor := by
  have h : (1 : ℚ) / 2 ^ 40 ≤ |1 / 1000000000000| := by rw [abs_of_pos (by norm_num)]; norm_num
  have := Sc.rnd (k := 0) (e := 40) (e' := 93) (E := 0) (Or.inr h) (grid_rq_of_le h) (by rw [abs_of_pos (by norm_num)]; norm_num)
    (by simp) (by simp)
  rw [zpow_zero, one_mul] at this
  exact this

theorem sum_squares_nonneg {k : Int} {e : Nat} {x x' y y' : Fl} (hx : Sc k e 101 x x') (hy : Sc k e 101 y y') : 0 ≤ x * x + y * y := by
  obtain ⟨p, rfl, -, g1, b1⟩ := hx
  obtain ⟨q, rfl, -, g2, b2⟩ := hy
  have n1 := rq_nonneg (mul_self_nonneg p)
  have n2 := rq_nonneg (mul_self_nonneg q)
  have m1 := abs_mul_le_pow b1 b1
  have m2 := abs_mul_le_pow b2 b2
  rw [fin_mul, fin_mul, rnd_fin (m1.trans (pow_le_big (by norm_num))), rnd_fin (m2.trans (pow_le_big (by norm_num))), fin_add,
    rnd_fin ((abs_add_le_pow (abs_rq_le m1) (abs_rq_le m2)).trans (pow_le_big (by norm_num))), zero_def, le_fin]
  exact rq_nonneg (add_nonneg n1 n2)

/-- The diagonals of the boxes. -/
theorem sc_diagonal {k : Int} (hk : k.natAbs ≤ 100) {b b' : Box Fl} (h : BoxRel (ScaleRel k k) b b') :
    Sc k 153 102 (bboxDistance env b).2.2 (bboxDistance env b').2.2 := by
  obtain ⟨h1, h2, h3, h4⟩ := boxRel_iff.1 h
  have s1 : Sc k 100 100 _ _ := h1.sc hk hk
  have s2 : Sc k 100 100 _ _ := h2.sc hk hk
  have s3 : Sc k 100 100 _ _ := h3.sc hk hk
  have s4 : Sc k 100 100 _ _ := h4.sc hk hk
  have dx := s2.sub s1 (by omega) (by omega)
  have dy := s4.sub s3 (by omega) (by omega)
  have d := (dx.mul dx (by omega) (by omega)).add (dy.mul dy (by omega) (by omega)) (by omega) (by omega)
  exact Sc.sqrt (e := 100) (E := 102) (d.mono (by omega) (by omega)) (sum_squares_nonneg dx dy) hk (by omega) (by omega)

theorem foldl_fmax_sc {k : Int} {e E : Nat} {l l' : List Fl} (h : List.Forall₂ (Sc k e E) l l') {x x' : Fl} (hx : Sc k e E x x') :
    Sc k e E (l.foldl Celltree.fmax x) (l'.foldl Celltree.fmax x') := by
  induction h generalizing x x' with
  | nil => exact hx
  | cons h _ ih => exact ih (hx.fmax h)

theorem maxList_sc {k : Int} {e E : Nat} {l l' : List Fl} (h : List.Forall₂ (Sc k e E) l l') :
    RelM (Sc k e E) (maxList l) (maxList l') := by
  cases h with
  | nil => exact rfl
  | cons h hs => exact foldl_fmax_sc hs h

/-- What is larger than the lower limit of the tolerance has at most 103 binary places. -/
theorem coarse_tolerance {x : Fl} {q : ℚ} (hx : env.tolFactor * fin q = x) (hq : |q| ≤ 2 ^ 102) (h : env.minTol < x) : Coarse 200 x := by
  have ef : env.tolFactor = fin (rq (1 / 1000000000000)) := rnd_fin (by
    refine le_trans ?_ (pow_le_big (k := 0) (by norm_num))
    rw [abs_of_pos (by norm_num)]; norm_num)
  have em : env.minTol = fin (rq (1 / 1000000000000000)) := rnd_fin (by
    refine le_trans ?_ (pow_le_big (k := 0) (by norm_num))
    rw [abs_of_pos (by norm_num)]; norm_num)
  have bf : |rq (1 / 1000000000000)| ≤ 1 / 2 ^ 2 := by
    have e : (1 : ℚ) / 2 ^ 2 = |rq (1 / 2 ^ 2)| := by
      rw [rq_of_isRep ⟨1, -2, by norm_num, by norm_num, by norm_num⟩, abs_of_pos (by norm_num)]
    rw [e, abs_of_nonneg (rq_nonneg (by norm_num)), abs_of_nonneg (rq_nonneg (by norm_num))]
    exact rq_mono (by norm_num)
  have bm : (1 : ℚ) / 2 ^ 50 ≤ rq (1 / 1000000000000000) := by
    have e : (1 : ℚ) / 2 ^ 50 = rq (1 / 2 ^ 50) := (rq_of_isRep ⟨1, -50, by norm_num, by norm_num, by norm_num⟩).symm
    rw [e]
    exact rq_mono (by norm_num)
  have hb : |rq (1 / 1000000000000) * q| ≤ 2 ^ 100 := by
    rw [abs_mul]
    calc _ ≤ (1 : ℚ) / 2 ^ 2 * 2 ^ 102 := mul_le_mul bf hq (abs_nonneg _) (by norm_num)
      _ = 2 ^ 100 := by norm_num
  rw [ef, fin_mul, rnd_fin (hb.trans (pow_le_big (by norm_num)))] at hx
  subst hx
  rw [em, lt_fin] at h
  have hpos := bm.trans h.le
  refine ⟨_, rfl, rq_isRep _, ?_, abs_rq_le hb⟩
  have g : Grid (50 + 53) (rq (rq (rq (1 / 1000000000000) * q))) := grid_rq_of_le (le_trans hpos (le_abs_self _))
  rw [rq_of_isRep (rq_isRep _)] at g
  exact g.mono (by omega)

end Fl

open Fl

variable {vertices : List (Pt Fl)} {faces : IntArr} {fill nBuckets cellsPerLeaf : Int} {sched : List Nat} {t t' : CellTree Fl}

theorem init_distances_fl (ht : CellTree.init Fl.env vertices faces fill nBuckets cellsPerLeaf sched = .ok t) :
    t.bbDistances = t.data.bbCoords.map (bboxDistance Fl.env) := by
  unfold CellTree.init at ht
  split at ht
  · cases ht
  split at ht
  · cases ht
  obtain ⟨_, _, ht⟩ := bind_eq_ok.1 ht
  obtain ⟨_, _, ht⟩ := bind_eq_ok.1 ht
  unfold CellTree.ofFaces at ht
  obtain ⟨_, _, ht⟩ := bind_eq_ok.1 ht
  obtain ⟨_, _, ht⟩ := bind_eq_ok.1 ht
  obtain ⟨_, _, ht⟩ := bind_eq_ok.1 ht
  cases ht
  rfl

/-- **C116**, the default tolerance (binary64): it is multiplied like the coordinates, unless one of the two meshes is so small that
the lower limit of the tolerance is used. -/
theorem C116_default_tolerance {k : Int} {tol : Fl} (hk : |k| ≤ 100) (hnb : nBuckets ≤ 2 ^ 53) (hv : CoarsePts vertices)
    (ht : CellTree.init Fl.env vertices faces fill nBuckets cellsPerLeaf sched = .ok t)
    (ht' : CellTree.init Fl.env (vertices.map (mapPt (rescale k k))) faces fill nBuckets cellsPerLeaf sched = .ok t')
    (hlim : t.tolerance Fl.env none ≠ .ok Fl.env.minTol) (hlim' : t'.tolerance Fl.env none ≠ .ok Fl.env.minTol)
    (htol : t.tolerance Fl.env none = .ok tol) : t'.tolerance Fl.env none = .ok (pow2 k * tol) ∧ Coarse 200 tol := by
  have hk' := natAbs_le_of_abs hk
  obtain ⟨t'', h1, h⟩ := (scale_init hk' hk' hnb hv).ok_left ht
  rw [ht'] at h1
  cases h1
  have hd : List.Forall₂ (Sc k 153 102) (t.bbDistances.map fun d => d.2.2) (t'.bbDistances.map fun d => d.2.2) := by
    rw [init_distances_fl ht, init_distances_fl ht', List.map_map, List.map_map, List.forall₂_map_left_iff, List.forall₂_map_right_iff]
    exact h.bbCoords.imp fun b b' hb => sc_diagonal hk' hb
  unfold CellTree.tolerance defaultTolerance at htol hlim hlim' ⊢
  simp only at htol hlim hlim' ⊢
  obtain ⟨m, e1, htol⟩ := bind_eq_ok.1 htol
  obtain ⟨m', e2, hm⟩ := (maxList_sc hd).ok_left e1
  rw [e1, ok_bind] at hlim
  rw [e2, ok_bind] at hlim' ⊢
  have key : ∀ x : Fl, (Except.ok (fmax Fl.env.minTol x) : M Fl) ≠ .ok Fl.env.minTol → Fl.env.minTol < x ∧ fmax Fl.env.minTol x = x := by
    intro x hx
    unfold fmax at hx ⊢
    by_cases hlt : Fl.env.minTol < x
    · exact ⟨hlt, if_pos hlt⟩
    · rw [if_neg hlt] at hx; exact absurd rfl hx
  obtain ⟨l1, l2⟩ := key _ hlim
  obtain ⟨l1', l2'⟩ := key _ hlim'
  rw [l2] at htol
  cases htol
  rw [l2']
  have hs := sc_tolFactor.mul hm (by omega) (by omega)
  rw [zero_add] at hs
  have hc : Coarse 200 (Fl.env.tolFactor * m) := by
    obtain ⟨q, rfl, -, -, hq⟩ := hm
    exact coarse_tolerance rfl hq l1
  refine ⟨?_, hc⟩
  obtain ⟨q, r1, r2, -, -⟩ := hs
  obtain ⟨q', r1', r2', -, -⟩ := hc.sc hk' (by omega)
  rw [r1] at r1'
  cases r1'
  rw [r2, r2']

/-- **C116**, default tolerance (binary64): `locate_points` without a tolerance gives the same faces if the unit is divided by a power of
two, unless one of the two meshes is so small that the lower limit of the tolerance is used. -/
theorem C116_locate_points_default {k : Int} (hk : |k| ≤ 100) (hnb : nBuckets ≤ 2 ^ 53) (hv : CoarsePts vertices)
    (ht : CellTree.init Fl.env vertices faces fill nBuckets cellsPerLeaf sched = .ok t)
    (ht' : CellTree.init Fl.env (vertices.map (mapPt (rescale k k))) faces fill nBuckets cellsPerLeaf sched = .ok t')
    (hlim : t.tolerance Fl.env none ≠ .ok Fl.env.minTol) (hlim' : t'.tolerance Fl.env none ≠ .ok Fl.env.minTol)
    {points : List (Pt Fl)} (hp : CoarsePts points) (sched1 : List Nat) :
    t'.locatePoints Fl.env (points.map (mapPt (rescale k k))) none sched1 = t.locatePoints Fl.env points none sched1 := by
  obtain ⟨tol, htol⟩ := tolerance_ok (env := Fl.env) (C71_object_has_faces ht) none
  obtain ⟨htol', hc⟩ := C116_default_tolerance hk hnb hv ht ht' hlim hlim' htol
  rw [locatePoints_tol htol, locatePoints_tol htol']
  exact C116_locate_points hk hnb hv hc ht ht' hp sched1

/-- **C120**, default tolerance (binary64): the same for `compute_barycentric_weights`, which then gives the same floats. -/
theorem C120_weights_default {k : Int} (hk : |k| ≤ 100) (hnb : nBuckets ≤ 2 ^ 53) (hv : PlainPts vertices) (hn : t.nMaxVert ≤ 50)
    (ht : CellTree.init Fl.env vertices faces fill nBuckets cellsPerLeaf sched = .ok t)
    (ht' : CellTree.init Fl.env (vertices.map (mapPt (rescale k k))) faces fill nBuckets cellsPerLeaf sched = .ok t')
    (hlim : t.tolerance Fl.env none ≠ .ok Fl.env.minTol) (hlim' : t'.tolerance Fl.env none ≠ .ok Fl.env.minTol)
    {points : List (Pt Fl)} (hp : PlainPts points) (s s1 : List Nat) :
    t'.barycentricWeights Fl.env (points.map (mapPt (rescale k k))) none s s1 = t.barycentricWeights Fl.env points none s s1 := by
  obtain ⟨tol, htol⟩ := tolerance_ok (env := Fl.env) (C71_object_has_faces ht) none
  obtain ⟨htol', hc⟩ := C116_default_tolerance hk hnb hv.1 ht ht' hlim hlim' htol
  have e : ∀ {u : CellTree Fl} {c : Fl} (ps : List (Pt Fl)), u.tolerance Fl.env none = .ok c →
      u.barycentricWeights Fl.env ps none s s1 = u.barycentricWeights Fl.env ps (some c) s s1 := by
    intro u c ps h
    unfold CellTree.barycentricWeights
    rw [h]
    rfl
  rw [e _ htol, e _ htol']
  exact C120_weights hk hnb hv hc hn ht ht' hp s s1

/-! ## Examples -/

set_option synthInstance.maxSize 1000 in
/-- With the default tolerance all points of the common side are located in one of the two triangles, and in the same one if the unit
is divided by 1024. -/
example : ∃ t t', CellTree.init Fl.env Ex.tenths Ex.tenthFaces (-1) 4 1 [0, 1] = .ok t ∧
    CellTree.init Fl.env (Ex.tenths.map (mapPt (rescale 10 10))) Ex.tenthFaces (-1) 4 1 [0, 1] = .ok t' ∧
    t'.locatePoints Fl.env (Ex.tenthPoints.map (mapPt (rescale 10 10))) none (List.range 12) = .ok [0, 0, 0, 0, 0, 0, 0, 1, 1, 1, 1, 1] := by
  obtain ⟨t, h1, h2⟩ := bind_eq_ok.1 (show (CellTree.init Fl.env Ex.tenths Ex.tenthFaces (-1) 4 1 [0, 1] >>= fun t =>
    t.locatePoints Fl.env Ex.tenthPoints none (List.range 12) >>= fun r => t.tolerance Fl.env none >>= fun s => Except.ok (r, s)) =
      .ok ([0, 0, 0, 0, 0, 0, 0, 1, 1, 1, 1, 1], fin (7141530060149351 / 9903520314283042199192993792)) by decide +kernel)
  obtain ⟨t', h1', h2'⟩ := bind_eq_ok.1 (show (CellTree.init Fl.env (Ex.tenths.map (mapPt (rescale 10 10))) Ex.tenthFaces (-1) 4 1 [0, 1] >>=
    fun t => t.tolerance Fl.env none) = .ok (fin (7141530060149351 / 9671406556917033397649408)) by decide +kernel)
  obtain ⟨r, h3, h4⟩ := bind_eq_ok.1 h2
  obtain ⟨s, h5, h6⟩ := bind_eq_ok.1 h4
  obtain ⟨rfl, rfl⟩ := Prod.mk.inj (Except.ok.inj h6)
  refine ⟨t, t', h1, h1', ?_⟩
  rw [← h3]
  refine C116_locate_points_default (by norm_num) (by norm_num) Ex.tenths_coarse.1 h1 h1' ?_ ?_ Ex.tenths_coarse.2 _
  · rw [h5]; decide +kernel
  · rw [h2']; decide +kernel

set_option synthInstance.maxSize 1000 in
/-- Weights in a quadrilateral with the default tolerance. -/
example : ∃ t t', CellTree.init Fl.env Ex.tenths Ex.tenthQuad (-1) 4 1 [0] = .ok t ∧
    CellTree.init Fl.env (Ex.tenths.map (mapPt (rescale (-3) (-3)))) Ex.tenthQuad (-1) 4 1 [0] = .ok t' ∧
    t'.barycentricWeights Fl.env (Ex.tenthInside.map (mapPt (rescale (-3) (-3)))) none [1, 0, 3, 2] [1, 0, 3, 2] =
      t.barycentricWeights Fl.env Ex.tenthInside none [1, 0, 3, 2] [1, 0, 3, 2] ∧
    (t.barycentricWeights Fl.env Ex.tenthInside none [1, 0, 3, 2] [1, 0, 3, 2]).map (fun r => r.2.map fun w => w.take 1) =
      .ok [[fin (2274777362804485 / 4503599627370496)], [fin (2001599834386887 / 9007199254740992)],
        [fin (5882252574524729 / 36028797018963968)], [0]] := by
  obtain ⟨t, h1, h2⟩ := bind_eq_ok.1 (show (CellTree.init Fl.env Ex.tenths Ex.tenthQuad (-1) 4 1 [0] >>= fun t =>
    (t.barycentricWeights Fl.env Ex.tenthInside none [1, 0, 3, 2] [1, 0, 3, 2]).map (fun r => r.2.map fun w => w.take 1) >>= fun r =>
    t.tolerance Fl.env none >>= fun s => Except.ok (r, t.nMaxVert, decide (s = Fl.env.minTol))) =
      .ok ([[fin (2274777362804485 / 4503599627370496)], [fin (2001599834386887 / 9007199254740992)],
        [fin (5882252574524729 / 36028797018963968)], [0]], 4, false) by decide +kernel)
  obtain ⟨t', h1', h2'⟩ := bind_eq_ok.1 (show (CellTree.init Fl.env (Ex.tenths.map (mapPt (rescale (-3) (-3)))) Ex.tenthQuad (-1) 4 1 [0] >>=
    fun t => t.tolerance Fl.env none >>= fun s => Except.ok (decide (s = Fl.env.minTol))) = .ok false by decide +kernel)
  obtain ⟨r, h3, h4⟩ := bind_eq_ok.1 h2
  obtain ⟨s, h5, h6⟩ := bind_eq_ok.1 h4
  obtain ⟨rfl, h7⟩ := Prod.mk.inj (Except.ok.inj h6)
  obtain ⟨h7, h8⟩ := Prod.mk.inj h7
  obtain ⟨s', h5', h6'⟩ := bind_eq_ok.1 h2'
  refine ⟨t, t', h1, h1', ?_, h3⟩
  refine C120_weights_default (by norm_num) (by norm_num) Ex.tenths_plain.1 (by omega) h1 h1' ?_ ?_ Ex.tenths_plain.2 _ _
  · rw [h5]
    exact fun h => of_decide_eq_false h8 (Except.ok.inj h)
  · rw [h5']
    exact fun h => of_decide_eq_false (Except.ok.inj h6') (Except.ok.inj h)

/-- **C116**, what does not hold: the lower limit of the default tolerance has a unit. A point outside the mesh is located in a triangle
if the unit is multiplied by `2 ^ 20`. -/
theorem C116_limit_matters :
    (CellTree.init Fl.env Ex.tenths Ex.tenthFaces (-1) 4 1 [0, 1] >>= fun t =>
      t.locatePoints Fl.env [⟨rnd (1 / 4), rnd (15 / 100 - 1 / 10000000000)⟩] none [0]) = .ok [-1] ∧
    (CellTree.init Fl.env (Ex.tenths.map (mapPt (rescale (-20) (-20)))) Ex.tenthFaces (-1) 4 1 [0, 1] >>= fun t =>
      t.locatePoints Fl.env ([⟨rnd (1 / 4), rnd (15 / 100 - 1 / 10000000000)⟩].map (mapPt (rescale (-20) (-20)))) none [0]) = .ok [0] := by
  constructor <;> decide +kernel

end Celltree
