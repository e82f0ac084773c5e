import Verif.Spec.FloatDyadic
import Verif.Props.FloatWhole
import Verif.Props.FloatWholeFaces
import Verif.Props.FloatStretch
import Verif.Props.AffineAreas

/-!
# Grids with a spacing that is a power of two, in binary64: C125
-/

set_option linter.unusedSectionVars false

namespace Celltree.Fl

variable {env : Env Fl} {vertices verticesA : List (Pt Fl)} {faces facesA : IntArr} {fill nBuckets cellsPerLeaf : Int} {t : CellTree Fl}
variable {points : List (Pt Fl)} {otol : Option Fl} {sched : List Nat} {tol : ℚ} {k : Int}

/-! ## Change of units -/

theorem coarse_whole {q : ℚ} (h : Whole 25 q) : Coarse 100 (fin q) := by
  refine ⟨q, rfl, h.isRep (by norm_num), ?_, h.abs_le.trans (pow_le_pow_right₀ (by norm_num) (by norm_num))⟩
  obtain ⟨m, rfl, -⟩ := h
  exact ⟨m * 2 ^ 100, by push_cast; ring⟩

theorem pow2_mul {e : Nat} {q : ℚ} (h : Coarse e (fin q)) (hk : k.natAbs ≤ 100) (he : e ≤ 900) : pow2 k * fin q = fin (2 ^ k * q) := by
  obtain ⟨q', h1, h2, -⟩ := h.sc hk he
  rw [h2, ← Fl.fin.inj h1]

theorem scaleRel_whole (hk : k.natAbs ≤ 100) {q : ℚ} (h : Whole 25 q) (d : Bool) : ScaleRel k k d (fin q) (fin (2 ^ k * q)) := by
  refine ⟨coarse_whole h, ?_⟩
  unfold rescale
  rw [ite_self, pow2_mul (coarse_whole h) hk (by norm_num)]

theorem ptRel_whole (hk : k.natAbs ≤ 100) {q : Pt ℚ} (h : WholePt q) : PtRel (ScaleRel k k) (fp q) (fp (gridPt k q)) :=
  ⟨scaleRel_whole hk h.1 false, scaleRel_whole hk h.2 true⟩

/-- The tolerance in units of the spacing. -/
theorem coarse_tol (hk : k.natAbs ≤ 100) (hrep : IsRep tol) (h1 : 2 ^ k / 2 ^ 140 ≤ tol) (h2 : tol ≤ 2 ^ k / 2 ^ 20) :
    Coarse 200 (fin (tol / 2 ^ k)) ∧ 1 / 2 ^ 140 ≤ tol / 2 ^ k ∧ tol / 2 ^ k ≤ 1 / 2 ^ 20 := by
  have h0 : (0 : ℚ) < 2 ^ k := zpow_pos (by norm_num) k
  have e1 : 1 / 2 ^ 140 ≤ tol / 2 ^ k := by
    rw [le_div_iff₀ h0]
    calc (1 : ℚ) / 2 ^ 140 * 2 ^ k = 2 ^ k / 2 ^ 140 := by ring
      _ ≤ tol := h1
  have e2 : tol / 2 ^ k ≤ 1 / 2 ^ 20 := by
    rw [div_le_iff₀ h0]
    calc tol ≤ 2 ^ k / 2 ^ 20 := h2
      _ = 1 / 2 ^ 20 * 2 ^ k := by ring
  have p : 0 < tol / 2 ^ k := lt_of_lt_of_le (by positivity) e1
  have er : rq (tol / 2 ^ k) = tol / 2 ^ k := by
    have hs := rq_scale_of (k := k) (e := 140) (q := tol / 2 ^ k) (Or.inr (by rw [abs_of_pos p]; exact e1)) (by omega)
    rw [mul_div_cancel₀ _ h0.ne', rq_of_isRep hrep] at hs
    rw [eq_div_iff h0.ne', mul_comm]
    exact hs.symm
  refine ⟨⟨_, rfl, ?_, ?_, ?_⟩, e1, e2⟩
  · rw [← er]; exact rq_isRep _
  · have g : Grid (140 + 53) (rq (tol / 2 ^ k)) := grid_rq_of_le (by rw [abs_of_pos p]; exact e1)
    rw [er] at g
    exact g.mono (by omega)
  · rw [abs_of_pos p]
    exact e2.trans (by norm_num)

theorem polygon_rel {R : Bool → Fl → Fl → Prop} {tol tol' : Fl} (hP : SimilarPoint R tol tol') {p p' : Pt Fl} (hp : PtRel R p p')
    {poly poly' : List (Pt Fl)} (hl : List.Forall₂ (PtRel R) poly poly') :
    pointInPolygonOrOnEdge p poly tol = pointInPolygonOrOnEdge p' poly' tol' := by
  unfold pointInPolygonOrOnEdge
  exact ((rdI_rel hl (-1)).bind fun v v' hv => RelM.of_eq (pointLoop_rel hP hp hl hv false)).eq

/-- The change of units as an affine map. -/
def gridMap (k : Int) : Affine ℚ := ⟨2 ^ k, 0, 0, 2 ^ k, 0, 0⟩

theorem gridMap_pt (k : Int) : (gridMap k).pt = gridPt k := by
  funext p
  unfold gridMap Affine.pt gridPt
  simp

theorem gridMap_det (k : Int) : 0 < (gridMap k).det := by
  have h0 : (0 : ℚ) < 2 ^ k := zpow_pos (by norm_num) k
  unfold gridMap Affine.det
  simp only
  rw [mul_zero, sub_zero]
  exact mul_pos h0 h0

theorem gridPt_inv (k : Int) (p : Pt ℚ) : gridPt (-k) (gridPt k p) = p := by
  have h0 : (2 : ℚ) ^ k ≠ 0 := (zpow_pos (by norm_num) k).ne'
  unfold gridPt
  simp only
  refine Pt.ext' ?_ ?_ <;> simp only <;> rw [← mul_assoc, zpow_neg, inv_mul_cancel₀ h0, one_mul]

theorem grid_inPoly (k : Int) (l : List (Pt ℚ)) (p : Pt ℚ) : InPoly (l.map (gridPt k)) (gridPt k p) ↔ InPoly l p := by
  rw [← gridMap_pt, (gridMap k).inPoly]
  unfold InPoly
  exact forall₂_congr fun s _ => mul_nonneg_iff_of_pos_left (gridMap_det k)

theorem grid_convex {l : List (Pt ℚ)} : ConvexPoly (l.map (gridPt k)) ↔ ConvexPoly l := by
  constructor
  · intro h
    have := (gridMap (-k)).convexPoly (gridMap_det _) h
    rw [gridMap_pt, List.map_map] at this
    have e : gridPt (-k) ∘ gridPt k = id := funext (gridPt_inv k)
    rwa [e, List.map_id] at this
  · intro h
    have := (gridMap k).convexPoly (gridMap_det _) h
    rwa [gridMap_pt] at this

theorem _root_.Celltree.GridPoly.corner {l : List (Pt ℚ)} (h : GridPoly k l) : ∀ v ∈ l, GridPt k v := by
  obtain ⟨l0, rfl, h⟩ := h
  intro v hv
  obtain ⟨q, hq, rfl⟩ := List.mem_map.1 hv
  exact ⟨q, rfl, h.corner q hq⟩

/-! ## Points -/

/-- **C125**, one polygon: the test in binary64 has no rounding errors for the points of a grid with a spacing that is a power of two. -/
theorem C125_convex_exact (hk : |k| ≤ 100) (hrep : IsRep tol) (h1 : 2 ^ k / 2 ^ 140 ≤ tol) (h2 : tol ≤ 2 ^ k / 2 ^ 20)
    {l l' : List (Pt ℚ)} (hc : ConvexPoly l) (hl : GridPoly k l) (hl' : l' = l ∨ l' = l.reverse) {p : Pt ℚ} (hp : GridPt k p) :
    ∃ b, pointInPolygonOrOnEdge (fp p) (l'.map fp) (fin tol) = .ok b ∧ (b = true ↔ InPoly l p) := by
  have hk' := natAbs_le_of_abs hk
  obtain ⟨l0, rfl, w⟩ := hl
  obtain ⟨p0, rfl, wp⟩ := hp
  have h0 : (0 : ℚ) < 2 ^ k := zpow_pos (by norm_num) k
  obtain ⟨ct, t1, t2⟩ := coarse_tol hk' hrep h1 h2
  have et : pow2 k * fin (tol / 2 ^ k) = fin tol := by
    rw [pow2_mul ct hk' (by norm_num), mul_div_cancel₀ _ h0.ne']
  obtain ⟨l0', e0, rfl⟩ : ∃ l0', (l0' = l0 ∨ l0' = l0.reverse) ∧ l' = l0'.map (gridPt k) := by
    rcases hl' with rfl | rfl
    · exact ⟨l0, Or.inl rfl, rfl⟩
    · exact ⟨l0.reverse, Or.inr rfl, by rw [List.map_reverse]⟩
  have hw : ∀ v ∈ l0', WholePt v := by
    intro v hv
    rcases e0 with rfl | rfl
    · exact w.corner v hv
    · exact w.corner v (List.mem_reverse.1 hv)
  have hP := scale_point hk' ct
  rw [et] at hP
  have hr : List.Forall₂ (PtRel (ScaleRel k k)) (l0'.map fp) ((l0'.map (gridPt k)).map fp) := by
    rw [List.map_map, List.forall₂_map_left_iff, List.forall₂_map_right_iff, List.forall₂_same]
    exact fun v hv => ptRel_whole hk' (hw v hv)
  rw [← polygon_rel hP (ptRel_whole hk' wp) hr]
  obtain ⟨b, g1, g2⟩ := C121_convex_exact (le_trans (by
    have : (2 : ℚ) ^ 200 = 2 ^ 140 * 2 ^ 60 := by norm_num
    rw [this]; norm_num) t1) t2 (grid_convex.1 hc) w e0 wp
  exact ⟨b, g1, g2.trans (grid_inPoly k l0 p0).symm⟩

/-- If the test of one polygon is exact for a point, the answer for the point is exact. -/
theorem locate_decided (hm : GoodMesh env vertices faces fill)
    (ht : Makes env vertices faces fill nBuckets cellsPerLeaf t) (hs : sched.Perm (List.range points.length)) {res : List Int}
    {τ : Fl} (hres : t.locatePoints env points (some τ) sched = .ok res) {i : Nat} {p : Pt ℚ} (hp : points[i]? = some (fp p)) {v : Int}
    (hv : res[i]? = some v) (hfaces : ∀ r ∈ faces.rows, ∃ l, FaceIs vertices fill r l ∧ ConvexPoly l)
    (hdec : ∀ r ∈ faces.rows, ∀ l, FaceIs vertices fill r l → ConvexPoly l → ∀ l', (l' = l ∨ l' = l.reverse) →
      ∃ b, pointInPolygonOrOnEdge (fp p) (l'.map fp) τ = .ok b ∧ (b = true ↔ InPoly l p)) :
    (v ≠ -1 → ∃ (j : Nat) (r : List Int) (l : List (Pt ℚ)), v = j ∧ faces.rows[j]? = some r ∧ FaceIs vertices fill r l ∧
      ConvexPoly l ∧ InPoly l p) ∧
    (v = -1 → ∀ r ∈ faces.rows, ∀ l, FaceIs vertices fill r l → ConvexPoly l → ¬ InPoly l p) := by
  constructor
  · intro h0
    obtain ⟨j, r, hj, hrow, poly, hpoly, hacc⟩ := C06_located_point_passes_test hm ht hs hres hp hv h0
    have hr := List.mem_of_getElem? hrow
    obtain ⟨l, hf, hc⟩ := hfaces r hr
    obtain ⟨l', hl', rfl⟩ := hf.poly hpoly
    obtain ⟨b, e1, e2⟩ := hdec r hr l hf hc l' hl'
    rw [e1] at hacc
    exact ⟨j, r, l, hj, hrow, hf, hc, e2.1 (Except.ok.inj hacc)⟩
  · intro hv' r hr l hf hc hin
    obtain ⟨j, hj⟩ := List.mem_iff_getElem?.1 hr
    have hmem : ∀ v ∈ l, fp v ∈ facePts vertices fill r := by
      intro v hv
      rcases hf with h | h <;> rw [h]
      · exact List.mem_map_of_mem hv
      · exact List.mem_map_of_mem (List.mem_reverse.2 hv)
    have hbox : InBoxOf (facePts vertices fill r) (fp p) := by
      obtain ⟨⟨a, a1, a2⟩, ⟨b, b1, b2⟩, ⟨c, c1, c2⟩, ⟨d, d1, d2⟩⟩ := hc.inBoxOf hin
      exact ⟨⟨_, hmem a a1, (le_fin _ _).2 a2⟩, ⟨_, hmem b b1, (le_fin _ _).2 b2⟩, ⟨_, hmem c c1, (le_fin _ _).2 c2⟩,
        ⟨_, hmem d d1, (le_fin _ _).2 d2⟩⟩
    obtain ⟨poly, hpoly, hrej⟩ := C07_missed_point_fails_tests hm ht hs hres hp (by rw [hv, hv']) hj hbox
    obtain ⟨l', hl', rfl⟩ := hf.poly hpoly
    obtain ⟨b, e1, e2⟩ := hdec r hr l hf hc l' hl'
    rw [e1, e2.2 hin] at hrej
    cases hrej

theorem fp_inj {u w : Pt ℚ} (h : fp u = fp w) : u = w := by
  unfold fp at h
  injection h with g1 g2
  exact Pt.ext' (Fl.fin.inj g1) (Fl.fin.inj g2)

/-- Two descriptions of the same face have the same corners. -/
theorem FaceIs.same {r : List Int} {l l' : List (Pt ℚ)} (h : FaceIs vertices fill r l) (h' : FaceIs vertices fill r l') :
    l' = l ∨ l' = l.reverse := by
  have inj : Function.Injective (List.map fp) := List.map_injective_iff.2 fun _ _ => fp_inj
  rcases h with h | h <;> rcases h' with h' | h' <;> have e := inj (h.symm.trans h')
  · exact Or.inl e.symm
  · exact Or.inr (by rw [e, List.reverse_reverse])
  · exact Or.inr e.symm
  · exact Or.inl (List.reverse_injective e.symm)

theorem _root_.Celltree.GridPoly.reverse {l : List (Pt ℚ)} (h : GridPoly k l) : GridPoly k l.reverse := by
  obtain ⟨l0, rfl, h⟩ := h
  exact ⟨l0.reverse, by rw [List.map_reverse], h.reverse⟩

/-- **C125**, `locate_points` (binary64): the corners of the faces and the query point are points of a grid whose spacing is a power of
two. Nothing is rounded: the answer is a face that contains the point, and `-1` only if there is none. -/
theorem C125_locate_exact (hk : |k| ≤ 100) (hm : GoodMesh env vertices faces fill)
    (ht : Makes env vertices faces fill nBuckets cellsPerLeaf t) (hrepv : ∀ v ∈ vertices, Rep v.x ∧ Rep v.y)
    (hs : sched.Perm (List.range points.length)) (htol : t.tolerance env otol = .ok (fin tol)) (hrep : IsRep tol)
    (h1 : 2 ^ k / 2 ^ 140 ≤ tol) (h2 : tol ≤ 2 ^ k / 2 ^ 20)
    (hfaces : ∀ r ∈ faces.rows, ∃ l, FaceIs vertices fill r l ∧ ConvexPoly l ∧ GridPoly k l) :
    ∃ res, t.locatePoints env points otol sched = .ok res ∧ ∀ (i : Nat) (p : Pt ℚ), points[i]? = some (fp p) → GridPt k p →
      ∃ v, res[i]? = some v ∧
        (v ≠ -1 → ∃ (j : Nat) (r : List Int) (l : List (Pt ℚ)), v = j ∧ faces.rows[j]? = some r ∧ FaceIs vertices fill r l ∧
          ConvexPoly l ∧ InPoly l p) ∧
        (v = -1 → ∀ r ∈ faces.rows, ∀ l, FaceIs vertices fill r l → ConvexPoly l → ¬ InPoly l p) := by
  obtain ⟨res, hres, hlen⟩ := C66_never_raises hm ht hrepv hs otol
  refine ⟨res, hres, ?_⟩
  intro i p hp hw
  have hi : i < res.length := by rw [hlen]; exact (List.getElem?_eq_some_iff.1 hp).1
  rw [locatePoints_tol htol] at hres
  refine ⟨res[i], by simp, locate_decided hm ht hs hres hp (List.getElem?_eq_getElem hi)
    (fun r hr => (hfaces r hr).imp fun l hl => ⟨hl.1, hl.2.1⟩) ?_⟩
  intro r hr l hf hc l' hl'
  obtain ⟨lg, fg, -, hg⟩ := hfaces r hr
  have : GridPoly k l := by
    rcases FaceIs.same fg hf with rfl | rfl
    · exact hg
    · exact hg.reverse
  exact C125_convex_exact hk hrep h1 h2 hc this hl' hw

/-! ## The default tolerance -/

theorem default_isRep (h : t.tolerance Fl.env none = .ok (fin tol)) : IsRep tol := by
  unfold CellTree.tolerance defaultTolerance at h
  simp only at h
  obtain ⟨m, -, h⟩ := bind_eq_ok.1 h
  have h := Except.ok.inj h
  have key : Rep (fmax Fl.env.minTol (Fl.env.tolFactor * m)) := by
    unfold fmax
    split
    · have ef : Fl.env.tolFactor = fin (rq (1 / 1000000000000)) := rnd_fin (by
        refine le_trans ?_ (pow_le_big (k := 0) (by norm_num))
        rw [abs_of_pos (by norm_num)]; norm_num)
      rw [ef]
      cases m with
      | fin q => rw [fin_mul]; exact rep_rnd _
      | nan => trivial
      | pinf =>
        show Rep (infOf _)
        unfold infOf
        split
        · trivial
        · split <;> trivial
      | ninf =>
        show Rep (infOf _)
        unfold infOf
        split
        · trivial
        · split <;> trivial
    · exact rep_rnd _
  rw [h] at key
  exact key.1

/-- **C125**, the tolerance: if the spacing is at least `2 ^ -29`, the default tolerance satisfies the conditions of
`C125_locate_exact`. -/
theorem C125_default_tolerance (hk1 : -29 ≤ k) (hk2 : k ≤ 90) (hm : GoodMesh Fl.env vertices faces fill)
    (ht : Makes Fl.env vertices faces fill nBuckets cellsPerLeaf t)
    (hfaces : ∀ r ∈ faces.rows, ∃ l, FaceIs vertices fill r l ∧ ConvexPoly l ∧ GridPoly k l) :
    ∃ tol, t.tolerance Fl.env none = .ok (fin tol) ∧ IsRep tol ∧ 2 ^ k / 2 ^ 140 ≤ tol ∧ tol ≤ 2 ^ k / 2 ^ 20 := by
  obtain ⟨_, hne, bt, hc⟩ := ht.constructed' hm
  have h0 : (0 : ℚ) < 2 ^ k := zpow_pos (by norm_num) k
  have k1 : (2 : ℚ) ^ (-29 : Int) ≤ 2 ^ k := zpow_le_zpow_right₀ (by norm_num) hk1
  have k2 : (2 : ℚ) ^ k ≤ 2 ^ (90 : Int) := zpow_le_zpow_right₀ (by norm_num) hk2
  have e1 : (2 : ℚ) ^ (-29 : Int) = 1 / 2 ^ 29 := by norm_num
  have e2 : (2 : ℚ) ^ (90 : Int) = 2 ^ 90 := by norm_num
  rw [e1] at k1
  rw [e2] at k2
  have := boxes_tolerance (t := t) (S := 2 ^ k * 2 ^ 18) (by
      have : (1 : ℚ) / 2 ^ 200 ≤ 1 / 2 ^ 29 := inv_pow_le (by norm_num)
      linarith) (by
      have : (2 : ℚ) ^ 90 * 2 ^ 18 ≤ 2 ^ 201 := by rw [← pow_add]; exact pow_le_pow_right₀ (by norm_num) (by norm_num)
      linarith) hc.distances ?_ ?_
  · obtain ⟨tol, g1, g2, g3⟩ := this
    refine ⟨tol, g1, default_isRep g1, le_trans ?_ g2, g3.trans (max_le ?_ ?_)⟩
    · have : (1 : ℚ) / 2 ^ 50 = 2 ^ 90 / 2 ^ 140 := by norm_num
      rw [this]
      exact div_le_div_of_nonneg_right k2 (by positivity)
    · have : (1 : ℚ) / 2 ^ 49 = 1 / 2 ^ 29 / 2 ^ 20 := by norm_num
      rw [this]
      exact div_le_div_of_nonneg_right k1 (by positivity)
    · have : (2 : ℚ) ^ k * 2 ^ 18 / 2 ^ 38 = 2 ^ k / 2 ^ 20 := by ring
      rw [this]
  · intro h1
    have := hc.boxes.length
    rw [h1] at this
    exact hne (List.length_eq_zero_iff.1 this.symm)
  · intro b hb
    obtain ⟨i, hi⟩ := List.mem_iff_getElem?.1 hb
    have hi' : i < faces.rows.length := by rw [← hc.boxes.length]; exact (List.getElem?_eq_some_iff.1 hi).1
    obtain ⟨b', h1, h2⟩ := hc.boxes.box i _ (List.getElem?_eq_getElem hi')
    rw [hi] at h1
    obtain rfl := Option.some.inj h1
    obtain ⟨l, hf, -, l0, rfl, hl⟩ := hfaces _ (List.getElem_mem hi')
    have hpts : ∀ q ∈ facePts vertices fill faces.rows[i], ∃ v ∈ l0.map (gridPt k), fp v = q := fun q hq => by
      obtain ⟨v, v1, v2⟩ := (hf.mem q).1 hq
      exact ⟨v, v1, v2⟩
    obtain ⟨c, g1, g2, g3, ⟨u1, n1, k1⟩, ⟨u2, n2, k2⟩, ⟨u3, n3, k3⟩, ⟨u4, n4, k4⟩⟩ := map_bbox hpts h2
    obtain ⟨v1, m1, rfl⟩ := List.mem_map.1 n1
    obtain ⟨v2, m2, rfl⟩ := List.mem_map.1 n2
    obtain ⟨v3, m3, rfl⟩ := List.mem_map.1 n3
    obtain ⟨v4, m4, rfl⟩ := List.mem_map.1 n4
    refine ⟨c, g1, g2, g3, ?_, ?_⟩
    · rw [← k1, ← k2]
      have := mul_le_mul_of_nonneg_left (abs_le.1 (hl.small v1 m1 v2 m2).1).2 h0.le
      unfold gridPt
      simp only
      linarith
    · rw [← k3, ← k4]
      have := mul_le_mul_of_nonneg_left (abs_le.1 (hl.small v3 m3 v4 m4).2).2 h0.le
      unfold gridPt
      simp only
      linarith

/-- **C125** with the default tolerance. -/
theorem C125_locate_default (hk1 : -29 ≤ k) (hk2 : k ≤ 90) (hm : GoodMesh Fl.env vertices faces fill)
    (ht : Makes Fl.env vertices faces fill nBuckets cellsPerLeaf t) (hrep : ∀ v ∈ vertices, Rep v.x ∧ Rep v.y)
    (hs : sched.Perm (List.range points.length))
    (hfaces : ∀ r ∈ faces.rows, ∃ l, FaceIs vertices fill r l ∧ ConvexPoly l ∧ GridPoly k l) :
    ∃ res, t.locatePoints Fl.env points none sched = .ok res ∧ ∀ (i : Nat) (p : Pt ℚ), points[i]? = some (fp p) → GridPt k p →
      ∃ v, res[i]? = some v ∧
        (v ≠ -1 → ∃ (j : Nat) (r : List Int) (l : List (Pt ℚ)), v = j ∧ faces.rows[j]? = some r ∧ FaceIs vertices fill r l ∧
          ConvexPoly l ∧ InPoly l p) ∧
        (v = -1 → ∀ r ∈ faces.rows, ∀ l, FaceIs vertices fill r l → ConvexPoly l → ¬ InPoly l p) := by
  obtain ⟨tol, e1, e2, e3, e4⟩ := C125_default_tolerance hk1 hk2 hm ht hfaces
  exact C125_locate_exact (abs_le.2 ⟨by omega, by omega⟩) hm ht hrep hs e1 e2 e3 e4 hfaces

/-! ## Faces -/

theorem isRep_zpow_mul {n : Nat} {q : ℚ} (h : Whole n q) (hn : n < 53) {j : Int} (hj : -1074 ≤ j) : IsRep (2 ^ j * q) := by
  obtain ⟨m, rfl, hm⟩ := h
  exact ⟨m, j, mul_comm _ _, hm.trans_lt (pow_lt_pow_right₀ (by norm_num) hn), hj⟩

theorem grid_axes (hk : -500 ≤ k) {A B : List (Pt ℚ)} (wA : ∀ v ∈ A, GridPt k v) (wB : ∀ v ∈ B, GridPt k v) : ExactAxes A B := by
  have normal : ∀ s ∈ sides A, nv s = axis s ∧ ∃ n, axis s = gridPt k n ∧ Whole 26 n.x ∧ Whole 26 n.y := by
    intro s hs
    obtain ⟨m1, m2⟩ := mem_sides_mem hs
    obtain ⟨a, ea, ha⟩ := wA _ m1
    obtain ⟨b, eb, hb⟩ := wA _ m2
    have w1 := ha.2.sub hb.2
    have w2 := hb.1.sub ha.1
    have e1 : s.1.y - s.2.y = 2 ^ k * (a.y - b.y) := by rw [ea, eb]; unfold gridPt; simp only; ring
    have e2 : s.2.x - s.1.x = 2 ^ k * (b.x - a.x) := by rw [ea, eb]; unfold gridPt; simp only; ring
    unfold nv axis
    rw [e1, e2, rq_of_isRep (isRep_zpow_mul w1 (by norm_num) (by omega)), rq_of_isRep (isRep_zpow_mul w2 (by norm_num) (by omega))]
    exact ⟨rfl, ⟨a.y - b.y, b.x - a.x⟩, rfl, w1, w2⟩
  refine ⟨fun s hs => (normal s hs).1, fun s hs v hv => ?_⟩
  obtain ⟨-, n, en, n1, n2⟩ := normal s hs
  obtain ⟨q, rfl, hq⟩ := hv.elim (wA v) (wB v)
  have w1 := hq.1.mul n1
  have w2 := hq.2.mul n2
  have e : ∀ x y : ℚ, 2 ^ k * x * (2 ^ k * y) = 2 ^ (k + k) * (x * y) := by
    intro x y
    rw [zpow_add₀ (by norm_num : (2 : ℚ) ≠ 0)]; ring
  rw [en]
  unfold dl along gridPt
  simp only
  rw [e, e, e, e, rq_of_isRep (isRep_zpow_mul w1 (by norm_num) (by omega)), rq_of_isRep (isRep_zpow_mul w2 (by norm_num) (by omega)),
    ← mul_add, rq_of_isRep (isRep_zpow_mul (w1.add w2) (by norm_num) (by omega))]
  ring

theorem grid_big (hk : k ≤ 300) {l : List (Pt ℚ)} (g : ∀ v ∈ l, GridPt k v) : ∀ v ∈ l, Bnd (2 ^ 400) v := by
  intro v hv
  obtain ⟨q, rfl, hq⟩ := g v hv
  have h0 : (0 : ℚ) < 2 ^ k := zpow_pos (by norm_num) k
  have k2 : (2 : ℚ) ^ k ≤ 2 ^ (300 : Int) := zpow_le_zpow_right₀ (by norm_num) hk
  have key : ∀ x : ℚ, |x| ≤ 2 ^ 25 → |2 ^ k * x| ≤ 2 ^ 400 := by
    intro x hx
    rw [abs_mul, abs_of_pos h0]
    calc (2 : ℚ) ^ k * |x| ≤ 2 ^ (300 : Int) * 2 ^ 25 := mul_le_mul k2 hx (abs_nonneg _) (by positivity)
      _ = 2 ^ 325 := by
        rw [show (2 : ℚ) ^ (300 : Int) = 2 ^ (300 : ℕ) from zpow_natCast 2 300, ← pow_add]
      _ ≤ 2 ^ 400 := pow_le_pow_right₀ (by norm_num) (by norm_num)
  exact ⟨key _ hq.1.abs_le, key _ hq.2.abs_le⟩

/-- **C125**, `locate_faces` (binary64): the corners of the faces of mesh and query are points of a grid whose spacing is a power of
two. A pair of convex faces is reported if and only if their interiors have a point in common. -/
theorem C125_locate_faces_exact (hk1 : -500 ≤ k) (hk2 : k ≤ 300) (hm : GoodMesh Fl.env vertices faces fill)
    (ht : Makes Fl.env vertices faces fill nBuckets cellsPerLeaf t)
    (hvA : ValidFaces verticesA.length (-1) facesA) (hcolA : facesA.ncol ≤ maxNVertex)
    (hnA : ∀ r ∈ facesA.rows, NumPts (facePts verticesA (-1) r))
    {nThreads : Nat} (hn : 0 < nThreads) {sched sched1 : List Nat} {sched2 : Nat → List Nat}
    (hs : sched.Perm (List.range facesA.rows.length)) (hs1 : sched1.Perm (List.range nThreads))
    (hs2 : ∀ n, (sched2 n).Perm (List.range n)) :
    ∃ rows ii jj, t.locateFaces Fl.env verticesA facesA nThreads sched sched1 sched2 = .ok (rows, ii, jj) ∧
      ∀ i j r s A B, facesA.rows[i]? = some r → faces.rows[j]? = some s →
        FaceIs verticesA (-1) r A → FaceIs vertices fill s B → ConvexPoly A → ConvexPoly B →
        (∀ v ∈ A, GridPt k v) → (∀ v ∈ B, GridPt k v) →
        ((i, j) ∈ ii.zip jj ↔ ∃ p, InInterior A p ∧ InInterior B p) := by
  obtain ⟨rows, ii, jj, h1, h2⟩ := locateFaces_fl hm ht hvA hcolA hnA hn hs hs1 hs2
  refine ⟨rows, ii, jj, h1, fun i j r s A B hi hj fA fB cA cB wA wB => ?_⟩
  obtain ⟨⟨a, ha⟩, h3⟩ := h2 i j r s A B hi hj fA fB (grid_big hk2 wA) (grid_big hk2 wB) cA.ne_nil cB.ne_nil
  rw [h3, exact_overlap fA fB cA cB (grid_axes hk1 wA wB) (grid_axes hk1 wB wA) ha]

end Celltree.Fl

/-! ## Examples -/

set_option synthInstance.maxSize 1000

namespace Celltree.Ex

open Fl

/-- Two cells with a slanted side in common, at multiples of an eighth of a degree. -/
def eighthVerts : List (Pt Fl) := [fp ⟨5, 52⟩, fp ⟨23 / 4, 417 / 8⟩, fp ⟨11 / 2, 425 / 8⟩, fp ⟨5, 213 / 4⟩, fp ⟨25 / 4, 52⟩, fp ⟨25 / 4, 213 / 4⟩]
def eighthFaces : IntArr := ⟨4, [[0, 1, 2, 3], [1, 4, 5, 2]]⟩
def eighthCell : List (Pt ℚ) := [⟨5, 52⟩, ⟨23 / 4, 417 / 8⟩, ⟨11 / 2, 425 / 8⟩, ⟨5, 213 / 4⟩]
def eighthCell' : List (Pt ℚ) := [⟨23 / 4, 417 / 8⟩, ⟨25 / 4, 52⟩, ⟨25 / 4, 213 / 4⟩, ⟨11 / 2, 425 / 8⟩]

theorem eighth_good : GoodMesh Fl.env eighthVerts eighthFaces (-1) :=
  ⟨⟨by decide, fun r hr => by
    simp only [eighthFaces, List.mem_cons, List.not_mem_nil, or_false] at hr
    rcases hr with rfl | rfl <;> exact ⟨by decide, by decide, by decide⟩⟩, by
      intro r hr p hp
      have : ∀ p ∈ eighthVerts, p.x ≠ Fl.nan ∧ p.y ≠ Fl.nan := by decide +kernel
      unfold facePts at hp
      obtain ⟨k, _, hk⟩ := List.mem_filterMap.1 hp
      exact this p (List.mem_of_getElem? hk), nofun, nofun⟩

theorem eighthCell_grid : GridPoly (-3) eighthCell :=
  ⟨[⟨40, 416⟩, ⟨46, 417⟩, ⟨44, 425⟩, ⟨40, 426⟩], by decide +kernel, wholePoly_iff (by decide +kernel) (by decide +kernel)⟩
theorem eighthCell'_grid : GridPoly (-3) eighthCell' :=
  ⟨[⟨46, 417⟩, ⟨50, 416⟩, ⟨50, 426⟩, ⟨44, 425⟩], by decide +kernel, wholePoly_iff (by decide +kernel) (by decide +kernel)⟩

theorem eighth_faces : ∀ r ∈ eighthFaces.rows, ∃ l, FaceIs eighthVerts (-1) r l ∧ ConvexPoly l ∧ GridPoly (-3) l := by
  intro r hr
  simp only [eighthFaces, List.mem_cons, List.not_mem_nil, or_false] at hr
  rcases hr with rfl | rfl
  · exact ⟨eighthCell, by decide +kernel, by decide +kernel, eighthCell_grid⟩
  · exact ⟨eighthCell', by decide +kernel, by decide +kernel, eighthCell'_grid⟩

theorem grid_rep {k : Int} (hk1 : -500 ≤ k) (hk2 : k ≤ 300) {v : Pt ℚ} (h : GridPt k v) : Rep (fp v).x ∧ Rep (fp v).y := by
  obtain ⟨b1, b2⟩ := grid_big hk2 (l := [v]) (by simpa using h) v (by simp)
  obtain ⟨q, rfl, hq⟩ := h
  have big : (2 : ℚ) ^ 400 ≤ maxNat := pow_le_big (by norm_num)
  exact ⟨⟨isRep_zpow_mul hq.1 (by norm_num) (by omega), b1.trans big⟩, ⟨isRep_zpow_mul hq.2 (by norm_num) (by omega), b2.trans big⟩⟩

theorem eighth_verts_rep : ∀ v ∈ eighthVerts, Rep v.x ∧ Rep v.y := by
  intro v hv
  have : ∀ v ∈ eighthVerts, ∃ q ∈ eighthCell ++ eighthCell', fp q = v := by decide +kernel
  obtain ⟨q, hq, rfl⟩ := this v hv
  refine grid_rep (k := -3) (by norm_num) (by norm_num) ?_
  rcases List.mem_append.1 hq with h | h
  · exact eighthCell_grid.corner q h
  · exact eighthCell'_grid.corner q h

end Celltree.Ex

namespace Celltree.Fl

/-- In this mesh, with the default tolerance, a point at eighths of a degree that is in none of the cells is not located; the first point
is on the slanted side, the third is an eighth of a degree from the mesh. -/
example : ∃ t, Makes Fl.env Ex.eighthVerts Ex.eighthFaces (-1) 4 2 t ∧
    t.locatePoints Fl.env [fp ⟨45 / 8, 421 / 8⟩, fp ⟨6, 421 / 8⟩, fp ⟨21 / 4, 213 / 4⟩] none [0, 1, 2] = .ok [0, 1, -1] ∧
    ∀ p : Pt ℚ, GridPt (-3) p → ∃ res, ∃ v : Int, t.locatePoints Fl.env [fp p] none [0] = .ok res ∧ res[0]? = some v ∧
      (v = -1 → ¬ InPoly Ex.eighthCell p ∧ ¬ InPoly Ex.eighthCell' p) ∧
      (v ≠ -1 → ∃ (j : Nat) (r : List Int) (l : List (Pt ℚ)), v = j ∧ Ex.eighthFaces.rows[j]? = some r ∧
        FaceIs Ex.eighthVerts (-1) r l ∧ ConvexPoly l ∧ InPoly l p) := by
  obtain ⟨t, h1, h2⟩ := bind_eq_ok.1 (show (CellTree.init Fl.env Ex.eighthVerts Ex.eighthFaces (-1) 4 2 [0, 1] >>= fun t =>
    t.locatePoints Fl.env [fp ⟨45 / 8, 421 / 8⟩, fp ⟨6, 421 / 8⟩, fp ⟨21 / 4, 213 / 4⟩] none [0, 1, 2]) =
      .ok [0, 1, -1] by decide +kernel)
  have hmk : Makes Fl.env Ex.eighthVerts Ex.eighthFaces (-1) 4 2 t := ⟨_, by decide, h1⟩
  refine ⟨t, hmk, h2, fun p hp => ?_⟩
  obtain ⟨res, g1, g2⟩ := C125_locate_default (k := -3) (points := [fp p]) (by norm_num) (by norm_num) Ex.eighth_good hmk
    Ex.eighth_verts_rep (List.Perm.refl [0]) Ex.eighth_faces
  obtain ⟨v, f1, f2, f3⟩ := g2 0 p rfl hp
  refine ⟨res, v, g1, f1, fun hv => ⟨?_, ?_⟩, f2⟩
  · exact f3 hv _ (by decide) _ (show FaceIs Ex.eighthVerts (-1) [0, 1, 2, 3] Ex.eighthCell by decide +kernel) (by decide +kernel)
  · exact f3 hv _ (by decide) _ (show FaceIs Ex.eighthVerts (-1) [1, 4, 5, 2] Ex.eighthCell' by decide +kernel) (by decide +kernel)

/-- The cells of this mesh overlap only themselves. -/
example : ∃ t ii jj, Makes Fl.env Ex.eighthVerts Ex.eighthFaces (-1) 4 2 t ∧
    t.locateFaces Fl.env Ex.eighthVerts Ex.eighthFaces 1 [0, 1] [0] List.range = .ok (Ex.eighthFaces.rows, ii, jj) ∧
    ii = [0, 1] ∧ jj = [0, 1] ∧ ((0, 1) ∈ ii.zip jj ↔ ∃ p, InInterior Ex.eighthCell p ∧ InInterior Ex.eighthCell' p) := by
  obtain ⟨t, h1, h2⟩ := bind_eq_ok.1 (show (CellTree.init Fl.env Ex.eighthVerts Ex.eighthFaces (-1) 4 2 [0, 1] >>= fun t =>
    t.locateFaces Fl.env Ex.eighthVerts Ex.eighthFaces 1 [0, 1] [0] List.range) = .ok ([[0, 1, 2, 3], [1, 4, 5, 2]], [0, 1], [0, 1])
    by decide +kernel)
  have hmk : Makes Fl.env Ex.eighthVerts Ex.eighthFaces (-1) 4 2 t := ⟨_, by decide, h1⟩
  obtain ⟨rows, ii, jj, g1, g2⟩ := C125_locate_faces_exact (k := -3) (by norm_num) (by norm_num) Ex.eighth_good hmk
    Ex.eighth_good.valid (by decide) Ex.eighth_good.num
    (nThreads := 1) (by norm_num) (sched := [0, 1]) (sched1 := [0]) (sched2 := List.range) (List.Perm.refl _) (List.Perm.refl _)
    (fun n => List.Perm.refl _)
  rw [h2] at g1
  cases g1
  exact ⟨t, _, _, hmk, h2, rfl, rfl, g2 0 1 _ _ Ex.eighthCell Ex.eighthCell' rfl rfl (by decide +kernel) (by decide +kernel)
    (by decide +kernel) (by decide +kernel) Ex.eighthCell_grid.corner Ex.eighthCell'_grid.corner⟩

/-- The limit on the spacing is needed: with a spacing of `2 ^ -60` the default tolerance, which has a lower limit, is more than the
size of the cell, and a point outside it is located in it. -/
theorem C125_spacing_matters : ∃ t, Makes Fl.env [fp ⟨0, 0⟩, fp ⟨4 / 2 ^ 60, 0⟩, fp ⟨0, 4 / 2 ^ 60⟩] ⟨3, [[0, 1, 2]]⟩ (-1) 4 2 t ∧
    t.locatePoints Fl.env [fp ⟨4 / 2 ^ 60, 3 / 2 ^ 60⟩] none [0] = .ok [0] ∧
    ¬ InPoly [(⟨0, 0⟩ : Pt ℚ), ⟨4 / 2 ^ 60, 0⟩, ⟨0, 4 / 2 ^ 60⟩] ⟨4 / 2 ^ 60, 3 / 2 ^ 60⟩ ∧
    GridPoly (-60) [⟨0, 0⟩, ⟨4 / 2 ^ 60, 0⟩, ⟨0, 4 / 2 ^ 60⟩] ∧ GridPt (-60) ⟨4 / 2 ^ 60, 3 / 2 ^ 60⟩ := by
  obtain ⟨t, h1, h2⟩ := bind_eq_ok.1 (show (CellTree.init Fl.env [fp ⟨0, 0⟩, fp ⟨4 / 2 ^ 60, 0⟩, fp ⟨0, 4 / 2 ^ 60⟩]
    ⟨3, [[0, 1, 2]]⟩ (-1) 4 2 [0] >>= fun t => t.locatePoints Fl.env [fp ⟨4 / 2 ^ 60, 3 / 2 ^ 60⟩] none [0]) = .ok [0] by decide +kernel)
  refine ⟨t, ⟨_, by decide, h1⟩, h2, by decide +kernel, ?_, ?_⟩
  · exact ⟨[⟨0, 0⟩, ⟨4, 0⟩, ⟨0, 4⟩], by decide +kernel, Ex.wholePoly_iff (by decide +kernel) (by decide +kernel)⟩
  · exact ⟨⟨4, 3⟩, by decide +kernel, Ex.wholePt_iff (by decide +kernel) (by decide +kernel)⟩

end Celltree.Fl
