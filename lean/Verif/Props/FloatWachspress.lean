import Verif.Proofs.FloatEdgeCase
import Verif.Props.FloatWeights
import Verif.Props.Weights

/-!
# Interpolation weights of polygons in binary64: C86
-/

set_option linter.unusedSectionVars false

namespace Celltree

section
variable {F : Type} [Add F] [Sub F] [Mul F] [Div F] [Neg F] [Zero F] [One F] [IntCast F]
  [LT F] [LE F] [BEq F] [DecidableLT F] [DecidableLE F] [NumOrd F]
variable {env : Env F} {vertices : List (Pt F)} {faces : IntArr} {fill nBuckets cellsPerLeaf : Int} {t : CellTree F}

theorem Makes.stored_length (hm : GoodMesh env vertices faces fill)
    (ht : Makes env vertices faces fill nBuckets cellsPerLeaf t) {j : Nat} {r : List Int} (hj : faces.rows[j]? = some r) :
    (storedPts vertices fill faces.ncol r).length ≤ faces.ncol := by
  obtain ⟨hcol, _, bt, hc⟩ := ht.constructed' hm
  obtain ⟨B, b1, _, b3, b4⟩ := hc.elements.row j r hj
  rw [storedPts_eq b3 b4, (ptsOf_spec b3.range).1]
  exact b3.le

end

namespace Fl

/-- A convex face with coordinates up to `M` and of size up to `D`, counter-clockwise, that is not thin: `D²` is at most `κ`
times twice the area of the triangle of a side and any other corner, and the tolerance is small compared to `D`. -/
structure FatFace (M D κ tol : ℚ) (l : List (Pt ℚ)) : Prop where
  convex : ConvexPoly l
  good : GoodPoly M D l
  nodup : l.Nodup
  near : ∀ v ∈ l, ∀ w ∈ l, |w.x - v.x| ≤ D ∧ |w.y - v.y| ≤ D
  fat : ∀ s ∈ sides l, ∀ w ∈ l, w ≠ s.1 → w ≠ s.2 → D * D ≤ κ * orient s.1 s.2 w
  kappa : 1 ≤ κ
  slack_le : slack M D ≤ tol
  tol_le : 256 * (l.length * κ) ^ 2 * tol ≤ D

variable {M D κ tol : ℚ} {l l' : List (Pt ℚ)} {p q : Pt ℚ}

theorem corner_mem (h : 0 < l.length) (k : Nat) : corner l h k ∈ l := List.getElem_mem _

theorem corner_inj (h : 0 < l.length) (hl : l.Nodup) {i j : Nat} (e : corner l h i = corner l h j) :
    i % l.length = j % l.length := (List.Nodup.getElem_inj_iff hl).1 e

theorem FatFace.stored (F : FatFace M D κ tol l) (hM : 1 / 2 ^ 100 ≤ M) (hM' : M ≤ 2 ^ 100) (hl : l' = l ∨ l' = l.reverse) :
    ∃ (h : 0 < l'.length) (σ : ℚ), FatStored M D κ tol h σ ∧
      ∀ p q, InPoly l q → |p.x - q.x| ≤ 2 * tol → |p.y - q.y| ≤ 2 * tol → CloseTo h σ D tol p q := by
  have h3 : 3 ≤ l.length := by
    obtain ⟨a, b, c, hs, -⟩ := F.convex.nondeg
    exact hs.length_le
  have hlen : l'.length = l.length := by rcases hl with rfl | rfl <;> simp
  have hmem : ∀ {v}, v ∈ l' → v ∈ l := by
    intro v hv
    rcases hl with rfl | rfl
    · exact hv
    · exact List.mem_reverse.1 hv
  have hnd : l'.Nodup := by
    rcases hl with rfl | rfl
    · exact F.nodup
    · exact List.nodup_reverse.2 F.nodup
  have h : 0 < l'.length := by omega
  obtain ⟨σ, hσ, hside⟩ : ∃ σ : ℚ, σ * σ = 1 ∧ ∀ k q, ∃ s ∈ sides l, sideOr h σ k q = orient s.1 s.2 q ∧
      ((s.1 = prevCorner h k ∧ s.2 = prevCorner h (k + 1)) ∨ (s.2 = prevCorner h k ∧ s.1 = prevCorner h (k + 1))) := by
    rcases hl with rfl | rfl
    · exact ⟨1, by norm_num, fun k q => ⟨_, prevCorner_side h k, by unfold sideOr; rw [one_mul], Or.inl ⟨rfl, rfl⟩⟩⟩
    · refine ⟨-1, by norm_num, fun k q => ?_⟩
      obtain ⟨s, hs, e⟩ := List.mem_map.1 ((sides_reverse l).mem_iff.1 (prevCorner_side h k))
      have e1 : s.2 = prevCorner h k := (Prod.ext_iff.1 e).1
      have e2 : s.1 = prevCorner h (k + 1) := (Prod.ext_iff.1 e).2
      refine ⟨s, hs, ?_, Or.inr ⟨e1, e2⟩⟩
      rw [e1, e2]
      unfold sideOr orient
      ring
  refine ⟨h, σ, ⟨by omega, hσ, fun k => F.good.bnd _ (hmem (corner_mem h k)),
    fun i j => F.near _ (hmem (corner_mem h j)) _ (hmem (corner_mem h i)), ?_, F.kappa, F.slack_le,
    by rw [hlen]; exact F.tol_le, hM, hM'⟩, ?_⟩
  · intro i hi j hj h1 h2
    obtain ⟨s, hs, e, e'⟩ := hside j (corner l' h i)
    rw [e]
    have n1 : corner l' h i ≠ prevCorner h j := by
      intro he
      have := corner_inj h hnd he
      rw [Nat.mod_eq_of_lt hi] at this
      apply h2
      rw [this]
      rcases Nat.eq_zero_or_pos j with g | g
      · subst g
        rw [Nat.zero_add, Nat.mod_eq_of_lt (by omega : l'.length - 1 < l'.length), Nat.sub_add_cancel (by omega), Nat.mod_self]
      · rw [show j + l'.length - 1 = (j - 1) + l'.length from by omega, Nat.add_mod_right,
          Nat.mod_eq_of_lt (by omega : j - 1 < l'.length), Nat.sub_add_cancel g, Nat.mod_eq_of_lt hj]
    have n2 : corner l' h i ≠ prevCorner h (j + 1) := by
      intro he
      rw [prevCorner_succ] at he
      have := corner_inj h hnd he
      rw [Nat.mod_eq_of_lt hi, Nat.mod_eq_of_lt hj] at this
      exact h1 this.symm
    rcases e' with ⟨g1, g2⟩ | ⟨g1, g2⟩
    · exact F.fat s hs _ (hmem (corner_mem h i)) (by rw [g1]; exact n1) (by rw [g2]; exact n2)
    · exact F.fat s hs _ (hmem (corner_mem h i)) (by rw [g2]; exact n2) (by rw [g1]; exact n1)
  · intro p q hq d1 d2
    refine ⟨fun k => ?_, d1, d2, fun k => ?_⟩
    · obtain ⟨s, hs, e, -⟩ := hside k q
      rw [e]
      exact hq s hs
    · have hc := hmem (corner_mem h k)
      obtain ⟨⟨v1, m1, e1⟩, ⟨v2, m2, e2⟩, ⟨v3, m3, e3⟩, ⟨v4, m4, e4⟩⟩ := F.convex.inBoxOf hq
      have a1 := abs_le.1 (F.near _ m1 _ hc).1
      have a2 := abs_le.1 (F.near _ m2 _ hc).1
      have a3 := abs_le.1 (F.near _ m3 _ hc).2
      have a4 := abs_le.1 (F.near _ m4 _ hc).2
      exact ⟨abs_le.2 ⟨by linarith, by linarith⟩, abs_le.2 ⟨by linarith, by linarith⟩⟩

/-- The weights of a point near a face stored in either direction. -/
theorem FatFace.weights (F : FatFace M D κ tol l) (hM : 1 / 2 ^ 100 ≤ M) (hM' : M ≤ 2 ^ 100) (hl : l' = l ∨ l' = l.reverse)
    (hq : InPoly l q) (h1 : |p.x - q.x| ≤ 2 * tol) (h2 : |p.y - q.y| ≤ 2 * tol) {m : Nat} (hm : l'.length ≤ m) :
    ∃ ws : List ℚ, ws.length = l'.length ∧
      wachspressWeights Fl.env (l'.map fp) (fp p) m (fin tol) = .ok (ws.map fin ++ List.replicate (m - l'.length) 0) ∧
      (∀ w ∈ ws, -(32 * κ ^ 2 * tol) ≤ w * D) ∧ |ws.sum - 1| ≤ 3 * l'.length * u ∧
      |(weighted l' ws).x - p.x| ≤ 200 * ((l'.length * κ) ^ 2 * tol) ∧
      |(weighted l' ws).y - p.y| ≤ 200 * ((l'.length * κ) ^ 2 * tol) := by
  obtain ⟨h, σ, S, hC⟩ := F.stored hM hM' hl
  have ht : tol ≤ 2 ^ 200 := by
    have g1 := S.tol_small
    have g2 := S.D_le
    have g3 := S.tol_pos
    have g4 : (2 : ℚ) ^ 112 ≤ 2 ^ 200 := by norm_num
    linarith
  obtain ⟨f, f1, f2, f3, f4, f5⟩ := S.weights (hC p q hq h1 h2) ht hm
  have e : (List.range l'.length).map f = wRow l'.length f l'.length := by unfold wRow; simp
  refine ⟨(List.range l'.length).map f, by simp, ?_, ?_, ?_, ?_, ?_⟩
  · rw [f1]; unfold fRow; rw [List.map_map]; rfl
  · intro w hw
    obtain ⟨k, hk, rfl⟩ := List.mem_map.1 hw
    exact f2 k (List.mem_range.1 hk)
  · rw [e, wRow_sum]; exact f3
  · rw [e, wRow_weighted h]; exact f4
  · rw [e, wRow_weighted h]; exact f5

theorem FatFace.tol_bound (F : FatFace M D κ tol l) (hM : 1 / 2 ^ 100 ≤ M) (hM' : M ≤ 2 ^ 100) : tol ≤ 2 ^ 200 := by
  obtain ⟨h, σ, S, -⟩ := F.stored hM hM' (Or.inl rfl)
  have g1 := S.tol_small
  have g2 := S.D_le
  have g3 := S.tol_pos
  have g4 : (2 : ℚ) ^ 112 ≤ 2 ^ 200 := by norm_num
  linarith

end Fl

open Fl

variable {vertices : List (Pt Fl)} {faces : IntArr} {fill nBuckets cellsPerLeaf : Int} {t : CellTree Fl}
variable {points : List (Pt Fl)} {otol : Option Fl} {sched sched1 : List Nat} {M κ tol : ℚ}

/-- **C86**: in binary64, for a mesh with more than three columns of convex faces that are not thin, and a tolerance that is
not smaller than the rounding errors, `compute_barycentric_weights` returns the indices of `locate_points` and a row of
weights for every point. For a point located in a face with `n` corners, the row has `n` finite weights followed by zeros;
they sum to one up to `3 n / 2⁵³`; the weighted sum of the corners, in the order stored in the tree, is within `200 (n κ)²`
times the tolerance of the point in both coordinates; and no weight times the size of the face is below `-32 κ²` times the
tolerance. -/
theorem Fl.C86_polygon_weights (hm : GoodMesh Fl.env vertices faces fill)
    (ht : Makes Fl.env vertices faces fill nBuckets cellsPerLeaf t) (hs : sched.Perm (List.range points.length))
    (hs1 : sched1.Perm (List.range points.length)) (hcol : 3 < faces.ncol)
    (hrep : ∀ v ∈ vertices, Rep v.x ∧ Rep v.y) (htol : t.tolerance Fl.env otol = .ok (fin tol)) (hM : 1 / 2 ^ 100 ≤ M)
    (hM' : M ≤ 2 ^ 100) (hfaces : ∀ r ∈ faces.rows, ∃ l D, FaceIs vertices fill r l ∧ FatFace M D κ tol l)
    (hp : ∀ p ∈ points, ∃ q, p = fp q ∧ Bnd (2 ^ 200) q) :
    ∃ idx rows, t.barycentricWeights Fl.env points otol sched sched1 = .ok (idx, rows) ∧
      t.locatePoints Fl.env points otol sched = .ok idx ∧ idx.length = points.length ∧ rows.length = points.length ∧
      ∀ (i : Nat) p v row, points[i]? = some (fp p) → idx[i]? = some v → rows[i]? = some row →
        (v = -1 ∧ row = List.replicate faces.ncol 0) ∨
        ∃ (j : Nat) (face : List Int) (corners : List (Pt ℚ)) (ws : List ℚ), v = j ∧ t.data.elements[j]? = some face ∧
          facePts vertices (-1) face = corners.map fp ∧ ws.length = corners.length ∧
          row = ws.map fin ++ List.replicate (faces.ncol - corners.length) 0 ∧
          |ws.sum - 1| ≤ 3 * corners.length / 2 ^ 53 ∧
          |(weighted corners ws).x - p.x| ≤ 200 * (corners.length * κ) ^ 2 * tol ∧
          |(weighted corners ws).y - p.y| ≤ 200 * (corners.length * κ) ^ 2 * tol ∧
          ∀ w ∈ ws, ∀ a ∈ corners, ∀ b ∈ corners, -(32 * κ ^ 2 * tol) ≤ w * |b.x - a.x| ∧ -(32 * κ ^ 2 * tol) ≤ w * |b.y - a.y| := by
  obtain ⟨idx, hidx, hlen⟩ := C66_never_raises (points := points) hm ht hrep hs otol
  have hidx' := hidx
  rw [locatePoints_tol htol] at hidx'
  -- the weights for one located point
  have key : ∀ (i : Nat) p v, points[i]? = some (fp p) → idx[i]? = some v → v ≠ -1 → ∃ (j : Nat) (r : List Int)
      (l' : List (Pt ℚ)) (ws : List ℚ), v = j ∧ faces.rows[j]? = some r ∧ storedPts vertices fill faces.ncol r = l'.map fp ∧
      wachspressWeights Fl.env (l'.map fp) (fp p) faces.ncol (fin tol) = .ok (ws.map fin ++ List.replicate (faces.ncol - l'.length) 0) ∧
      ws.length = l'.length ∧ |ws.sum - 1| ≤ 3 * l'.length * u ∧ |(weighted l' ws).x - p.x| ≤ 200 * ((l'.length * κ) ^ 2 * tol) ∧
      |(weighted l' ws).y - p.y| ≤ 200 * ((l'.length * κ) ^ 2 * tol) ∧
      ∀ w ∈ ws, ∀ a ∈ l', ∀ b ∈ l', -(32 * κ ^ 2 * tol) ≤ w * |b.x - a.x| ∧ -(32 * κ ^ 2 * tol) ≤ w * |b.y - a.y| := by
    intro i p v hpi hv h0
    have hb : Bnd (2 ^ 200) p := by
      obtain ⟨q, e, hq⟩ := hp _ (List.mem_of_getElem? hpi)
      cases p; cases q
      simp only [fp, Pt.mk.injEq, Fl.fin.injEq] at e
      obtain ⟨rfl, rfl⟩ := e
      exact hq
    obtain ⟨j, r, hj, hrow, poly, hpoly, hacc⟩ := C06_located_point_passes_test hm ht hs hidx' hpi hv h0
    obtain ⟨l, D, hf, hT⟩ := hfaces r (List.mem_of_getElem? hrow)
    obtain ⟨l₁, hl₁, rfl⟩ := hf.poly hpoly
    obtain ⟨q, hq, d1, d2⟩ := C68_polygon_close hT.convex hT.good hM (hM'.trans (by norm_num)) hT.slack_le (hT.tol_bound hM hM') hl₁ hb hacc
    obtain ⟨face, -, -, f4⟩ := ht.stored hm hrow
    have f3 := ht.stored_length hm hrow
    obtain ⟨l', hl', hl2⟩ := hf.poly f4
    rw [hl2, List.length_map] at f3
    obtain ⟨ws, w1, w2, w3, w4, w5, w6⟩ := hT.weights hM hM' hl' hq d1 d2 f3
    refine ⟨j, r, l', ws, hj, hrow, hl2, w2, w1, w4, w5, w6, ?_⟩
    have hmem : ∀ {v}, v ∈ l' → v ∈ l := by
      intro v hv
      rcases hl' with rfl | rfl
      · exact hv
      · exact List.mem_reverse.1 hv
    have ht0 : 0 ≤ 32 * κ ^ 2 * tol := by
      obtain ⟨h, σ, S, -⟩ := hT.stored hM hM' (Or.inl rfl)
      have := S.tol_pos
      positivity
    have hw : ∀ {w s : ℚ}, -(32 * κ ^ 2 * tol) ≤ w * D → 0 ≤ s → s ≤ D → -(32 * κ ^ 2 * tol) ≤ w * s := by
      intro w s h1 h2 h3
      rcases le_total 0 w with h4 | h4
      · have := mul_nonneg h4 h2
        linarith
      · have := mul_le_mul_of_nonpos_left h3 h4
        linarith
    intro w hw' a ha b hb
    exact ⟨hw (w3 w hw') (abs_nonneg _) (hT.near _ (hmem ha) _ (hmem hb)).1,
      hw (w3 w hw') (abs_nonneg _) (hT.near _ (hmem ha) _ (hmem hb)).2⟩
  obtain ⟨rows, g1, g2, g3⟩ := barycentric_rows_any hm ht htol hs1 hidx' hlen (by
    intro i p v hpi hv h0
    obtain ⟨q, rfl, -⟩ := hp _ (List.mem_of_getElem? hpi)
    obtain ⟨j, r, l', ws, k1, k2, k3, k4, -⟩ := key i q v hpi hv h0
    refine ⟨j, r, ws.map fin ++ List.replicate (faces.ncol - l'.length) 0, k1, k2, ?_⟩
    rw [k3]
    unfold faceRow
    rw [if_pos hcol]
    exact k4)
  refine ⟨idx, rows, g1, hidx, hlen, g2, ?_⟩
  intro i p v row hpi hv hr
  rcases g3 i _ v row hpi hv hr with h | ⟨j, r, h1, h2, h3⟩
  · exact Or.inl h
  · right
    obtain ⟨j', r', l', ws, k1, k2, k3, k4, k5, k6, k7, k8, k9⟩ := key i p v hpi hv (by omega)
    obtain rfl : j' = j := by omega
    obtain rfl : r' = r := by rw [k2] at h2; exact Option.some.inj h2
    obtain ⟨face, f1, f2, -⟩ := ht.stored hm k2
    refine ⟨j', face, l', ws, k1, f1, by rw [← f2, k3], k5, ?_, ?_, ?_, ?_, k9⟩
    · rw [k3] at h3
      unfold faceRow at h3
      rw [if_pos hcol, k4] at h3
      exact (Except.ok.inj h3).symm
    · refine k6.trans (le_of_eq ?_)
      unfold u; ring
    · rw [mul_assoc]; exact k7
    · rw [mul_assoc]; exact k8

instance (M D κ tol : ℚ) (l : List (Pt ℚ)) : Decidable (FatFace M D κ tol l) :=
  decidable_of_iff (ConvexPoly l ∧ GoodPoly M D l ∧ l.Nodup ∧ (∀ v ∈ l, ∀ w ∈ l, |w.x - v.x| ≤ D ∧ |w.y - v.y| ≤ D) ∧
      (∀ s ∈ sides l, ∀ w ∈ l, w ≠ s.1 → w ≠ s.2 → D * D ≤ κ * orient s.1 s.2 w) ∧ 1 ≤ κ ∧ slack M D ≤ tol ∧
      256 * (l.length * κ) ^ 2 * tol ≤ D)
    ⟨fun ⟨h1, h2, h3, h4, h5, h6, h7, h8⟩ => ⟨h1, h2, h3, h4, h5, h6, h7, h8⟩,
      fun h => ⟨h.convex, h.good, h.nodup, h.near, h.fat, h.kappa, h.slack_le, h.tol_le⟩⟩

/-- A square and a triangle, the triangle clockwise. -/
def Ex.houseVerts : List (Pt Fl) := [fp ⟨0, 0⟩, fp ⟨10, 0⟩, fp ⟨10, 10⟩, fp ⟨0, 10⟩, fp ⟨20, 5⟩]

def Ex.houseFaces : IntArr := ⟨4, [[0, 1, 2, 3], [1, 2, 4, -1]]⟩

theorem Ex.house_good : GoodMesh Fl.env Ex.houseVerts Ex.houseFaces (-1) :=
  ⟨⟨by decide, fun r hr => by
    simp only [houseFaces, List.mem_cons, List.not_mem_nil, or_false] at hr
    rcases hr with rfl | rfl <;> exact ⟨by decide, by decide, by decide⟩⟩, by
      intro r hr p hp
      have : ∀ p ∈ houseVerts, p.x ≠ Fl.nan ∧ p.y ≠ Fl.nan := by decide +kernel
      unfold facePts at hp
      obtain ⟨k, _, hk⟩ := List.mem_filterMap.1 hp
      exact this p (List.mem_of_getElem? hk), nofun, nofun⟩

theorem Ex.house_rep : ∀ v ∈ Ex.houseVerts, Rep v.x ∧ Rep v.y := by
  have h0 : Rep (fin 0) := ⟨isRep_zero, by decide +kernel⟩
  have h5 : Rep (fin 5) := ⟨isRep_nat (n := 5) (by norm_num), by decide +kernel⟩
  have h10 : Rep (fin 10) := ⟨isRep_nat (n := 10) (by norm_num), by decide +kernel⟩
  have h20 : Rep (fin 20) := ⟨isRep_nat (n := 20) (by norm_num), by decide +kernel⟩
  intro v hv
  simp only [houseVerts, List.mem_cons, List.not_mem_nil, or_false] at hv
  rcases hv with rfl | rfl | rfl | rfl | rfl
  · exact ⟨h0, h0⟩
  · exact ⟨h10, h0⟩
  · exact ⟨h10, h10⟩
  · exact ⟨h0, h10⟩
  · exact ⟨h20, h5⟩

/-- The mesh of a square and a triangle, with the default tolerance, meets the conditions of C86 on the mesh. The weights of
a point in the square, one in the triangle, one on the side between them and one outside are as given. -/
theorem Fl.C86_example : ∃ (t : CellTree Fl) (tol : ℚ), GoodMesh Fl.env Ex.houseVerts Ex.houseFaces (-1) ∧
    Makes Fl.env Ex.houseVerts Ex.houseFaces (-1) 4 2 t ∧ t.tolerance Fl.env none = .ok (fin tol) ∧
    (∀ r ∈ Ex.houseFaces.rows, ∃ l D, FaceIs Ex.houseVerts (-1) r l ∧ FatFace 20 D 1 tol l) ∧
    t.barycentricWeights Fl.env [fp ⟨3, 7⟩, fp ⟨12, 5⟩, fp ⟨10, 3⟩, fp ⟨30, 1⟩] none [0, 1, 2, 3] [3, 1, 0, 2] =
      .ok ([0, 1, 0, -1],
      [[fin (7566047373982433 / 2 ^ 55), fin (3242591731706757 / 2 ^ 55), fin (7566047373982433 / 2 ^ 55), fin (2206763817411543 / 2 ^ 52)],
       [fin (3602879701896397 / 2 ^ 54), fin (3602879701896397 / 2 ^ 53), fin (3602879701896397 / 2 ^ 53), 0],
       [0, fin (3152519739159347 / 2 ^ 52), fin (5404319552844595 / 2 ^ 54), 0],
       [0, 0, 0, 0]]) := by
  obtain ⟨t, h1, h2⟩ := bind_eq_ok.1 (show (CellTree.init Fl.env Ex.houseVerts Ex.houseFaces (-1) 4 2 [0, 1] >>= fun t =>
    Except.ok (t.tolerance Fl.env none,
      t.barycentricWeights Fl.env [fp ⟨3, 7⟩, fp ⟨12, 5⟩, fp ⟨10, 3⟩, fp ⟨30, 1⟩] none [0, 1, 2, 3] [3, 1, 0, 2])) =
      .ok (.ok (fin (8753557964810335 / 618970019642690137449562112)), .ok ([0, 1, 0, -1],
      [[fin (7566047373982433 / 2 ^ 55), fin (3242591731706757 / 2 ^ 55), fin (7566047373982433 / 2 ^ 55), fin (2206763817411543 / 2 ^ 52)],
       [fin (3602879701896397 / 2 ^ 54), fin (3602879701896397 / 2 ^ 53), fin (3602879701896397 / 2 ^ 53), 0],
       [0, fin (3152519739159347 / 2 ^ 52), fin (5404319552844595 / 2 ^ 54), 0],
       [0, 0, 0, 0]])) by decide +kernel)
  have h3 := Prod.mk.inj (Except.ok.inj h2)
  refine ⟨t, _, Ex.house_good, ⟨_, by decide, h1⟩, h3.1, ?_, h3.2⟩
  intro r hr
  simp only [Ex.houseFaces, List.mem_cons, List.not_mem_nil, or_false] at hr
  rcases hr with rfl | rfl
  · exact ⟨[⟨0, 0⟩, ⟨10, 0⟩, ⟨10, 10⟩, ⟨0, 10⟩], 10, by decide +kernel, by decide +kernel⟩
  · exact ⟨[⟨20, 5⟩, ⟨10, 10⟩, ⟨10, 0⟩], 10, by decide +kernel, by decide +kernel⟩

/-- With default tolerance, C86 applies to the square and the triangle and any list of points of limited size. -/
example (points : List (Pt Fl)) (hp : ∀ p ∈ points, ∃ q, p = fp q ∧ Bnd (2 ^ 200) q) : ∃ t idx rows,
    Makes Fl.env Ex.houseVerts Ex.houseFaces (-1) 4 2 t ∧ t.barycentricWeights Fl.env points none (List.range points.length)
      (List.range points.length) = .ok (idx, rows) ∧ rows.length = points.length := by
  obtain ⟨t, tol, h1, h2, h3, h4, -⟩ := Fl.C86_example
  obtain ⟨idx, rows, g1, -, -, g2, -⟩ := Fl.C86_polygon_weights (points := points) (M := 20) h1 h2 (List.Perm.refl _)
    (List.Perm.refl _) (by decide) Ex.house_rep h3 (by norm_num) (by norm_num) h4 hp
  exact ⟨t, idx, rows, h2, g1, g2⟩

end Celltree
