import Verif.Proofs.FloatWholeTriangles
import Verif.Props.FloatWhole
import Verif.Props.FloatWeights
import Verif.Props.FloatQueries

/-!
# Integer coordinates: interpolation weights of triangles in binary64: C127
-/

set_option linter.unusedSectionVars false

namespace Celltree.Fl

variable {vertices : List (Pt Fl)} {faces : IntArr} {fill nBuckets cellsPerLeaf : Int} {t : CellTree Fl}
variable {points : List (Pt Fl)} {otol : Option Fl} {sched sched1 : List Nat} {tol : ℚ}

/-- **C127**, one triangle, in either order. -/
theorem C127_triangle {a b c p : Pt ℚ} {l' : List (Pt ℚ)} (hA : 0 < orient a b c) (ha : WholePt a) (hb : WholePt b)
    (hc : WholePt c) (hp : WholePt p) (hin : InPoly [a, b, c] p) (hl : l' = [a, b, c] ∨ l' = [a, b, c].reverse) :
    ∃ a' b' c' w0 w1 w2, l' = [a', b', c'] ∧ triangleWeights ⟨fp a', fp b', fp c'⟩ (fp p) = .ok [fin w0, fin w1, fin w2] ∧
      TriangleWeights a' b' c' p w0 w1 w2 := by
  have h1 : 0 ≤ orient a b p := hin (a, b) (by simp [sides, pairs])
  have h2 : 0 ≤ orient b c p := hin (b, c) (by simp [sides, pairs])
  have h3 : 0 ≤ orient c a p := hin (c, a) (by simp [sides, pairs])
  have fl : ∀ x y q : Pt ℚ, -1 * orient x y q = orient y x q := by intro x y q; unfold orient; ring
  rcases hl with rfl | rfl
  · obtain ⟨w0, w1, w2, e, h⟩ := whole_triangle (σ := 1) ha hb hc hp (Or.inl rfl) (by rwa [one_mul]) (by rwa [one_mul])
      (by rwa [one_mul]) (by rwa [one_mul])
    exact ⟨a, b, c, w0, w1, w2, rfl, e, h⟩
  · obtain ⟨w0, w1, w2, e, h⟩ := whole_triangle (σ := -1) hc hb ha hp (Or.inr rfl)
      (by rw [fl]; have : orient b c a = orient a b c := by unfold orient; ring
          rwa [this]) (by rwa [fl]) (by rwa [fl]) (by rwa [fl])
    exact ⟨c, b, a, w0, w1, w2, rfl, e, h⟩

/-- **C127**: let a mesh of triangles have integer coordinates of at most `2 ^ 25`, and bounding boxes of at most `2 ^ 18`. Then in
binary64 `compute_barycentric_weights` returns, for any points at integer coordinates, the indices of `locate_points` and for a
point in a triangle its barycentric coordinates up to a few units in the last place, however thin the triangle is. -/
theorem C127_triangle_weights (hm : GoodMesh Fl.env vertices faces fill)
    (ht : Makes Fl.env vertices faces fill nBuckets cellsPerLeaf t) (hs : sched.Perm (List.range points.length))
    (hs1 : sched1.Perm (List.range points.length)) (hcol : faces.ncol = 3)
    (hrep : ∀ v ∈ vertices, Rep v.x ∧ Rep v.y) (htol : t.tolerance Fl.env otol = .ok (fin tol)) (h1 : 1 / 2 ^ 200 ≤ tol)
    (h2 : tol ≤ 1 / 2 ^ 20)
    (hfaces : ∀ r ∈ faces.rows, ∃ a b c, FaceIs vertices fill r [a, b, c] ∧ 0 < orient a b c ∧ WholePoly [a, b, c])
    (hp : ∀ p ∈ points, ∃ q, p = fp q ∧ WholePt q) :
    ∃ idx rows, t.barycentricWeights Fl.env points otol sched sched1 = .ok (idx, rows) ∧
      t.locatePoints Fl.env points otol sched = .ok idx ∧ idx.length = points.length ∧ rows.length = points.length ∧
      ∀ (i : Nat) p v row, points[i]? = some (fp p) → idx[i]? = some v → rows[i]? = some row →
        (v = -1 ∧ row = [0, 0, 0]) ∨
        ∃ (j : Nat) (face : List Int) (a b c : Pt ℚ) (w0 w1 w2 : ℚ), v = j ∧ t.data.elements[j]? = some face ∧
          facePts vertices (-1) face = [fp a, fp b, fp c] ∧ row = [fin w0, fin w1, fin w2] ∧ TriangleWeights a b c p w0 w1 w2 := by
  obtain ⟨idx, hidx, hlen⟩ := C66_never_raises (points := points) hm ht hrep hs otol
  have hidx' := hidx
  rw [locatePoints_tol htol] at hidx'
  have key : ∀ (i : Nat) p v, points[i]? = some (fp p) → idx[i]? = some v → v ≠ -1 → ∃ (j : Nat) (r : List Int) (a b c : Pt ℚ)
      (w0 w1 w2 : ℚ), v = j ∧ faces.rows[j]? = some r ∧ storedPts vertices fill faces.ncol r = [fp a, fp b, fp c] ∧
      triangleWeights ⟨fp a, fp b, fp c⟩ (fp p) = .ok [fin w0, fin w1, fin w2] ∧ TriangleWeights a b c p w0 w1 w2 := by
    intro i p v hpi hv h0
    have hb : WholePt p := by
      obtain ⟨q, e, hq⟩ := hp _ (List.mem_of_getElem? hpi)
      cases p; cases q
      simp only [fp, Pt.mk.injEq, Fl.fin.injEq] at e
      obtain ⟨rfl, rfl⟩ := e
      exact hq
    obtain ⟨j, r, hj, hrow, poly, hpoly, hacc⟩ := C06_located_point_passes_test hm ht hs hidx' hpi hv h0
    obtain ⟨a, b, c, hf, hA, hw⟩ := hfaces r (List.mem_of_getElem? hrow)
    obtain ⟨l₁, hl₁, rfl⟩ := hf.poly hpoly
    obtain ⟨g, k1, k2⟩ := C121_convex_exact h1 h2 (Ex.triangle_convex hA).convex hw hl₁ hb
    rw [k1] at hacc
    have hin := k2.1 (Except.ok.inj hacc)
    obtain ⟨face, -, -, hst⟩ := ht.stored hm hrow
    obtain ⟨l, hl, hl2⟩ := hf.poly hst
    obtain ⟨a', b', c', w0, w1, w2, rfl, r1, r2⟩ := C127_triangle hA (hw.corner a (by simp)) (hw.corner b (by simp))
      (hw.corner c (by simp)) hb hin hl
    exact ⟨j, r, a', b', c', w0, w1, w2, hj, hrow, by rw [hl2]; rfl, r1, r2⟩
  obtain ⟨rows, g1, g2, g3⟩ := barycentric_rows_any hm ht htol hs1 hidx' hlen (by
    intro i p v hpi hv h0
    obtain ⟨q, rfl, -⟩ := hp _ (List.mem_of_getElem? hpi)
    obtain ⟨j, r, a, b, c, w0, w1, w2, k1, k2, k3, k4, -⟩ := key i q v hpi hv h0
    refine ⟨j, r, [fin w0, fin w1, fin w2], k1, k2, ?_⟩
    rw [k3]
    unfold faceRow
    rw [if_neg (by omega)]
    exact k4)
  refine ⟨idx, rows, g1, hidx, hlen, g2, ?_⟩
  intro i p v row hpi hv hr
  rcases g3 i _ v row hpi hv hr with ⟨h1, h2⟩ | ⟨j, r, h1, h2, h3⟩
  · left
    rw [hcol] at h2
    exact ⟨h1, h2⟩
  · right
    obtain ⟨j', r', a, b, c, w0, w1, w2, k1, k2, k3, k4, k5⟩ := key i p v hpi hv (by omega)
    obtain rfl : j' = j := by omega
    obtain rfl : r' = r := by rw [k2] at h2; exact Option.some.inj h2
    obtain ⟨face, f1, f2, -⟩ := ht.stored hm k2
    refine ⟨j', face, a, b, c, w0, w1, w2, k1, f1, by rw [← f2, k3], ?_, k5⟩
    rw [k3] at h3
    unfold faceRow at h3
    rw [if_neg (by omega)] at h3
    simp only at h3
    rw [k4] at h3
    exact (Except.ok.inj h3).symm

/-- **C127**: if twice the area of the triangle is a power of two, the weights have no rounding errors: they sum to one and give the
point back exactly. -/
theorem C127_exact {a b c p : Pt ℚ} {w0 w1 w2 : ℚ} (h : TriangleWeights a b c p w0 w1 w2) {k : Nat}
    (hk : |orient a b c| = 2 ^ k) : w0 + w1 + w2 = 1 ∧ w0 * a.x + w1 * b.x + w2 * c.x = p.x ∧ w0 * a.y + w1 * b.y + w2 * c.y = p.y := by
  have hA : orient a b c ≠ 0 := by
    intro e
    rw [e, abs_zero] at hk
    exact absurd hk.symm (by positivity)
  obtain ⟨rfl, rfl, rfl⟩ := h.exact k hk
  refine ⟨?_, ?_, ?_⟩
  · rw [← add_div, ← add_div, div_eq_one_iff_eq hA]; unfold orient; ring
  · field_simp; unfold orient; ring
  · field_simp; unfold orient; ring

end Celltree.Fl

namespace Celltree.Ex

open Fl

/-- Two thin triangles, at whole metres in the Dutch national grid. Twice the area of the second is `2 ^ 4`. -/
def thinTriVerts : List (Pt Fl) := [wholePt 155000 463000, wholePt 155005 463000, wholePt 155002 463001, wholePt 155018 463001]
def thinTriFaces : IntArr := ⟨3, [[2, 0, 1], [1, 2, 3]]⟩

theorem thinTri_good : GoodMesh Fl.env thinTriVerts thinTriFaces (-1) :=
  ⟨⟨by decide, fun r hr => by
    simp only [thinTriFaces, List.mem_cons, List.not_mem_nil, or_false] at hr
    rcases hr with rfl | rfl <;> exact ⟨by decide, by decide, by decide⟩⟩, by
      intro r hr p hp
      have : ∀ p ∈ thinTriVerts, p.x ≠ Fl.nan ∧ p.y ≠ Fl.nan := by decide +kernel
      unfold facePts at hp
      obtain ⟨k, _, hk⟩ := List.mem_filterMap.1 hp
      exact this p (List.mem_of_getElem? hk), nofun, nofun⟩

theorem thinTri_faces : ∀ r ∈ thinTriFaces.rows, ∃ a b c, FaceIs thinTriVerts (-1) r [a, b, c] ∧ 0 < orient a b c ∧
    WholePoly [a, b, c] := by
  intro r hr
  simp only [thinTriFaces, List.mem_cons, List.not_mem_nil, or_false] at hr
  rcases hr with rfl | rfl
  · exact ⟨⟨155002, 463001⟩, ⟨155000, 463000⟩, ⟨155005, 463000⟩, by decide +kernel, by decide +kernel,
      wholePoly_iff (by decide +kernel) (by decide +kernel)⟩
  · exact ⟨⟨155018, 463001⟩, ⟨155002, 463001⟩, ⟨155005, 463000⟩, by decide +kernel, by decide +kernel,
      wholePoly_iff (by decide +kernel) (by decide +kernel)⟩

theorem thinTri_rep : ∀ v ∈ thinTriVerts, Rep v.x ∧ Rep v.y := by
  intro v hv
  have : ∀ v ∈ thinTriVerts, ∃ q : Pt ℚ, fp q = v ∧ WholePt q := by
    intro v hv
    simp only [thinTriVerts, List.mem_cons, List.not_mem_nil, or_false] at hv
    rcases hv with rfl | rfl | rfl | rfl <;> exact ⟨_, rfl, wholePt_iff (by decide +kernel) (by decide +kernel)⟩
  obtain ⟨q, rfl, hw⟩ := this v hv
  exact ⟨whole_rep hw.1 (by norm_num), whole_rep hw.2 (by norm_num)⟩

end Celltree.Ex

namespace Celltree.Fl

/-- With the default tolerance C127 applies to the two thin triangles and all integer points. A point on the side of the first that
is opposite to its first corner gets a negative weight there. -/
theorem C127_negative_weight : ∃ t, Makes Fl.env Ex.thinTriVerts Ex.thinTriFaces (-1) 4 2 t ∧
    t.barycentricWeights Fl.env [Ex.wholePt 155003 463000, Ex.wholePt 155004 463001, Ex.wholePt 155000 463002] none [0, 1, 2]
      [2, 0, 1] = .ok ([0, 1, -1], [[fin (-1 / 2 ^ 53), fin (3602879701896397 / 2 ^ 53), fin (1351079888211149 / 2 ^ 51)],
        [fin (1 / 8), fin (7 / 8), 0], [0, 0, 0]]) ∧
    ∀ p : Pt ℚ, WholePt p → ∃ idx rows, t.barycentricWeights Fl.env [fp p] none [0] [0] = .ok (idx, rows) := by
  obtain ⟨t, h1, h2⟩ := bind_eq_ok.1 (show (CellTree.init Fl.env Ex.thinTriVerts Ex.thinTriFaces (-1) 4 2 [0, 1] >>= fun t =>
    t.barycentricWeights Fl.env [Ex.wholePt 155003 463000, Ex.wholePt 155004 463001, Ex.wholePt 155000 463002] none [0, 1, 2]
      [2, 0, 1]) = .ok ([0, 1, -1], [[fin (-1 / 2 ^ 53), fin (3602879701896397 / 2 ^ 53), fin (1351079888211149 / 2 ^ 51)],
        [fin (1 / 8), fin (7 / 8), 0], [0, 0, 0]]) by decide +kernel)
  have hmk : Makes Fl.env Ex.thinTriVerts Ex.thinTriFaces (-1) 4 2 t := ⟨_, by decide, h1⟩
  obtain ⟨tol, e1, e2, e3⟩ := C121_default_tolerance Ex.thinTri_good hmk fun r hr => by
    obtain ⟨a, b, c, f1, f2, f3⟩ := Ex.thinTri_faces r hr
    exact ⟨_, f1, (Ex.triangle_convex f2).convex, f3⟩
  refine ⟨t, hmk, h2, fun p hp => ?_⟩
  obtain ⟨idx, rows, g, -⟩ := C127_triangle_weights (points := [fp p]) Ex.thinTri_good hmk (List.Perm.refl [0])
    (List.Perm.refl [0]) rfl Ex.thinTri_rep e1 e2 e3 Ex.thinTri_faces (by
      intro q hq
      rw [List.mem_singleton.1 hq]
      exact ⟨p, rfl, hp⟩)
  exact ⟨idx, rows, g⟩

end Celltree.Fl
