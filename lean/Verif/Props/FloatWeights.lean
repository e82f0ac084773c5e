import Verif.Proofs.FloatWeights
import Verif.Props.FloatQueries

/-!
# Interpolation weights in binary64: C80
-/

set_option linter.unusedSectionVars false

namespace Celltree

section
variable {F : Type} [Add F] [Sub F] [Mul F] [Div F] [Neg F] [Zero F] [One F] [IntCast F]
  [LT F] [LE F] [BEq F] [DecidableLT F] [DecidableLE F] [NumOrd F]
variable {env : Env F} {vertices : List (Pt F)} {faces : IntArr} {fill nBuckets cellsPerLeaf : Int} {t : CellTree F}

theorem Makes.stored (hm : GoodMesh env vertices faces fill) (ht : Makes env vertices faces fill nBuckets cellsPerLeaf t)
    {j : Nat} {r : List Int} (hj : faces.rows[j]? = some r) :
    ∃ face, t.data.elements[j]? = some face ∧ storedPts vertices fill faces.ncol r = facePts vertices (-1) face ∧
      (storedPts vertices fill faces.ncol r = facePts vertices fill r ∨
        storedPts vertices fill faces.ncol r = (facePts vertices fill r).reverse) := by
  obtain ⟨hcol, _, bt, hc⟩ := ht.constructed' hm
  obtain ⟨B, b1, _, b3, b4⟩ := hc.elements.row j r hj
  obtain ⟨_, h2, h3⟩ := hc.elements.polygon hcol hj
  refine ⟨_, b1, ?_, h2⟩
  unfold storedPts; rw [b4]; rfl

end

namespace Fl

/-- A triangle with coordinates up to `M` and sides up to `D`, counter-clockwise, that is not thin: `D²` is at most `κ` times
twice the area, and `D` times the tolerance is small compared to the area. -/
structure FatTriangle (M D κ tol : ℚ) (a b c : Pt ℚ) : Prop where
  good : GoodPoly M D [a, b, c]
  slack_le : slack M D ≤ tol
  tol_le : 16 * tol * D ≤ orient a b c
  fat : D * D ≤ κ * orient a b c
  pos : 0 < orient a b c

variable {M D κ tol : ℚ} {a b c p : Pt ℚ}

theorem FatTriangle.convex (h : FatTriangle M D κ tol a b c) : ConvexPoly [a, b, c] where
  turn := by
    intro x y z hs
    have := List.Sublist.eq_of_length hs rfl
    cases this
    exact h.pos.le
  nondeg := ⟨a, b, c, List.Sublist.refl _, h.pos⟩

theorem FatTriangle.rotate (h : FatTriangle M D κ tol a b c) : FatTriangle M D κ tol b c a where
  good := ⟨fun v hv => h.good.bnd v (by simp only [List.mem_cons, List.not_mem_nil, or_false] at hv ⊢; tauto),
    fun s hs => h.good.side s (by simp [sides] at hs ⊢; tauto)⟩
  slack_le := h.slack_le
  tol_le := by have e : orient b c a = orient a b c := by unfold orient; ring
               rw [e]; exact h.tol_le
  fat := by have e : orient b c a = orient a b c := by unfold orient; ring
            rw [e]; exact h.fat
  pos := by have e : orient b c a = orient a b c := by unfold orient; ring
            rw [e]; exact h.pos

theorem FatTriangle.side (h : FatTriangle M D κ tol a b c) : Fl.GoodSide M D a b := by
  refine h.good.side (a, b) (by simp [sides]) ?_
  rintro he
  simp only at he
  subst he
  have := h.pos
  unfold orient at this
  simp at this

theorem FatTriangle.near (h : FatTriangle M D κ tol a b c) : |b.x - a.x| ≤ D ∧ |b.y - a.y| ≤ D ∧ |c.x - a.x| ≤ D ∧
    |c.y - a.y| ≤ D ∧ |c.x - b.x| ≤ D ∧ |c.y - b.y| ≤ D := by
  have h1 := h.side
  have h2 := h.rotate.side
  have h3 := h.rotate.rotate.side
  refine ⟨h1.dx_le, h1.dy_le, ?_, ?_, h2.dx_le, h2.dy_le⟩
  · rw [abs_sub_comm]; exact h3.dx_le
  · rw [abs_sub_comm]; exact h3.dy_le

theorem FatTriangle.inside (h : FatTriangle M D κ tol a b c) {q : Pt ℚ} (hq : InPoly [a, b, c] q) :
    |q.x - a.x| ≤ D ∧ |q.y - a.y| ≤ D := by
  have hD0 := h.side.D_nonneg
  obtain ⟨n1, n2, n3, n4, _, _⟩ := h.near
  have hn : ∀ v ∈ [a, b, c], |v.x - a.x| ≤ D ∧ |v.y - a.y| ≤ D := by
    intro v hv
    simp only [List.mem_cons, List.not_mem_nil, or_false] at hv
    rcases hv with rfl | rfl | rfl
    · simpa using hD0
    · exact ⟨n1, n2⟩
    · exact ⟨n3, n4⟩
  obtain ⟨⟨v1, m1, e1⟩, ⟨v2, m2, e2⟩, ⟨v3, m3, e3⟩, ⟨v4, m4, e4⟩⟩ := h.convex.inBoxOf hq
  have a1 := abs_le.1 (hn v1 m1).1
  have a2 := abs_le.1 (hn v2 m2).1
  have a3 := abs_le.1 (hn v3 m3).2
  have a4 := abs_le.1 (hn v4 m4).2
  exact ⟨abs_le.2 ⟨by linarith, by linarith⟩, abs_le.2 ⟨by linarith, by linarith⟩⟩

theorem FatTriangle.tol_bound (h : FatTriangle M D κ tol a b c) (hD : 0 < D) : tol ≤ M := by
  obtain ⟨n1, n2, n3, n4, _, _⟩ := h.near
  have ba := h.good.bnd a (by simp)
  have bc := h.good.bnd c (by simp)
  have hM0 : 0 ≤ M := le_trans (abs_nonneg _) ba.1
  have hx : |c.x - a.x| ≤ 2 * M := by have := abs_sub c.x a.x; linarith [ba.1, bc.1]
  have hy : |c.y - a.y| ≤ 2 * M := by have := abs_sub c.y a.y; linarith [ba.2, bc.2]
  have e1 : |(b.x - a.x) * (c.y - a.y)| ≤ D * (2 * M) := by
    rw [abs_mul]; exact mul_le_mul n1 hy (abs_nonneg _) hD.le
  have e2 : |(b.y - a.y) * (c.x - a.x)| ≤ D * (2 * M) := by
    rw [abs_mul]; exact mul_le_mul n2 hx (abs_nonneg _) hD.le
  have e3 := (abs_le.1 e1).2
  have e4 := (abs_le.1 e2).1
  have e5 := h.tol_le
  unfold orient at e5
  have e6 : D * (16 * tol) ≤ D * (4 * M) := by linarith
  have := le_of_mul_le_mul_left e6 hD
  linarith

/-- The weights of a point near a triangle stored in either direction. -/
theorem FatTriangle.weights (h : FatTriangle M D κ tol a b c) (hM' : M ≤ 2 ^ 200) (hM0 : 0 ≤ M) (hD : 1 / 2 ^ 200 ≤ D)
    (hp : Bnd (2 ^ 200) p) {q : Pt ℚ} (hq : InPoly [a, b, c] q) (h1 : |p.x - q.x| ≤ 2 * tol) (h2 : |p.y - q.y| ≤ 2 * tol)
    {l : List (Pt ℚ)} (hl : l = [a, b, c] ∨ l = [a, b, c].reverse) :
    ∃ a b c w0 w1 w2, l = [a, b, c] ∧ triangleWeights ⟨fp a, fp b, fp c⟩ (fp p) = .ok [fin w0, fin w1, fin w2] ∧
      0 ≤ w1 ∧ 0 ≤ w2 ∧ |w0 + w1 + w2 - 1| ≤ 4 * u ∧ |w0 * a.x + w1 * b.x + w2 * c.x - p.x| ≤ 18 * κ * tol ∧
      |w0 * a.y + w1 * b.y + w2 * c.y - p.y| ≤ 18 * κ * tol ∧ ∀ v ∈ [b, c], -(27 * κ * tol) ≤ w0 * |v.x - a.x| ∧ -(27 * κ * tol) ≤ w0 * |v.y - a.y| := by
  have hκ0 : 0 ≤ κ * tol := by
    have hD0 : 0 < D := lt_of_lt_of_le (by positivity) hD
    have ht0 : 0 ≤ tol := by
      refine le_trans ?_ h.slack_le
      rw [slack_eq]
      have := u_pos
      positivity
    have : 0 ≤ κ := by
      by_contra hneg
      have h1 := h.fat
      have h2 := mul_neg_of_neg_of_pos (not_le.1 hneg) h.pos
      have h3 := mul_pos hD0 hD0
      linarith
    positivity
  have hw : ∀ {w s : ℚ}, -(27 * κ * tol) ≤ w * D → 0 ≤ s → s ≤ D → -(27 * κ * tol) ≤ w * s := by
    intro w s h1 h2 h3
    rcases le_total 0 w with h4 | h4
    · have := mul_nonneg h4 h2
      linarith
    · have := mul_le_mul_of_nonpos_left h3 h4
      linarith
  have i1 : 0 ≤ orient a b q := hq (a, b) (by simp [sides])
  have i2 : 0 ≤ orient b c q := hq (b, c) (by simp [sides])
  have i3 : 0 ≤ orient c a q := hq (c, a) (by simp [sides])
  have ba := h.good.bnd a (by simp)
  have bb := h.good.bnd b (by simp)
  have bc := h.good.bnd c (by simp)
  rcases hl with rfl | rfl
  · obtain ⟨n1, n2, n3, n4, _, _⟩ := h.near
    obtain ⟨j1, j2⟩ := h.inside hq
    have habs := abs_of_pos h.pos
    obtain ⟨w0, w1, w2, r1, r2, r3, r4, r5, r6, r7⟩ := triangle_near hM' hM0 ba bb bc hp hD n1 n2 n3 n4 j1 j2 h.pos.ne' (div_nonneg i2 h.pos.le)
      (div_nonneg i3 h.pos.le) (div_nonneg i1 h.pos.le) h.slack_le h1 h2 (by rw [habs]; exact h.tol_le)
      (by rw [habs]; exact h.fat)
    refine ⟨a, b, c, w0, w1, w2, rfl, r1, r2, r3, r4, r5, r6, ?_⟩
    intro v hv
    simp only [List.mem_cons, List.not_mem_nil, or_false] at hv
    rcases hv with rfl | rfl
    · exact ⟨hw r7 (abs_nonneg _) n1, hw r7 (abs_nonneg _) n2⟩
    · exact ⟨hw r7 (abs_nonneg _) n3, hw r7 (abs_nonneg _) n4⟩
  · have h' := h.rotate.rotate
    obtain ⟨n1, n2, n3, n4, _, _⟩ := h'.near
    have hq' : InPoly [c, a, b] q := by
      intro s hs
      exact hq s (by simp [sides] at hs ⊢; tauto)
    obtain ⟨j1, j2⟩ := h'.inside hq'
    have e : orient c b a = -orient a b c := by unfold orient; ring
    have e1 : orient b a q = -orient a b q := by unfold orient; ring
    have e2 : orient a c q = -orient c a q := by unfold orient; ring
    have e3 : orient c b q = -orient b c q := by unfold orient; ring
    have habs : |orient c b a| = orient a b c := by rw [e, abs_neg, abs_of_pos h.pos]
    obtain ⟨w0, w1, w2, r1, r2, r3, r4, r5, r6, r7⟩ := triangle_near (a := c) (b := b) (c := a) hM' hM0 bc bb ba hp hD n3 n4 n1 n2 j1 j2
      (by rw [e]; exact (neg_neg_of_pos h.pos).ne) (by rw [e, e1, neg_div_neg_eq]; exact div_nonneg i1 h.pos.le)
      (by rw [e, e2, neg_div_neg_eq]; exact div_nonneg i3 h.pos.le)
      (by rw [e, e3, neg_div_neg_eq]; exact div_nonneg i2 h.pos.le) h.slack_le h1 h2 (by rw [habs]; exact h.tol_le)
      (by rw [habs]; exact h.fat)
    refine ⟨c, b, a, w0, w1, w2, rfl, r1, r2, r3, r4, r5, r6, ?_⟩
    intro v hv
    simp only [List.mem_cons, List.not_mem_nil, or_false] at hv
    rcases hv with rfl | rfl
    · exact ⟨hw r7 (abs_nonneg _) n3, hw r7 (abs_nonneg _) n4⟩
    · exact ⟨hw r7 (abs_nonneg _) n1, hw r7 (abs_nonneg _) n2⟩

end Fl

open Fl

variable {env : Env Fl} {vertices : List (Pt Fl)} {faces : IntArr} {fill nBuckets cellsPerLeaf : Int} {t : CellTree Fl}
variable {points : List (Pt Fl)} {otol : Option Fl} {sched sched1 : List Nat} {M κ tol : ℚ}

/-- **C80**: in binary64, for a mesh of triangles that are not thin and a tolerance that is not smaller than the rounding
errors, `compute_barycentric_weights` returns (no division by zero) the indices of `locate_points` and a row of three
weights for every point. For a located point the weights sum to one up to `4 / 2⁵³`, and the weighted sum of the corners of
the face, as stored in the tree, is within `18 κ` times the tolerance of the point, in both coordinates. The weights of the
second and third corner are not negative; the weight of the first may be, but then its product with the extent of the
triangle is within `27 κ` times the tolerance of zero. -/
theorem Fl.C80_triangle_weights (hm : GoodMesh env vertices faces fill)
    (ht : Makes env vertices faces fill nBuckets cellsPerLeaf t) (hs : sched.Perm (List.range points.length))
    (hs1 : sched1.Perm (List.range points.length)) (hcol : faces.ncol = 3)
    (hrep : ∀ v ∈ vertices, Rep v.x ∧ Rep v.y) (htol : t.tolerance env otol = .ok (fin tol)) (hM : 1 / 2 ^ 100 ≤ M)
    (hM' : M ≤ 2 ^ 200)
    (hfaces : ∀ r ∈ faces.rows, ∃ a b c D, FaceIs vertices fill r [a, b, c] ∧ FatTriangle M D κ tol a b c)
    (hp : ∀ p ∈ points, ∃ q, p = fp q ∧ Bnd (2 ^ 200) q) :
    ∃ idx rows, t.barycentricWeights env points otol sched sched1 = .ok (idx, rows) ∧
      t.locatePoints env points otol sched = .ok idx ∧ idx.length = points.length ∧ rows.length = points.length ∧
      ∀ (i : Nat) p v row, points[i]? = some (fp p) → idx[i]? = some v → rows[i]? = some row →
        (v = -1 ∧ row = [0, 0, 0]) ∨
        ∃ (j : Nat) (face : List Int) (a b c : Pt ℚ) (w0 w1 w2 : ℚ), v = j ∧ t.data.elements[j]? = some face ∧
          facePts vertices (-1) face = [fp a, fp b, fp c] ∧ row = [fin w0, fin w1, fin w2] ∧ 0 ≤ w1 ∧ 0 ≤ w2 ∧
          |w0 + w1 + w2 - 1| ≤ 4 / 2 ^ 53 ∧ |w0 * a.x + w1 * b.x + w2 * c.x - p.x| ≤ 18 * κ * tol ∧
          |w0 * a.y + w1 * b.y + w2 * c.y - p.y| ≤ 18 * κ * tol ∧
          ∀ v ∈ [b, c], -(27 * κ * tol) ≤ w0 * |v.x - a.x| ∧ -(27 * κ * tol) ≤ w0 * |v.y - a.y| := by
  obtain ⟨idx, hidx, hlen⟩ := C66_never_raises (points := points) hm ht hrep hs otol
  have hidx' := hidx
  rw [locatePoints_tol htol] at hidx'
  have hM0 : 0 < M := lt_of_lt_of_le (by positivity) hM
  -- the weights for one located point
  have key : ∀ (i : Nat) p v, points[i]? = some (fp p) → idx[i]? = some v → v ≠ -1 → ∃ (j : Nat) (r : List Int) (a b c : Pt ℚ)
      (w0 w1 w2 : ℚ), v = j ∧ faces.rows[j]? = some r ∧ storedPts vertices fill faces.ncol r = [fp a, fp b, fp c] ∧
      triangleWeights ⟨fp a, fp b, fp c⟩ (fp p) = .ok [fin w0, fin w1, fin w2] ∧ 0 ≤ w1 ∧ 0 ≤ w2 ∧
      |w0 + w1 + w2 - 1| ≤ 4 * u ∧ |w0 * a.x + w1 * b.x + w2 * c.x - p.x| ≤ 18 * κ * tol ∧
      |w0 * a.y + w1 * b.y + w2 * c.y - p.y| ≤ 18 * κ * tol ∧
      ∀ v ∈ [b, c], -(27 * κ * tol) ≤ w0 * |v.x - a.x| ∧ -(27 * κ * tol) ≤ w0 * |v.y - a.y| := by
    intro i p v hpi hv h0
    have hb : Bnd (2 ^ 200) p := by
      obtain ⟨q, e, hq⟩ := hp _ (List.mem_of_getElem? hpi)
      cases p; cases q
      simp only [fp, Pt.mk.injEq, Fl.fin.injEq] at e
      obtain ⟨rfl, rfl⟩ := e
      exact hq
    obtain ⟨j, r, hj, hrow, poly, hpoly, hacc⟩ := C06_located_point_passes_test hm ht hs hidx' hpi hv h0
    obtain ⟨a, b, c, D, hf, hT⟩ := hfaces r (List.mem_of_getElem? hrow)
    obtain ⟨l', hl', rfl⟩ := hf.poly hpoly
    have hD0 := hT.side.D_nonneg
    have hD : 1 / 2 ^ 200 ≤ D := by
      have h1 := slack_small hM hD0
      have h2 : slack M D ≤ D := by
        rcases hT.side.long with h | h
        · exact h.trans hT.side.dx_le
        · exact h.trans hT.side.dy_le
      have h3 : (1 : ℚ) / 2 ^ 200 ≤ 1 / 2 ^ 160 := by norm_num
      exact h3.trans (h1.trans h2)
    have hDp : 0 < D := lt_of_lt_of_le (by positivity) hD
    have htb : tol ≤ 2 ^ 200 := (hT.tol_bound hDp).trans hM'
    obtain ⟨q, hq, d1, d2⟩ := C68_polygon_close hT.convex hT.good hM hM' hT.slack_le htb hl' hb hacc
    obtain ⟨face, -, -, hst⟩ := ht.stored hm hrow
    obtain ⟨l, hl, hl2⟩ := hf.poly hst
    obtain ⟨a', b', c', w0, w1, w2, rfl, r1, r2⟩ := hT.weights hM' hM0.le hD hb hq d1 d2 hl
    exact ⟨j, r, a', b', c', w0, w1, w2, hj, hrow, by rw [hl2]; rfl, r1, r2⟩
  obtain ⟨rows, g1, g2, g3⟩ := barycentric_rows_any hm ht htol hs1 hidx' hlen (by
    intro i p v hpi hv h0
    obtain ⟨q, rfl, -⟩ := hp _ (List.mem_of_getElem? hpi)
    obtain ⟨j, r, a, b, c, w0, w1, w2, k1, k2, k3, k4, -⟩ := key i q v hpi hv h0
    refine ⟨j, r, [fin w0, fin w1, fin w2], k1, k2, ?_⟩
    rw [k3]
    unfold faceRow
    rw [if_neg (by omega)]
    exact k4)
  refine ⟨idx, rows, g1, hidx, hlen, g2, ?_⟩
  intro i p v row hpi hv hr
  rcases g3 i _ v row hpi hv hr with ⟨h1, h2⟩ | ⟨j, r, h1, h2, h3⟩
  · left
    rw [hcol] at h2
    exact ⟨h1, h2⟩
  · right
    obtain ⟨j', r', a, b, c, w0, w1, w2, k1, k2, k3, k4, k5, k6, k7, k8, k9⟩ := key i p v hpi hv (by omega)
    obtain rfl : j' = j := by omega
    obtain rfl : r' = r := by rw [k2] at h2; exact Option.some.inj h2
    obtain ⟨face, f1, f2, -⟩ := ht.stored hm k2
    refine ⟨j', face, a, b, c, w0, w1, w2, k1, f1, by rw [← f2, k3], ?_, k5, k6, ?_, k8, k9⟩
    · rw [k3] at h3
      unfold faceRow at h3
      rw [if_neg (by omega)] at h3
      simp only at h3
      rw [k4] at h3
      exact (Except.ok.inj h3).symm
    · refine k7.trans (le_of_eq ?_)
      unfold u; norm_num

/-- A square of two triangles. -/
def Ex.halfVerts : List (Pt Fl) := [fp ⟨0, 0⟩, fp ⟨10, 0⟩, fp ⟨10, 10⟩, fp ⟨0, 10⟩]

def Ex.halfFaces : IntArr := ⟨3, [[0, 1, 3], [1, 3, 2]]⟩

theorem Ex.half_good : GoodMesh Fl.env Ex.halfVerts Ex.halfFaces (-1) :=
  ⟨⟨by decide, fun r hr => by
    simp only [halfFaces, List.mem_cons, List.not_mem_nil, or_false] at hr
    rcases hr with rfl | rfl <;> exact ⟨by decide, by decide, by decide⟩⟩, by
      intro r hr p hp
      have : ∀ p ∈ halfVerts, p.x ≠ Fl.nan ∧ p.y ≠ Fl.nan := by decide +kernel
      unfold facePts at hp
      obtain ⟨k, _, hk⟩ := List.mem_filterMap.1 hp
      exact this p (List.mem_of_getElem? hk), nofun, nofun⟩

theorem Ex.half_fat {tol : ℚ} (h1 : slack 10 10 ≤ tol) (h2 : 16 * tol * 10 ≤ 100) :
    ∀ r ∈ Ex.halfFaces.rows, ∃ a b c D, FaceIs Ex.halfVerts (-1) r [a, b, c] ∧ FatTriangle 10 D 1 tol a b c := by
  intro r hr
  simp only [halfFaces, List.mem_cons, List.not_mem_nil, or_false] at hr
  rcases hr with rfl | rfl
  · exact ⟨⟨0, 0⟩, ⟨10, 0⟩, ⟨0, 10⟩, 10, by decide +kernel, by decide +kernel, h1,
      by rw [show orient (⟨0, 0⟩ : Pt ℚ) ⟨10, 0⟩ ⟨0, 10⟩ = 100 by decide +kernel]; exact h2, by decide +kernel, by decide +kernel⟩
  · exact ⟨⟨10, 10⟩, ⟨0, 10⟩, ⟨10, 0⟩, 10, by decide +kernel, by decide +kernel, h1,
      by rw [show orient (⟨10, 10⟩ : Pt ℚ) ⟨0, 10⟩ ⟨10, 0⟩ = 100 by decide +kernel]; exact h2, by decide +kernel, by decide +kernel⟩

/-- The square of two triangles meets the conditions of C80 on the mesh. For a point on the diagonal, the weight of the
first corner is negative: the slack in C80 is needed. -/
theorem Fl.C80_negative_weight : ∃ (t : CellTree Fl) (tol : ℚ), GoodMesh Fl.env Ex.halfVerts Ex.halfFaces (-1) ∧
    Makes Fl.env Ex.halfVerts Ex.halfFaces (-1) 4 2 t ∧ t.tolerance Fl.env none = .ok (fin tol) ∧
    (∀ r ∈ Ex.halfFaces.rows, ∃ a b c D, FaceIs Ex.halfVerts (-1) r [a, b, c] ∧ FatTriangle 10 D 1 tol a b c) ∧
    InPoly [⟨0, 0⟩, ⟨10, 0⟩, ⟨0, 10⟩] (⟨3, 7⟩ : Pt ℚ) ∧
    t.barycentricWeights Fl.env [fp ⟨3, 7⟩, fp ⟨3, 12⟩] none [0, 1] [1, 0] = .ok ([0, -1],
      [[fin (-1 / 2 ^ 53), fin (5404319552844595 / 2 ^ 54), fin (6305039478318695 / 2 ^ 53)], [0, 0, 0]]) := by
  obtain ⟨t, h1, h2⟩ := bind_eq_ok.1 (show (CellTree.init Fl.env Ex.halfVerts Ex.halfFaces (-1) 4 2 [0, 1] >>= fun t =>
    Except.ok (t.tolerance Fl.env none, t.barycentricWeights Fl.env [fp ⟨3, 7⟩, fp ⟨3, 12⟩] none [0, 1] [1, 0])) =
      .ok (.ok (fin (8753557964810335 / 2 ^ 89)), .ok ([0, -1],
      [[fin (-1 / 2 ^ 53), fin (5404319552844595 / 2 ^ 54), fin (6305039478318695 / 2 ^ 53)], [0, 0, 0]])) by decide +kernel)
  have h3 := Prod.mk.inj (Except.ok.inj h2)
  exact ⟨t, _, Ex.half_good, ⟨_, by decide, h1⟩, h3.1, Ex.half_fat (by decide +kernel) (by decide +kernel), by decide +kernel,
    h3.2⟩

theorem Ex.half_rep : ∀ v ∈ Ex.halfVerts, Rep v.x ∧ Rep v.y := by
  have h0 : Rep (fin 0) := ⟨isRep_zero, by decide +kernel⟩
  have h10 : Rep (fin 10) := ⟨isRep_nat (n := 10) (by norm_num), by decide +kernel⟩
  intro v hv
  simp only [halfVerts, List.mem_cons, List.not_mem_nil, or_false] at hv
  rcases hv with rfl | rfl | rfl | rfl
  · exact ⟨h0, h0⟩
  · exact ⟨h10, h0⟩
  · exact ⟨h10, h10⟩
  · exact ⟨h0, h10⟩

/-- With default tolerance, C80 applies to the square of two triangles and any list of points of limited size. -/
example (points : List (Pt Fl)) (hp : ∀ p ∈ points, ∃ q, p = fp q ∧ Bnd (2 ^ 200) q) : ∃ t idx rows,
    Makes Fl.env Ex.halfVerts Ex.halfFaces (-1) 4 2 t ∧ t.barycentricWeights Fl.env points none (List.range points.length)
      (List.range points.length) = .ok (idx, rows) ∧ rows.length = points.length := by
  obtain ⟨t, tol, h1, h2, h3, h4, -, -⟩ := Fl.C80_negative_weight
  obtain ⟨idx, rows, g1, -, -, g2, -⟩ := Fl.C80_triangle_weights (points := points) (M := 10) h1 h2 (List.Perm.refl _)
    (List.Perm.refl _) rfl Ex.half_rep h3 (by norm_num) (by norm_num) h4 hp
  exact ⟨t, idx, rows, h2, g1, g2⟩

end Celltree
