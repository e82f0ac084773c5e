import Verif.Props.FloatDyadic
import Verif.Props.FloatWholeEdges

/-!
# Networks on grids with a spacing that is a power of two, in binary64: C125
-/

set_option linter.unusedSectionVars false

namespace Celltree.Fl

variable {env : Env Fl} {vertices : List (Pt Fl)} {edges : IntArr} {nBuckets cellsPerLeaf : Int} {t : CellTree Fl}
variable {points : List (Pt Fl)} {otol : Option Fl} {sched : List Nat} {tol : ℚ} {k : Int}

theorem grid_lineAt (k : Int) (a b : Pt ℚ) (u : ℚ) : gridPt k (lineAt a b u) = lineAt (gridPt k a) (gridPt k b) u := by
  unfold gridPt lineAt
  refine Pt.ext' ?_ ?_ <;> simp only <;> ring

theorem gridPt_inj {k : Int} {a b : Pt ℚ} : gridPt k a = gridPt k b ↔ a = b :=
  ⟨fun h => by rw [← gridPt_inv k a, h, gridPt_inv], fun h => by rw [h]⟩

/-- **C125**, one edge: the test in binary64 accepts exactly the points of the edge. -/
theorem C125_edge_exact (hk : |k| ≤ 100) (hrep : IsRep tol) (h1 : 2 ^ k / 2 ^ 140 ≤ tol) (h2 : tol ≤ 2 ^ k / 2 ^ 20) {p a b : Pt ℚ}
    (hp : GridPt k p) (hl : GridPoly k [a, b]) :
    ∃ r, pointOnEdge (fp p) [fp a, fp b] (fin tol) = .ok r ∧ (r = true ↔ a ≠ b ∧ ∃ u, 0 ≤ u ∧ u ≤ 1 ∧ p = lineAt a b u) := by
  have hk' := natAbs_le_of_abs hk
  obtain ⟨l0, e0, w⟩ := hl
  obtain ⟨p0, rfl, wp⟩ := hp
  match l0, e0, w with
  | [a0, b0], e0, w =>
    simp only [List.map_cons, List.map_nil, List.cons.injEq, and_true] at e0
    obtain ⟨rfl, rfl⟩ := e0
    have h0 : (0 : ℚ) < 2 ^ k := zpow_pos (by norm_num) k
    obtain ⟨ct, t1, t2⟩ := coarse_tol hk' hrep h1 h2
    have et : pow2 k * fin (tol / 2 ^ k) = fin tol := by
      rw [pow2_mul ct hk' (by norm_num), mul_div_cancel₀ _ h0.ne']
    have hP := scale_point hk' ct
    rw [et] at hP
    have rp := ptRel_whole hk' wp
    have ra := ptRel_whole hk' (w.corner a0 (by simp))
    have rb := ptRel_whole hk' (w.corner b0 (by simp))
    have e : pointOnEdge (fp (gridPt k p0)) [fp (gridPt k a0), fp (gridPt k b0)] (fin tol) =
        pointOnEdge (fp p0) [fp a0, fp b0] (fin (tol / 2 ^ k)) := by
      unfold pointOnEdge
      simp only [rd, List.getElem?_cons_zero, List.getElem?_cons_succ, ok_bind]
      rw [hP.eqv rb ra, hP.near rp ra rb, hP.bounds rp ra rb]
    rw [e]
    obtain ⟨r, g1, g2⟩ := C121_edge_exact (le_trans (by
      have : (2 : ℚ) ^ 200 = 2 ^ 140 * 2 ^ 60 := by norm_num
      rw [this]; norm_num) t1) t2 wp w
    refine ⟨r, g1, g2.trans (and_congr (not_congr gridPt_inj.symm) ?_)⟩
    refine exists_congr fun u => and_congr Iff.rfl (and_congr Iff.rfl ?_)
    rw [← grid_lineAt, gridPt_inj]

/-- **C125** for networks: the nodes and the points are points of a grid whose spacing is a power of two. Then in binary64 `locate_points`
of a network is exact: the answer for a point is the number of an edge that contains it, or `-1`, and then the point is on no edge of
positive length. -/
theorem C125_network_exact (hk : |k| ≤ 100) (hv : ValidEdges vertices.length edges) (hmax : env.floatMax ≠ nan)
    (hmin : env.floatMin ≠ nan) (ht0 : (0 : Fl) ≤ env.minTol)
    (ht : EdgeCellTree.init env vertices edges nBuckets cellsPerLeaf = .ok t)
    (hs : sched.Perm (List.range points.length)) (htol : t.tolerance env otol = .ok (fin tol)) (hrept : IsRep tol)
    (h1 : 2 ^ k / 2 ^ 140 ≤ tol) (h2 : tol ≤ 2 ^ k / 2 ^ 20) (hw : ∀ v ∈ vertices, ∃ q, v = fp q ∧ GridPt k q)
    (hS : ∀ j a b, IsEdge vertices edges j (fp a) (fp b) → GridPoly k [a, b]) :
    ∃ res, t.locatePointsOnEdge env points otol sched = .ok res ∧ ∀ (i : Nat) (p : Pt ℚ), points[i]? = some (fp p) → GridPt k p →
      ∃ v, res[i]? = some v ∧
        (v ≠ -1 → ∃ (j : Nat) (a b : Pt ℚ), v = j ∧ IsEdge vertices edges j (fp a) (fp b) ∧ a ≠ b ∧
          ∃ u, 0 ≤ u ∧ u ≤ 1 ∧ p = lineAt a b u) ∧
        (v = -1 → ∀ j a b u, IsEdge vertices edges j (fp a) (fp b) → a ≠ b → 0 ≤ u → u ≤ 1 → p ≠ lineAt a b u) := by
  obtain ⟨kl, kr⟩ := abs_le.1 hk
  have hrep : ∀ v ∈ vertices, RepPt v := by
    intro v hv
    obtain ⟨q, rfl, hq⟩ := hw v hv
    exact ⟨q, rfl, Ex.grid_rep (by omega) (by omega) hq⟩
  obtain ⟨res, hres, hlen, _⟩ := C72_never_raises hv hrep hmax hmin ht0 ht hs otol
  refine ⟨res, hres, ?_⟩
  intro i p hp hwp
  have hi : i < res.length := by rw [hlen]; exact (List.getElem?_eq_some_iff.1 hp).1
  obtain ⟨bt, τ, hτ, hc⟩ := edgeTree_fl hv hrep hmax hmin ht0 ht
  rw [locatePointsOnEdge_tol htol] at hres
  have hl := ((locatePointsOnEdge_iff hs).1 hres).2 i _ _ hp (List.getElem?_eq_getElem hi)
  refine ⟨res[i], by simp, ?_, ?_⟩
  · intro h0
    rcases hc.locate hv (fp p) (fin tol) with ⟨j, e, f, h, hj, hon⟩ | ⟨h, _⟩
    · rw [hl] at h
      obtain ⟨a, rfl, ha⟩ := hw e hj.mem.1
      obtain ⟨b, rfl, hb⟩ := hw f hj.mem.2
      obtain ⟨r, k1, k2⟩ := C125_edge_exact hk hrept h1 h2 hwp (hS j a b hj)
      rw [k1] at hon
      obtain ⟨k3, k4⟩ := k2.1 (Except.ok.inj hon)
      exact ⟨j, a, b, Except.ok.inj h, hj, k3, k4⟩
    · rw [hl] at h
      exact absurd (Except.ok.inj h) h0
  · intro hv' j a b u hj hab u0 u1 e
    rcases hc.locate hv (fp p) (fin tol) with ⟨k, _, _, h, _, _⟩ | ⟨h, hall⟩
    · rw [hl, hv'] at h
      have := Except.ok.inj h
      omega
    · have hin : InBoxOf [fp a, fp b] (fp p) := by
        have hx := Fl.lineAt_between a.x b.x u u0 u1
        have hy := Fl.lineAt_between a.y b.y u u0 u1
        rw [e]
        unfold InBoxOf fp
        simp only [List.mem_cons, List.not_mem_nil, or_false, exists_eq_or_imp, exists_eq_left, le_fin]
        exact ⟨min_le_iff.1 hx.1, le_max_iff.1 hx.2, min_le_iff.1 hy.1, le_max_iff.1 hy.2⟩
      have := hall j _ _ hj (edgeBox_has (hrep _ hj.mem.1) (hrep _ hj.mem.2) hτ hin)
      obtain ⟨r, k1, k2⟩ := C125_edge_exact hk hrept h1 h2 hwp (hS j a b hj)
      rw [k1, k2.2 ⟨hab, u, u0, u1, e⟩] at this
      cases this

/-- **C125** for networks, the tolerance: if the spacing is at least `2 ^ -29`, the default tolerance satisfies the conditions of
`C125_network_exact`, for edges of at most `2 ^ 17` spacings wide and high. -/
theorem C125_network_tolerance (hk1 : -29 ≤ k) (hk2 : k ≤ 90) (hv : ValidEdges vertices.length edges)
    (ht : EdgeCellTree.init Fl.env vertices edges nBuckets cellsPerLeaf = .ok t) (hw : ∀ v ∈ vertices, ∃ q, v = fp q ∧ GridPt k q)
    (hS : ∀ j a b, IsEdge vertices edges j (fp a) (fp b) → |a.x - b.x| ≤ 2 ^ k * 2 ^ 17 ∧ |a.y - b.y| ≤ 2 ^ k * 2 ^ 17) :
    ∃ tol, t.tolerance Fl.env none = .ok (fin tol) ∧ IsRep tol ∧ 2 ^ k / 2 ^ 140 ≤ tol ∧ tol ≤ 2 ^ k / 2 ^ 20 := by
  have h0 : (0 : ℚ) < 2 ^ k := zpow_pos (by norm_num) k
  have k1 : (2 : ℚ) ^ (-29 : Int) ≤ 2 ^ k := zpow_le_zpow_right₀ (by norm_num) hk1
  have k2 : (2 : ℚ) ^ k ≤ 2 ^ (90 : Int) := zpow_le_zpow_right₀ (by norm_num) hk2
  have e1 : (2 : ℚ) ^ (-29 : Int) = 1 / 2 ^ 29 := by norm_num
  have e2 : (2 : ℚ) ^ (90 : Int) = 2 ^ 90 := by norm_num
  rw [e1] at k1
  rw [e2] at k2
  have hrep : ∀ v ∈ vertices, RepPt v := by
    intro v hv
    obtain ⟨q, rfl, hq⟩ := hw v hv
    exact ⟨q, rfl, Ex.grid_rep (by omega) (by omega) hq⟩
  obtain ⟨tol, g1, g2, g3⟩ := C111_default_tolerance (M := 1 + 2 ^ k * 2 ^ 25) (S := 2 ^ k * 2 ^ 17) hv hrep ht (by linarith) (by
      have : (1 : ℚ) + 2 ^ 90 * 2 ^ 25 ≤ 2 ^ 199 := by norm_num
      linarith)
    (fun v hv => by
      obtain ⟨q, e, p, rfl, hp⟩ := hw v hv
      have key : ∀ x : ℚ, |x| ≤ 2 ^ 25 → |2 ^ k * x| ≤ 1 + 2 ^ k * 2 ^ 25 := by
        intro x hx
        rw [abs_mul, abs_of_pos h0]
        have := mul_le_mul_of_nonneg_left hx h0.le
        linarith
      exact ⟨_, e, key _ hp.1.abs_le, key _ hp.2.abs_le⟩) hS
  refine ⟨tol, g1, default_isRep g1, le_trans ?_ g2, g3.trans (max_le ?_ ?_)⟩
  · have : (1 : ℚ) / 2 ^ 50 = 2 ^ 90 / 2 ^ 140 := by norm_num
    rw [this]
    exact div_le_div_of_nonneg_right k2 (by positivity)
  · have : (1 : ℚ) / 2 ^ 49 = 1 / 2 ^ 29 / 2 ^ 20 := by norm_num
    rw [this]
    exact div_le_div_of_nonneg_right k1 (by positivity)
  · have : (2 : ℚ) ^ k / 2 ^ 20 = (2 ^ k * 2 ^ 18) / 2 ^ 38 := by ring
    rw [this]
    refine div_le_div_of_nonneg_right ?_ (by positivity)
    have : (1 : ℚ) / 2 ^ 35 ≤ 1 / 2 ^ 29 := by norm_num
    have e3 : (1 + 2 ^ k * 2 ^ 25) / 2 ^ 35 = 1 / 2 ^ 35 + 2 ^ k * (1 / 2 ^ 10 : ℚ) := by ring
    rw [e3]
    nlinarith

end Celltree.Fl

/-! ## An example -/

set_option synthInstance.maxSize 1000

namespace Celltree.Ex

open Fl

/-- Two edges at multiples of a quarter. -/
def quarterNodes : List (Pt Fl) := [fp ⟨0, 0⟩, fp ⟨3, 9 / 4⟩, fp ⟨5, 1 / 4⟩]

theorem quarterNodes_grid : ∀ v ∈ quarterNodes, ∃ q, v = fp q ∧ GridPt (-2) q := by
  intro v hv
  simp only [quarterNodes, List.mem_cons, List.not_mem_nil, or_false] at hv
  rcases hv with rfl | rfl | rfl
  · exact ⟨_, rfl, ⟨0, 0⟩, by decide +kernel, wholePt_iff (by decide +kernel) (by decide +kernel)⟩
  · exact ⟨_, rfl, ⟨12, 9⟩, by decide +kernel, wholePt_iff (by decide +kernel) (by decide +kernel)⟩
  · exact ⟨_, rfl, ⟨20, 1⟩, by decide +kernel, wholePt_iff (by decide +kernel) (by decide +kernel)⟩

theorem quarterNodes_edges {j : Nat} {a b : Pt ℚ} (h : IsEdge quarterNodes roofEdges j (fp a) (fp b)) :
    (a, b) = (⟨0, 0⟩, ⟨3, 9 / 4⟩) ∨ (a, b) = (⟨3, 9 / 4⟩, ⟨5, 1 / 4⟩) := by
  obtain ⟨v, w, h1, h2, h3⟩ := h
  match j with
  | 0 =>
    simp only [roofEdges, List.getElem?_cons_zero, Option.some.injEq, List.cons.injEq, and_true] at h1
    obtain ⟨rfl, rfl⟩ := h1
    exact Or.inl (Prod.ext (fp_inj (Option.some.inj h2).symm) (fp_inj (Option.some.inj h3).symm))
  | 1 =>
    simp only [roofEdges, List.getElem?_cons_succ, List.getElem?_cons_zero, Option.some.injEq, List.cons.injEq, and_true] at h1
    obtain ⟨rfl, rfl⟩ := h1
    exact Or.inr (Prod.ext (fp_inj (Option.some.inj h2).symm) (fp_inj (Option.some.inj h3).symm))
  | n + 2 => simp [roofEdges] at h1

theorem quarterNodes_poly {j : Nat} {a b : Pt ℚ} (h : IsEdge quarterNodes roofEdges j (fp a) (fp b)) : GridPoly (-2) [a, b] := by
  rcases quarterNodes_edges h with h | h <;> cases h
  · exact ⟨[⟨0, 0⟩, ⟨12, 9⟩], by decide +kernel, wholePoly_iff (by decide +kernel) (by decide +kernel)⟩
  · exact ⟨[⟨12, 9⟩, ⟨20, 1⟩], by decide +kernel, wholePoly_iff (by decide +kernel) (by decide +kernel)⟩

end Celltree.Ex

namespace Celltree.Fl

/-- In this network, with the default tolerance, a point at multiples of a quarter is located if and only if it is on one of the two
edges. -/
example : ∃ t, EdgeCellTree.init Fl.env Ex.quarterNodes Ex.roofEdges 4 2 = .ok t ∧
    t.locatePointsOnEdge Fl.env [fp ⟨1, 3 / 4⟩, fp ⟨1, 1 / 2⟩, fp ⟨4, 5 / 4⟩] none [0, 1, 2] = .ok [0, -1, 1] ∧
    ∀ p : Pt ℚ, GridPt (-2) p → ∃ res v, t.locatePointsOnEdge Fl.env [fp p] none [0] = .ok res ∧ res[0]? = some v ∧
      (v ≠ -1 ↔ ∃ u, 0 ≤ u ∧ u ≤ 1 ∧ (p = lineAt ⟨0, 0⟩ ⟨3, 9 / 4⟩ u ∨ p = lineAt ⟨3, 9 / 4⟩ ⟨5, 1 / 4⟩ u)) := by
  obtain ⟨t, h1, h2⟩ := bind_eq_ok.1 (show (EdgeCellTree.init Fl.env Ex.quarterNodes Ex.roofEdges 4 2 >>= fun t =>
    t.locatePointsOnEdge Fl.env [fp ⟨1, 3 / 4⟩, fp ⟨1, 1 / 2⟩, fp ⟨4, 5 / 4⟩] none [0, 1, 2]) = .ok [0, -1, 1] by decide +kernel)
  refine ⟨t, h1, h2, fun p hp => ?_⟩
  have hv : ValidEdges Ex.quarterNodes.length Ex.roofEdges := by have := Ex.roof_valid; simpa [Ex.roofVerts, Ex.quarterNodes] using this
  obtain ⟨tol, e1, e2, e3, e4⟩ := C125_network_tolerance (k := -2) (by decide) (by decide) hv h1 Ex.quarterNodes_grid (by
    intro j a b h
    rcases Ex.quarterNodes_edges h with h | h <;> cases h <;> exact ⟨by decide +kernel, by decide +kernel⟩)
  obtain ⟨res, g1, g2⟩ := C125_network_exact (k := -2) (points := [fp p]) (by decide) hv (show Fl.env.floatMax ≠ nan from nofun)
    (show Fl.env.floatMin ≠ nan from nofun) (by decide +kernel) h1 (List.Perm.refl [0]) e1 e2 e3 e4 Ex.quarterNodes_grid
    (fun j a b h => Ex.quarterNodes_poly h)
  obtain ⟨v, f1, f2, f3⟩ := g2 0 p rfl hp
  refine ⟨res, v, g1, f1, fun h0 => ?_, ?_⟩
  · obtain ⟨j, a, b, -, hj, -, u, u0, u1, hu⟩ := f2 h0
    rcases Ex.quarterNodes_edges hj with h | h <;> cases h
    · exact ⟨u, u0, u1, Or.inl hu⟩
    · exact ⟨u, u0, u1, Or.inr hu⟩
  · rintro ⟨u, u0, u1, h | h⟩ h0
    · exact f3 h0 0 _ _ u ⟨0, 1, rfl, rfl, rfl⟩ (by decide +kernel) u0 u1 h
    · exact f3 h0 1 _ _ u ⟨1, 2, rfl, rfl, rfl⟩ (by decide +kernel) u0 u1 h

end Celltree.Fl
