import Verif.Props.FloatWhole
import Verif.Props.FloatAxis

/-!
# Networks at integer coordinates in binary64: C121
-/

set_option linter.unusedSectionVars false

namespace Celltree.Fl

variable {env : Env Fl} {vertices : List (Pt Fl)} {edges : IntArr} {nBuckets cellsPerLeaf : Int} {t : CellTree Fl}
variable {points : List (Pt Fl)} {otol : Option Fl} {sched : List Nat} {res : List Int} {tol : ℚ}

/-- **C121**, one edge: for integer coordinates the test in binary64 accepts exactly the points of the edge. -/
theorem C121_edge_exact (h1 : 1 / 2 ^ 200 ≤ tol) (h2 : tol ≤ 1 / 2 ^ 20) {p a b : Pt ℚ} (hp : WholePt p) (hl : WholePoly [a, b]) :
    ∃ r, pointOnEdge (fp p) [fp a, fp b] (fin tol) = .ok r ∧ (r = true ↔ a ≠ b ∧ ∃ u, 0 ≤ u ∧ u ≤ 1 ∧ p = lineAt a b u) := by
  have e : pointOnEdge (fp p) [fp a, fp b] (fin tol) = pointOnEdge p [a, b] tol := whole_pointOnEdge h1 h2 hp hl
  obtain ⟨r, hr, hn⟩ := pointOnEdge_near p a b tol
  refine ⟨r, e.trans hr, ?_⟩
  rw [hn]
  constructor
  · intro hn
    exact ⟨hn.1, near_whole h1 h2 hp (hl.corner a (by simp)) (hl.corner b (by simp)) (hl.small a (by simp) b (by simp)) hn⟩
  · rintro ⟨hne, u, g1, g2, rfl⟩
    exact onSegment.near ⟨u, g1, g2, rfl, rfl⟩ hne (lt_of_lt_of_le (by positivity) h1)

/-- **C121** for networks: let the nodes and the points be at integer coordinates of at most `2 ^ 25`, and the edges at most `2 ^ 18`
wide and high. Then in binary64 `locate_points` of a network is exact: the answer for a point is the number of an edge that contains
it, or `-1`, and then the point is on no edge of positive length. -/
theorem C121_network_exact (hv : ValidEdges vertices.length edges) (hmax : env.floatMax ≠ nan) (hmin : env.floatMin ≠ nan)
    (ht0 : (0 : Fl) ≤ env.minTol) (ht : EdgeCellTree.init env vertices edges nBuckets cellsPerLeaf = .ok t)
    (hs : sched.Perm (List.range points.length)) (htol : t.tolerance env otol = .ok (fin tol)) (h1 : 1 / 2 ^ 200 ≤ tol)
    (h2 : tol ≤ 1 / 2 ^ 20) (hw : ∀ v ∈ vertices, ∃ q, v = fp q ∧ WholePt q)
    (hS : ∀ j a b, IsEdge vertices edges j (fp a) (fp b) → WholePoly [a, b]) :
    ∃ res, t.locatePointsOnEdge env points otol sched = .ok res ∧ ∀ (i : Nat) (p : Pt ℚ), points[i]? = some (fp p) → WholePt p →
      ∃ v, res[i]? = some v ∧
        (v ≠ -1 → ∃ (j : Nat) (a b : Pt ℚ), v = j ∧ IsEdge vertices edges j (fp a) (fp b) ∧ a ≠ b ∧
          ∃ u, 0 ≤ u ∧ u ≤ 1 ∧ p = lineAt a b u) ∧
        (v = -1 → ∀ j a b u, IsEdge vertices edges j (fp a) (fp b) → a ≠ b → 0 ≤ u → u ≤ 1 → p ≠ lineAt a b u) := by
  have hrep : ∀ v ∈ vertices, RepPt v := by
    intro v hv
    obtain ⟨q, rfl, hq⟩ := hw v hv
    exact ⟨q, rfl, Ex.whole_rep hq.1 (by norm_num), Ex.whole_rep hq.2 (by norm_num)⟩
  obtain ⟨res, hres, hlen, _⟩ := C72_never_raises hv hrep hmax hmin ht0 ht hs otol
  refine ⟨res, hres, ?_⟩
  intro i p hp hwp
  have hi : i < res.length := by rw [hlen]; exact (List.getElem?_eq_some_iff.1 hp).1
  obtain ⟨bt, τ, hτ, hc⟩ := edgeTree_fl hv hrep hmax hmin ht0 ht
  rw [locatePointsOnEdge_tol htol] at hres
  have hl := ((locatePointsOnEdge_iff hs).1 hres).2 i _ _ hp (List.getElem?_eq_getElem hi)
  refine ⟨res[i], by simp, ?_, ?_⟩
  · intro h0
    rcases hc.locate hv (fp p) (fin tol) with ⟨j, e, f, h, hj, hon⟩ | ⟨h, _⟩
    · rw [hl] at h
      obtain ⟨a, rfl, ha⟩ := hw e hj.mem.1
      obtain ⟨b, rfl, hb⟩ := hw f hj.mem.2
      obtain ⟨r, k1, k2⟩ := C121_edge_exact h1 h2 hwp (hS j a b hj)
      rw [k1] at hon
      obtain ⟨k3, k4⟩ := k2.1 (Except.ok.inj hon)
      exact ⟨j, a, b, Except.ok.inj h, hj, k3, k4⟩
    · rw [hl] at h
      exact absurd (Except.ok.inj h) h0
  · intro hv' j a b u hj hab u0 u1 e
    rcases hc.locate hv (fp p) (fin tol) with ⟨k, _, _, h, _, _⟩ | ⟨h, hall⟩
    · rw [hl, hv'] at h
      have := Except.ok.inj h
      omega
    · have hin : InBoxOf [fp a, fp b] (fp p) := by
        have hx := Fl.lineAt_between a.x b.x u u0 u1
        have hy := Fl.lineAt_between a.y b.y u u0 u1
        rw [e]
        unfold InBoxOf fp
        simp only [List.mem_cons, List.not_mem_nil, or_false, exists_eq_or_imp, exists_eq_left, le_fin]
        exact ⟨min_le_iff.1 hx.1, le_max_iff.1 hx.2, min_le_iff.1 hy.1, le_max_iff.1 hy.2⟩
      have := hall j _ _ hj (edgeBox_has (hrep _ hj.mem.1) (hrep _ hj.mem.2) hτ hin)
      obtain ⟨r, k1, k2⟩ := C121_edge_exact h1 h2 hwp (hS j a b hj)
      rw [k1, k2.2 ⟨hab, u, u0, u1, e⟩] at this
      cases this

/-- **C121** for networks, the tolerance: the default tolerance satisfies the conditions of `C121_network_exact`, for edges of at
most `2 ^ 17` wide and high. -/
theorem C121_network_tolerance (hv : ValidEdges vertices.length edges)
    (ht : EdgeCellTree.init Fl.env vertices edges nBuckets cellsPerLeaf = .ok t) (hw : ∀ v ∈ vertices, ∃ q, v = fp q ∧ WholePt q)
    (hS : ∀ j a b, IsEdge vertices edges j (fp a) (fp b) → |a.x - b.x| ≤ 2 ^ 17 ∧ |a.y - b.y| ≤ 2 ^ 17) :
    ∃ tol, t.tolerance Fl.env none = .ok (fin tol) ∧ 1 / 2 ^ 200 ≤ tol ∧ tol ≤ 1 / 2 ^ 20 := by
  have hrep : ∀ v ∈ vertices, RepPt v := by
    intro v hv
    obtain ⟨q, rfl, hq⟩ := hw v hv
    exact ⟨q, rfl, Ex.whole_rep hq.1 (by norm_num), Ex.whole_rep hq.2 (by norm_num)⟩
  obtain ⟨tol, e1, e2, e3⟩ := C111_default_tolerance (M := 2 ^ 25) (S := 2 ^ 17) hv hrep ht (by norm_num) (by norm_num)
    (fun v hv => by obtain ⟨q, e, hq⟩ := hw v hv; exact ⟨q, e, hq.1.abs_le, hq.2.abs_le⟩) hS
  exact ⟨tol, e1, le_trans (by norm_num) e2, e3.trans (by norm_num)⟩

end Celltree.Fl

/-! ## An example -/

set_option synthInstance.maxSize 1000

namespace Celltree.Ex

open Fl

/-- Two edges in the Dutch national grid, at whole metres. -/
def wholeNodes : List (Pt Fl) := [wholePt 155000 463000, wholePt 155012 463009, wholePt 155020 463000]

theorem wholeNodes_whole : ∀ v ∈ wholeNodes, ∃ q, v = fp q ∧ WholePt q := by
  intro v hv
  simp only [wholeNodes, List.mem_cons, List.not_mem_nil, or_false] at hv
  rcases hv with rfl | rfl | rfl <;> exact ⟨_, rfl, wholePt_iff (by decide +kernel) (by decide +kernel)⟩

theorem wholeNodes_edges {j : Nat} {a b : Pt ℚ} (h : IsEdge wholeNodes roofEdges j (fp a) (fp b)) :
    (a, b) = (⟨155000, 463000⟩, ⟨155012, 463009⟩) ∨ (a, b) = (⟨155012, 463009⟩, ⟨155020, 463000⟩) := by
  obtain ⟨v, w, h1, h2, h3⟩ := h
  have inj : ∀ {u w : Pt ℚ}, fp u = fp w → u = w := by
    intro u w h
    unfold fp at h
    injection h with g1 g2
    exact Pt.ext' (Fl.fin.inj g1) (Fl.fin.inj g2)
  match j with
  | 0 =>
    simp only [roofEdges, List.getElem?_cons_zero, Option.some.injEq, List.cons.injEq, and_true] at h1
    obtain ⟨rfl, rfl⟩ := h1
    exact Or.inl (Prod.ext (inj (Option.some.inj h2).symm) (inj (Option.some.inj h3).symm))
  | 1 =>
    simp only [roofEdges, List.getElem?_cons_succ, List.getElem?_cons_zero, Option.some.injEq, List.cons.injEq, and_true] at h1
    obtain ⟨rfl, rfl⟩ := h1
    exact Or.inr (Prod.ext (inj (Option.some.inj h2).symm) (inj (Option.some.inj h3).symm))
  | n + 2 => simp [roofEdges] at h1

end Celltree.Ex

namespace Celltree.Fl

/-- In this network, with the default tolerance, an integer point is located if and only if it is on one of the two edges. -/
example : ∃ t, EdgeCellTree.init Fl.env Ex.wholeNodes Ex.roofEdges 4 2 = .ok t ∧
    t.locatePointsOnEdge Fl.env [Ex.wholePt 155004 463003, Ex.wholePt 155016 463004] none [0, 1] = .ok [0, -1] ∧
    ∀ p : Pt ℚ, WholePt p → ∃ res v, t.locatePointsOnEdge Fl.env [fp p] none [0] = .ok res ∧ res[0]? = some v ∧
      (v ≠ -1 ↔ ∃ u, 0 ≤ u ∧ u ≤ 1 ∧ (p = lineAt ⟨155000, 463000⟩ ⟨155012, 463009⟩ u ∨ p = lineAt ⟨155012, 463009⟩ ⟨155020, 463000⟩ u)) := by
  obtain ⟨t, h1, h2⟩ := bind_eq_ok.1 (show (EdgeCellTree.init Fl.env Ex.wholeNodes Ex.roofEdges 4 2 >>= fun t =>
    t.locatePointsOnEdge Fl.env [Ex.wholePt 155004 463003, Ex.wholePt 155016 463004] none [0, 1]) = .ok [0, -1] by decide +kernel)
  refine ⟨t, h1, h2, fun p hp => ?_⟩
  have hv : ValidEdges Ex.wholeNodes.length Ex.roofEdges := by have := Ex.roof_valid; simpa [Ex.roofVerts, Ex.wholeNodes] using this
  obtain ⟨tol, e1, e2, e3⟩ := C121_network_tolerance hv h1 Ex.wholeNodes_whole (by
    intro j a b h
    rcases Ex.wholeNodes_edges h with h | h <;> cases h <;> exact ⟨by decide +kernel, by decide +kernel⟩)
  obtain ⟨res, g1, g2⟩ := C121_network_exact (points := [fp p]) hv (show Fl.env.floatMax ≠ nan from nofun)
    (show Fl.env.floatMin ≠ nan from nofun) (by decide +kernel) h1 (List.Perm.refl [0]) e1 e2 e3 Ex.wholeNodes_whole (by
    intro j a b h
    rcases Ex.wholeNodes_edges h with h | h <;> cases h <;> exact Ex.wholePoly_iff (by decide +kernel) (by decide +kernel))
  obtain ⟨v, f1, f2, f3⟩ := g2 0 p rfl hp
  refine ⟨res, v, g1, f1, fun h0 => ?_, ?_⟩
  · obtain ⟨j, a, b, -, hj, -, u, u0, u1, hu⟩ := f2 h0
    rcases Ex.wholeNodes_edges hj with h | h <;> cases h
    · exact ⟨u, u0, u1, Or.inl hu⟩
    · exact ⟨u, u0, u1, Or.inr hu⟩
  · rintro ⟨u, u0, u1, h | h⟩ h0
    · exact f3 h0 0 _ _ u ⟨0, 1, rfl, rfl, rfl⟩ (by decide +kernel) u0 u1 h
    · exact f3 h0 1 _ _ u ⟨1, 2, rfl, rfl, rfl⟩ (by decide +kernel) u0 u1 h

end Celltree.Fl
