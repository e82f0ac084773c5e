import Verif.Proofs.FloatEdges
import Verif.Props.Floats

/-!
# Points on edges in binary64: C72, C73
-/

set_option linter.unusedSectionVars false

namespace Celltree
open Fl

variable {env : Env Fl} {vertices : List (Pt Fl)} {edges : IntArr} {nBuckets cellsPerLeaf : Int} {t : CellTree Fl}
variable {points : List (Pt Fl)} {otol : Option Fl} {sched : List Nat} {res : List Int} {M D tol : ℚ}

theorem edgeTree_fl (hv : ValidEdges vertices.length edges) (hrep : ∀ v ∈ vertices, RepPt v) (hmax : env.floatMax ≠ nan)
    (hmin : env.floatMin ≠ nan) (ht0 : (0 : Fl) ≤ env.minTol)
    (ht : EdgeCellTree.init env vertices edges nBuckets cellsPerLeaf = .ok t) :
    ∃ bt τ, (0 : Fl) ≤ τ ∧ EdgeTreeOk vertices edges t bt τ := by
  obtain ⟨bt, τ, h1, h2⟩ := EdgeCellTree.init_ok hv hmax hmin
    (fun τ hτ p hp => (hrep p hp).num (globalTolerance_nonneg ht0 hτ)) ht
  exact ⟨bt, τ, globalTolerance_nonneg ht0 h1, h2⟩

/-- **C72**: in binary64 the location of points on edges never raises an exception, for all points, NaN included, and all
tolerances. There is one entry for every point. An entry is `-1` or the number of an edge. -/
theorem C72_never_raises (hv : ValidEdges vertices.length edges) (hrep : ∀ v ∈ vertices, RepPt v)
    (hmax : env.floatMax ≠ nan) (hmin : env.floatMin ≠ nan) (ht0 : (0 : Fl) ≤ env.minTol)
    (ht : EdgeCellTree.init env vertices edges nBuckets cellsPerLeaf = .ok t)
    (hs : sched.Perm (List.range points.length)) (otol : Option Fl) :
    ∃ res, t.locatePointsOnEdge env points otol sched = .ok res ∧ res.length = points.length ∧
      ∀ v ∈ res, v = -1 ∨ ∃ (j : Nat) (p q : Pt Fl), v = j ∧ IsEdge vertices edges j p q := by
  obtain ⟨bt, τ, hτ, hc⟩ := edgeTree_fl hv hrep hmax hmin ht0 ht
  obtain ⟨tol, htol⟩ := hc.tolerance env otol
  rw [locatePointsOnEdge_tol htol]
  have hex : ∀ x : Pt Fl, ∃ v, locatePointOnEdge x t.data tol = .ok v ∧
      (v = -1 ∨ ∃ (j : Nat) (p q : Pt Fl), v = j ∧ IsEdge vertices edges j p q) := by
    intro x
    rcases hc.locate hv x tol with ⟨j, p, q, h, hj, _⟩ | ⟨h, _⟩
    · exact ⟨_, h, Or.inr ⟨j, p, q, rfl, hj⟩⟩
    · exact ⟨_, h, Or.inl rfl⟩
  choose f hf hf' using hex
  refine ⟨points.map f, (locatePointsOnEdge_iff hs).2 ⟨by simp, ?_⟩, by simp, ?_⟩
  · intro i p v hp hv
    rw [List.getElem?_map, hp] at hv
    cases hv
    exact hf p
  · intro v hv
    obtain ⟨p, _, rfl⟩ := List.mem_map.1 hv
    exact hf' p

/-- **C72**: in binary64 a point is located only on an edge of positive length that contains a point within twice the
tolerance of it, in both coordinates, if the edge is not shorter than the rounding errors and the tolerance is not smaller
than these. -/
theorem C72_located_close (hv : ValidEdges vertices.length edges) (hrep : ∀ v ∈ vertices, RepPt v)
    (hmax : env.floatMax ≠ nan) (hmin : env.floatMin ≠ nan) (ht0 : (0 : Fl) ≤ env.minTol)
    (ht : EdgeCellTree.init env vertices edges nBuckets cellsPerLeaf = .ok t)
    (hs : sched.Perm (List.range points.length)) (htol : t.tolerance env otol = .ok (fin tol))
    (hedges : ∀ j a b, IsEdge vertices edges j (fp a) (fp b) → a ≠ b → ∃ D, Fl.GoodSide M D a b ∧ slack M D ≤ tol)
    (hb : ∀ v ∈ vertices, ∃ q, v = fp q ∧ Bnd (2 ^ 200) q) (hM : 1 / 2 ^ 100 ≤ M) (h2 : |tol| ≤ 2 ^ 200)
    (hr : t.locatePointsOnEdge env points otol sched = .ok res) {i : Nat} {p : Pt ℚ} {v : Int}
    (hp : points[i]? = some (fp p)) (hbp : Bnd (2 ^ 200) p) (hvi : res[i]? = some v) (h0 : v ≠ -1) :
    ∃ (j : Nat) (a b : Pt ℚ), v = j ∧ IsEdge vertices edges j (fp a) (fp b) ∧ a ≠ b ∧
      ∃ s, 0 ≤ s ∧ s ≤ 1 ∧ |p.x - (lineAt a b s).x| ≤ 2 * tol ∧ |p.y - (lineAt a b s).y| ≤ 2 * tol := by
  obtain ⟨bt, τ, hτ, hc⟩ := edgeTree_fl hv hrep hmax hmin ht0 ht
  rw [locatePointsOnEdge_tol htol] at hr
  have hl := ((locatePointsOnEdge_iff hs).1 hr).2 i _ v hp hvi
  rcases hc.locate hv (fp p) (fin tol) with ⟨j, e, f, h, hj, hon⟩ | ⟨h, _⟩
  · rw [hl] at h
    obtain ⟨a, rfl, ha⟩ := hb e hj.mem.1
    obtain ⟨b, rfl, hb⟩ := hb f hj.mem.2
    rw [pointOnEdge_fl hbp ha hb h2] at hon
    have hon := of_decide_eq_true (Except.ok.inj hon)
    obtain ⟨D, hg, hsl⟩ := hedges j a b hj hon.1
    exact ⟨j, a, b, Except.ok.inj h, hj, hon.1, near_sound hg hM hsl hon.2⟩
  · rw [hl] at h
    exact absurd (Except.ok.inj h) h0

/-- **C73**, partial: what is missing is that the tolerance must not be smaller than the rounding errors. Then, in binary64,
every point of an edge, rounded to binary64, is located, on some edge. -/
theorem C73_rounded_points_found_partial (hv : ValidEdges vertices.length edges) (hrep : ∀ v ∈ vertices, RepPt v)
    (hmax : env.floatMax ≠ nan) (hmin : env.floatMin ≠ nan) (ht0 : (0 : Fl) ≤ env.minTol)
    (ht : EdgeCellTree.init env vertices edges nBuckets cellsPerLeaf = .ok t)
    (hs : sched.Perm (List.range points.length)) (htol : t.tolerance env otol = .ok (fin tol)) {j : Nat} {a b : Pt ℚ}
    (hj : IsEdge vertices edges j (fp a) (fp b)) (hab : a ≠ b) (hg : Fl.GoodSide M D a b) (hM : 1 / 2 ^ 100 ≤ M)
    (hM' : M ≤ 2 ^ 200) (h1 : slack M D ≤ tol) (h2 : |tol| ≤ 2 ^ 200) {s : ℚ} (s0 : 0 ≤ s) (s1 : s ≤ 1) {i : Nat}
    (hp : points[i]? = some (rndPt (lineAt a b s).x (lineAt a b s).y)) :
    ∃ res v, t.locatePointsOnEdge env points otol sched = .ok res ∧ res[i]? = some v ∧ v ≠ -1 := by
  obtain ⟨res, hres, hlen, _⟩ := C72_never_raises hv hrep hmax hmin ht0 ht hs otol
  have hi : i < res.length := by rw [hlen]; exact (List.getElem?_eq_some_iff.1 hp).1
  refine ⟨res, res[i], hres, by simp, ?_⟩
  intro hv'
  obtain ⟨bt, τ, hτ, hc⟩ := edgeTree_fl hv hrep hmax hmin ht0 ht
  rw [locatePointsOnEdge_tol htol] at hres
  have hl := ((locatePointsOnEdge_iff hs).1 hres).2 i _ (-1) hp (by rw [List.getElem?_eq_getElem hi, hv'])
  have hra := hrep _ hj.mem.1
  have hrb := hrep _ hj.mem.2
  obtain ⟨_, _, ⟨rax, _⟩, ⟨ray, _⟩⟩ := id hra
  obtain ⟨_, _, ⟨rbx, _⟩, ⟨rby, _⟩⟩ := id hrb
  have hbt := rndAt_between rax ray rbx rby s0 s1
  have hin : InBoxOf [fp a, fp b] (fp (rndAt a b s)) := by
    unfold InBoxOf fp
    simp only [List.mem_cons, List.not_mem_nil, or_false, exists_eq_or_imp, exists_eq_left, le_fin]
    obtain ⟨⟨x1, x2⟩, y1, y2⟩ := hbt
    exact ⟨min_le_iff.1 x1, le_max_iff.1 x2, min_le_iff.1 y1, le_max_iff.1 y2⟩
  have hMM := (pow_le_big (k := 200) (by norm_num))
  have hbp : Bnd M (rndAt a b s) := by
    obtain ⟨⟨x1, x2⟩, y1, y2⟩ := hbt
    have a1 := abs_le.1 hg.bnd_a.1
    have a2 := abs_le.1 hg.bnd_a.2
    have b1 := abs_le.1 hg.bnd_b.1
    have b2 := abs_le.1 hg.bnd_b.2
    exact ⟨abs_le.2 ⟨(le_min a1.1 b1.1).trans x1, x2.trans (max_le a1.2 b1.2)⟩,
      abs_le.2 ⟨(le_min a2.1 b2.1).trans y1, y2.trans (max_le a2.2 b2.2)⟩⟩
  have hpt : rndPt (lineAt a b s).x (lineAt a b s).y = fp (rndAt a b s) := by
    have hx := Fl.lineAt_between a.x b.x s s0 s1
    have hy := Fl.lineAt_between a.y b.y s s0 s1
    have a1 := abs_le.1 hg.bnd_a.1
    have a2 := abs_le.1 hg.bnd_a.2
    have b1 := abs_le.1 hg.bnd_b.1
    have b2 := abs_le.1 hg.bnd_b.2
    have e1 : |(lineAt a b s).x| ≤ maxNat :=
      (abs_le.2 ⟨(le_min a1.1 b1.1).trans hx.1, hx.2.trans (max_le a1.2 b1.2)⟩).trans (hM'.trans hMM)
    have e2 : |(lineAt a b s).y| ≤ maxNat :=
      (abs_le.2 ⟨(le_min a2.1 b2.1).trans hy.1, hy.2.trans (max_le a2.2 b2.2)⟩).trans (hM'.trans hMM)
    unfold rndPt fp rndAt
    rw [rnd_fin e1, rnd_fin e2]
  rw [hpt] at hl
  rcases hc.locate hv (fp (rndAt a b s)) (fin tol) with ⟨k, e, f, h, _, _⟩ | ⟨h, hall⟩
  · rw [hl] at h
    have := Except.ok.inj h
    omega
  · have := hall j _ _ hj (edgeBox_has hra hrb hτ hin)
    rw [pointOnEdge_fl (hbp.mono hM') (hg.bnd_a.mono hM') (hg.bnd_b.mono hM') h2] at this
    exact of_decide_eq_false (Except.ok.inj this) ⟨hab, rndAt_near hg hM h1 rax ray rbx rby s0 s1⟩

/-! ## Examples and a violation -/

namespace Ex

/-- Two edges in the Dutch national grid. -/
def roofVerts : List (Pt Fl) := [rndPt 155000 463000, rndPt 155010 463007, rndPt 155020 463000]
def roofEdges : IntArr := ⟨2, [[0, 1], [1, 2]]⟩

theorem roof_valid : ValidEdges roofVerts.length roofEdges := by
  intro r hr
  simp only [roofEdges, List.mem_cons, List.not_mem_nil, or_false] at hr
  rcases hr with rfl | rfl
  · exact ⟨0, 1, rfl, by decide, by decide, by decide, by decide⟩
  · exact ⟨1, 2, rfl, by decide, by decide, by decide, by decide⟩

theorem repPt_rndPt {x y : ℚ} (hx : |x| ≤ 2 ^ 200) (hy : |y| ≤ 2 ^ 200) : RepPt (rndPt x y) := by
  refine ⟨⟨rq x, rq y⟩, ?_, rep_rnd x, rep_rnd y⟩
  unfold rndPt fp
  have hM := pow_le_big (k := 200) (by norm_num)
  rw [rnd_fin (hx.trans hM), rnd_fin (hy.trans hM)]

theorem roof_rep : ∀ v ∈ roofVerts, RepPt v := by
  intro v hv
  simp only [roofVerts, List.mem_cons, List.not_mem_nil, or_false] at hv
  rcases hv with rfl | rfl | rfl <;> exact repPt_rndPt (by norm_num) (by norm_num)

end Ex

/-- **C73** is violated with the default tolerance: the point at one third of the first edge, rounded to binary64, is not
located. -/
theorem C73_default_violated : ∃ t : CellTree Fl,
    EdgeCellTree.init Fl.env Ex.roofVerts Ex.roofEdges 4 2 = .ok t ∧
    IsEdge Ex.roofVerts Ex.roofEdges 0 (fp ⟨155000, 463000⟩) (fp ⟨155010, 463007⟩) ∧
    t.locatePointsOnEdge Fl.env [rndPt (lineAt ⟨155000, 463000⟩ ⟨155010, 463007⟩ (1 / 3 : ℚ)).x
      (lineAt ⟨155000, 463000⟩ ⟨155010, 463007⟩ (1 / 3 : ℚ)).y] none [0] = .ok [-1] := by
  obtain ⟨t, h1, h2⟩ := bind_eq_ok.1 (show (EdgeCellTree.init Fl.env Ex.roofVerts Ex.roofEdges 4 2 >>= fun t =>
    t.locatePointsOnEdge Fl.env [rndPt (lineAt ⟨155000, 463000⟩ ⟨155010, 463007⟩ (1 / 3 : ℚ)).x
      (lineAt ⟨155000, 463000⟩ ⟨155010, 463007⟩ (1 / 3 : ℚ)).y] none [0]) = .ok [-1] by decide +kernel)
  exact ⟨t, h1, ⟨0, 1, rfl, by decide +kernel, by decide +kernel⟩, h2⟩

/-- With a tolerance of about a nanometre the theorems apply to all points of both edges. -/
example : ∃ t : CellTree Fl, EdgeCellTree.init Fl.env Ex.roofVerts Ex.roofEdges 4 2 = .ok t ∧
    (0 : Fl) ≤ Fl.env.minTol ∧ Fl.env.floatMax ≠ nan ∧ Fl.env.floatMin ≠ nan ∧
    t.tolerance Fl.env (some (fin (1 / 2 ^ 30))) = .ok (fin (1 / 2 ^ 30)) ∧
    IsEdge Ex.roofVerts Ex.roofEdges 0 (fp ⟨155000, 463000⟩) (fp ⟨155010, 463007⟩) ∧
    IsEdge Ex.roofVerts Ex.roofEdges 1 (fp ⟨155010, 463007⟩) (fp ⟨155020, 463000⟩) ∧
    Fl.GoodSide 463010 10 ⟨155000, 463000⟩ ⟨155010, 463007⟩ ∧ Fl.GoodSide 463010 10 ⟨155010, 463007⟩ ⟨155020, 463000⟩ ∧
    slack 463010 10 ≤ 1 / 2 ^ 30 ∧
    t.locatePointsOnEdge Fl.env [rndPt (155000 + 10 / 3) (463000 + 7 / 3), rndPt 155010 463000]
      (some (fin (1 / 2 ^ 30))) [0, 1] = .ok [0, -1] := by
  obtain ⟨t, h1, h2⟩ := bind_eq_ok.1 (show (EdgeCellTree.init Fl.env Ex.roofVerts Ex.roofEdges 4 2 >>= fun t =>
    t.locatePointsOnEdge Fl.env [rndPt (155000 + 10 / 3) (463000 + 7 / 3), rndPt 155010 463000]
      (some (fin (1 / 2 ^ 30))) [0, 1]) = .ok [0, -1] by decide +kernel)
  exact ⟨t, h1, by decide +kernel, nofun, nofun, rfl, ⟨0, 1, rfl, by decide +kernel, by decide +kernel⟩,
    ⟨1, 2, rfl, by decide +kernel, by decide +kernel⟩, by decide +kernel, by decide +kernel, by decide +kernel, h2⟩

end Celltree
