import Verif.Proofs.FloatAxis
import Verif.Props.FloatEdges
import Verif.Props.FloatRectPoints

/-!
# Points on networks of edges along the axes in binary64: C111
-/

set_option linter.unusedSectionVars false

namespace Celltree.Fl

variable {env : Env Fl} {vertices : List (Pt Fl)} {edges : IntArr} {nBuckets cellsPerLeaf : Int} {t : CellTree Fl}
variable {points : List (Pt Fl)} {otol : Option Fl} {sched : List Nat} {res : List Int} {M S tol : ℚ}

theorem edgeDistances {env : Env Fl} (h : EdgeCellTree.init env vertices edges nBuckets cellsPerLeaf = .ok t) :
    t.bbDistances = t.data.bbCoords.map (bboxDistance env) := by
  unfold EdgeCellTree.init at h
  by_cases h1 : nBuckets < 2
  · rw [if_pos h1] at h; cases h
  rw [if_neg h1] at h
  by_cases h2 : cellsPerLeaf < 1
  · rw [if_pos h2] at h; cases h
  rw [if_neg h2] at h
  obtain ⟨τ, hτ, h3⟩ := bind_eq_ok.1 h
  obtain ⟨coords, hco, h4⟩ := bind_eq_ok.1 h3
  obtain ⟨⟨nodes, idx⟩, hI, h5⟩ := bind_eq_ok.1 h4
  obtain ⟨bb, hbb, h6⟩ := bind_eq_ok.1 h5
  cases h6
  rfl

theorem all_fp {P : Pt ℚ → Prop} (h : ∀ v ∈ vertices, ∃ q, v = fp q ∧ P q) : ∃ L : List (Pt ℚ), vertices = L.map fp ∧ ∀ q ∈ L, P q := by
  induction vertices with
  | nil => exact ⟨[], rfl, by simp⟩
  | cons v vs ih =>
    obtain ⟨L, h1, h2⟩ := ih fun w hw => h w (List.mem_cons_of_mem _ hw)
    obtain ⟨q, h3, h4⟩ := h v (by simp)
    refine ⟨q :: L, by rw [h1, h3]; rfl, ?_⟩
    intro x hx
    rcases List.mem_cons.1 hx with rfl | hx
    · exact h4
    · exact h2 x hx

/-- **C111**, the tolerance: for a network of edges of coordinates at most `M` and of width and height at most `S`, in any
direction, the default tolerance satisfies the conditions of the other theorems. It is at most `2 ^ -49`, or about `2 ^ -38` of the
size of the edges. -/
theorem C111_default_tolerance (hv : ValidEdges vertices.length edges) (hrep : ∀ v ∈ vertices, RepPt v)
    (ht : EdgeCellTree.init Fl.env vertices edges nBuckets cellsPerLeaf = .ok t) (hM : 1 ≤ M) (hM' : M ≤ 2 ^ 199)
    (hb : ∀ v ∈ vertices, ∃ q, v = fp q ∧ Bnd M q)
    (hS : ∀ j a b, IsEdge vertices edges j (fp a) (fp b) → |a.x - b.x| ≤ S ∧ |a.y - b.y| ≤ S) :
    ∃ tol, t.tolerance Fl.env none = .ok (fin tol) ∧ 1 / 2 ^ 50 ≤ tol ∧
      tol ≤ max (1 / 2 ^ 49) ((S + M / 2 ^ 35) / 2 ^ 38) := by
  have hM0 : 0 < M := by linarith
  obtain ⟨bt, τ, hτ, hc⟩ := EdgeCellTree.init_ok hv (env := Fl.env) (show Fl.env.floatMax ≠ nan from nofun)
    (show Fl.env.floatMin ≠ nan from nofun)
    (fun τ hτ p hp => (hrep p hp).num (globalTolerance_nonneg (by decide +kernel) hτ)) ht
  obtain ⟨L, rfl, hL⟩ := all_fp hb
  have hpos : 0 < edges.rows.length := by
    rw [← hc.length]; exact List.length_pos_iff.2 hc.nonempty
  obtain ⟨p0, q0, h0⟩ := hv.isEdge hpos
  have hLne : L ≠ [] := by rintro rfl; simpa using h0.mem.1
  obtain ⟨τ', e1, e2, e3⟩ := globalTolerance_up hM hM' hL hLne
  rw [hτ] at e1
  obtain rfl := Except.ok.inj e1
  have hedge : ∀ {j p q}, IsEdge (L.map fp) edges j p q → ∃ a b, p = fp a ∧ q = fp b ∧ Bnd M a ∧ Bnd M b := by
    intro j p q h
    obtain ⟨a, ha, rfl⟩ := List.mem_map.1 h.mem.1
    obtain ⟨b, hb, rfl⟩ := List.mem_map.1 h.mem.2
    exact ⟨a, b, rfl, rfl, hL a ha, hL b hb⟩
  have hS0 : 0 ≤ S := by
    obtain ⟨a, b, rfl, rfl, _⟩ := hedge h0
    exact (abs_nonneg _).trans (hS _ _ _ h0).1
  -- the differences of the coordinates are at most `2 * M`
  set R := min S (2 * M) with hR
  have h2M : 2 * M ≤ 2 ^ 200 := by
    rw [show (200 : Nat) = 199 + 1 from rfl, pow_succ]
    generalize (2 : ℚ) ^ 199 = T at hM'
    linarith
  have hR0 : 0 ≤ R := le_min hS0 (by linarith)
  have hR1 : R ≤ S := min_le_left _ _
  have hR2 : R ≤ 2 * M := min_le_right _ _
  have hdiff : ∀ {x y : ℚ}, |x| ≤ M → |y| ≤ M → |x - y| ≤ S → |x - y| ≤ R := by
    intro x y hx hy h
    refine le_min h ?_
    rw [abs_le] at hx hy ⊢
    exact ⟨by linarith, by linarith⟩
  obtain ⟨tol, g1, g2, g3⟩ := boxes_tolerance (t := t) (S := R + M / 2 ^ 35) (by
      have : (1 : ℚ) / 2 ^ 200 ≤ M / 2 ^ 35 := by
        refine le_trans (inv_le_inv_pow (j := 35) (by norm_num)) ?_
        linarith
      linarith) (by
      have : (2 : ℚ) ^ 201 = 2 * 2 ^ 200 := pow_succ' 2 200
      rw [this]
      have : M / 2 ^ 35 ≤ M := by linarith
      linarith) (edgeDistances ht) hc.nonempty (by
      intro b hb
      obtain ⟨j, hj, rfl⟩ := List.mem_iff_getElem.1 hb
      obtain ⟨p, q, hpq⟩ := hv.isEdge (show j < edges.rows.length by rw [← hc.length]; exact hj)
      have hbox := hc.boxes j p q hpq
      rw [List.getElem?_eq_getElem hj] at hbox
      rw [Option.some.inj hbox]
      obtain ⟨a, b, rfl, rfl, ha, hb⟩ := hedge hpq
      obtain ⟨sx, sy⟩ := hS _ _ _ hpq
      obtain ⟨xl, xh, x1, x2, x3, x4⟩ := widen_up hM hM' ha.1 hb.1 e2 e3 (hdiff ha.1 hb.1 sx)
      obtain ⟨yl, yh, y1, y2, y3, y4⟩ := widen_up hM hM' ha.2 hb.2 e2 e3 (hdiff ha.2 hb.2 sy)
      refine ⟨⟨xl, xh, yl, yh⟩, ?_, x3, y3, x4, y4⟩
      unfold edgeBox fbox fp
      simp only
      rw [x1, x2, y1, y2])
  refine ⟨tol, g1, g2, g3.trans (max_le_max (le_refl _) ?_)⟩
  exact div_le_div_of_nonneg_right (by linarith) (by positivity)

/-- **C111**, the points are found: in binary64 every point of an edge along one of the axes is located, on some edge. The other
edges of the network can be anything. -/
theorem C111_points_found (hv : ValidEdges vertices.length edges) (hrep : ∀ v ∈ vertices, RepPt v)
    (hmax : env.floatMax ≠ nan) (hmin : env.floatMin ≠ nan) (ht0 : (0 : Fl) ≤ env.minTol)
    (ht : EdgeCellTree.init env vertices edges nBuckets cellsPerLeaf = .ok t)
    (hs : sched.Perm (List.range points.length)) (htol : t.tolerance env otol = .ok (fin tol)) (h1 : 1 / 2 ^ 200 ≤ tol)
    (h2 : tol ≤ 2 ^ 200) {j : Nat} {a b : Pt ℚ} (hj : IsEdge vertices edges j (fp a) (fp b)) (hab : PlainEdge a b) {i : Nat}
    {s : ℚ} (s0 : 0 ≤ s) (s1 : s ≤ 1) (hp : points[i]? = some (fp (lineAt a b s))) :
    ∃ res v, t.locatePointsOnEdge env points otol sched = .ok res ∧ res[i]? = some v ∧ v ≠ -1 := by
  obtain ⟨res, hres, hlen, _⟩ := C72_never_raises hv hrep hmax hmin ht0 ht hs otol
  have hi : i < res.length := by rw [hlen]; exact (List.getElem?_eq_some_iff.1 hp).1
  refine ⟨res, res[i], hres, by simp, ?_⟩
  intro hv'
  obtain ⟨bt, τ, hτ, hc⟩ := edgeTree_fl hv hrep hmax hmin ht0 ht
  rw [locatePointsOnEdge_tol htol] at hres
  have hl := ((locatePointsOnEdge_iff hs).1 hres).2 i _ (-1) hp (by rw [List.getElem?_eq_getElem hi, hv'])
  have hra := hrep _ hj.mem.1
  have hrb := hrep _ hj.mem.2
  obtain ⟨_, _, ⟨rax, _⟩, _⟩ := id hra
  have hx := Fl.lineAt_between a.x b.x s s0 s1
  have hy := Fl.lineAt_between a.y b.y s s0 s1
  have hin : InBoxOf [fp a, fp b] (fp (lineAt a b s)) := by
    unfold InBoxOf fp
    simp only [List.mem_cons, List.not_mem_nil, or_false, exists_eq_or_imp, exists_eq_left, le_fin]
    exact ⟨min_le_iff.1 hx.1, le_max_iff.1 hx.2, min_le_iff.1 hy.1, le_max_iff.1 hy.2⟩
  have hbp : Bnd (2 ^ 200) (lineAt a b s) := by
    have a1 := abs_le.1 hab.bnd_a.1
    have a2 := abs_le.1 hab.bnd_a.2
    have b1 := abs_le.1 hab.bnd_b.1
    have b2 := abs_le.1 hab.bnd_b.2
    exact ⟨abs_le.2 ⟨(le_min a1.1 b1.1).trans hx.1, hx.2.trans (max_le a1.2 b1.2)⟩,
      abs_le.2 ⟨(le_min a2.1 b2.1).trans hy.1, hy.2.trans (max_le a2.2 b2.2)⟩⟩
  have t0 : 0 ≤ tol := le_trans (by positivity) h1
  rcases hc.locate hv (fp (lineAt a b s)) (fin tol) with ⟨k, e, f, h, _, _⟩ | ⟨h, hall⟩
  · rw [hl] at h
    have := Except.ok.inj h
    omega
  · have := hall j _ _ hj (edgeBox_has hra hrb hτ hin)
    rw [pointOnEdge_fl hbp hab.bnd_a hab.bnd_b (abs_le_of t0 h2)] at this
    exact of_decide_eq_false (Except.ok.inj this) ⟨hab.ne, (hab.side rax).near_of_on h1 hx hy⟩

/-- **C111**, rounded points: a point of an edge along one of the axes, rounded to binary64, is on the edge. It is located, on some
edge. C73 is violated for other edges. -/
theorem C111_rounded_points_found (hv : ValidEdges vertices.length edges) (hrep : ∀ v ∈ vertices, RepPt v)
    (hmax : env.floatMax ≠ nan) (hmin : env.floatMin ≠ nan) (ht0 : (0 : Fl) ≤ env.minTol)
    (ht : EdgeCellTree.init env vertices edges nBuckets cellsPerLeaf = .ok t)
    (hs : sched.Perm (List.range points.length)) (htol : t.tolerance env otol = .ok (fin tol)) (h1 : 1 / 2 ^ 200 ≤ tol)
    (h2 : tol ≤ 2 ^ 200) {j : Nat} {a b : Pt ℚ} (hj : IsEdge vertices edges j (fp a) (fp b)) (hab : PlainEdge a b) {i : Nat}
    {s : ℚ} (s0 : 0 ≤ s) (s1 : s ≤ 1) (hp : points[i]? = some (rndPt (lineAt a b s).x (lineAt a b s).y)) :
    ∃ res v, t.locatePointsOnEdge env points otol sched = .ok res ∧ res[i]? = some v ∧ v ≠ -1 := by
  obtain ⟨_, _, ⟨rax, _⟩, ⟨ray, _⟩⟩ := hrep _ hj.mem.1
  obtain ⟨_, _, ⟨rbx, _⟩, ⟨rby, _⟩⟩ := hrep _ hj.mem.2
  have hbt := rndAt_between rax ray rbx rby s0 s1
  have hx := Fl.lineAt_between a.x b.x s s0 s1
  have hy := Fl.lineAt_between a.y b.y s s0 s1
  have hMM := (pow_le_big (k := 200) (by norm_num))
  have hpt : rndPt (lineAt a b s).x (lineAt a b s).y = fp (rndAt a b s) := by
    have a1 := abs_le.1 hab.bnd_a.1
    have a2 := abs_le.1 hab.bnd_a.2
    have b1 := abs_le.1 hab.bnd_b.1
    have b2 := abs_le.1 hab.bnd_b.2
    have e1 : |(lineAt a b s).x| ≤ maxNat :=
      (abs_le.2 ⟨(le_min a1.1 b1.1).trans hx.1, hx.2.trans (max_le a1.2 b1.2)⟩).trans hMM
    have e2 : |(lineAt a b s).y| ≤ maxNat :=
      (abs_le.2 ⟨(le_min a2.1 b2.1).trans hy.1, hy.2.trans (max_le a2.2 b2.2)⟩).trans hMM
    unfold rndPt fp rndAt
    rw [rnd_fin e1, rnd_fin e2]
  have hne := hab.ne
  obtain ⟨s', g0, g1, e⟩ : ∃ s', 0 ≤ s' ∧ s' ≤ 1 ∧ rndAt a b s = lineAt a b s' := by
    rcases hab.dir with ⟨h, _⟩ | ⟨h, _⟩
    · obtain ⟨s', g0, g1, e⟩ := divides (x := a.x) (y := b.x) (fun e => hne (Pt.ext' e h.symm)) hbt.1
      refine ⟨s', g0, g1, Pt.ext' e ?_⟩
      have := hbt.2
      rw [h, min_self, max_self] at this
      simp only [lineAt, h, sub_self, mul_zero, add_zero]
      exact le_antisymm this.2 this.1
    · obtain ⟨s', g0, g1, e⟩ := divides (x := a.y) (y := b.y) (fun e => hne (Pt.ext' h.symm e)) hbt.2
      refine ⟨s', g0, g1, Pt.ext' ?_ e⟩
      have := hbt.1
      rw [h, min_self, max_self] at this
      simp only [lineAt, h, sub_self, mul_zero, add_zero]
      exact le_antisymm this.2 this.1
  rw [hpt, e] at hp
  exact C111_points_found hv hrep hmax hmin ht0 ht hs htol h1 h2 hj hab g0 g1 hp

/-- **C111**, the points are close: in a network of edges along the axes, and of edges of length zero, a point is located on an edge
that contains it, or the edge is not farther from it than the tolerance, up to a relative error of `2 ^ -47` of the tolerance. -/
theorem C111_located_close (hv : ValidEdges vertices.length edges) (hrep : ∀ v ∈ vertices, RepPt v)
    (hmax : env.floatMax ≠ nan) (hmin : env.floatMin ≠ nan) (ht0 : (0 : Fl) ≤ env.minTol)
    (ht : EdgeCellTree.init env vertices edges nBuckets cellsPerLeaf = .ok t)
    (hs : sched.Perm (List.range points.length)) (htol : t.tolerance env otol = .ok (fin tol)) (h1 : 1 / 2 ^ 200 ≤ tol)
    (h2 : tol ≤ 2 ^ 200)
    (hedges : ∀ j p q, IsEdge vertices edges j p q → p = q ∨ ∃ a b, p = fp a ∧ q = fp b ∧ PlainEdge a b)
    (hr : t.locatePointsOnEdge env points otol sched = .ok res) {i : Nat} {p : Pt ℚ} {v : Int}
    (hp : points[i]? = some (fp p)) (hbp : Bnd (2 ^ 200) p) (hvi : res[i]? = some v) (h0 : v ≠ -1) :
    ∃ (j : Nat) (a b : Pt ℚ), v = j ∧ IsEdge vertices edges j (fp a) (fp b) ∧ PlainEdge a b ∧
      NearSeg ((1 + 1 / 2 ^ 47) * tol) a b p := by
  obtain ⟨bt, τ, hτ, hc⟩ := edgeTree_fl hv hrep hmax hmin ht0 ht
  rw [locatePointsOnEdge_tol htol] at hr
  have hl := ((locatePointsOnEdge_iff hs).1 hr).2 i _ v hp hvi
  have t0 : 0 ≤ tol := le_trans (by positivity) h1
  rcases hc.locate hv (fp p) (fin tol) with ⟨j, e, f, h, hj, hon⟩ | ⟨h, _⟩
  · rw [hl] at h
    rcases hedges j e f hj with rfl | ⟨a, b, rfl, rfl, hab⟩
    · exfalso
      obtain ⟨c, rfl, hrx, hry⟩ := hrep e hj.mem.1
      unfold pointOnEdge at hon
      rw [rd_of_some (show ([fp c, fp c] : List (Pt Fl))[0]? = some (fp c) from rfl), ok_bind,
        rd_of_some (show ([fp c, fp c] : List (Pt Fl))[1]? = some (fp c) from rfl), ok_bind] at hon
      have : ((fp c).eqv (fp c)) = true := by
        unfold Pt.eqv fp
        simp only [beq_fin, decide_true, Bool.and_self]
      rw [if_pos this] at hon
      exact Bool.noConfusion (Except.ok.inj hon)
    · rw [pointOnEdge_fl hbp hab.bnd_a hab.bnd_b (abs_le_of t0 h2)] at hon
      have hon := of_decide_eq_true (Except.ok.inj hon)
      obtain ⟨_, _, ⟨rax, _⟩, _⟩ := hrep _ hj.mem.1
      exact ⟨j, a, b, Except.ok.inj h, hj, hab, hab.nearSeg rax h1 hon.2⟩
  · rw [hl] at h
    exact absurd (Except.ok.inj h) h0

/-- **C111**, the result: a point of an edge that is farther than the tolerance from all other edges is located on that edge. -/
theorem C111_located_on (hv : ValidEdges vertices.length edges) (hrep : ∀ v ∈ vertices, RepPt v)
    (hmax : env.floatMax ≠ nan) (hmin : env.floatMin ≠ nan) (ht0 : (0 : Fl) ≤ env.minTol)
    (ht : EdgeCellTree.init env vertices edges nBuckets cellsPerLeaf = .ok t)
    (hs : sched.Perm (List.range points.length)) (htol : t.tolerance env otol = .ok (fin tol)) (h1 : 1 / 2 ^ 200 ≤ tol)
    (h2 : tol ≤ 2 ^ 200)
    (hedges : ∀ j p q, IsEdge vertices edges j p q → p = q ∨ ∃ a b, p = fp a ∧ q = fp b ∧ PlainEdge a b)
    {j : Nat} {a b : Pt ℚ} (hj : IsEdge vertices edges j (fp a) (fp b)) (hab : PlainEdge a b) {i : Nat} {s : ℚ} (s0 : 0 ≤ s)
    (s1 : s ≤ 1) (hp : points[i]? = some (fp (lineAt a b s)))
    (hfar : ∀ k c d, k ≠ j → IsEdge vertices edges k (fp c) (fp d) → ¬ NearSeg ((1 + 1 / 2 ^ 47) * tol) c d (lineAt a b s)) :
    ∃ res, t.locatePointsOnEdge env points otol sched = .ok res ∧ res[i]? = some (j : Int) := by
  obtain ⟨res, v, e1, e2, e3⟩ := C111_points_found hv hrep hmax hmin ht0 ht hs htol h1 h2 hj hab s0 s1 hp
  have hx := Fl.lineAt_between a.x b.x s s0 s1
  have hy := Fl.lineAt_between a.y b.y s s0 s1
  have hbp : Bnd (2 ^ 200) (lineAt a b s) := by
    have a1 := abs_le.1 hab.bnd_a.1
    have a2 := abs_le.1 hab.bnd_a.2
    have b1 := abs_le.1 hab.bnd_b.1
    have b2 := abs_le.1 hab.bnd_b.2
    exact ⟨abs_le.2 ⟨(le_min a1.1 b1.1).trans hx.1, hx.2.trans (max_le a1.2 b1.2)⟩,
      abs_le.2 ⟨(le_min a2.1 b2.1).trans hy.1, hy.2.trans (max_le a2.2 b2.2)⟩⟩
  obtain ⟨k, c, d, f1, f2, _, f4⟩ := C111_located_close hv hrep hmax hmin ht0 ht hs htol h1 h2 hedges e1 hp hbp e2 e3
  refine ⟨res, e1, ?_⟩
  by_cases hk : k = j
  · rw [e2, f1, hk]
  · exact absurd f4 (hfar k c d hk f2)

end Celltree.Fl

/-! ## An example

A network of three edges in the Dutch national grid, one of them in the opposite direction. -/

set_option synthInstance.maxSize 1000

namespace Celltree.Ex

open Fl

theorem street_max : Fl.env.floatMax ≠ nan := nofun
theorem street_min : Fl.env.floatMin ≠ nan := nofun

def streetVerts : List (Pt Fl) := [fp ⟨rdX1, rdY1⟩, fp ⟨rdX2, rdY1⟩, fp ⟨rdX2, rdY2⟩, fp ⟨rdX3, rdY1⟩]
def streetEdges : IntArr := ⟨2, [[0, 1], [2, 1], [1, 3]]⟩

theorem street_valid : ValidEdges streetVerts.length streetEdges := by
  intro r hr
  simp only [streetEdges, List.mem_cons, List.not_mem_nil, or_false] at hr
  rcases hr with rfl | rfl | rfl
  · exact ⟨0, 1, rfl, by decide, by decide, by decide, by decide⟩
  · exact ⟨2, 1, rfl, by decide, by decide, by decide, by decide⟩
  · exact ⟨1, 3, rfl, by decide, by decide, by decide, by decide⟩

theorem street_rep : ∀ v ∈ streetVerts, RepPt v := by
  have key : ∀ {x : ℚ}, IsRep x ∧ |x| ≤ 2 ^ 200 → Rep (fin x) := fun h => ⟨h.1, h.2.trans (pow_le_big (by norm_num))⟩
  intro v hv
  simp only [streetVerts, List.mem_cons, List.not_mem_nil, or_false] at hv
  rcases hv with rfl | rfl | rfl | rfl <;> exact ⟨_, rfl, key (rd_repX (by simp)), key (rd_repY (by simp))⟩

theorem street_bnd : ∀ v ∈ streetVerts, ∃ q, v = fp q ∧ Bnd 463011 q := by
  intro v hv
  simp only [streetVerts, List.mem_cons, List.not_mem_nil, or_false] at hv
  rcases hv with rfl | rfl | rfl | rfl <;> exact ⟨_, rfl, by decide +kernel, by decide +kernel⟩

theorem street_isEdge {j : Nat} {p q : Pt Fl} (h : IsEdge streetVerts streetEdges j p q) :
    (j = 0 ∧ p = fp ⟨rdX1, rdY1⟩ ∧ q = fp ⟨rdX2, rdY1⟩) ∨ (j = 1 ∧ p = fp ⟨rdX2, rdY2⟩ ∧ q = fp ⟨rdX2, rdY1⟩) ∨
      (j = 2 ∧ p = fp ⟨rdX2, rdY1⟩ ∧ q = fp ⟨rdX3, rdY1⟩) := by
  obtain ⟨v, w, h1, h2, h3⟩ := h
  match j, h1 with
  | 0, h1 =>
    simp only [streetEdges, List.getElem?_cons_zero, Option.some.injEq, List.cons.injEq, and_true] at h1
    obtain ⟨rfl, rfl⟩ := h1
    exact Or.inl ⟨rfl, (Option.some.inj h2).symm, (Option.some.inj h3).symm⟩
  | 1, h1 =>
    simp only [streetEdges, List.getElem?_cons_zero, List.getElem?_cons_succ, Option.some.injEq, List.cons.injEq, and_true] at h1
    obtain ⟨rfl, rfl⟩ := h1
    exact Or.inr (Or.inl ⟨rfl, (Option.some.inj h2).symm, (Option.some.inj h3).symm⟩)
  | 2, h1 =>
    simp only [streetEdges, List.getElem?_cons_zero, List.getElem?_cons_succ, Option.some.injEq, List.cons.injEq, and_true] at h1
    obtain ⟨rfl, rfl⟩ := h1
    exact Or.inr (Or.inr ⟨rfl, (Option.some.inj h2).symm, (Option.some.inj h3).symm⟩)
  | k + 3, h1 => simp [streetEdges] at h1

theorem street_plain : PlainEdge ⟨rdX1, rdY1⟩ ⟨rdX2, rdY1⟩ ∧ PlainEdge ⟨rdX2, rdY2⟩ ⟨rdX2, rdY1⟩ ∧
    PlainEdge ⟨rdX2, rdY1⟩ ⟨rdX3, rdY1⟩ := by
  refine ⟨⟨⟨?_, ?_⟩, ⟨?_, ?_⟩, Or.inl ⟨rfl, ?_⟩⟩, ⟨⟨?_, ?_⟩, ⟨?_, ?_⟩, Or.inr ⟨rfl, ?_⟩⟩, ⟨?_, ?_⟩, ⟨?_, ?_⟩, Or.inl ⟨rfl, ?_⟩⟩ <;>
    decide +kernel

theorem street_edges : ∀ j p q, IsEdge streetVerts streetEdges j p q → p = q ∨ ∃ a b, p = fp a ∧ q = fp b ∧ PlainEdge a b := by
  intro j p q h
  obtain ⟨h1, h2, h3⟩ := street_plain
  rcases street_isEdge h with ⟨_, rfl, rfl⟩ | ⟨_, rfl, rfl⟩ | ⟨_, rfl, rfl⟩
  · exact Or.inr ⟨_, _, rfl, rfl, h1⟩
  · exact Or.inr ⟨_, _, rfl, rfl, h2⟩
  · exact Or.inr ⟨_, _, rfl, rfl, h3⟩

theorem fp_inj {p q : Pt ℚ} (h : fp p = fp q) : p = q := by
  unfold fp at h
  simp only [Pt.mk.injEq, Fl.fin.injEq] at h
  exact Pt.ext' h.1 h.2

theorem street_size : ∀ j a b, IsEdge streetVerts streetEdges j (fp a) (fp b) → |a.x - b.x| ≤ 11 ∧ |a.y - b.y| ≤ 11 := by
  intro j a b h
  rcases street_isEdge h with ⟨_, h1, h2⟩ | ⟨_, h1, h2⟩ | ⟨_, h1, h2⟩ <;> obtain rfl := fp_inj h1 <;> obtain rfl := fp_inj h2 <;>
    exact ⟨by decide +kernel, by decide +kernel⟩

/-- A point of every edge, and a point next to the second edge. -/
theorem street_run : ∃ t, EdgeCellTree.init Fl.env streetVerts streetEdges 4 2 = .ok t ∧
    t.locatePointsOnEdge Fl.env [rndPt 155005 463000.3, rndPt 155010.1 463003, rndPt 155015 463000.3, rndPt 155010 463003] none
      [0, 1, 2, 3] = .ok [0, 1, 2, -1] := by
  obtain ⟨t, h1, h2⟩ := bind_eq_ok.1 (show (EdgeCellTree.init Fl.env streetVerts streetEdges 4 2 >>= fun t =>
      t.locatePointsOnEdge Fl.env [rndPt 155005 463000.3, rndPt 155010.1 463003, rndPt 155015 463000.3, rndPt 155010 463003]
        none [0, 1, 2, 3]) = .ok [0, 1, 2, -1] by decide +kernel)
  exact ⟨t, h1, h2⟩

end Celltree.Ex

namespace Celltree.Fl

/-- In this network, with the default tolerance, every point of the edges is located, and the points of the second edge that are
more than `1e-10` from the others are located on the second edge. -/
example : ∃ t, EdgeCellTree.init Fl.env Ex.streetVerts Ex.streetEdges 4 2 = .ok t ∧
    (∀ j a b s, IsEdge Ex.streetVerts Ex.streetEdges j (fp a) (fp b) → 0 ≤ s → s ≤ 1 →
      ∃ v, t.locatePointsOnEdge Fl.env [fp (lineAt a b s)] none [0] = .ok [v] ∧ v ≠ -1) ∧
    (∀ y, Ex.rdY1 + 1 / 10 ^ 10 ≤ y → y ≤ Ex.rdY2 → t.locatePointsOnEdge Fl.env [fp ⟨Ex.rdX2, y⟩] none [0] = .ok [1]) := by
  obtain ⟨t, h1, _⟩ := Ex.street_run
  have hv := Ex.street_valid
  have hrep := Ex.street_rep
  have hm : (0 : Fl) ≤ Fl.env.minTol := by decide +kernel
  obtain ⟨tol, e1, e2, e3⟩ := C111_default_tolerance (M := 463011) (S := 11) hv hrep h1 (by norm_num) (by norm_num) Ex.street_bnd
    Ex.street_size
  have e4 : tol ≤ 1 / 2 ^ 34 := e3.trans (by norm_num)
  have l1 : 1 / 2 ^ 200 ≤ tol := le_trans (by norm_num) e2
  have l2 : tol ≤ 2 ^ 200 := e4.trans (by norm_num)
  refine ⟨t, h1, ?_, ?_⟩
  · intro j a b s hj s0 s1
    rcases Ex.street_edges j _ _ hj with h | ⟨c, d, h2, h3, hp⟩
    · exfalso
      rcases Ex.street_isEdge hj with ⟨_, g1, g2⟩ | ⟨_, g1, g2⟩ | ⟨_, g1, g2⟩ <;> rw [g1, g2] at h <;>
        exact absurd h (by decide +kernel)
    · obtain rfl := Ex.fp_inj h2
      obtain rfl := Ex.fp_inj h3
      obtain ⟨res, v, f1, f2, f3⟩ := C111_points_found (points := [fp (lineAt a b s)]) (i := 0) (sched := [0]) hv hrep Ex.street_max Ex.street_min hm h1
        (List.Perm.refl _) e1 l1 l2 hj hp s0 s1 rfl
      obtain ⟨_, g1, g2, _⟩ := C72_never_raises (points := [fp (lineAt a b s)]) (sched := [0]) hv hrep Ex.street_max Ex.street_min hm h1
        (List.Perm.refl _) none
      rw [f1] at g1
      obtain rfl := Except.ok.inj g1
      obtain ⟨w, rfl⟩ := List.length_eq_one_iff.1 g2
      exact ⟨w, f1, by rwa [Option.some.inj f2]⟩
  · intro y y1 y2
    have hj : IsEdge Ex.streetVerts Ex.streetEdges 1 (fp ⟨Ex.rdX2, Ex.rdY2⟩) (fp ⟨Ex.rdX2, Ex.rdY1⟩) := ⟨2, 1, rfl, rfl, rfl⟩
    have hlt : Ex.rdY1 < Ex.rdY2 := by decide +kernel
    obtain ⟨s, s0, s1, hs⟩ := divides (x := Ex.rdY2) (y := Ex.rdY1) hlt.ne' (p := y) (by
      rw [min_eq_right hlt.le, max_eq_left hlt.le]
      exact ⟨le_trans (by norm_num) y1, y2⟩)
    have hpt : (⟨Ex.rdX2, y⟩ : Pt ℚ) = lineAt ⟨Ex.rdX2, Ex.rdY2⟩ ⟨Ex.rdX2, Ex.rdY1⟩ s := Pt.ext' (by simp [lineAt]) hs
    obtain ⟨res, f1, f2⟩ := C111_located_on (points := [fp (lineAt ⟨Ex.rdX2, Ex.rdY2⟩ ⟨Ex.rdX2, Ex.rdY1⟩ s)]) (i := 0) (sched := [0])
      hv hrep Ex.street_max Ex.street_min hm h1 (List.Perm.refl _) e1 l1 l2 Ex.street_edges hj Ex.street_plain.2.1 s0 s1 rfl (by
        intro k c d hk hkd
        rw [← hpt]
        have ht4 : (1 + 1 / 2 ^ 47) * tol < 1 / 10 ^ 10 := by
          have : (1 + 1 / 2 ^ 47) * tol ≤ (1 + 1 / 2 ^ 47) * (1 / 2 ^ 34) := mul_le_mul_of_nonneg_left e4 (by norm_num)
          exact lt_of_le_of_lt this (by norm_num)
        rintro ⟨w, w0, w1, h⟩
        have flat : ∀ x1 x2 : ℚ, c = ⟨x1, Ex.rdY1⟩ → d = ⟨x2, Ex.rdY1⟩ → False := by
          rintro x1 x2 rfl rfl
          simp only [lineAt, sub_self, mul_zero, add_zero] at h
          rcases h with ⟨_, h⟩ | ⟨h, _⟩
          · have := (le_abs_self _).trans h
            linarith
          · rw [h] at y1
            have : (0 : ℚ) < 1 / 10 ^ 10 := by norm_num
            linarith
        rcases Ex.street_isEdge hkd with ⟨_, h1, h2⟩ | ⟨h1, _⟩ | ⟨_, h1, h2⟩
        · exact flat _ _ (Ex.fp_inj h1) (Ex.fp_inj h2)
        · exact hk h1
        · exact flat _ _ (Ex.fp_inj h1) (Ex.fp_inj h2))
    rw [← hpt] at f1
    obtain ⟨_, g1, g2, _⟩ := C72_never_raises (points := [fp (⟨Ex.rdX2, y⟩ : Pt ℚ)]) (sched := [0]) hv hrep Ex.street_max Ex.street_min hm h1
      (List.Perm.refl _) none
    rw [f1] at g1
    obtain rfl := Except.ok.inj g1
    obtain ⟨w, rfl⟩ := List.length_eq_one_iff.1 g2
    rw [f1, Option.some.inj f2]
    rfl

end Celltree.Fl
