import Verif.Model.Demo
import Verif.Proofs.EdgeTree
import Verif.Proofs.Midpoint
import Verif.Props.Points
import Verif.Spec.Examples

/-!
# Trees of edges: C29, C41, C42, C43, C56, and the edges in C04, C05 and C27

Exact arithmetic.
-/

set_option linter.unusedSectionVars false

namespace Celltree

variable {K : Type} [Field K] [LinearOrder K] [IsStrictOrderedRing K]
variable {env : Env K} {vertices : List (Pt K)} {edges : IntArr} {nBuckets cellsPerLeaf : Int} {t : CellTree K}

/-! ## The test for two segments -/

/-- The tolerance for a tree edge from `p` to `q`. -/
def edgeTol (env : Env K) (p q : Pt K) : K := max env.minTol (env.tolFactor * max |q.x - p.x| |q.y - p.y|)

/-- **C42**: the test never fails, and segments that properly cross are always reported. The location is the crossing, or
missing if the segments are nearly parallel. -/
theorem C42_proper_crossing_reported (hmin : 0 < env.minTol) {a b p q : Pt K} (h : ProperCross a b p q) :
    ∃ c, linesIntersect env a b p q = .ok (true, c) ∧
      (edgeTol env p q ^ 2 * dist2 a b ≤ (orient p q a - orient p q b) ^ 2 → ∃ x, c = some x) ∧
      ∀ x, c = some x → ShareAt a b p q x := by
  have htol : 0 < lineTol env p q := lt_max_of_lt_left hmin
  rw [linesIntersect_eq hmin, if_pos (h.guard htol), if_pos h.straddles]
  refine ⟨_, rfl, ?_, ?_⟩
  · intro hp
    exact ⟨_, if_neg (not_lt.2 hp)⟩
  · intro x hx
    split at hx
    · cases hx
    · cases hx
      exact straddles_share h.straddles

/-- **C42**: a location is reported only if it is on both segments, or the segments are collinear up to the tolerance. -/
theorem C42_location_on_both (hmin : 0 < env.minTol) {a b p q x : Pt K}
    (h : linesIntersect env a b p q = .ok (true, some x)) :
    ShareAt a b p q x ∨
      (orient a b p ^ 2 < edgeTol env p q ^ 2 * dist2 a b ∧ orient a b q ^ 2 < edgeTol env p q ^ 2 * dist2 a b) := by
  rw [linesIntersect_eq hmin] at h
  have h := Except.ok.inj h
  split at h
  · split at h
    · rename_i hs
      left
      split at h
      · simp at h
      · simp only [Prod.mk.injEq, true_and, Option.some.injEq] at h
        rw [← h]
        exact straddles_share hs
    · split at h
      · rename_i hn
        exact Or.inr hn
      · simp at h
  · simp at h

theorem reported_cases (hmin : 0 < env.minTol) {a b p q : Pt K} {c : Option (Pt K)}
    (h : linesIntersect env a b p q = .ok (true, c)) :
    LineGuard (lineTol env p q) a b p q ∧
      (Straddles a b p q ∨ (NearLine (lineTol env p q) a b p ∧ NearLine (lineTol env p q) a b q)) := by
  rw [linesIntersect_eq hmin] at h
  have h := Except.ok.inj h
  split at h
  · rename_i hg
    refine ⟨hg, ?_⟩
    split at h
    · exact Or.inl ‹_›
    · split at h
      · exact Or.inr ‹_›
      · simp at h
  · simp at h

/-- **C42**: segments that are reported come close to each other: there are points of both whose coordinates differ less
than three times the tolerance. Segments of length zero are never reported. -/
theorem C42_reported_close (hmin : 0 < env.minTol) {a b p q : Pt K} {c : Option (Pt K)}
    (h : linesIntersect env a b p q = .ok (true, c)) :
    a ≠ b ∧ p ≠ q ∧ ∃ u w, 0 ≤ u ∧ u ≤ 1 ∧ 0 ≤ w ∧ w ≤ 1 ∧
      |(lineAt a b u).x - (lineAt p q w).x| < 3 * edgeTol env p q ∧
      |(lineAt a b u).y - (lineAt p q w).y| < 3 * edgeTol env p q := by
  obtain ⟨hg, hs⟩ := reported_cases hmin h
  exact ⟨hg.1, hg.2.1, near_close (lt_max_of_lt_left hmin) hg hs⟩

/-- Segments that are exactly collinear and share a point pass all tests and get the midpoint. -/
theorem collinear_reported (hmin : 0 < env.minTol) {a b p q : Pt K} (hab : a ≠ b) (hpq : p ≠ q) (hp : orient a b p = 0)
    (hq : orient a b q = 0) {c : Pt K} (hc : ShareAt a b p q c) :
    linesIntersect env a b p q = .ok (true, midpointCollinearLines a b p q) := by
  have htol : 0 < lineTol env p q := lt_max_of_lt_left hmin
  have hns : ¬ Straddles a b p q := by
    intro h
    apply h.2
    rw [hp, hq]
  have hpos : 0 < lineTol env p q ^ 2 * dist2 a b := by have := dist2_pos hab; positivity
  have hn : NearLine (lineTol env p q) a b p ∧ NearLine (lineTol env p q) a b q := by
    unfold NearLine
    rw [hp, hq, zero_pow two_ne_zero]
    exact ⟨hpos, hpos⟩
  have hg : LineGuard (lineTol env p q) a b p q := by
    refine ⟨hab, hpq, ?_, ?_, hc.overlap htol⟩
    · intro _ h2
      unfold orient at hp
      rw [h2, sub_self, zero_mul, zero_sub, neg_eq_zero] at hp
      rcases mul_eq_zero.1 hp with h | h
      · exact (hab (Pt.ext' h2 (by linarith))).elim
      · linarith
    · intro _ h2
      unfold orient at hp
      rw [h2, sub_self, zero_mul, sub_zero] at hp
      rcases mul_eq_zero.1 hp with h | h
      · exact (hab (Pt.ext' (by linarith) h2)).elim
      · linarith
  rw [linesIntersect_eq hmin, if_pos hg, if_neg hns, if_pos hn]

/-- **C43** (partial: the code violates it for falling segments, see `C43_falling_violated`): collinear segments that share a
point and are horizontal, vertical or rising are reported with the midpoint of the shared piece. -/
theorem C43_midpoint_partial (hmin : 0 < env.minTol) {a b p q : Pt K} (hab : a ≠ b) (hpq : p ≠ q)
    (hrise : 0 ≤ (b.x - a.x) * (b.y - a.y)) (hp : orient a b p = 0) (hq : orient a b q = 0) {c : Pt K}
    (hc : ShareAt a b p q c) :
    ∃ e f, linesIntersect env a b p q = .ok (true, some (mid e f)) ∧ SharedPiece a b p q e f := by
  obtain ⟨e, f, h1, h2⟩ := midpoint_spec hrise hab hp hq hc
  exact ⟨e, f, by rw [collinear_reported hmin hab hpq hp hq hc, h1], h2⟩

/-- **C43** (violated): collinear segments of negative slope that share a point are always reported without a location,
however long the piece is that they share. -/
theorem C43_falling_violated (hmin : 0 < env.minTol) {a b p q : Pt K} (hfall : (b.x - a.x) * (b.y - a.y) < 0) (hpq : p ≠ q)
    (hp : orient a b p = 0) (hq : orient a b q = 0) {c : Pt K} (hc : ShareAt a b p q c) :
    linesIntersect env a b p q = .ok (true, none) := by
  have hab : a ≠ b := by rintro rfl; simp at hfall
  rw [collinear_reported hmin hab hpq hp hq hc]
  congr 2
  unfold midpointCollinearLines
  have key : ∀ a b : Pt K, (b.x - a.x) * (b.y - a.y) < 0 → (a.x < b.x ∨ (a.x = b.x ∧ a.y ≤ b.y)) → b.y < a.y := by
    intro a b h1 h2
    rcases h2 with h2 | ⟨h2, _⟩
    · have := neg_of_mul_neg_right h1 (by linarith)
      linarith
    · rw [h2] at h1; simp at h1
  have hlow : (orderEnds a b).2.y < (orderEnds a b).1.y := by
    rcases orderEnds_cases a b with ⟨e, d⟩ | ⟨e, d⟩
    · rw [e]; exact key a b hfall d
    · rw [e]; exact key b a (by nlinarith) d
  generalize orderEnds a b = ab at hlow ⊢
  generalize orderEnds p q = pq
  obtain ⟨a', b'⟩ := ab
  obtain ⟨p', q'⟩ := pq
  simp only at hlow ⊢
  rw [fmax_eq, fmin_eq, fmax_eq, fmin_eq, if_pos]
  simp only [gt_iff_lt, Bool.or_eq_true, decide_eq_true_eq]
  right
  exact min_lt_of_left_lt (lt_max_of_lt_left hlow)

/-! ## Edge queries on a tree of edges -/

/-- **C41**: the search never fails. It returns `(i, j, c)` exactly if the segment test holds for query `i` and edge `j`, with
location `c`. No pair occurs twice; the result is ordered by query. -/
theorem C41_intersect_edges_brute_force (hv : ValidEdges vertices.length edges)
    (ht : EdgeCellTree.init env vertices edges nBuckets cellsPerLeaf = .ok t) (hmin : 0 < env.minTol)
    (hf : 0 ≤ env.tolFactor) (queries : List (Pt K × Pt K)) {nThreads : Nat} (hn : 0 < nThreads) {sched : List Nat}
    (hs : sched.Perm (List.range nThreads)) :
    ∃ ii jj xy, t.intersectEdgesOnEdge env queries nThreads sched = .ok (ii, jj, xy) ∧ ii.length = jj.length ∧
      jj.length = xy.length ∧ (ii.zip jj).Nodup ∧ ii.Pairwise (· ≤ ·) ∧
      ∀ i j c, (i, j, c) ∈ ii.zip (jj.zip xy) ↔ ∃ a b p q, queries[i]? = some (a, b) ∧ IsEdge vertices edges j p q ∧
        linesIntersect env a b p q = .ok (true, c) := by
  obtain ⟨bt, τ, _, hc⟩ := EdgeCellTree.init_spec hv ht
  obtain ⟨hnd, hsorted⟩ := edgeAll_nodup (isect := edgeEdgeIntersect env t.data) hc.tree queries
  have hloc := locateEdges_spec hc.tree queries (fun q _ => (edgeEdgeTotal hc hv hmin q.1 q.2).runs hc.tree) hn hs
  refine ⟨_, _, _, by unfold CellTree.intersectEdgesOnEdge; rw [hloc]; rfl, by simp, by simp, ?_, hsorted, ?_⟩
  · rw [List.zip_map']
    exact hnd
  · intro i j c
    rw [List.map_map, List.zip_map', List.zip_map']
    constructor
    · intro h
      obtain ⟨⟨i', x⟩, hx, he⟩ := List.mem_map.1 h
      obtain ⟨⟨a, b⟩, hq, hmem⟩ := mem_edgeAll.1 hx
      obtain ⟨j', cd⟩ := x
      simp only [Function.comp, Prod.mk.injEq] at he
      obtain ⟨rfl, rfl, rfl⟩ := he
      obtain ⟨p, q, c', h1, rfl, h3⟩ := (mem_edgeEdgeHits hc hv hmin hf).1 hmem
      exact ⟨a, b, p, q, hq, h1, h3⟩
    · rintro ⟨a, b, p, q, hq, h1, h3⟩
      exact List.mem_map.2 ⟨(i, j, c, c), mem_edgeAll.2 ⟨(a, b), hq,
        (mem_edgeEdgeHits hc hv hmin hf).2 ⟨p, q, c, h1, rfl, h3⟩⟩, rfl⟩

/-- **C41** (geometry): every tree edge that a query properly crosses is reported; whatever is reported is closer than three
times the tolerance; and a location that is reported is on both segments unless these are collinear up to the tolerance. -/
theorem C41_intersect_edges_geometry (hv : ValidEdges vertices.length edges)
    (ht : EdgeCellTree.init env vertices edges nBuckets cellsPerLeaf = .ok t) (hmin : 0 < env.minTol)
    (hf : 0 ≤ env.tolFactor) (queries : List (Pt K × Pt K)) {nThreads : Nat} (hn : 0 < nThreads) {sched : List Nat}
    (hs : sched.Perm (List.range nThreads)) :
    ∃ ii jj xy, t.intersectEdgesOnEdge env queries nThreads sched = .ok (ii, jj, xy) ∧ ii.length = jj.length ∧
      jj.length = xy.length ∧ (ii.zip jj).Nodup ∧ ii.Pairwise (· ≤ ·) ∧
      (∀ i j a b p q, queries[i]? = some (a, b) → IsEdge vertices edges j p q → ProperCross a b p q →
        ∃ c, (i, j, c) ∈ ii.zip (jj.zip xy) ∧ ∀ x, c = some x → ShareAt a b p q x) ∧
      (∀ i j c, (i, j, c) ∈ ii.zip (jj.zip xy) → ∃ a b p q, queries[i]? = some (a, b) ∧ IsEdge vertices edges j p q ∧
        a ≠ b ∧ p ≠ q ∧
        (∃ u w, 0 ≤ u ∧ u ≤ 1 ∧ 0 ≤ w ∧ w ≤ 1 ∧ |(lineAt a b u).x - (lineAt p q w).x| < 3 * edgeTol env p q ∧
          |(lineAt a b u).y - (lineAt p q w).y| < 3 * edgeTol env p q) ∧
        ∀ x, c = some x → ShareAt a b p q x ∨ (orient a b p ^ 2 < edgeTol env p q ^ 2 * dist2 a b ∧
          orient a b q ^ 2 < edgeTol env p q ^ 2 * dist2 a b)) := by
  obtain ⟨ii, jj, xy, h1, h2, h3, h4, h5, h6⟩ := C41_intersect_edges_brute_force hv ht hmin hf queries hn hs
  refine ⟨ii, jj, xy, h1, h2, h3, h4, h5, ?_, ?_⟩
  · intro i j a b p q hq hj hcross
    obtain ⟨c, e1, _, e3⟩ := C42_proper_crossing_reported hmin hcross
    exact ⟨c, (h6 i j c).2 ⟨a, b, p, q, hq, hj, e1⟩, e3⟩
  · intro i j c hmem
    obtain ⟨a, b, p, q, hq, hj, hl⟩ := (h6 i j c).1 hmem
    obtain ⟨g1, g2, g3⟩ := C42_reported_close hmin hl
    exact ⟨a, b, p, q, hq, hj, g1, g2, g3, fun x hx => C42_location_on_both hmin (hx ▸ hl)⟩

/-- **C04** (tree of edges): threads and schedule have no influence. -/
theorem C04_edge_tree_thread_independent (hv : ValidEdges vertices.length edges)
    (ht : EdgeCellTree.init env vertices edges nBuckets cellsPerLeaf = .ok t) (hmin : 0 < env.minTol)
    (queries : List (Pt K × Pt K)) {n n' : Nat} (hn : 0 < n) (hn' : 0 < n') {sched sched' : List Nat}
    (hs : sched.Perm (List.range n)) (hs' : sched'.Perm (List.range n')) :
    t.intersectEdgesOnEdge env queries n sched = t.intersectEdgesOnEdge env queries n' sched' := by
  obtain ⟨bt, τ, _, hc⟩ := EdgeCellTree.init_spec hv ht
  unfold CellTree.intersectEdgesOnEdge
  rw [locateEdges_spec hc.tree queries (fun q _ => (edgeEdgeTotal hc hv hmin q.1 q.2).runs hc.tree) hn hs,
    locateEdges_spec hc.tree queries (fun q _ => (edgeEdgeTotal hc hv hmin q.1 q.2).runs hc.tree) hn' hs']

/-! ## Points on edges -/

/-- **C29**: `locate_points` never fails. It returns the number of an edge of positive length that the point is near to, or
`-1`. A point exactly on an edge of positive length is located. With a tolerance that is small compared to the size of the
mesh, `-1` is returned only if the point is not near any edge. -/
theorem C29_locate_points (hv : ValidEdges vertices.length edges)
    (ht : EdgeCellTree.init env vertices edges nBuckets cellsPerLeaf = .ok t) (hmin : 0 ≤ env.minTol)
    (hf : 0 ≤ env.tolFactor) {points : List (Pt K)} {tol : K} {sched : List Nat}
    (hs : sched.Perm (List.range points.length)) :
    ∃ res, t.locatePointsOnEdge env points (some tol) sched = .ok res ∧ res.length = points.length ∧
      ∀ (i : Nat) x v, points[i]? = some x → res[i]? = some v →
        (v = -1 ∨ ∃ (j : Nat) (p q : Pt K), v = j ∧ IsEdge vertices edges j p q ∧ p ≠ q ∧ Near tol x (p, q)) ∧
        (0 < tol → (∃ j p q, IsEdge vertices edges j p q ∧ p ≠ q ∧ onSegment p q x) → v ≠ -1) ∧
        (0 ≤ tol → (∃ p ∈ vertices, ∃ q ∈ vertices, 2 * tol ^ 2 ≤ edgeTol env p q ^ 2) →
          (v = -1 ↔ ∀ j p q, IsEdge vertices edges j p q → ¬ Near tol x (p, q))) := by
  obtain ⟨bt, τ, _, hc⟩ := EdgeCellTree.init_spec hv ht
  have hτ : 0 ≤ τ := hmin.trans hc.min
  have hex : ∀ x : Pt K, ∃ v, locatePointOnEdge x t.data tol = .ok v := by
    intro x
    rcases locatePointOnEdge_cases hc hv x tol with ⟨j, p, q, h, _⟩ | ⟨h, _⟩ <;> exact ⟨_, h⟩
  obtain ⟨f, hfx⟩ := Classical.axiomOfChoice hex
  refine ⟨points.map f, ?_, by simp, ?_⟩
  · rw [locatePointsOnEdge_ok_iff hs]
    refine ⟨by simp, ?_⟩
    intro i p v hp hv'
    rw [List.getElem?_map, hp] at hv'
    rw [hfx p]
    exact congrArg _ (Option.some.inj hv')
  · intro i x v hx hv'
    rw [List.getElem?_map, hx] at hv'
    have hfv : f x = v := Option.some.inj hv'
    have hloc := hfx x
    rw [hfv] at hloc
    rcases locatePointOnEdge_cases hc hv x tol with ⟨j, p, q, h1, h2, h3⟩ | ⟨h1, h2⟩
    · rw [hloc] at h1
      have hvj : v = j := Except.ok.inj h1
      refine ⟨Or.inr ⟨j, p, q, hvj, h2, h3.1, h3⟩, fun _ _ => by omega, fun _ _ => ?_⟩
      exact ⟨fun h => by omega, fun h => (h j p q h2 h3).elim⟩
    · rw [hloc] at h1
      have hv1 : v = -1 := Except.ok.inj h1
      refine ⟨Or.inl hv1, ?_, ?_⟩
      · rintro htol ⟨j, p, q, g1, g2, g3⟩
        have hon := onSegment.inBox g3 (pts := [p, q]) (by simp) (by simp)
        refine (h2 j p q g1 ?_ (onSegment.near g3 g2 htol)).elim
        obtain ⟨u, u0, u1, e1, e2⟩ := g3
        obtain ⟨k1, k2⟩ := between_min_max p.x q.x u u0 u1
        obtain ⟨k3, k4⟩ := between_min_max p.y q.y u u0 u1
        unfold InBox wideBox
        simp only
        rw [e1, e2]
        exact ⟨by linarith, by linarith, by linarith, by linarith⟩
      · rintro htol ⟨p0, hp0, q0, hq0, hsmall⟩
        refine ⟨fun _ => ?_, fun _ => hv1⟩
        intro j p q hj hn
        have hle := hc.lines hf p0 hp0 q0 hq0
        have h0 : 0 ≤ lineTol env p0 q0 := hmin.trans (le_max_left _ _)
        refine h2 j p q hj (hn.inWide htol hτ ?_) hn
        calc 2 * tol ^ 2 ≤ lineTol env p0 q0 ^ 2 := hsmall
          _ ≤ τ ^ 2 := by nlinarith

/-- **C27** (edges): a point that is located on an edge is also located with a larger tolerance. -/
theorem C27_edge_located_monotone (hv : ValidEdges vertices.length edges)
    (ht : EdgeCellTree.init env vertices edges nBuckets cellsPerLeaf = .ok t) {x : Pt K} {tol tol' : K} (h0 : 0 ≤ tol)
    (hle : tol ≤ tol') {v v' : Int} (h : t.locatePointsOnEdge env [x] (some tol) [0] = .ok [v]) (hne : v ≠ -1)
    (h' : t.locatePointsOnEdge env [x] (some tol') [0] = .ok [v']) : v' ≠ -1 := by
  replace h := ((locatePointsOnEdge_ok_iff (List.Perm.refl _)).1 h).2 0 x v rfl rfl
  replace h' := ((locatePointsOnEdge_ok_iff (List.Perm.refl _)).1 h').2 0 x v' rfl rfl
  obtain ⟨bt, τ, _, hc⟩ := EdgeCellTree.init_spec hv ht
  unfold locatePointOnEdge at h h'
  rw [locateWith_eq hc.tree] at h h'
  obtain ⟨o, g1, g2⟩ := bind_eq_ok.1 h
  obtain ⟨o', g1', g2'⟩ := bind_eq_ok.1 h'
  cases o with
  | none => exact (hne (Except.ok.inj g2).symm).elim
  | some j =>
    obtain ⟨hj, hj'⟩ := findCell_some g1
    cases o' with
    | some j' =>
      have hvj : v' = (j' : Int) := (Except.ok.inj g2').symm
      omega
    | none =>
      exfalso
      have h1 := findCell_none g1' j hj
      have hjl : j < edges.rows.length := by
        by_contra hcon
        unfold edgeTest at hj'
        rw [hc.elements_eq] at hj'
        unfold rd at hj'
        rw [List.getElem?_eq_none (by omega)] at hj'
        cases hj'
      obtain ⟨p, q, hedge⟩ := hv.isEdge hjl
      obtain ⟨r, e1, e2⟩ := edgeTest_spec hc hv hedge x tol
      obtain ⟨r', e1', e2'⟩ := edgeTest_spec hc hv hedge x tol'
      rw [hj'] at e1
      rw [h1] at e1'
      have hr : r = true := (Except.ok.inj e1).symm
      have hr' : r' = false := (Except.ok.inj e1').symm
      have := e2'.2 (near_mono h0 hle (e2.1 hr))
      rw [hr'] at this
      cases this

/-- **C56** (violated): whether a point within the given tolerance of an edge is located can depend on the leaf size of the
tree: the tree only looks at edges whose box, widened by a much smaller amount, contains the point. -/
theorem C56_edge_tolerance_depends_on_tree :
    ∃ (vertices : List (Pt ℚ)) (edges : IntArr) (x : Pt ℚ) (tol : ℚ) (t t' : CellTree ℚ),
      ValidEdges vertices.length edges ∧ EdgeCellTree.init Ex.qEnv vertices edges 4 3 = .ok t ∧
      EdgeCellTree.init Ex.qEnv vertices edges 4 1 = .ok t' ∧
      t.locatePointsOnEdge Ex.qEnv [x] (some tol) [0] = .ok [0] ∧
      t'.locatePointsOnEdge Ex.qEnv [x] (some tol) [0] = .ok [-1] := by
  let verts : List (Pt ℚ) := [⟨0, 0⟩, ⟨0, 1⟩, ⟨3, 0⟩, ⟨3, 1⟩, ⟨6, 0⟩, ⟨6, 1⟩]
  let edges : IntArr := ⟨2, [[0, 1], [2, 3], [4, 5]]⟩
  obtain ⟨t, h1, h2⟩ := bind_eq_ok.1 (show (EdgeCellTree.init Ex.qEnv verts edges 4 3 >>= fun t =>
    t.locatePointsOnEdge Ex.qEnv [⟨1 / 20, 1 / 2⟩] (some (1 / 10)) [0]) = .ok [0] by decide +kernel)
  obtain ⟨t', h1', h2'⟩ := bind_eq_ok.1 (show (EdgeCellTree.init Ex.qEnv verts edges 4 1 >>= fun t =>
    t.locatePointsOnEdge Ex.qEnv [⟨1 / 20, 1 / 2⟩] (some (1 / 10)) [0]) = .ok [-1] by decide +kernel)
  refine ⟨verts, edges, ⟨1 / 20, 1 / 2⟩, 1 / 10, t, t', ?_, h1, h1', h2, h2'⟩
  intro r hr
  simp only [edges, List.mem_cons, List.not_mem_nil, or_false] at hr
  rcases hr with rfl | rfl | rfl
  · exact ⟨0, 1, rfl, by decide, by decide, by decide, by decide⟩
  · exact ⟨2, 3, rfl, by decide, by decide, by decide, by decide⟩
  · exact ⟨4, 5, rfl, by decide, by decide, by decide, by decide⟩

/-- **C56** (partial: for tolerances that are small compared to the size of the mesh): whether a point is located does not
depend on the parameters of the tree. -/
theorem C56_small_tolerance_partial (hv : ValidEdges vertices.length edges) {nBuckets' cellsPerLeaf' : Int} {t' : CellTree K}
    (ht : EdgeCellTree.init env vertices edges nBuckets cellsPerLeaf = .ok t)
    (ht' : EdgeCellTree.init env vertices edges nBuckets' cellsPerLeaf' = .ok t') (hmin : 0 ≤ env.minTol)
    (hf : 0 ≤ env.tolFactor) {x : Pt K} {tol : K} (h0 : 0 ≤ tol)
    (hsmall : ∃ p ∈ vertices, ∃ q ∈ vertices, 2 * tol ^ 2 ≤ edgeTol env p q ^ 2) :
    ∃ v v', t.locatePointsOnEdge env [x] (some tol) [0] = .ok [v] ∧
      t'.locatePointsOnEdge env [x] (some tol) [0] = .ok [v'] ∧ (v = -1 ↔ v' = -1) := by
  obtain ⟨res, h1, h2, h3⟩ := C29_locate_points (points := [x]) (tol := tol) hv ht hmin hf (List.Perm.refl [0])
  obtain ⟨res', h1', h2', h3'⟩ := C29_locate_points (points := [x]) (tol := tol) hv ht' hmin hf (List.Perm.refl [0])
  match res, h2, res', h2' with
  | [v], _, [v'], _ =>
    exact ⟨v, v', h1, h1', ((h3 0 x v rfl rfl).2.2 h0 hsmall).trans ((h3' 0 x v' rfl rfl).2.2 h0 hsmall).symm⟩

/-! ## The hypotheses can be met -/

namespace Ex

/-- A small network: a square with a diagonal, an edge of length zero, and a vertical edge. -/
def netVerts : List (Pt ℚ) := [⟨0, 0⟩, ⟨2, 0⟩, ⟨2, 2⟩, ⟨0, 2⟩, ⟨5, 0⟩, ⟨5, 3⟩]

def netEdges : IntArr := ⟨2, [[0, 1], [1, 2], [2, 3], [3, 0], [0, 2], [4, 4], [4, 5]]⟩

theorem net_valid : ValidEdges netVerts.length netEdges := by
  intro r hr
  simp only [netEdges, List.mem_cons, List.not_mem_nil, or_false] at hr
  rcases hr with rfl | rfl | rfl | rfl | rfl | rfl | rfl
  all_goals exact ⟨_, _, rfl, by decide, by decide, by decide, by decide⟩

end Ex

set_option synthInstance.maxSize 1000 in
/-- A query across the network, one along an edge, and one that misses everything. -/
example : ∃ t, EdgeCellTree.init Ex.qEnv Ex.netVerts Ex.netEdges 4 2 = .ok t ∧
    t.intersectEdgesOnEdge Ex.qEnv [(⟨-1, 1⟩, ⟨6, 1⟩), (⟨1, 0⟩, ⟨4, 0⟩), (⟨3, 0⟩, ⟨3, 9⟩)] 2 [1, 0] =
      .ok ([0, 0, 0, 0, 1, 1], [6, 4, 1, 3, 1, 0],
        [some ⟨5, 1⟩, some ⟨1, 1⟩, some ⟨2, 1⟩, some ⟨0, 1⟩, some ⟨2, 0⟩, some ⟨3 / 2, 0⟩]) ∧
    t.locatePointsOnEdge Ex.qEnv [⟨1, 1⟩, ⟨5, 0⟩, ⟨1, 1 / 2⟩] (some (1 / 10 ^ 13)) [2, 0, 1] = .ok [4, 6, -1] := by
  obtain ⟨t, h1, h2⟩ := bind_eq_ok.1 (show (EdgeCellTree.init Ex.qEnv Ex.netVerts Ex.netEdges 4 2 >>= fun t => do
    let r ← t.intersectEdgesOnEdge Ex.qEnv [(⟨-1, 1⟩, ⟨6, 1⟩), (⟨1, 0⟩, ⟨4, 0⟩), (⟨3, 0⟩, ⟨3, 9⟩)] 2 [1, 0]
    let s ← t.locatePointsOnEdge Ex.qEnv [⟨1, 1⟩, ⟨5, 0⟩, ⟨1, 1 / 2⟩] (some (1 / 10 ^ 13)) [2, 0, 1]
    pure (r, s)) = .ok (([0, 0, 0, 0, 1, 1], [6, 4, 1, 3, 1, 0],
        [some ⟨5, 1⟩, some ⟨1, 1⟩, some ⟨2, 1⟩, some ⟨0, 1⟩, some ⟨2, 0⟩, some ⟨3 / 2, 0⟩]), [4, 6, -1]) by decide +kernel)
  obtain ⟨r, h3, h4⟩ := bind_eq_ok.1 h2
  obtain ⟨s, h5, h6⟩ := bind_eq_ok.1 h4
  have h6 := Except.ok.inj h6
  simp only [Prod.mk.injEq] at h6
  exact ⟨t, h1, by rw [h3, ← h6.1], by rw [h5, h6.2]⟩

example : ProperCross (⟨-1, 1⟩ : Pt ℚ) ⟨6, 1⟩ ⟨0, 0⟩ ⟨2, 2⟩ := by
  constructor <;> norm_num [orient]

/-- The tolerance of the example is small in the sense of the theorems. -/
example : ∃ p ∈ Ex.netVerts, ∃ q ∈ Ex.netVerts, 2 * (1 / 10 ^ 13 : ℚ) ^ 2 ≤ edgeTol Ex.qEnv p q ^ 2 :=
  ⟨⟨0, 0⟩, by decide +kernel, ⟨5, 3⟩, by decide +kernel, by decide +kernel⟩

/-- Rising collinear segments, and falling ones for which the location is missing although they share the piece from
`(1, 1)` to `(2, 0)`. -/
example : linesIntersect Ex.qEnv ⟨0, 0⟩ ⟨4, 2⟩ ⟨6, 3⟩ ⟨2, 1⟩ = .ok (true, some ⟨3, 3 / 2⟩) ∧
    linesIntersect Ex.qEnv ⟨0, 2⟩ ⟨2, 0⟩ ⟨1, 1⟩ ⟨3, -1⟩ = .ok (true, none) := by
  constructor <;> decide +kernel

example : orient (⟨0, 2⟩ : Pt ℚ) ⟨2, 0⟩ ⟨1, 1⟩ = 0 ∧ orient (⟨0, 2⟩ : Pt ℚ) ⟨2, 0⟩ ⟨3, -1⟩ = 0 ∧
    ShareAt (⟨0, 2⟩ : Pt ℚ) ⟨2, 0⟩ ⟨1, 1⟩ ⟨3, -1⟩ ⟨1, 1⟩ := by
  refine ⟨by norm_num [orient], by norm_num [orient], 1 / 2, 0, by norm_num, by norm_num, by norm_num, by norm_num, ?_, ?_⟩ <;>
    decide +kernel

/-- The vertices of `example_1d_network` in binary64. -/
def Ex.networkVerts : List (Pt Fl) := example1dVertices.map fun p => ⟨.fin (p.1 / 4), .fin (p.2 / 4)⟩

/-- The network of the documentation: every vertex is located on one of its edges, and two horizontal lines are intersected
with the network. The first line passes through vertex 1, at the end of edge 0 and at the beginning of edges 1 and 7. -/
example : ∃ t, EdgeCellTree.init Fl.env Ex.networkVerts ⟨2, example1dEdges⟩ 4 2 = .ok t ∧
    t.locatePointsOnEdge Fl.env Ex.networkVerts none (List.range 10) = .ok [0, 7, 1, 2, 3, 6, 5, 6, 7, 8] ∧
    (t.intersectEdgesOnEdge Fl.env [(⟨.fin 0, .fin 1⟩, ⟨.fin 3, .fin 1⟩), (⟨.fin 0, .fin 3⟩, ⟨.fin 3, .fin 3⟩)] 1 [0]).map
      (fun r => (r.1, r.2.1)) = .ok ([0, 0, 1], [1, 7, 3]) := by
  obtain ⟨t, h1, h2⟩ := bind_eq_ok.1 (show (EdgeCellTree.init Fl.env Ex.networkVerts ⟨2, example1dEdges⟩ 4 2 >>= fun t =>
    .ok (decide (t.locatePointsOnEdge Fl.env Ex.networkVerts none (List.range 10) = .ok [0, 7, 1, 2, 3, 6, 5, 6, 7, 8] ∧
    (t.intersectEdgesOnEdge Fl.env [(⟨.fin 0, .fin 1⟩, ⟨.fin 3, .fin 1⟩), (⟨.fin 0, .fin 3⟩, ⟨.fin 3, .fin 3⟩)] 1 [0]).map
      (fun r => (r.1, r.2.1)) = .ok ([0, 0, 1], [1, 7, 3])))) = .ok true by decide +kernel)
  exact ⟨t, h1, of_decide_eq_true (Except.ok.inj h2)⟩

end Celltree
