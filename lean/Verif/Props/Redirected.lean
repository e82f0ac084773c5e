import Verif.Proofs.Reordered
import Verif.Props.EdgeTree
import Verif.Props.Touch
import Verif.Props.Exchange

/-!
# C107, C108: the order and the directions of the edges of a network

Exact arithmetic: `K` is any ordered field.
-/

set_option linter.unusedSectionVars false

namespace Celltree

variable {K : Type} [Field K] [LinearOrder K] [IsStrictOrderedRing K]

/-! ## One pair of edges -/

theorem orderEnds_comm (a b : Pt K) : orderEnds a b = orderEnds b a := by
  unfold orderEnds
  simp only [gt_iff_lt, Bool.or_eq_true, decide_eq_true_eq, Bool.and_eq_true, beq_iff_eq]
  rcases lt_trichotomy a.x b.x with h | h | h
  · rw [if_neg (by rintro (g | g); exact absurd g (not_lt.2 h.le); exact absurd g.1 h.ne), if_pos (Or.inl h)]
  · rcases lt_trichotomy a.y b.y with g | g | g
    · rw [if_neg (by rintro (e | e); exact absurd e (not_lt.2 h.le); exact absurd e.2 (not_lt.2 g.le)), if_pos (Or.inr ⟨h.symm, g⟩)]
    · rw [show a = b from Pt.ext' h g]
    · rw [if_pos (Or.inr ⟨h, g⟩), if_neg (by rintro (e | e); exact absurd e (not_lt.2 h.ge); exact absurd e.2 (not_lt.2 g.le))]
  · rw [if_pos (Or.inl h), if_neg (by rintro (g | g); exact absurd g (not_lt.2 h.le); exact absurd g.1 h.ne)]

theorem sign_neg_iff {x y : K} (h : x = 0 ↔ y = 0) : ¬ (0 < -x ↔ 0 < -y) ↔ ¬ (0 < x ↔ 0 < y) := by
  apply not_congr
  rcases lt_trichotomy x 0 with hx | hx | hx <;> rcases lt_trichotomy y 0 with hy | hy | hy <;>
    simp_all [not_lt.2, le_of_lt, ne_of_lt, ne_of_gt]

theorem overlap_comm₂ (tol a b p q : K) : Overlap tol a b q p ↔ Overlap tol a b p q := by
  unfold Overlap; rw [max_comm q p, min_comm q p]

theorem overlap_comm₁ (tol a b p q : K) : Overlap tol b a p q ↔ Overlap tol a b p q := by
  unfold Overlap; rw [max_comm b a, min_comm b a]

theorem lineTol_comm (env : Env K) (p q : Pt K) : lineTol env q p = lineTol env p q := by
  unfold lineTol; rw [abs_sub_comm p.x q.x, abs_sub_comm p.y q.y]

/-- The direction of the edge of the network has no influence, unless exactly one end of the query is on its line. -/
theorem linesIntersect_flip_edge {env : Env K} (hmin : 0 < env.minTol) {a b p q : Pt K}
    (h : orient p q a = 0 ↔ orient p q b = 0) : linesIntersect env a b q p = linesIntersect env a b p q := by
  have h1 : LineGuard (lineTol env q p) a b q p ↔ LineGuard (lineTol env p q) a b p q := by
    unfold LineGuard
    rw [lineTol_comm, overlap_comm₂ _ a.x, overlap_comm₂ _ a.y, ne_comm (a := q)]
    constructor
    · rintro ⟨g1, g2, g3, g4, g5⟩
      exact ⟨g1, g2, fun e1 e2 => (g3 e1.symm e2).trans e1.symm, fun e1 e2 => (g4 e1.symm e2).trans e1.symm, g5⟩
    · rintro ⟨g1, g2, g3, g4, g5⟩
      exact ⟨g1, g2, fun e1 e2 => (g3 e1.symm e2).trans e1.symm, fun e1 e2 => (g4 e1.symm e2).trans e1.symm, g5⟩
  have h2 : Straddles a b q p ↔ Straddles a b p q := by
    unfold Straddles
    rw [orient_flip p q a, orient_flip p q b, sign_neg_iff h, iff_comm (a := 0 < orient a b q)]
  have h3 : (orient q p a - orient q p b) ^ 2 = (orient p q a - orient p q b) ^ 2 := by
    rw [orient_flip p q a, orient_flip p q b]; ring
  have h4 : crossAt a b q p = crossAt a b p q := by
    unfold crossAt
    rw [orient_flip p q a, orient_flip p q b, neg_sub_neg, ← neg_sub (orient p q a), neg_div_neg_eq]
  have h5 : midpointCollinearLines a b q p = midpointCollinearLines a b p q := by
    unfold midpointCollinearLines; rw [orderEnds_comm q p]
  rw [lineTol_comm] at h1
  rw [linesIntersect_eq hmin, linesIntersect_eq hmin]
  simp only [h1, h2, h3, h4, h5, lineTol_comm env p q, and_comm (a := NearLine (lineTol env p q) a b q)]

/-- The direction of the query has no influence, unless exactly one end of the edge of the network is on its line. -/
theorem linesIntersect_flip_query {env : Env K} (hmin : 0 < env.minTol) {a b p q : Pt K}
    (h : orient a b p = 0 ↔ orient a b q = 0) : linesIntersect env b a p q = linesIntersect env a b p q := by
  have h1 : LineGuard (lineTol env p q) b a p q ↔ LineGuard (lineTol env p q) a b p q := by
    unfold LineGuard
    rw [overlap_comm₁ _ a.x, overlap_comm₁ _ a.y, ne_comm (a := b)]
    constructor
    · rintro ⟨g1, g2, g3, g4, g5⟩
      exact ⟨g1, g2, fun e1 e2 => e2.trans (g3 e1 e2.symm), fun e1 e2 => e2.trans (g4 e1 e2.symm), g5⟩
    · rintro ⟨g1, g2, g3, g4, g5⟩
      exact ⟨g1, g2, fun e1 e2 => e2.trans (g3 e1 e2.symm), fun e1 e2 => e2.trans (g4 e1 e2.symm), g5⟩
  have h2 : Straddles b a p q ↔ Straddles a b p q := by
    unfold Straddles
    rw [orient_flip a b p, orient_flip a b q, sign_neg_iff h, iff_comm (a := 0 < orient p q b)]
  have h3 : (orient p q b - orient p q a) ^ 2 = (orient p q a - orient p q b) ^ 2 := by ring
  have h4 : Straddles a b p q → lineAt b a (crossAt b a p q) = lineAt a b (crossAt a b p q) := by
    intro hs
    have hne : orient p q a - orient p q b ≠ 0 := by
      intro e
      exact hs.1 (by rw [sub_eq_zero.1 e])
    have hne' : orient p q b - orient p q a ≠ 0 := by rw [← neg_sub]; exact neg_ne_zero.2 hne
    have e : crossAt b a p q = 1 - crossAt a b p q := by
      unfold crossAt
      rw [← neg_sub (orient p q a) (orient p q b), div_neg]
      field_simp
      ring
    rw [e]
    unfold lineAt
    exact Pt.ext' (by simp only; ring) (by simp only; ring)
  have h5 : midpointCollinearLines b a p q = midpointCollinearLines a b p q := by
    unfold midpointCollinearLines; rw [orderEnds_comm b a]
  have h6 : ∀ r, NearLine (lineTol env p q) b a r ↔ NearLine (lineTol env p q) a b r := by
    intro r
    unfold NearLine; rw [orient_flip a b r, neg_sq, dist2_comm]
  rw [linesIntersect_eq hmin, linesIntersect_eq hmin]
  simp only [h1, h2, h3, h5, h6, dist2_comm]
  by_cases hg : LineGuard (lineTol env p q) a b p q
  · by_cases hs : Straddles a b p q
    · simp only [if_pos hg, if_pos hs, h4 hs]
    · simp only [if_pos hg, if_neg hs]
  · simp only [if_neg hg]

/-! ## The whole network -/

variable {env : Env K} {vertices : List (Pt K)} {edges edges' : IntArr} {nBuckets cellsPerLeaf nBuckets' cellsPerLeaf' : Int}
  {t t' : CellTree K} {σ : List Nat}

theorem ReorderedEdges.redirected (h : ReorderedEdges σ edges edges') : Redirected σ edges edges' :=
  ⟨h.perm, h.length, fun k j r' r h1 h2 h3 => Or.inl (h.same k j r' r h1 h2 h3)⟩

theorem Redirected.row (h : Redirected σ edges edges') {k : Nat} {r' : List Int} (hk : edges'.rows[k]? = some r') :
    ∃ r, σ[k]? = some (origin σ k) ∧ edges.rows[origin σ k]? = some r ∧ (r' = r ∨ r' = r.reverse) := by
  have h1 : k < σ.length := h.length ▸ (List.getElem?_eq_some_iff.1 hk).1
  have e : σ[k]? = some (origin σ k) := by
    unfold origin
    rw [List.getD_eq_getElem?_getD, List.getElem?_eq_getElem h1]; rfl
  have h2 : origin σ k < edges.rows.length := List.mem_range.1 (h.perm.mem_iff.1 (List.mem_of_getElem? e))
  exact ⟨_, e, List.getElem?_eq_getElem h2, h.ends k _ r' _ e hk (List.getElem?_eq_getElem h2)⟩

theorem Redirected.row' (h : Redirected σ edges edges') {j : Nat} {r : List Int} (hj : edges.rows[j]? = some r) :
    ∃ (k : Nat) (r' : List Int), origin σ k = j ∧ σ[k]? = some j ∧ edges'.rows[k]? = some r' ∧ (r' = r ∨ r' = r.reverse) := by
  have h1 : j ∈ σ := h.perm.mem_iff.2 (List.mem_range.2 (List.getElem?_eq_some_iff.1 hj).1)
  obtain ⟨k, hk, e⟩ := List.mem_iff_getElem.1 h1
  have e' : σ[k]? = some j := by rw [List.getElem?_eq_getElem hk, e]
  have h2 : k < edges'.rows.length := h.length ▸ hk
  exact ⟨k, _, by unfold origin; rw [List.getD_eq_getElem?_getD, e']; rfl, e', List.getElem?_eq_getElem h2,
    h.ends k j _ r e' (List.getElem?_eq_getElem h2) hj⟩

theorem Redirected.inj (h : Redirected σ edges edges') {k m : Nat} (hk : k < edges'.rows.length) (hm : m < edges'.rows.length)
    (e : origin σ k = origin σ m) : k = m := by
  have nd : σ.Nodup := h.perm.nodup_iff.2 List.nodup_range
  rw [h.length] at hk hm
  unfold origin at e
  rw [List.getD_eq_getElem?_getD, List.getD_eq_getElem?_getD, List.getElem?_eq_getElem hk, List.getElem?_eq_getElem hm] at e
  exact (List.Nodup.getElem_inj_iff nd).1 e

theorem Redirected.isEdge {F : Type} {vertices : List (Pt F)} (h : Redirected σ edges edges') {k : Nat} {p q : Pt F} (hk : IsEdge vertices edges' k p q) :
    IsEdge vertices edges (origin σ k) p q ∨ IsEdge vertices edges (origin σ k) q p := by
  obtain ⟨v, w, h1, h2, h3⟩ := hk
  obtain ⟨r, _, e, rfl | e'⟩ := h.row h1
  · exact Or.inl ⟨v, w, e, h2, h3⟩
  · have : r = [w, v] := by rw [← List.reverse_reverse r, ← e']; rfl
    exact Or.inr ⟨w, v, by rw [e, this], h3, h2⟩

theorem Redirected.isEdge' {F : Type} {vertices : List (Pt F)} (h : Redirected σ edges edges') {j : Nat} {p q : Pt F} (hj : IsEdge vertices edges j p q) :
    ∃ k, origin σ k = j ∧ (IsEdge vertices edges' k p q ∨ IsEdge vertices edges' k q p) := by
  obtain ⟨v, w, h1, h2, h3⟩ := hj
  obtain ⟨k, r', e, _, e1, rfl | rfl⟩ := h.row' h1
  · exact ⟨k, e, Or.inl ⟨v, w, e1, h2, h3⟩⟩
  · exact ⟨k, e, Or.inr ⟨w, v, e1, h3, h2⟩⟩

theorem ReorderedEdges.isEdge {F : Type} {vertices : List (Pt F)} (h : ReorderedEdges σ edges edges') {k : Nat} {p q : Pt F} (hk : IsEdge vertices edges' k p q) :
    IsEdge vertices edges (origin σ k) p q := by
  obtain ⟨v, w, h1, h2, h3⟩ := hk
  obtain ⟨r, e0, e, _⟩ := h.redirected.row h1
  rw [← h.same k _ _ r e0 h1 e] at e
  exact ⟨v, w, e, h2, h3⟩

theorem ReorderedEdges.isEdge' {F : Type} {vertices : List (Pt F)} (h : ReorderedEdges σ edges edges') {j : Nat} {p q : Pt F} (hj : IsEdge vertices edges j p q) :
    ∃ k, origin σ k = j ∧ IsEdge vertices edges' k p q := by
  obtain ⟨v, w, h1, h2, h3⟩ := hj
  obtain ⟨k, r', e, e0, e1, _⟩ := h.redirected.row' h1
  rw [h.same k j r' _ e0 e1 h1] at e1
  exact ⟨k, e, v, w, e1, h2, h3⟩

theorem IsEdge.lt {F : Type} {vertices : List (Pt F)} {k : Nat} {p q : Pt F} (h : IsEdge vertices edges k p q) : k < edges.rows.length := by
  obtain ⟨v, w, h1, _⟩ := h
  exact (List.getElem?_eq_some_iff.1 h1).1

/-- **C107** (exact arithmetic): `EdgeCellTree2d.intersect_edges` gives the same table, with the same locations, if the edges of
the network are in another order. -/
theorem C107_order (hσ : ReorderedEdges σ edges edges') (hmin : 0 < env.minTol) (hf : 0 ≤ env.tolFactor)
    (hv : ValidEdges vertices.length edges) (hv' : ValidEdges vertices.length edges')
    (ht : EdgeCellTree.init env vertices edges nBuckets cellsPerLeaf = .ok t)
    (ht' : EdgeCellTree.init env vertices edges' nBuckets' cellsPerLeaf' = .ok t') (queries : List (Pt K × Pt K))
    {nThreads nThreads' : Nat} (hn : 0 < nThreads) (hn' : 0 < nThreads') {sched sched' : List Nat}
    (hs : sched.Perm (List.range nThreads)) (hs' : sched'.Perm (List.range nThreads')) :
    ∃ ii jj xy ii' jj' xy', t.intersectEdgesOnEdge env queries nThreads sched = .ok (ii, jj, xy) ∧
      t'.intersectEdgesOnEdge env queries nThreads' sched' = .ok (ii', jj', xy') ∧
      ((ii'.zip (jj'.zip xy')).map fun x => (x.1, origin σ x.2.1, x.2.2)).Perm (ii.zip (jj.zip xy)) := by
  obtain ⟨ii, jj, xy, h1, l1, l2, nd, _, h2⟩ := C41_intersect_edges_brute_force hv ht hmin hf queries hn hs
  obtain ⟨ii', jj', xy', h1', l1', l2', nd', _, h2'⟩ := C41_intersect_edges_brute_force hv' ht' hmin hf queries hn' hs'
  refine ⟨ii, jj, xy, ii', jj', xy', h1, h1',
    table_perm (f := id) (g := origin σ) h2 h2' (zip3_nodup l1 l2 nd) (zip3_nodup l1' l2' nd') ?_ ?_ ?_⟩
  · rintro i k c ⟨a, b, p, q, g1, g2, g3⟩
    exact ⟨a, b, p, q, g1, hσ.isEdge g2, g3⟩
  · rintro i j c ⟨a, b, p, q, g1, g2, g3⟩
    obtain ⟨k, e, g4⟩ := hσ.isEdge' g2
    exact ⟨i, k, rfl, e, a, b, p, q, g1, g4, g3⟩
  · rintro i k c i' k' ⟨_, _, _, _, _, g2, _⟩ ⟨_, _, _, _, _, g2', _⟩ e e'
    exact ⟨e, hσ.redirected.inj g2.lt g2'.lt e'⟩

theorem Near.swap {tol : K} {x : Pt K} {p q : Pt K} (h : Near tol x (p, q)) : Near tol x (q, p) := by
  obtain ⟨h1, h2, h3, h4⟩ := h
  refine ⟨h1.symm, ?_, ?_, ?_⟩
  · simp only at h2 ⊢
    rw [orient_flip p q x, neg_sq, dist2_comm]; exact h2
  · simp only at h3 ⊢
    rw [abs_sub_comm p.y, abs_sub_comm p.x, min_comm, max_comm]; exact h3
  · simp only at h4 ⊢
    rw [abs_sub_comm p.y, abs_sub_comm p.x, min_comm, max_comm]; exact h4

/-- **C107** (exact arithmetic): with a tolerance that is small compared to the size of the network,
`EdgeCellTree2d.locate_points` finds the same points, if the edges of the network are in another order and in other directions. -/
theorem C107_locate_points (hσ : Redirected σ edges edges') (hmin : 0 ≤ env.minTol) (hf : 0 ≤ env.tolFactor)
    (hv : ValidEdges vertices.length edges) (hv' : ValidEdges vertices.length edges')
    (ht : EdgeCellTree.init env vertices edges nBuckets cellsPerLeaf = .ok t)
    (ht' : EdgeCellTree.init env vertices edges' nBuckets' cellsPerLeaf' = .ok t') {points : List (Pt K)} {tol : K} (h0 : 0 ≤ tol)
    (hsmall : ∃ p ∈ vertices, ∃ q ∈ vertices, 2 * tol ^ 2 ≤ edgeTol env p q ^ 2) {sched sched' : List Nat}
    (hs : sched.Perm (List.range points.length)) (hs' : sched'.Perm (List.range points.length)) :
    ∃ res res', t.locatePointsOnEdge env points (some tol) sched = .ok res ∧
      t'.locatePointsOnEdge env points (some tol) sched' = .ok res' ∧ res.length = points.length ∧ res'.length = points.length ∧
      ∀ (i : Nat) v v', res[i]? = some v → res'[i]? = some v' → (v = -1 ↔ v' = -1) := by
  obtain ⟨res, h1, l1, h2⟩ := C29_locate_points hv ht hmin hf (points := points) (tol := tol) hs
  obtain ⟨res', h1', l1', h2'⟩ := C29_locate_points hv' ht' hmin hf (points := points) (tol := tol) hs'
  refine ⟨res, res', h1, h1', l1, l1', fun i v v' e e' => ?_⟩
  have hi : i < points.length := l1 ▸ (List.getElem?_eq_some_iff.1 e).1
  rw [(h2 i _ v (List.getElem?_eq_getElem hi) e).2.2 h0 hsmall, (h2' i _ v' (List.getElem?_eq_getElem hi) e').2.2 h0 hsmall]
  constructor
  · intro h k p q hk hn
    rcases hσ.isEdge hk with g | g
    · exact h _ p q g hn
    · exact h _ q p g hn.swap
  · intro h j p q hj hn
    obtain ⟨k, _, g | g⟩ := hσ.isEdge' hj
    · exact h _ p q g hn
    · exact h _ q p g hn.swap

/-- What remains of **C108** (exact arithmetic): the directions of the edges of the network and of the queries have no influence,
if no query has exactly one end on the line of an edge, and no edge has exactly one end on the line of a query. Missing: edges
that touch (see below), or of which one points at an end of the other. -/
theorem C108_directions_partial (hσ : Redirected σ edges edges') (hmin : 0 < env.minTol) (hf : 0 ≤ env.tolFactor)
    (hv : ValidEdges vertices.length edges) (hv' : ValidEdges vertices.length edges')
    (ht : EdgeCellTree.init env vertices edges nBuckets cellsPerLeaf = .ok t)
    (ht' : EdgeCellTree.init env vertices edges' nBuckets' cellsPerLeaf' = .ok t') {queries queries' : List (Pt K × Pt K)}
    (hq : List.Forall₂ SameEnds queries' queries)
    (hgen : ∀ a b, (a, b) ∈ queries → ∀ j p q, IsEdge vertices edges j p q →
      (orient p q a = 0 ↔ orient p q b = 0) ∧ (orient a b p = 0 ↔ orient a b q = 0))
    {nThreads nThreads' : Nat} (hn : 0 < nThreads) (hn' : 0 < nThreads') {sched sched' : List Nat}
    (hs : sched.Perm (List.range nThreads)) (hs' : sched'.Perm (List.range nThreads')) :
    ∃ ii jj xy ii' jj' xy', t.intersectEdgesOnEdge env queries nThreads sched = .ok (ii, jj, xy) ∧
      t'.intersectEdgesOnEdge env queries' nThreads' sched' = .ok (ii', jj', xy') ∧
      ((ii'.zip (jj'.zip xy')).map fun x => (x.1, origin σ x.2.1, x.2.2)).Perm (ii.zip (jj.zip xy)) := by
  obtain ⟨ii, jj, xy, h1, l1, l2, nd, _, h2⟩ := C41_intersect_edges_brute_force hv ht hmin hf queries hn hs
  obtain ⟨ii', jj', xy', h1', l1', l2', nd', _, h2'⟩ := C41_intersect_edges_brute_force hv' ht' hmin hf queries' hn' hs'
  -- the four directions of one pair
  have key : ∀ a b j p q, (a, b) ∈ queries → IsEdge vertices edges j p q →
      linesIntersect env b a p q = linesIntersect env a b p q ∧ linesIntersect env a b q p = linesIntersect env a b p q ∧
      linesIntersect env b a q p = linesIntersect env a b p q := by
    intro a b j p q g1 g2
    obtain ⟨e1, e2⟩ := hgen a b g1 j p q g2
    refine ⟨linesIntersect_flip_query hmin e2, linesIntersect_flip_edge hmin e1, ?_⟩
    rw [linesIntersect_flip_edge hmin e1.symm, linesIntersect_flip_query hmin e2]
  have hlen := hq.length_eq
  have hget : ∀ (i : Nat) a b, queries[i]? = some (a, b) → queries'[i]? = some (a, b) ∨ queries'[i]? = some (b, a) := by
    intro i a b e
    obtain ⟨k, e'⟩ := List.getElem?_eq_some_iff.1 e
    have := (List.forall₂_iff_get.1 hq).2 i (hlen ▸ k) k
    simp only [List.get_eq_getElem, e'] at this
    rw [List.getElem?_eq_getElem (hlen ▸ k)]
    exact this.imp (congrArg some) (congrArg some)
  have hget' : ∀ (i : Nat) a b, queries'[i]? = some (a, b) → queries[i]? = some (a, b) ∨ queries[i]? = some (b, a) := by
    intro i a b e
    obtain ⟨k, e'⟩ := List.getElem?_eq_some_iff.1 e
    have k' : i < queries.length := hlen ▸ k
    rcases hget i queries[i].1 queries[i].2 (List.getElem?_eq_getElem k') with g | g
    · rw [e] at g
      rw [List.getElem?_eq_getElem k', Option.some.inj g]; exact Or.inl rfl
    · rw [e] at g
      obtain ⟨rfl, rfl⟩ := Prod.mk.inj (Option.some.inj g)
      exact Or.inr (List.getElem?_eq_getElem k')
  refine ⟨ii, jj, xy, ii', jj', xy', h1, h1',
    table_perm (f := id) (g := origin σ) h2 h2' (zip3_nodup l1 l2 nd) (zip3_nodup l1' l2' nd') ?_ ?_ ?_⟩
  · rintro i k c ⟨a, b, p, q, g1, g2, g3⟩
    rcases hget' i a b g1 with e1 | e1 <;> rcases hσ.isEdge g2 with e2 | e2
    · exact ⟨a, b, p, q, e1, e2, g3⟩
    · exact ⟨a, b, q, p, e1, e2, (key a b _ q p (List.mem_of_getElem? e1) e2).2.1.symm.trans g3⟩
    · exact ⟨b, a, p, q, e1, e2, (key b a _ p q (List.mem_of_getElem? e1) e2).1.symm.trans g3⟩
    · exact ⟨b, a, q, p, e1, e2, (key b a _ q p (List.mem_of_getElem? e1) e2).2.2.symm.trans g3⟩
  · rintro i j c ⟨a, b, p, q, g1, g2, g3⟩
    obtain ⟨k, e, e2 | e2⟩ := hσ.isEdge' g2 <;> rcases hget i a b g1 with e1 | e1
    · exact ⟨i, k, rfl, e, a, b, p, q, e1, e2, g3⟩
    · exact ⟨i, k, rfl, e, b, a, p, q, e1, e2, (key a b _ p q (List.mem_of_getElem? g1) g2).1.trans g3⟩
    · exact ⟨i, k, rfl, e, a, b, q, p, e1, e2, (key a b _ p q (List.mem_of_getElem? g1) g2).2.1.trans g3⟩
    · exact ⟨i, k, rfl, e, b, a, q, p, e1, e2, (key a b _ p q (List.mem_of_getElem? g1) g2).2.2.trans g3⟩
  · rintro i k c i' k' ⟨_, _, _, _, _, g2, _⟩ ⟨_, _, _, _, _, g2', _⟩ e e'
    exact ⟨e, hσ.inj g2.lt g2'.lt e'⟩

set_option synthInstance.maxSize 1000 in
/-- **C108** is violated: a query that ends on an edge is reported, or not, depending on the direction of the edge; a query through
a vertex is reported, or not, depending on its own direction. -/
theorem C108_directions_violated : ∃ t t', EdgeCellTree.init Ex.qEnv Ex.vVerts ⟨2, [[0, 1], [1, 2]]⟩ 4 2 = .ok t ∧
    EdgeCellTree.init Ex.qEnv Ex.vVerts ⟨2, [[1, 0], [1, 2]]⟩ 4 2 = .ok t' ∧
    t.intersectEdgesOnEdge Ex.qEnv [(⟨0, 1⟩, ⟨1, 1⟩)] 1 [0] = .ok ([0], [0], [some ⟨1, 1⟩]) ∧
    t'.intersectEdgesOnEdge Ex.qEnv [(⟨0, 1⟩, ⟨1, 1⟩)] 1 [0] = .ok ([], [], []) ∧
    t.intersectEdgesOnEdge Ex.qEnv [(⟨4, 2⟩, ⟨0, 2⟩)] 1 [0] = .ok ([0, 0], [0, 1], [some ⟨2, 2⟩, some ⟨2, 2⟩]) ∧
    t.intersectEdgesOnEdge Ex.qEnv [(⟨0, 2⟩, ⟨4, 2⟩)] 1 [0] = .ok ([], [], []) := by
  obtain ⟨t, h1, h2⟩ := bind_eq_ok.1 (show (EdgeCellTree.init Ex.qEnv Ex.vVerts ⟨2, [[0, 1], [1, 2]]⟩ 4 2 >>= fun t =>
    t.intersectEdgesOnEdge Ex.qEnv [(⟨0, 1⟩, ⟨1, 1⟩)] 1 [0] >>= fun r =>
    t.intersectEdgesOnEdge Ex.qEnv [(⟨4, 2⟩, ⟨0, 2⟩)] 1 [0] >>= fun r2 =>
    t.intersectEdgesOnEdge Ex.qEnv [(⟨0, 2⟩, ⟨4, 2⟩)] 1 [0] >>= fun r3 => .ok (r, r2, r3)) =
      .ok (([0], [0], [some ⟨1, 1⟩]), ([0, 0], [0, 1], [some ⟨2, 2⟩, some ⟨2, 2⟩]), ([], [], [])) by decide +kernel)
  obtain ⟨t', h1', h2'⟩ := bind_eq_ok.1 (show (EdgeCellTree.init Ex.qEnv Ex.vVerts ⟨2, [[1, 0], [1, 2]]⟩ 4 2 >>= fun t =>
    t.intersectEdgesOnEdge Ex.qEnv [(⟨0, 1⟩, ⟨1, 1⟩)] 1 [0]) = .ok ([], [], []) by decide +kernel)
  obtain ⟨r, a1, h2⟩ := bind_eq_ok.1 h2
  obtain ⟨r2, a2, h2⟩ := bind_eq_ok.1 h2
  obtain ⟨r3, a3, h2⟩ := bind_eq_ok.1 h2
  obtain ⟨e1, h2⟩ := Prod.mk.inj (Except.ok.inj h2)
  obtain ⟨e2, e3⟩ := Prod.mk.inj h2
  subst e1 e2 e3
  exact ⟨t, t', h1, h1', a1, h2', a2, a3⟩

/-! ## The hypotheses can be met -/

namespace Ex

/-- The first network of `lineEdges` in the other order, and with one edge turned around. -/
theorem line_reordered : ReorderedEdges [1, 0] lineEdges ⟨2, [[1, 2], [0, 1]]⟩ where
  perm := by decide
  length := rfl
  same := by
    intro k j r' r h1 h2 h3
    rcases k with _ | _ | k
    · simp at h1; subst h1; simp [lineEdges] at h2 h3; rw [← h2, ← h3]
    · simp at h1; subst h1; simp [lineEdges] at h2 h3; rw [← h2, ← h3]
    · simp at h1

theorem line_redirected : Redirected [1, 0] lineEdges ⟨2, [[2, 1], [0, 1]]⟩ where
  perm := by decide
  length := rfl
  ends := by
    intro k j r' r h1 h2 h3
    rcases k with _ | _ | k
    · simp at h1; subst h1; simp [lineEdges] at h2 h3; rw [← h2, ← h3]; exact Or.inr rfl
    · simp at h1; subst h1; simp [lineEdges] at h2 h3; rw [← h2, ← h3]; exact Or.inl rfl
    · simp at h1

theorem line_valid_of {r s : List Int} (hr : r ∈ [[0, 1], [1, 2], [2, 1]]) (hs : s ∈ [[0, 1], [1, 2], [2, 1]]) :
    ValidEdges lineVerts.length ⟨2, [r, s]⟩ := by
  intro x hx
  simp only [List.mem_cons, List.not_mem_nil, or_false] at hx hr hs
  rcases hx with rfl | rfl
  · rcases hr with rfl | rfl | rfl <;> exact ⟨_, _, rfl, by decide⟩
  · rcases hs with rfl | rfl | rfl <;> exact ⟨_, _, rfl, by decide⟩

end Ex

/-- Two queries through the network, one of them across an edge and the other past it. -/
example : ∃ t t' ii jj xy ii' jj' xy', EdgeCellTree.init Ex.qEnv Ex.lineVerts Ex.lineEdges 2 1 = .ok t ∧
    EdgeCellTree.init Ex.qEnv Ex.lineVerts ⟨2, [[1, 2], [0, 1]]⟩ 4 2 = .ok t' ∧
    t.intersectEdgesOnEdge Ex.qEnv [(⟨0, 0⟩, ⟨1, 3⟩), (⟨5, 2⟩, ⟨7, 2⟩)] 1 [0] = .ok (ii, jj, xy) ∧
    t'.intersectEdgesOnEdge Ex.qEnv [(⟨0, 0⟩, ⟨1, 3⟩), (⟨5, 2⟩, ⟨7, 2⟩)] 2 [1, 0] = .ok (ii', jj', xy') ∧
    ((ii'.zip (jj'.zip xy')).map fun x => (x.1, origin [1, 0] x.2.1, x.2.2)).Perm (ii.zip (jj.zip xy)) := by
  obtain ⟨t, h1, _⟩ := bind_eq_ok.1 (show (EdgeCellTree.init Ex.qEnv Ex.lineVerts Ex.lineEdges 2 1 >>= fun _ => .ok ()) = .ok () by
    decide +kernel)
  obtain ⟨t', h1', _⟩ := bind_eq_ok.1 (show (EdgeCellTree.init Ex.qEnv Ex.lineVerts ⟨2, [[1, 2], [0, 1]]⟩ 4 2 >>= fun _ => .ok ()) =
    .ok () by decide +kernel)
  obtain ⟨ii, jj, xy, ii', jj', xy', h⟩ := C107_order Ex.line_reordered (by decide +kernel) (by decide +kernel) Ex.line_valid
    (Ex.line_valid_of (by decide) (by decide)) h1 h1' [(⟨0, 0⟩, ⟨1, 3⟩), (⟨5, 2⟩, ⟨7, 2⟩)] (nThreads := 1) (nThreads' := 2) (by decide)
    (by decide) (sched := [0]) (sched' := [1, 0]) (by decide) (by decide)
  exact ⟨t, t', ii, jj, xy, ii', jj', xy', h1, h1', h⟩

example : ∃ t t' res res', EdgeCellTree.init Ex.qEnv Ex.lineVerts Ex.lineEdges 2 1 = .ok t ∧
    EdgeCellTree.init Ex.qEnv Ex.lineVerts ⟨2, [[2, 1], [0, 1]]⟩ 4 2 = .ok t' ∧
    t.locatePointsOnEdge Ex.qEnv [⟨0, 1⟩, ⟨6, 2⟩, ⟨0, 0⟩] (some (1 / 1000000000000)) [0, 1, 2] = .ok res ∧
    t'.locatePointsOnEdge Ex.qEnv [⟨0, 1⟩, ⟨6, 2⟩, ⟨0, 0⟩] (some (1 / 1000000000000)) [1, 0, 2] = .ok res' ∧
    ∀ (i : Nat) v v', res[i]? = some v → res'[i]? = some v' → (v = -1 ↔ v' = -1) := by
  obtain ⟨t, h1, _⟩ := bind_eq_ok.1 (show (EdgeCellTree.init Ex.qEnv Ex.lineVerts Ex.lineEdges 2 1 >>= fun _ => .ok ()) = .ok () by
    decide +kernel)
  obtain ⟨t', h1', _⟩ := bind_eq_ok.1 (show (EdgeCellTree.init Ex.qEnv Ex.lineVerts ⟨2, [[2, 1], [0, 1]]⟩ 4 2 >>= fun _ => .ok ()) =
    .ok () by decide +kernel)
  obtain ⟨res, res', e1, e2, _, _, e3⟩ := C107_locate_points Ex.line_redirected (by decide +kernel) (by decide +kernel) Ex.line_valid
    (Ex.line_valid_of (by decide) (by decide)) h1 h1' (points := [⟨0, 1⟩, ⟨6, 2⟩, ⟨0, 0⟩]) (tol := 1 / 1000000000000) (by decide +kernel)
    ⟨⟨-1, 1⟩, by decide +kernel, ⟨6, 1⟩, by decide +kernel, by decide +kernel⟩ (sched := [0, 1, 2]) (sched' := [1, 0, 2]) (by decide) (by decide)
  exact ⟨t, t', res, res', h1, h1', e1, e2, e3⟩

example : ∃ t t' ii jj xy ii' jj' xy', EdgeCellTree.init Ex.qEnv Ex.lineVerts Ex.lineEdges 2 1 = .ok t ∧
    EdgeCellTree.init Ex.qEnv Ex.lineVerts ⟨2, [[2, 1], [0, 1]]⟩ 4 2 = .ok t' ∧
    t.intersectEdgesOnEdge Ex.qEnv [(⟨0, 0⟩, ⟨1, 3⟩), (⟨5, 2⟩, ⟨7, 2⟩)] 1 [0] = .ok (ii, jj, xy) ∧
    t'.intersectEdgesOnEdge Ex.qEnv [(⟨1, 3⟩, ⟨0, 0⟩), (⟨5, 2⟩, ⟨7, 2⟩)] 2 [1, 0] = .ok (ii', jj', xy') ∧
    ((ii'.zip (jj'.zip xy')).map fun x => (x.1, origin [1, 0] x.2.1, x.2.2)).Perm (ii.zip (jj.zip xy)) := by
  obtain ⟨t, h1, _⟩ := bind_eq_ok.1 (show (EdgeCellTree.init Ex.qEnv Ex.lineVerts Ex.lineEdges 2 1 >>= fun _ => .ok ()) = .ok () by
    decide +kernel)
  obtain ⟨t', h1', _⟩ := bind_eq_ok.1 (show (EdgeCellTree.init Ex.qEnv Ex.lineVerts ⟨2, [[2, 1], [0, 1]]⟩ 4 2 >>= fun _ => .ok ()) =
    .ok () by decide +kernel)
  obtain ⟨ii, jj, xy, ii', jj', xy', h⟩ := C108_directions_partial Ex.line_redirected (by decide +kernel) (by decide +kernel) Ex.line_valid
    (Ex.line_valid_of (by decide) (by decide)) h1 h1' (queries := [(⟨0, 0⟩, ⟨1, 3⟩), (⟨5, 2⟩, ⟨7, 2⟩)])
    (queries' := [(⟨1, 3⟩, ⟨0, 0⟩), (⟨5, 2⟩, ⟨7, 2⟩)]) (.cons (Or.inr rfl) (.cons (Or.inl rfl) .nil))
    (by
      rintro a b hab j p q ⟨v, w, g1, g2, g3⟩
      simp only [List.mem_cons, Prod.mk.injEq, List.not_mem_nil, or_false] at hab
      rcases j with _ | _ | j
      · simp [Ex.lineEdges] at g1
        obtain ⟨rfl, rfl⟩ := g1
        simp [Ex.lineVerts] at g2 g3
        subst g2 g3
        rcases hab with ⟨rfl, rfl⟩ | ⟨rfl, rfl⟩ <;> decide +kernel
      · simp [Ex.lineEdges] at g1
        obtain ⟨rfl, rfl⟩ := g1
        simp [Ex.lineVerts] at g2 g3
        subst g2 g3
        rcases hab with ⟨rfl, rfl⟩ | ⟨rfl, rfl⟩ <;> decide +kernel
      · simp [Ex.lineEdges] at g1)
    (nThreads := 1) (nThreads' := 2) (by decide)
    (by decide) (sched := [0]) (sched' := [1, 0]) (by decide) (by decide)
  exact ⟨t, t', ii, jj, xy, ii', jj', xy', h1, h1', h⟩

end Celltree
