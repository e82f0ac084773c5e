import Verif.Props.EdgeTree

/-!
# Edges that touch: C85

Exact arithmetic: `K` is any ordered field.
-/

set_option linter.unusedSectionVars false

namespace Celltree

variable {K : Type} [Field K] [LinearOrder K] [IsStrictOrderedRing K]
variable {env : Env K} {vertices : List (Pt K)} {edges : IntArr} {nBuckets cellsPerLeaf : Int} {t : CellTree K}

theorem orient_flip (a b p : Pt K) : orient b a p = -orient a b p := by unfold orient; ring

theorem ShareAt.guard {a b p q c : Pt K} (h : ShareAt a b p q c) (hab : a ≠ b) (hpq : p ≠ q) {tol : K} (htol : 0 < tol) :
    LineGuard tol a b p q := by
  refine ⟨hab, hpq, ?_, ?_, h.overlap htol⟩
  · intro e1 e2
    obtain ⟨u, v, _, _, _, _, h1, h2⟩ := h
    have := congrArg Pt.x (h1.symm.trans h2)
    simp only [lineAt, ← e1, ← e2, sub_self, mul_zero, add_zero] at this
    exact this
  · intro e1 e2
    obtain ⟨u, v, _, _, _, _, h1, h2⟩ := h
    have := congrArg Pt.y (h1.symm.trans h2)
    simp only [lineAt, ← e1, ← e2, sub_self, mul_zero, add_zero] at this
    exact this

/-- Segments with a point in common: when the test is positive. -/
theorem share_reported_iff (hmin : 0 < env.minTol) {a b p q c : Pt K} (h : ShareAt a b p q c) (hab : a ≠ b) (hpq : p ≠ q) :
    (∃ x, linesIntersect env a b p q = .ok (true, x)) ↔
      Straddles a b p q ∨ (NearLine (edgeTol env p q) a b p ∧ NearLine (edgeTol env p q) a b q) := by
  have htol : 0 < lineTol env p q := lt_max_of_lt_left hmin
  rw [linesIntersect_eq hmin, if_pos (h.guard hab hpq htol)]
  by_cases h1 : Straddles a b p q
  · rw [if_pos h1]; exact ⟨fun _ => Or.inl h1, fun _ => ⟨_, rfl⟩⟩
  · rw [if_neg h1]
    by_cases h2 : NearLine (lineTol env p q) a b p ∧ NearLine (lineTol env p q) a b q
    · rw [if_pos h2]; exact ⟨fun _ => Or.inr h2, fun _ => ⟨_, rfl⟩⟩
    · rw [if_neg h2]
      refine ⟨fun ⟨x, hx⟩ => ?_, fun h => ?_⟩
      · simp at hx
      · rcases h with h | h
        · exact (h1 h).elim
        · exact (h2 h).elim

theorem orient_lineAt_first (a b o : Pt K) (u : K) : orient o (lineAt a b u) a = -(u * orient a b o) := by
  unfold orient lineAt; ring

theorem orient_lineAt_second (a b o : Pt K) (u : K) : orient o (lineAt a b u) b = (1 - u) * orient a b o := by
  unfold orient lineAt; ring

theorem orient_lineAt_on (a b : Pt K) (u : K) : orient a b (lineAt a b u) = 0 := by
  unfold orient lineAt; ring

theorem ne_of_orient {a b o : Pt K} (h : orient a b o ≠ 0) : a ≠ b := by
  rintro rfl; apply h; unfold orient; ring

theorem ne_lineAt {a b o : Pt K} {u : K} (h : orient a b o ≠ 0) : o ≠ lineAt a b u := by
  rintro rfl; exact h (orient_lineAt_on a b u)

/-- The signs of two numbers of which one is a negative multiple of the other. -/
theorem signs_differ {u d : K} (h0 : 0 < u) (h1 : u < 1) (hd : d ≠ 0) : ¬ (0 < -(u * d) ↔ 0 < (1 - u) * d) := by
  have h2 : 0 < 1 - u := by linarith
  rcases lt_or_gt_of_ne hd with h | h
  · intro e
    have := e.1 (by nlinarith)
    nlinarith
  · intro e
    have := e.2 (by nlinarith)
    nlinarith

/-- An end `e` of the tree edge is on the query, between its ends; the other end `o` is not on the line of the query. -/
theorem end_on_query (hmin : 0 < env.minTol) {a b p q e o : Pt K} {u : K} (hpq : (p = e ∧ q = o) ∨ (p = o ∧ q = e))
    (he : e = lineAt a b u) (h0 : 0 < u) (h1 : u < 1) (hd : orient a b o ≠ 0) :
    (∃ x, linesIntersect env a b p q = .ok (true, x)) ↔
      0 < orient a b o ∨ orient a b o ^ 2 < edgeTol env p q ^ 2 * dist2 a b := by
  have hab := ne_of_orient hd
  have htol : 0 < edgeTol env p q := lt_max_of_lt_left hmin
  have hpos : 0 < edgeTol env p q ^ 2 * dist2 a b := by have := dist2_pos hab; positivity
  have hon : orient a b e = 0 := by rw [he]; exact orient_lineAt_on a b u
  have hoe : o ≠ e := by rw [he]; exact ne_lineAt hd
  have hdiff : ¬ (0 < orient o e a ↔ 0 < orient o e b) := by
    rw [he, orient_lineAt_first, orient_lineAt_second]; exact signs_differ h0 h1 hd
  have hdiff' : ¬ (0 < orient e o a ↔ 0 < orient e o b) := by
    rw [orient_flip o e a, orient_flip o e b, he, orient_lineAt_first, orient_lineAt_second, neg_neg]
    have := signs_differ h0 h1 (neg_ne_zero.2 hd)
    rwa [mul_neg, mul_neg, neg_neg] at this
  rcases hpq with ⟨rfl, rfl⟩ | ⟨rfl, rfl⟩
  · rw [share_reported_iff hmin (c := p) ⟨u, 0, h0.le, h1.le, le_refl _, zero_le_one, he, by simp [lineAt]⟩ hab hoe.symm]
    unfold Straddles NearLine
    rw [hon]
    simp only [hdiff', not_false_eq_true, true_and, lt_irrefl, false_iff, not_not, zero_pow two_ne_zero, hpos]
  · rw [share_reported_iff hmin (c := q) ⟨u, 1, h0.le, h1.le, zero_le_one, le_refl _, he, by simp [lineAt]⟩ hab hoe]
    unfold Straddles NearLine
    rw [hon]
    simp only [hdiff, not_false_eq_true, true_and, lt_irrefl, iff_false, not_not, zero_pow two_ne_zero, hpos, and_true]

/-- An end `e` of the query is on the tree edge, between its ends; the other end `o` is not on the line of the tree edge. -/
theorem end_on_edge (hmin : 0 < env.minTol) {a b p q e o : Pt K} {u : K} (hab : (a = e ∧ b = o) ∨ (a = o ∧ b = e))
    (he : e = lineAt p q u) (h0 : 0 < u) (h1 : u < 1) (hd : orient p q o ≠ 0) :
    (∃ x, linesIntersect env a b p q = .ok (true, x)) ↔
      0 < orient p q o ∨ ((u * orient p q o) ^ 2 < edgeTol env p q ^ 2 * dist2 a b ∧
        ((1 - u) * orient p q o) ^ 2 < edgeTol env p q ^ 2 * dist2 a b) := by
  have hpq := ne_of_orient hd
  have hon : orient p q e = 0 := by rw [he]; exact orient_lineAt_on p q u
  have hoe : o ≠ e := by rw [he]; exact ne_lineAt hd
  have e1 : orient o e p = -(u * orient p q o) := by rw [he, orient_lineAt_first]
  have e2 : orient o e q = (1 - u) * orient p q o := by rw [he, orient_lineAt_second]
  have hdiff : ¬ (0 < orient o e p ↔ 0 < orient o e q) := by rw [e1, e2]; exact signs_differ h0 h1 hd
  have hdiff' : ¬ (0 < orient e o p ↔ 0 < orient e o q) := by
    rw [orient_flip o e p, orient_flip o e q, e1, e2, neg_neg]
    have := signs_differ h0 h1 (neg_ne_zero.2 hd)
    rwa [mul_neg, mul_neg, neg_neg] at this
  rcases hab with ⟨rfl, rfl⟩ | ⟨rfl, rfl⟩
  · rw [share_reported_iff hmin (c := a) ⟨0, u, le_refl _, zero_le_one, h0.le, h1.le, by simp [lineAt], he⟩ hoe.symm hpq]
    unfold Straddles NearLine
    rw [hon]
    rw [orient_flip b a p, orient_flip b a q, e1, e2, neg_neg] at *
    simp only [hdiff', not_false_eq_true, and_true, lt_irrefl, false_iff, not_not, neg_sq]
  · rw [share_reported_iff hmin (c := b) ⟨1, u, zero_le_one, le_refl _, h0.le, h1.le, by simp [lineAt], he⟩ hoe hpq]
    unfold Straddles NearLine
    rw [hon, e1, e2] at *
    simp only [hdiff, not_false_eq_true, and_true, lt_irrefl, iff_false, not_not, neg_sq]

/-- Query and tree edge begin in the same point, or end in the same point. -/
theorem common_end (hmin : 0 < env.minTol) {a b p q o : Pt K} (h : (a = p ∧ o = q) ∨ (b = q ∧ o = p)) (hd : orient a b o ≠ 0) :
    (∃ x, linesIntersect env a b p q = .ok (true, x)) ↔ orient a b o ^ 2 < edgeTol env p q ^ 2 * dist2 a b := by
  have hab := ne_of_orient hd
  have htol : 0 < edgeTol env p q := lt_max_of_lt_left hmin
  have hpos : 0 < edgeTol env p q ^ 2 * dist2 a b := by have := dist2_pos hab; positivity
  rcases h with ⟨rfl, rfl⟩ | ⟨rfl, rfl⟩
  · have hne : a ≠ o := by rintro rfl; apply hd; unfold orient; ring
    rw [share_reported_iff hmin (c := a) ⟨0, 0, le_refl _, zero_le_one, le_refl _, zero_le_one, by simp [lineAt], by simp [lineAt]⟩
      hab hne]
    unfold Straddles NearLine
    rw [show orient a o a = 0 by unfold orient; ring, show orient a o b = -orient a b o by unfold orient; ring,
      show orient a b a = 0 by unfold orient; ring, zero_pow two_ne_zero]
    simp only [hpos, true_and, lt_irrefl, false_iff, not_not]
    constructor
    · rintro (⟨h1, h2⟩ | h)
      · linarith
      · exact h
    · exact Or.inr
  · have hne : o ≠ b := by rintro rfl; apply hd; unfold orient; ring
    rw [share_reported_iff hmin (c := b) ⟨1, 1, zero_le_one, le_refl _, zero_le_one, le_refl _, by simp [lineAt], by simp [lineAt]⟩
      hab hne]
    unfold Straddles NearLine
    rw [show orient o b b = 0 by unfold orient; ring, show orient o b a = -orient a b o by unfold orient; ring,
      show orient a b b = 0 by unfold orient; ring, zero_pow two_ne_zero]
    simp only [hpos, and_true, lt_irrefl, iff_false, not_not]
    constructor
    · rintro (⟨h1, h2⟩ | h)
      · linarith
      · exact h
    · exact Or.inr

/-- The query begins where the tree edge ends, or ends where it begins. -/
theorem head_to_tail (hmin : 0 < env.minTol) {a b p q o : Pt K} (h : (a = q ∧ o = p) ∨ (b = p ∧ o = q)) (hd : orient a b o ≠ 0) :
    (∃ x, linesIntersect env a b p q = .ok (true, x)) ↔
      0 < orient a b o ∨ orient a b o ^ 2 < edgeTol env p q ^ 2 * dist2 a b := by
  have hab := ne_of_orient hd
  have htol : 0 < edgeTol env p q := lt_max_of_lt_left hmin
  have hpos : 0 < edgeTol env p q ^ 2 * dist2 a b := by have := dist2_pos hab; positivity
  rcases h with ⟨rfl, rfl⟩ | ⟨rfl, rfl⟩
  · have hne : o ≠ a := by rintro rfl; apply hd; unfold orient; ring
    rw [share_reported_iff hmin (c := a) ⟨0, 1, le_refl _, zero_le_one, zero_le_one, le_refl _, by simp [lineAt], by simp [lineAt]⟩
      hab hne]
    unfold Straddles NearLine
    rw [show orient o a a = 0 by unfold orient; ring, show orient o a b = orient a b o by unfold orient; ring,
      show orient a b a = 0 by unfold orient; ring, zero_pow two_ne_zero]
    simp only [hpos, and_true, lt_irrefl, false_iff, iff_false, not_not, and_self]
  · have hne : b ≠ o := by rintro rfl; apply hd; unfold orient; ring
    rw [share_reported_iff hmin (c := b) ⟨1, 0, zero_le_one, le_refl _, le_refl _, zero_le_one, by simp [lineAt], by simp [lineAt]⟩
      hab hne]
    unfold Straddles NearLine
    rw [show orient b o b = 0 by unfold orient; ring, show orient b o a = orient a b o by unfold orient; ring,
      show orient a b b = 0 by unfold orient; ring, zero_pow two_ne_zero]
    simp only [hpos, true_and, lt_irrefl, false_iff, iff_false, not_not, and_self]

/-- **C85** (partial: the code violates the full statement, see `C85_touching_violated`). A tree edge with one end between
the ends of the query is reported if its other end `o` is on the left of the query, and otherwise only if `o` is within the
tolerance of its line. A tree edge with an end of the query between its ends is reported if the other end `o` of the query
is on the left of the tree edge, and otherwise only if the tree edge is within the tolerance of the line of the query. For
a common end, the directions of the two edges decide. -/
theorem C85_touching_partial (hv : ValidEdges vertices.length edges)
    (ht : EdgeCellTree.init env vertices edges nBuckets cellsPerLeaf = .ok t) (hmin : 0 < env.minTol)
    (hf : 0 ≤ env.tolFactor) (queries : List (Pt K × Pt K)) {nThreads : Nat} (hn : 0 < nThreads) {sched : List Nat}
    (hs : sched.Perm (List.range nThreads)) :
    ∃ ii jj xy, t.intersectEdgesOnEdge env queries nThreads sched = .ok (ii, jj, xy) ∧
      ∀ i j a b p q, queries[i]? = some (a, b) → IsEdge vertices edges j p q →
        (∀ e o u, (p = e ∧ q = o) ∨ (p = o ∧ q = e) → e = lineAt a b u → 0 < u → u < 1 → orient a b o ≠ 0 →
          ((∃ c, (i, j, c) ∈ ii.zip (jj.zip xy)) ↔
            0 < orient a b o ∨ orient a b o ^ 2 < edgeTol env p q ^ 2 * dist2 a b)) ∧
        (∀ e o u, (a = e ∧ b = o) ∨ (a = o ∧ b = e) → e = lineAt p q u → 0 < u → u < 1 → orient p q o ≠ 0 →
          ((∃ c, (i, j, c) ∈ ii.zip (jj.zip xy)) ↔
            0 < orient p q o ∨ ((u * orient p q o) ^ 2 < edgeTol env p q ^ 2 * dist2 a b ∧
              ((1 - u) * orient p q o) ^ 2 < edgeTol env p q ^ 2 * dist2 a b))) ∧
        (∀ o, (a = q ∧ o = p) ∨ (b = p ∧ o = q) → orient a b o ≠ 0 →
          ((∃ c, (i, j, c) ∈ ii.zip (jj.zip xy)) ↔
            0 < orient a b o ∨ orient a b o ^ 2 < edgeTol env p q ^ 2 * dist2 a b)) ∧
        (∀ o, (a = p ∧ o = q) ∨ (b = q ∧ o = p) → orient a b o ≠ 0 →
          ((∃ c, (i, j, c) ∈ ii.zip (jj.zip xy)) ↔ orient a b o ^ 2 < edgeTol env p q ^ 2 * dist2 a b)) := by
  obtain ⟨ii, jj, xy, h1, h2, h3, h4, h5, h6⟩ := C41_intersect_edges_brute_force hv ht hmin hf queries hn hs
  refine ⟨ii, jj, xy, h1, ?_⟩
  intro i j a b p q hq hj
  have key : (∃ c, (i, j, c) ∈ ii.zip (jj.zip xy)) ↔ ∃ c, linesIntersect env a b p q = .ok (true, c) := by
    refine exists_congr fun c => ?_
    rw [h6]
    constructor
    · rintro ⟨a', b', p', q', g1, g2, g3⟩
      rw [hq] at g1
      cases g1
      obtain ⟨v, w, k1, k2, k3⟩ := hj
      obtain ⟨v', w', k1', k2', k3'⟩ := g2
      rw [k1] at k1'
      cases k1'
      rw [k2] at k2'; cases k2'
      rw [k3] at k3'; cases k3'
      exact g3
    · exact fun h => ⟨a, b, p, q, hq, hj, h⟩
  refine ⟨?_, ?_, ?_, ?_⟩
  · intro e o u g1 g2 g3 g4 g5
    rw [key]; exact end_on_query hmin g1 g2 g3 g4 g5
  · intro e o u g1 g2 g3 g4 g5
    rw [key]; exact end_on_edge hmin g1 g2 g3 g4 g5
  · intro o g1 g2
    rw [key]; exact head_to_tail hmin g1 g2
  · intro o g1 g2
    rw [key]; exact common_end hmin g1 g2

/-- **C85** (partial): a query that passes through a vertex of the network, from one side of it to the other, is reported: if
two edges have an end in the same point between the ends of the query, and their other ends are on different sides of the
query, then one of them is reported. -/
theorem C85_crossing_at_vertex_partial (hv : ValidEdges vertices.length edges)
    (ht : EdgeCellTree.init env vertices edges nBuckets cellsPerLeaf = .ok t) (hmin : 0 < env.minTol)
    (hf : 0 ≤ env.tolFactor) (queries : List (Pt K × Pt K)) {nThreads : Nat} (hn : 0 < nThreads) {sched : List Nat}
    (hs : sched.Perm (List.range nThreads)) :
    ∃ ii jj xy, t.intersectEdgesOnEdge env queries nThreads sched = .ok (ii, jj, xy) ∧
      ∀ i j k a b p q p' q' e o o' u, queries[i]? = some (a, b) → IsEdge vertices edges j p q → IsEdge vertices edges k p' q' →
        (p = e ∧ q = o) ∨ (p = o ∧ q = e) → (p' = e ∧ q' = o') ∨ (p' = o' ∧ q' = e) → e = lineAt a b u → 0 < u → u < 1 →
        orient a b o * orient a b o' < 0 →
        (∃ c, (i, j, c) ∈ ii.zip (jj.zip xy)) ∨ ∃ c, (i, k, c) ∈ ii.zip (jj.zip xy) := by
  obtain ⟨ii, jj, xy, h1, h2⟩ := C85_touching_partial hv ht hmin hf queries hn hs
  refine ⟨ii, jj, xy, h1, ?_⟩
  intro i j k a b p q p' q' e o o' u hq hj hk g1 g2 g3 g4 g5 hneg
  rcases mul_neg_iff.1 hneg with ⟨h, _⟩ | ⟨_, h⟩
  · exact Or.inl (((h2 i j a b p q hq hj).1 e o u g1 g3 g4 g5 h.ne').2 (Or.inl h))
  · exact Or.inr (((h2 i k a b p' q' hq hk).1 e o' u g2 g3 g4 g5 h.ne').2 (Or.inl h))

/-- A network of two edges that meet in (2, 2). -/
def Ex.vVerts : List (Pt ℚ) := [⟨0, 0⟩, ⟨2, 2⟩, ⟨4, 0⟩]
def Ex.vEdges : IntArr := ⟨2, [[0, 1], [1, 2]]⟩

/-- **C85** is violated: horizontal queries through the vertex (2, 2), in both directions, and queries from both sides that end
on the first edge. For each of the two pairs only one is reported, although all of them have a point in common with the edges. -/
theorem C85_touching_violated : ∃ t, EdgeCellTree.init Ex.qEnv Ex.vVerts Ex.vEdges 4 2 = .ok t ∧
    t.intersectEdgesOnEdge Ex.qEnv [(⟨0, 2⟩, ⟨4, 2⟩), (⟨4, 2⟩, ⟨0, 2⟩), (⟨0, 1⟩, ⟨1, 1⟩), (⟨2, 1⟩, ⟨1, 1⟩)] 1 [0] =
      .ok ([1, 1, 2], [0, 1, 0], [some ⟨2, 2⟩, some ⟨2, 2⟩, some ⟨1, 1⟩]) := by
  obtain ⟨t, h1, h2⟩ := bind_eq_ok.1 (show (EdgeCellTree.init Ex.qEnv Ex.vVerts Ex.vEdges 4 2 >>= fun t =>
    t.intersectEdgesOnEdge Ex.qEnv [(⟨0, 2⟩, ⟨4, 2⟩), (⟨4, 2⟩, ⟨0, 2⟩), (⟨0, 1⟩, ⟨1, 1⟩), (⟨2, 1⟩, ⟨1, 1⟩)] 1 [0]) =
      .ok ([1, 1, 2], [0, 1, 0], [some ⟨2, 2⟩, some ⟨2, 2⟩, some ⟨1, 1⟩]) by decide +kernel)
  exact ⟨t, h1, h2⟩

/-- A vertical query through the vertex passes from the first edge to the second one. -/
example : Ex.vVerts[1]? = some (lineAt ⟨2, 0⟩ ⟨2, 4⟩ (1 / 2)) ∧ orient (⟨2, 0⟩ : Pt ℚ) ⟨2, 4⟩ ⟨0, 0⟩ * orient ⟨2, 0⟩ ⟨2, 4⟩ ⟨4, 0⟩ < 0 ∧
    ∃ t, EdgeCellTree.init Ex.qEnv Ex.vVerts Ex.vEdges 4 2 = .ok t ∧
      t.intersectEdgesOnEdge Ex.qEnv [(⟨2, 0⟩, ⟨2, 4⟩)] 1 [0] = .ok ([0], [0], [some ⟨2, 2⟩]) := by
  refine ⟨by decide +kernel, by decide +kernel, ?_⟩
  obtain ⟨t, h1, h2⟩ := bind_eq_ok.1 (show (EdgeCellTree.init Ex.qEnv Ex.vVerts Ex.vEdges 4 2 >>= fun t =>
    t.intersectEdgesOnEdge Ex.qEnv [(⟨2, 0⟩, ⟨2, 4⟩)] 1 [0]) = .ok ([0], [0], [some ⟨2, 2⟩]) by decide +kernel)
  exact ⟨t, h1, h2⟩

end Celltree
