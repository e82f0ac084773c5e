import Verif.Props.AffineAreas
import Verif.Props.EdgeCover
import Verif.Props.EdgeTree

/-!
# Edges in other coordinates: C101
-/

set_option linter.unusedSectionVars false

namespace Celltree

variable {K : Type} [Field K] [LinearOrder K] [IsStrictOrderedRing K] {A : Affine K}

theorem Affine.lineAt (A : Affine K) (a b : Pt K) (u : K) : Celltree.lineAt (A.pt a) (A.pt b) u = A.pt (Celltree.lineAt a b u) := by
  unfold Celltree.lineAt Affine.pt
  apply Pt.ext' <;> (simp only; ring)

theorem Affine.injective (hA : A.det ≠ 0) : Function.Injective A.pt := by
  intro p q h
  have h1 := congrArg Pt.x h
  have h2 := congrArg Pt.y h
  simp only [Affine.pt] at h1 h2
  apply Pt.ext'
  · apply mul_left_cancel₀ hA
    unfold Affine.det
    linear_combination A.yy * h1 - A.xy * h2
  · apply mul_left_cancel₀ hA
    unfold Affine.det
    linear_combination A.xx * h2 - A.yx * h1

theorem Affine.clipSpec (hA : A.det ≠ 0) {a b c d : Pt K} {S S' : Pt K → Prop} (hS : ∀ p, S' (A.pt p) ↔ S p) :
    ClipSpec (A.pt a) (A.pt b) S' (some (A.pt c, A.pt d)) ↔ ClipSpec a b S (some (c, d)) := by
  unfold ClipSpec
  simp only [Affine.lineAt, hS, (Affine.injective hA).eq_iff]

theorem Affine.shareAt (hA : A.det ≠ 0) {a b p q c : Pt K} :
    ShareAt (A.pt a) (A.pt b) (A.pt p) (A.pt q) (A.pt c) ↔ ShareAt a b p q c := by
  unfold ShareAt
  simp only [Affine.lineAt, (Affine.injective hA).eq_iff]

theorem Affine.properCross (hA : A.det ≠ 0) {a b p q : Pt K} :
    ProperCross (A.pt a) (A.pt b) (A.pt p) (A.pt q) ↔ ProperCross a b p q := by
  unfold ProperCross
  simp only [Affine.orient]
  have h := mul_self_pos.2 hA
  have key : ∀ x y : K, A.det * x * (A.det * y) < 0 ↔ x * y < 0 := by
    intro x y
    rw [show A.det * x * (A.det * y) = A.det * A.det * (x * y) from by ring]
    constructor
    · intro g; exact neg_of_mul_neg_right g h.le
    · intro g; exact mul_neg_of_pos_of_neg h g
  rw [key, key]

theorem ProperCross.share_unique {a b p q c d : Pt K} (h : ProperCross a b p q) (hc : ShareAt a b p q c) (hd : ShareAt a b p q d) :
    c = d := by
  obtain ⟨u, v, _, _, _, _, rfl, e1⟩ := hc
  obtain ⟨u', v', _, _, _, _, rfl, e2⟩ := hd
  have hx1 := congrArg Pt.x e1
  have hy1 := congrArg Pt.y e1
  have hx2 := congrArg Pt.x e2
  have hy2 := congrArg Pt.y e2
  simp only [Celltree.lineAt] at hx1 hy1 hx2 hy2
  have hne : Celltree.orient p q a - Celltree.orient p q b ≠ 0 := by
    intro h0
    have := h.1
    rw [sub_eq_zero.1 h0] at this
    exact absurd this (not_lt.2 (mul_self_nonneg _))
  have : u = u' := by
    have e : (u - u') * (Celltree.orient p q a - Celltree.orient p q b) = 0 := by
      unfold Celltree.orient
      linear_combination (q.y - p.y) * (hx1 - hx2) - (q.x - p.x) * (hy1 - hy2)
    rcases mul_eq_zero.1 e with e | e
    · exact sub_eq_zero.1 e
    · exact (hne e).elim
  rw [this]

theorem CcwFace.inPoly {vertices : List (Pt K)} {fill : Int} {r : List Int} {poly : List (Pt K)} (h : CcwFace vertices fill r poly)
    (p : Pt K) : InPoly poly p ↔ InFace (facePts vertices fill r) p := by
  rw [← h.1.convex.inFace]
  rcases h.2 with rfl | rfl
  · rfl
  · exact inFace_reverse

section Faces
variable {env : Env K} {vertices : List (Pt K)} {faces : IntArr} {fill nBuckets cellsPerLeaf nBuckets' cellsPerLeaf' : Int}
  {t t' : CellTree K}

/-- **C101** (exact arithmetic, faces): the mesh and the edges are transformed by an invertible affine map. A strictly convex
face and an edge whose ends are not just outside the face, in both coordinates, have the same piece in both: the transformed
points are reported. -/
theorem C101_pieces_affine (hA : A.det ≠ 0) (hmin : 0 < env.minTol) (hm : GoodMesh env vertices faces fill)
    (ht : Makes env vertices faces fill nBuckets cellsPerLeaf t) (hm' : GoodMesh env (vertices.map A.pt) faces fill)
    (ht' : Makes env (vertices.map A.pt) faces fill nBuckets' cellsPerLeaf' t') (edges : List (Pt K × Pt K))
    {nThreads nThreads' : Nat} (hn : 0 < nThreads) {sched : List Nat} (hs : sched.Perm (List.range nThreads))
    (hn' : 0 < nThreads') {sched' : List Nat} (hs' : sched'.Perm (List.range nThreads')) :
    ∃ ii jj xy ii' jj' xy', t.intersectEdges env edges nThreads sched = .ok (ii, jj, xy) ∧
      t'.intersectEdges env (edges.map (Prod.map A.pt A.pt)) nThreads' sched' = .ok (ii', jj', xy') ∧
      ∀ i j a b r poly box poly' box', edges[i]? = some (a, b) → a ≠ b → faces.rows[j]? = some r →
        CcwFace vertices fill r poly → IsBBox poly box → ¬ InBand env poly box a → ¬ InBand env poly box b →
        CcwFace (vertices.map A.pt) fill r poly' → IsBBox poly' box' → ¬ InBand env poly' box' (A.pt a) →
        ¬ InBand env poly' box' (A.pt b) →
        (∀ c d, (i, j, some c, some d) ∈ ii.zip (jj.zip xy) ↔ (i, j, some (A.pt c), some (A.pt d)) ∈ ii'.zip (jj'.zip xy')) ∧
        ((∃ cd, (i, j, cd) ∈ ii.zip (jj.zip xy)) ↔ ∃ cd, (i, j, cd) ∈ ii'.zip (jj'.zip xy')) := by
  obtain ⟨ii, jj, xy, h1, _, _, _, _, h2⟩ := C40_intersect_edges_geometry hm hmin ht edges hn hs
  obtain ⟨ii', jj', xy', h1', _, _, _, _, h2'⟩ :=
    C40_intersect_edges_geometry hm' hmin ht' (edges.map (Prod.map A.pt A.pt)) hn' hs'
  refine ⟨ii, jj, xy, ii', jj', xy', h1, h1', ?_⟩
  intro i j a b r poly box poly' box' hi hab hj p1 p2 p3 p4 q1 q2 q3 q4
  have k := h2 i j a b r poly box hi hab hj p1 p2 p3 p4
  have k' := h2' i j (A.pt a) (A.pt b) r poly' box' (by rw [List.getElem?_map, hi]; rfl) (fun e => hab (Affine.injective hA e)) hj
    q1 q2 q3 q4
  have hS : ∀ p, InPoly poly' (A.pt p) ↔ InPoly poly p := by
    intro p
    rw [q1.inPoly, p1.inPoly, facePts_map, Affine.inFace hA]
  have main : ∀ c d, (i, j, some c, some d) ∈ ii.zip (jj.zip xy) ↔ (i, j, some (A.pt c), some (A.pt d)) ∈ ii'.zip (jj'.zip xy') := by
    intro c d
    rw [k, k']
    simp only [Prod.mk.injEq, Option.some.injEq]
    constructor
    · rintro ⟨_, _, ⟨rfl, rfl⟩, hc⟩
      exact ⟨_, _, ⟨rfl, rfl⟩, (Affine.clipSpec hA hS).2 hc⟩
    · rintro ⟨_, _, ⟨rfl, rfl⟩, hc⟩
      exact ⟨_, _, ⟨rfl, rfl⟩, (Affine.clipSpec hA hS).1 hc⟩
  refine ⟨main, ?_, ?_⟩
  · rintro ⟨cd, h⟩
    obtain ⟨c, d, rfl, _⟩ := (k cd).1 h
    exact ⟨_, (main c d).1 h⟩
  · rintro ⟨cd, h⟩
    obtain ⟨c, d, rfl, hc⟩ := (k' cd).1 h
    have hc' := hc
    obtain ⟨s, u, _, _, _, e1, e2, _⟩ := hc
    rw [Affine.lineAt] at e1 e2
    subst e1 e2
    exact ⟨_, (main _ _).2 h⟩

end Faces

section Network
variable {env : Env K} {vertices : List (Pt K)} {edges : IntArr} {nBuckets cellsPerLeaf nBuckets' cellsPerLeaf' : Int}
  {t t' : CellTree K}

theorem IsEdge.affine {j : Nat} {p q : Pt K} (h : IsEdge vertices edges j p q) :
    IsEdge (vertices.map A.pt) edges j (A.pt p) (A.pt q) := by
  obtain ⟨v, w, h1, h2, h3⟩ := h
  exact ⟨v, w, h1, by rw [List.getElem?_map, h2]; rfl, by rw [List.getElem?_map, h3]; rfl⟩

/-- **C101** (exact arithmetic, networks): the network and the queries are transformed by an invertible affine map. For a query
that crosses an edge, and is not nearly parallel to it in one of the coordinates, the transformed crossing is reported. -/
theorem C101_crossings_affine (hA : A.det ≠ 0) (hmin : 0 < env.minTol) (hf : 0 ≤ env.tolFactor)
    (hv : ValidEdges vertices.length edges)
    (ht : EdgeCellTree.init env vertices edges nBuckets cellsPerLeaf = .ok t)
    (ht' : EdgeCellTree.init env (vertices.map A.pt) edges nBuckets' cellsPerLeaf' = .ok t') (queries : List (Pt K × Pt K))
    {nThreads nThreads' : Nat} (hn : 0 < nThreads) {sched : List Nat} (hs : sched.Perm (List.range nThreads))
    (hn' : 0 < nThreads') {sched' : List Nat} (hs' : sched'.Perm (List.range nThreads')) :
    ∃ ii jj xy ii' jj' xy', t.intersectEdgesOnEdge env queries nThreads sched = .ok (ii, jj, xy) ∧
      t'.intersectEdgesOnEdge env (queries.map (Prod.map A.pt A.pt)) nThreads' sched' = .ok (ii', jj', xy') ∧
      ∀ i j a b p q, queries[i]? = some (a, b) → IsEdge vertices edges j p q → ProperCross a b p q →
        edgeTol env p q ^ 2 * dist2 a b ≤ (orient p q a - orient p q b) ^ 2 →
        edgeTol env (A.pt p) (A.pt q) ^ 2 * dist2 (A.pt a) (A.pt b) ≤ A.det ^ 2 * (orient p q a - orient p q b) ^ 2 →
        ∃ x, ShareAt a b p q x ∧ (∀ c, (i, j, c) ∈ ii.zip (jj.zip xy) ↔ c = some x) ∧
          ∀ c, (i, j, c) ∈ ii'.zip (jj'.zip xy') ↔ c = some (A.pt x) := by
  obtain ⟨ii, jj, xy, h1, _, _, _, _, h2⟩ := C41_intersect_edges_brute_force hv ht hmin hf queries hn hs
  obtain ⟨ii', jj', xy', h1', _, _, _, _, h2'⟩ := C41_intersect_edges_brute_force (by rw [List.length_map]; exact hv) ht' hmin hf
    (queries.map (Prod.map A.pt A.pt)) hn' hs'
  refine ⟨ii, jj, xy, ii', jj', xy', h1, h1', ?_⟩
  intro i j a b p q hi hj hx hp hp'
  obtain ⟨c, c1, c2, c3⟩ := C42_proper_crossing_reported (env := env) hmin hx
  have hx' := (Affine.properCross hA).2 hx
  obtain ⟨c', c1', c2', c3'⟩ := C42_proper_crossing_reported (env := env) hmin hx'
  obtain ⟨x, rfl⟩ := c2 hp
  obtain ⟨x', rfl⟩ := c2' (by
    rw [Affine.orient, Affine.orient]
    calc _ ≤ A.det ^ 2 * (orient p q a - orient p q b) ^ 2 := hp'
      _ = _ := by ring)
  have s1 := c3 x rfl
  have s2 := c3' x' rfl
  have e : x' = A.pt x := hx'.share_unique s2 ((Affine.shareAt hA).2 s1)
  subst e
  have uniq : ∀ {vertices : List (Pt K)} {j : Nat} {p q p' q' : Pt K}, IsEdge vertices edges j p q → IsEdge vertices edges j p' q' →
      p = p' ∧ q = q' := by
    rintro vertices j p q p' q' ⟨v, w, g1, g2, g3⟩ ⟨v', w', g1', g2', g3'⟩
    rw [g1] at g1'
    simp only [Option.some.injEq, List.cons.injEq, and_true] at g1'
    obtain ⟨rfl, rfl⟩ := g1'
    exact ⟨Option.some.inj (g2.symm.trans g2'), Option.some.inj (g3.symm.trans g3')⟩
  refine ⟨x, s1, fun c => ?_, fun c => ?_⟩
  · rw [h2]
    constructor
    · rintro ⟨a', b', p', q', g1, g2, g3⟩
      rw [hi] at g1; cases g1
      obtain ⟨rfl, rfl⟩ := uniq hj g2
      rw [c1] at g3
      exact (Prod.mk.inj (Except.ok.inj g3)).2.symm
    · rintro rfl
      exact ⟨a, b, p, q, hi, hj, c1⟩
  · rw [h2']
    constructor
    · rintro ⟨a', b', p', q', g1, g2, g3⟩
      rw [List.getElem?_map, hi] at g1; cases g1
      obtain ⟨rfl, rfl⟩ := uniq hj.affine g2
      rw [c1'] at g3
      exact (Prod.mk.inj (Except.ok.inj g3)).2.symm
    · rintro rfl
      exact ⟨_, _, _, _, by rw [List.getElem?_map, hi]; rfl, hj.affine, c1'⟩

end Network

namespace Ex

/-- A mirrored, sheared and stretched copy. -/
def shear : Affine ℚ := ⟨-1, 1, 0, 2, 3, 1⟩

theorem shear_good : GoodMesh Ex.qEnv (Ex.qVerts.map Ex.shear.pt) Ex.faces (-999) :=
  ⟨by rw [List.length_map]; exact Ex.qGood.valid, fun _ _ _ _ => ⟨trivial, trivial⟩, trivial, trivial⟩

end Ex

set_option synthInstance.maxSize 1000 in
/-- Three faces across which the edge goes: the pieces, and the pieces in other coordinates. -/
example : ∃ t t', Makes Ex.qEnv Ex.qVerts Ex.faces (-999) 4 1 t ∧ Makes Ex.qEnv (Ex.qVerts.map Ex.shear.pt) Ex.faces (-999) 2 2 t' ∧
    t.intersectEdges Ex.qEnv [(⟨-1, 1⟩, ⟨5, 1⟩)] 1 [0] = .ok ([0, 0, 0], [2, 1, 0],
      [(some ⟨3, 1⟩, some ⟨4, 1⟩), (some ⟨2, 1⟩, some ⟨3, 1⟩), (some ⟨0, 1⟩, some ⟨2, 1⟩)]) ∧
    t'.intersectEdges Ex.qEnv [(Ex.shear.pt ⟨-1, 1⟩, Ex.shear.pt ⟨5, 1⟩)] 1 [0] = .ok ([0, 0, 0], [0, 1, 2],
      [(some (Ex.shear.pt ⟨0, 1⟩), some (Ex.shear.pt ⟨2, 1⟩)), (some (Ex.shear.pt ⟨2, 1⟩), some (Ex.shear.pt ⟨3, 1⟩)),
        (some (Ex.shear.pt ⟨3, 1⟩), some (Ex.shear.pt ⟨4, 1⟩))]) := by
  obtain ⟨t, h1, h2⟩ := bind_eq_ok.1 (show (CellTree.init Ex.qEnv Ex.qVerts Ex.faces (-999) 4 1 [2, 0, 3, 1] >>= fun t =>
    t.intersectEdges Ex.qEnv [(⟨-1, 1⟩, ⟨5, 1⟩)] 1 [0]) = .ok ([0, 0, 0], [2, 1, 0],
      [(some ⟨3, 1⟩, some ⟨4, 1⟩), (some ⟨2, 1⟩, some ⟨3, 1⟩), (some ⟨0, 1⟩, some ⟨2, 1⟩)]) by decide +kernel)
  obtain ⟨t', h1', h2'⟩ := bind_eq_ok.1 (show (CellTree.init Ex.qEnv (Ex.qVerts.map Ex.shear.pt) Ex.faces (-999) 2 2 [2, 0, 3, 1] >>= fun t =>
    t.intersectEdges Ex.qEnv [(Ex.shear.pt ⟨-1, 1⟩, Ex.shear.pt ⟨5, 1⟩)] 1 [0]) = .ok ([0, 0, 0], [0, 1, 2],
      [(some (Ex.shear.pt ⟨0, 1⟩), some (Ex.shear.pt ⟨2, 1⟩)), (some (Ex.shear.pt ⟨2, 1⟩), some (Ex.shear.pt ⟨3, 1⟩)),
        (some (Ex.shear.pt ⟨3, 1⟩), some (Ex.shear.pt ⟨4, 1⟩))]) by decide +kernel)
  exact ⟨t, t', ⟨_, by decide, h1⟩, ⟨_, by decide, h1'⟩, h2, h2'⟩

/-- The hypotheses on the second of these faces: clockwise in the first coordinates, and counter-clockwise in the second, with
the ends of the edge far from it. -/
example : Ex.shear.det ≠ 0 ∧ GoodMesh Ex.qEnv Ex.qVerts Ex.faces (-999) ∧
    GoodMesh Ex.qEnv (Ex.qVerts.map Ex.shear.pt) Ex.faces (-999) ∧ Ex.faces.rows[1]? = some [1, 4, 2, -999] ∧
    CcwFace Ex.qVerts (-999) [1, 4, 2, -999] [⟨4, 0⟩, ⟨2, 2⟩, ⟨2, 0⟩] ∧ IsBBox [⟨4, 0⟩, ⟨2, 2⟩, ⟨2, 0⟩] (⟨2, 4, 0, 2⟩ : Box ℚ) ∧
    ¬ InBand Ex.qEnv [⟨4, 0⟩, ⟨2, 2⟩, ⟨2, 0⟩] ⟨2, 4, 0, 2⟩ ⟨-1, 1⟩ ∧ ¬ InBand Ex.qEnv [⟨4, 0⟩, ⟨2, 2⟩, ⟨2, 0⟩] ⟨2, 4, 0, 2⟩ ⟨5, 1⟩ ∧
    CcwFace (Ex.qVerts.map Ex.shear.pt) (-999) [1, 4, 2, -999] [⟨1, 1⟩, ⟨3, 5⟩, ⟨-1, 1⟩] ∧
    IsBBox [⟨1, 1⟩, ⟨3, 5⟩, ⟨-1, 1⟩] (⟨-1, 3, 1, 5⟩ : Box ℚ) ∧
    ¬ InBand Ex.qEnv [⟨1, 1⟩, ⟨3, 5⟩, ⟨-1, 1⟩] ⟨-1, 3, 1, 5⟩ (Ex.shear.pt ⟨-1, 1⟩) ∧
    ¬ InBand Ex.qEnv [⟨1, 1⟩, ⟨3, 5⟩, ⟨-1, 1⟩] ⟨-1, 3, 1, 5⟩ (Ex.shear.pt ⟨5, 1⟩) := by
  refine ⟨by decide +kernel, Ex.qGood, Ex.shear_good, rfl, ⟨by decide +kernel, Or.inr (by decide +kernel)⟩,
    ⟨by decide +kernel, by decide +kernel, by decide +kernel, by decide +kernel, by decide +kernel⟩, ?_, ?_,
    ⟨by decide +kernel, Or.inl (by decide +kernel)⟩,
    ⟨by decide +kernel, by decide +kernel, by decide +kernel, by decide +kernel, by decide +kernel⟩, ?_, ?_⟩
  all_goals
    rintro ⟨_, s, hs, hn⟩
    revert s
    decide +kernel

set_option synthInstance.maxSize 1000 in
/-- A crossing in a network, and the crossing in other coordinates. -/
example : ∃ t t', EdgeCellTree.init Ex.qEnv Ex.netVerts Ex.netEdges 4 2 = .ok t ∧
    EdgeCellTree.init Ex.qEnv (Ex.netVerts.map Ex.shear.pt) Ex.netEdges 3 1 = .ok t' ∧
    ∃ ii jj xy ii' jj' xy', t.intersectEdgesOnEdge Ex.qEnv [(⟨-1, 1⟩, ⟨6, 1⟩)] 1 [0] = .ok (ii, jj, xy) ∧
      t'.intersectEdgesOnEdge Ex.qEnv [(Ex.shear.pt ⟨-1, 1⟩, Ex.shear.pt ⟨6, 1⟩)] 2 [1, 0] = .ok (ii', jj', xy') ∧
      ∃ x, ShareAt ⟨-1, 1⟩ ⟨6, 1⟩ ⟨0, 0⟩ ⟨2, 2⟩ x ∧ (∀ c, (0, 4, c) ∈ ii.zip (jj.zip xy) ↔ c = some x) ∧
          ∀ c, (0, 4, c) ∈ ii'.zip (jj'.zip xy') ↔ c = some (Ex.shear.pt x) := by
  obtain ⟨t, h1, _⟩ := bind_eq_ok.1 (show (EdgeCellTree.init Ex.qEnv Ex.netVerts Ex.netEdges 4 2 >>= fun _ => .ok ()) = .ok () by
    decide +kernel)
  obtain ⟨t', h1', _⟩ := bind_eq_ok.1 (show (EdgeCellTree.init Ex.qEnv (Ex.netVerts.map Ex.shear.pt) Ex.netEdges 3 1 >>= fun _ => .ok ()) =
    .ok () by decide +kernel)
  obtain ⟨ii, jj, xy, ii', jj', xy', h2, h2', h3⟩ := C101_crossings_affine (A := Ex.shear) (by decide +kernel) (by decide +kernel)
    (by decide +kernel) Ex.net_valid h1 h1' [(⟨-1, 1⟩, ⟨6, 1⟩)] (nThreads := 1) (nThreads' := 2) (by decide) (sched := [0]) (by decide)
    (by decide) (sched' := [1, 0]) (by decide)
  exact ⟨t, t', h1, h1', ii, jj, xy, ii', jj', xy', h2, h2', h3 0 4 ⟨-1, 1⟩ ⟨6, 1⟩ ⟨0, 0⟩ ⟨2, 2⟩ rfl ⟨0, 2, rfl, rfl, rfl⟩
    (by unfold ProperCross; decide +kernel) (by decide +kernel) (by decide +kernel)⟩

end Celltree
