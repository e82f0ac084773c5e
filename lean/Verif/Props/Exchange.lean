import Verif.Props.SelfIntersect
import Verif.Props.AffineEdges

/-!
# C104: the roles of the two meshes can be exchanged
-/

set_option linter.unusedSectionVars false

namespace Celltree

section Areas
variable {env : Env ℝ} {vertices verticesA : List (Pt ℝ)} {faces facesA : IntArr}
  {fill fillA nBuckets cellsPerLeaf nBucketsA cellsPerLeafA : Int} {t tA : CellTree ℝ}

/-- **C104** (real numbers): the table of the areas of intersection of two meshes of convex faces is the same, transposed, if the
tree is made of the one mesh and of the other. -/
theorem C104_intersect_faces (hm : GoodMesh env vertices faces fill) (ht : Makes env vertices faces fill nBuckets cellsPerLeaf t)
    (hmA : GoodMesh env verticesA facesA fillA) (htA : Makes env verticesA facesA fillA nBucketsA cellsPerLeafA tA)
    (hconv : ∀ r ∈ faces.rows, ConvexFace (facePts vertices fill r) ∧ SmallPts env (facePts vertices fill r))
    (hconvA : ∀ r ∈ facesA.rows, ConvexFace (facePts verticesA fillA r) ∧ SmallPts env (facePts verticesA fillA r))
    {h hA : Heap} {ref refA : Nat} (href : h[ref]? = some faces) (hrefA : hA[refA]? = some facesA)
    {nThreads nThreadsA : Nat} (hn : 0 < nThreads) (hnA : 0 < nThreadsA)
    {sched sched1 schedA sched1A : List Nat} {sched2 sched3 sched2A sched3A : Nat → List Nat}
    (hs : sched.Perm (List.range facesA.rows.length)) (hs1 : sched1.Perm (List.range nThreads))
    (hs2 : ∀ n, (sched2 n).Perm (List.range n)) (hs3 : ∀ n, (sched3 n).Perm (List.range n))
    (hsA : schedA.Perm (List.range faces.rows.length)) (hs1A : sched1A.Perm (List.range nThreadsA))
    (hs2A : ∀ n, (sched2A n).Perm (List.range n)) (hs3A : ∀ n, (sched3A n).Perm (List.range n)) :
    ∃ h' ii jj areas h'' ii' jj' areas',
      t.intersectFacesH env hA verticesA refA fillA nThreads sched sched1 sched2 sched3 = .ok (h', ii, jj, areas) ∧
      tA.intersectFacesH env h vertices ref fill nThreadsA schedA sched1A sched2A sched3A = .ok (h'', ii', jj', areas') ∧
      (ii'.zip (jj'.zip areas')).Perm ((ii.zip (jj.zip areas)).map fun x => (x.2.1, x.1, x.2.2)) := by
  obtain ⟨hcol, _, _, _⟩ := ht.constructed' hm
  obtain ⟨hcolA, _, _, _⟩ := htA.constructed' hmA
  obtain ⟨h', ii, jj, areas, h1, h2, h3, h4, _, h6⟩ :=
    C36_intersect_faces_measure hm ht hconv hmA.valid hcolA hconvA hrefA hn hs hs1 hs2 hs3
  obtain ⟨h'', ii', jj', areas', h1', h2', h3', h4', _, h6'⟩ :=
    C36_intersect_faces_measure hmA htA hconvA hm.valid hcol hconv href hnA hsA hs1A hs2A hs3A
  refine ⟨h', ii, jj, areas, h'', ii', jj', areas', h1, h1', ?_⟩
  have nd : ∀ {ii jj : List Nat} {areas : List ℝ}, ii.length = jj.length → jj.length = areas.length → (ii.zip jj).Nodup →
      (ii.zip (jj.zip areas)).Nodup := by
    intro ii jj areas e1 e2 hnd
    apply List.Nodup.of_map (fun x : Nat × Nat × ℝ => (x.1, x.2.1))
    have : (ii.zip (jj.zip areas)).map (fun x : Nat × Nat × ℝ => (x.1, x.2.1)) = ii.zip jj := by
      apply List.ext_getElem
      · simp; omega
      · intro k k1 k2; simp
    rw [this]; exact hnd
  rw [List.perm_ext_iff_of_nodup (nd h2' h3' h4') ((nd h2 h3 h4).map (by
    rintro ⟨a, b, c⟩ ⟨a', b', c'⟩ e
    simp only [Prod.mk.injEq] at e ⊢
    exact ⟨e.2.1, e.1, e.2.2⟩))]
  rintro ⟨j, i, a⟩
  rw [h6', List.mem_map]
  constructor
  · rintro ⟨s, r, hs', hr, ha, hp⟩
    exact ⟨(i, j, a), (h6 i j a).2 ⟨r, s, hr, hs', by rw [ha, Set.inter_comm], hp⟩, rfl⟩
  · rintro ⟨⟨i', j', a'⟩, hmem, e⟩
    simp only [Prod.mk.injEq] at e
    obtain ⟨rfl, rfl, rfl⟩ := e
    obtain ⟨r, s, hr, hs', ha, hp⟩ := (h6 i' j' a').1 hmem
    exact ⟨s, r, hs', hr, by rw [ha, Set.inter_comm], hp⟩

end Areas

section Faces
variable {K : Type} [Field K] [LinearOrder K] [IsStrictOrderedRing K] {env : Env K} {vertices verticesA : List (Pt K)}
  {faces facesA : IntArr} {nBuckets cellsPerLeaf nBucketsA cellsPerLeafA : Int} {t tA : CellTree K}

/-- **C104** (exact arithmetic): `locate_faces` reports the same pairs, if the tree is made of the one mesh and of the other.
(The fill value must be -1: see C60.) -/
theorem C104_locate_faces (hm : GoodMesh env vertices faces (-1)) (ht : Makes env vertices faces (-1) nBuckets cellsPerLeaf t)
    (hmA : GoodMesh env verticesA facesA (-1)) (htA : Makes env verticesA facesA (-1) nBucketsA cellsPerLeafA tA)
    (hconv : ∀ r ∈ faces.rows, ConvexFace (facePts vertices (-1) r) ∧ SmallPts env (facePts vertices (-1) r))
    (hconvA : ∀ r ∈ facesA.rows, ConvexFace (facePts verticesA (-1) r) ∧ SmallPts env (facePts verticesA (-1) r))
    {nThreads nThreadsA : Nat} (hn : 0 < nThreads) (hnA : 0 < nThreadsA)
    {sched sched1 schedA sched1A : List Nat} {sched2 sched2A : Nat → List Nat}
    (hs : sched.Perm (List.range facesA.rows.length)) (hs1 : sched1.Perm (List.range nThreads))
    (hs2 : ∀ n, (sched2 n).Perm (List.range n))
    (hsA : schedA.Perm (List.range faces.rows.length)) (hs1A : sched1A.Perm (List.range nThreadsA))
    (hs2A : ∀ n, (sched2A n).Perm (List.range n)) :
    ∃ rows ii jj rows' ii' jj', t.locateFaces env verticesA facesA nThreads sched sched1 sched2 = .ok (rows, ii, jj) ∧
      tA.locateFaces env vertices faces nThreadsA schedA sched1A sched2A = .ok (rows', ii', jj') ∧
      (ii'.zip jj').Perm ((ii.zip jj).map Prod.swap) := by
  obtain ⟨hcol, _, _, _⟩ := ht.constructed' hm
  obtain ⟨hcolA, _, _, _⟩ := htA.constructed' hmA
  obtain ⟨rows, ii, jj, h1, _, h3, _, h5⟩ := C31_locate_faces_brute_force hm ht hconv hmA.valid hcolA hconvA hn hs hs1 hs2
  obtain ⟨rows', ii', jj', h1', _, h3', _, h5'⟩ := C31_locate_faces_brute_force hmA htA hconvA hm.valid hcol hconv hnA hsA hs1A hs2A
  refine ⟨rows, ii, jj, rows', ii', jj', h1, h1', ?_⟩
  rw [List.perm_ext_iff_of_nodup h3' (h3.map Prod.swap_injective)]
  rintro ⟨j, i⟩
  rw [h5', List.mem_map]
  have sym : FacesOverlap vertices (-1) faces verticesA (-1) facesA j i ↔ FacesOverlap verticesA (-1) facesA vertices (-1) faces i j := by
    unfold FacesOverlap
    constructor
    · rintro ⟨r, s, h1, h2, p, h3, h4⟩
      exact ⟨s, r, h2, h1, p, h4, h3⟩
    · rintro ⟨r, s, h1, h2, p, h3, h4⟩
      exact ⟨s, r, h2, h1, p, h4, h3⟩
  rw [sym, ← h5]
  constructor
  · exact fun h => ⟨_, h, rfl⟩
  · rintro ⟨⟨a, b⟩, hab, e⟩
    simp only [Prod.swap, Prod.mk.injEq] at e
    obtain ⟨rfl, rfl⟩ := e
    exact hab

theorem ShareAt.symm {a b p q c : Pt K} (h : ShareAt a b p q c) : ShareAt p q a b c := by
  obtain ⟨u, v, h1, h2, h3, h4, h5, h6⟩ := h
  exact ⟨v, u, h3, h4, h1, h2, h6, h5⟩

theorem ProperCross.symm {a b p q : Pt K} (h : ProperCross a b p q) : ProperCross p q a b := ⟨h.2, h.1⟩

variable {vertices' : List (Pt K)} {edges edges' : IntArr}

/-- **C104** (exact arithmetic): for two networks, an edge of the one that properly crosses an edge of the other, and is not
nearly parallel to it, is reported with the same crossing if the tree is made of the one network and of the other. -/
theorem C104_crossings (hmin : 0 < env.minTol) (hf : 0 ≤ env.tolFactor) (hv : ValidEdges vertices.length edges)
    (hv' : ValidEdges vertices'.length edges') (ht : EdgeCellTree.init env vertices edges nBuckets cellsPerLeaf = .ok t)
    (ht' : EdgeCellTree.init env vertices' edges' nBucketsA cellsPerLeafA = .ok tA)
    {segs segs' : List (Pt K × Pt K)} (hsegs : ∀ i a b, IsEdge vertices edges i a b → segs[i]? = some (a, b))
    (hsegs' : ∀ i a b, IsEdge vertices' edges' i a b → segs'[i]? = some (a, b))
    {nThreads nThreads' : Nat} (hn : 0 < nThreads) {sched : List Nat} (hs : sched.Perm (List.range nThreads))
    (hn' : 0 < nThreads') {sched' : List Nat} (hs' : sched'.Perm (List.range nThreads')) :
    ∃ ii jj xy ii' jj' xy', t.intersectEdgesOnEdge env segs' nThreads sched = .ok (ii, jj, xy) ∧
      tA.intersectEdgesOnEdge env segs nThreads' sched' = .ok (ii', jj', xy') ∧
      ∀ i j a b p q, IsEdge vertices' edges' i a b → IsEdge vertices edges j p q → ProperCross a b p q →
        edgeTol env p q ^ 2 * dist2 a b ≤ (orient p q a - orient p q b) ^ 2 →
        edgeTol env a b ^ 2 * dist2 p q ≤ (orient a b p - orient a b q) ^ 2 →
        ∃ x, ShareAt a b p q x ∧ (∀ c, (i, j, c) ∈ ii.zip (jj.zip xy) ↔ c = some x) ∧
          ∀ c, (j, i, c) ∈ ii'.zip (jj'.zip xy') ↔ c = some x := by
  obtain ⟨ii, jj, xy, h1, _, _, _, _, h2⟩ := C41_intersect_edges_brute_force hv ht hmin hf segs' hn hs
  obtain ⟨ii', jj', xy', h1', _, _, _, _, h2'⟩ := C41_intersect_edges_brute_force hv' ht' hmin hf segs hn' hs'
  refine ⟨ii, jj, xy, ii', jj', xy', h1, h1', ?_⟩
  intro i j a b p q hi hj hx hp hp'
  obtain ⟨c, c1, c2, c3⟩ := C42_proper_crossing_reported (env := env) hmin hx
  obtain ⟨c', c1', c2', c3'⟩ := C42_proper_crossing_reported (env := env) hmin hx.symm
  obtain ⟨x, rfl⟩ := c2 hp
  obtain ⟨x', rfl⟩ := c2' hp'
  have s1 := c3 x rfl
  have e : x' = x := hx.share_unique (c3' x' rfl).symm s1
  subst e
  have uniq : ∀ {vertices : List (Pt K)} {edges : IntArr} {j : Nat} {p q p' q' : Pt K}, IsEdge vertices edges j p q →
      IsEdge vertices edges j p' q' → p = p' ∧ q = q' := by
    rintro vertices edges j p q p' q' ⟨v, w, g1, g2, g3⟩ ⟨v', w', g1', g2', g3'⟩
    rw [g1] at g1'
    simp only [Option.some.injEq, List.cons.injEq, and_true] at g1'
    obtain ⟨rfl, rfl⟩ := g1'
    exact ⟨Option.some.inj (g2.symm.trans g2'), Option.some.inj (g3.symm.trans g3')⟩
  refine ⟨x', s1, fun c => ?_, fun c => ?_⟩
  · rw [h2]
    constructor
    · rintro ⟨a', b', p', q', g1, g2, g3⟩
      obtain ⟨rfl, rfl⟩ := Prod.mk.inj (Option.some.inj ((hsegs' i a b hi).symm.trans g1))
      obtain ⟨rfl, rfl⟩ := uniq hj g2
      rw [c1] at g3
      exact (Prod.mk.inj (Except.ok.inj g3)).2.symm
    · rintro rfl
      exact ⟨a, b, p, q, hsegs' i a b hi, hj, c1⟩
  · rw [h2']
    constructor
    · rintro ⟨a', b', p', q', g1, g2, g3⟩
      obtain ⟨rfl, rfl⟩ := Prod.mk.inj (Option.some.inj ((hsegs j p q hj).symm.trans g1))
      obtain ⟨rfl, rfl⟩ := uniq hi g2
      rw [c1'] at g3
      exact (Prod.mk.inj (Except.ok.inj g3)).2.symm
    · rintro rfl
      exact ⟨p, q, a, b, hsegs j p q hj, hi, c1'⟩

end Faces

namespace Fl

variable {vertices verticesA : List (Pt Fl)} {faces facesA : IntArr} {fill fillA nBuckets cellsPerLeaf nBucketsA cellsPerLeafA : Int}
  {t tA : CellTree Fl} {M : ℚ}

/-- **C104** (binary64, rectangles): the two areas of a pair of rectangles differ by at most the two errors of C92, and a pair
with nothing in common is reported in neither order. -/
theorem C104_rectangles (hm : GoodMesh Fl.env vertices faces fill) (ht : Makes Fl.env vertices faces fill nBuckets cellsPerLeaf t)
    (hmA : GoodMesh Fl.env verticesA facesA fillA) (htA : Makes Fl.env verticesA facesA fillA nBucketsA cellsPerLeafA tA)
    (hM : 1 / 2 ^ 100 ≤ M) (hM' : M ≤ 2 ^ 198)
    (hrect : ∀ r ∈ faces.rows, ∃ c, IsRect (facePts vertices fill r) c ∧ GoodRect M c)
    (hrectA : ∀ r ∈ facesA.rows, ∃ c, IsRect (facePts verticesA fillA r) c ∧ GoodRect M c)
    {h hA : Heap} {ref refA : Nat} (href : h[ref]? = some faces) (hrefA : hA[refA]? = some facesA)
    {nThreads nThreadsA : Nat} (hn : 0 < nThreads) (hnA : 0 < nThreadsA)
    {sched sched1 schedA sched1A : List Nat} {sched2 sched3 sched2A sched3A : Nat → List Nat}
    (hs : sched.Perm (List.range facesA.rows.length)) (hs1 : sched1.Perm (List.range nThreads))
    (hs2 : ∀ n, (sched2 n).Perm (List.range n)) (hs3 : ∀ n, (sched3 n).Perm (List.range n))
    (hsA : schedA.Perm (List.range faces.rows.length)) (hs1A : sched1A.Perm (List.range nThreadsA))
    (hs2A : ∀ n, (sched2A n).Perm (List.range n)) (hs3A : ∀ n, (sched3A n).Perm (List.range n)) :
    ∃ h' ii jj areas h'' ii' jj' areas',
      t.intersectFacesH Fl.env hA verticesA refA fillA nThreads sched sched1 sched2 sched3 = .ok (h', ii, jj, areas) ∧
      tA.intersectFacesH Fl.env h vertices ref fill nThreadsA schedA sched1A sched2A sched3A = .ok (h'', ii', jj', areas') ∧
      ∀ i j r s q c, facesA.rows[i]? = some r → faces.rows[j]? = some s → IsRect (facePts verticesA fillA r) q → GoodRect M q →
        IsRect (facePts vertices fill s) c → GoodRect M c →
        ∃ a a', 0 ≤ a ∧ 0 ≤ a' ∧ |a - a'| ≤ rectAcc M q c + rectAcc M c q ∧
          (commonX q c = 0 ∨ commonY q c = 0 → a = 0 ∧ a' = 0) ∧
          (∀ x, (i, j, x) ∈ ii.zip (jj.zip areas) ↔ x = fin a ∧ 0 < a) ∧
          ∀ x, (j, i, x) ∈ ii'.zip (jj'.zip areas') ↔ x = fin a' ∧ 0 < a' := by
  obtain ⟨hcol, _, _, _⟩ := ht.constructed' hm
  obtain ⟨hcolA, _, _, _⟩ := htA.constructed' hmA
  obtain ⟨h', ii, jj, areas, h1, _, _, _, _, _, h6⟩ :=
    C92_intersect_faces_accuracy hm ht hM hM' hrect hmA.valid hcolA hrectA hrefA hn hs hs1 hs2 hs3
  obtain ⟨h'', ii', jj', areas', h1', _, _, _, _, _, h6'⟩ :=
    C92_intersect_faces_accuracy hmA htA hM hM' hrectA hm.valid hcol hrect href hnA hsA hs1A hs2A hs3A
  refine ⟨h', ii, jj, areas, h'', ii', jj', areas', h1, h1', ?_⟩
  intro i j r s q c hr hs' g1 g2 g3 g4
  obtain ⟨a, a1, a2, a3, a4⟩ := h6 i j r s q c hr hs' g1 g2 g3 g4
  obtain ⟨a', b1, b2, b3, b4⟩ := h6' j i s r c q hs' hr g3 g4 g1 g2
  have e1 : commonX c q = commonX q c := by unfold commonX; rw [min_comm, max_comm c.xmin]
  have e2 : commonY c q = commonY q c := by unfold commonY; rw [min_comm, max_comm c.ymin]
  rw [e1, e2] at b2 b3
  refine ⟨a, a', a1, b1, ?_, fun h => ⟨a3 h, b3 h⟩, a4, b4⟩
  rw [abs_le] at a2 b2 ⊢
  constructor <;> linarith [a2.1, a2.2, b2.1, b2.2]

end Fl

/-! ## The hypotheses can be met -/

/-- A mesh and its mirror image, over the real numbers. -/
example : ∃ t t', Makes Ex.realEnv Ex.realVerts Ex.realFaces (-1) 4 1 t ∧
    Makes Ex.realEnv (Ex.realVerts.map Ex.diagonal.pt) Ex.realFaces (-1) 4 1 t' ∧
    (∃ g ii jj areas g' ii' jj' areas',
      t.intersectFacesH Ex.realEnv [Ex.realFaces] (Ex.realVerts.map Ex.diagonal.pt) 0 (-1) 1 [0, 1, 2] [0] List.range List.range =
        .ok (g, ii, jj, areas) ∧
      t'.intersectFacesH Ex.realEnv [Ex.realFaces] Ex.realVerts 0 (-1) 2 [2, 0, 1] [1, 0] List.range List.range =
        .ok (g', ii', jj', areas') ∧
      (ii'.zip (jj'.zip areas')).Perm ((ii.zip (jj.zip areas)).map fun x => (x.2.1, x.1, x.2.2))) ∧
    ∃ rows ii jj rows' ii' jj',
      t.locateFaces Ex.realEnv (Ex.realVerts.map Ex.diagonal.pt) Ex.realFaces 1 [0, 1, 2] [0] List.range = .ok (rows, ii, jj) ∧
      t'.locateFaces Ex.realEnv Ex.realVerts Ex.realFaces 2 [2, 0, 1] [1, 0] List.range = .ok (rows', ii', jj') ∧
      (ii'.zip jj').Perm ((ii.zip jj).map Prod.swap) := by
  obtain ⟨t, ht⟩ := Ex.real_makes
  obtain ⟨t', ht'⟩ := Ex.diagonal_makes
  have hd0 : Ex.diagonal.det ≠ 0 := by norm_num [Ex.diagonal, Affine.det]
  have hg : GoodMesh Ex.realEnv (Ex.realVerts.map Ex.diagonal.pt) Ex.realFaces (-1) :=
    ⟨by rw [List.length_map]; exact Ex.real_valid, fun _ _ _ _ => ⟨trivial, trivial⟩, trivial, trivial⟩
  have hc : ∀ r ∈ Ex.realFaces.rows, ConvexFace (facePts Ex.realVerts (-1) r) ∧ SmallPts Ex.realEnv (facePts Ex.realVerts (-1) r) :=
    fun r hr => ⟨Ex.real_convex r hr, (Ex.real_small r hr).1⟩
  have hc' : ∀ r ∈ Ex.realFaces.rows, ConvexFace (facePts (Ex.realVerts.map Ex.diagonal.pt) (-1) r) ∧
      SmallPts Ex.realEnv (facePts (Ex.realVerts.map Ex.diagonal.pt) (-1) r) := by
    intro r hr
    rw [facePts_map]
    exact ⟨StrictlyConvex.convexFace (Affine.strictlyConvex hd0 (Ex.real_strict r hr)), (Ex.real_small r hr).2⟩
  refine ⟨t, t', ht, ht', ?_, ?_⟩
  · exact C104_intersect_faces Ex.real_good ht hg ht' hc hc' (h := [Ex.realFaces]) (ref := 0) rfl (hA := [Ex.realFaces]) (refA := 0) rfl
      (by decide) (by decide) (by decide) (by decide) (fun _ => List.Perm.refl _) (fun _ => List.Perm.refl _) (by decide) (by decide)
      (fun _ => List.Perm.refl _) (fun _ => List.Perm.refl _)
  · exact C104_locate_faces Ex.real_good ht hg ht' hc hc' (by decide) (by decide) (by decide) (by decide) (fun _ => List.Perm.refl _)
      (by decide) (by decide) (fun _ => List.Perm.refl _)

set_option synthInstance.maxSize 1000 in
/-- The two tables for two meshes over the rational numbers. -/
example : ∃ t t' g g', Makes Ex.qEnv Ex.qVerts Ex.faces (-999) 4 1 t ∧ Makes Ex.qEnv Ex.queryVerts Ex.queryFaces (-1) 4 1 t' ∧
    t.intersectFacesH Ex.qEnv [Ex.queryFaces] Ex.queryVerts 0 (-1) 2 [1, 0] [1, 0] List.range List.range =
      .ok (g, [0, 0, 0, 1, 1], [1, 3, 0, 3, 0], [1 / 2, 1 / 2, 1, 4 / 15, 2 / 5]) ∧
    t'.intersectFacesH Ex.qEnv [Ex.faces] Ex.qVerts 0 (-999) 2 [1, 0, 2, 3] [1, 0] List.range List.range =
      .ok (g', [0, 0, 1, 3, 3], [0, 1, 0, 0, 1], [1, 2 / 5, 1 / 2, 1 / 2, 4 / 15]) := by
  obtain ⟨t, h1, h2⟩ := bind_eq_ok.1 (show (CellTree.init Ex.qEnv Ex.qVerts Ex.faces (-999) 4 1 [2, 0, 3, 1] >>= fun t =>
    t.intersectFacesH Ex.qEnv [Ex.queryFaces] Ex.queryVerts 0 (-1) 2 [1, 0] [1, 0] List.range List.range >>= fun r => .ok r.2) =
      .ok ([0, 0, 0, 1, 1], [1, 3, 0, 3, 0], [1 / 2, 1 / 2, 1, 4 / 15, 2 / 5]) by decide +kernel)
  obtain ⟨t', h1', h2'⟩ := bind_eq_ok.1 (show (CellTree.init Ex.qEnv Ex.queryVerts Ex.queryFaces (-1) 4 1 [0, 1] >>= fun t =>
    t.intersectFacesH Ex.qEnv [Ex.faces] Ex.qVerts 0 (-999) 2 [1, 0, 2, 3] [1, 0] List.range List.range >>= fun r => .ok r.2) =
      .ok ([0, 0, 1, 3, 3], [0, 1, 0, 0, 1], [1, 2 / 5, 1 / 2, 1 / 2, 4 / 15]) by decide +kernel)
  obtain ⟨⟨g, r⟩, h3, h4⟩ := bind_eq_ok.1 h2
  obtain ⟨⟨g', r'⟩, h3', h4'⟩ := bind_eq_ok.1 h2'
  obtain rfl := Except.ok.inj h4
  obtain rfl := Except.ok.inj h4'
  exact ⟨t, t', g, g', ⟨_, by decide, h1⟩, ⟨_, by decide, h1'⟩, h3, h3'⟩

namespace Ex

/-- A network of two edges. -/
def lineVerts : List (Pt ℚ) := [⟨-1, 1⟩, ⟨6, 1⟩, ⟨6, 4⟩]
def lineEdges : IntArr := ⟨2, [[0, 1], [1, 2]]⟩

theorem line_valid : ValidEdges lineVerts.length lineEdges := by
  intro r hr
  simp only [lineEdges, List.mem_cons, List.not_mem_nil, or_false] at hr
  rcases hr with rfl | rfl
  all_goals exact ⟨_, _, rfl, by decide, by decide, by decide, by decide⟩

end Ex

set_option synthInstance.maxSize 1000 in
/-- Edge 0 of the one network crosses edge 4 of the other. -/
example : ∃ t t', EdgeCellTree.init Ex.qEnv Ex.netVerts Ex.netEdges 4 2 = .ok t ∧
    EdgeCellTree.init Ex.qEnv Ex.lineVerts Ex.lineEdges 3 1 = .ok t' ∧
    ∃ ii jj xy ii' jj' xy', t.intersectEdgesOnEdge Ex.qEnv [(⟨-1, 1⟩, ⟨6, 1⟩), (⟨6, 1⟩, ⟨6, 4⟩)] 1 [0] = .ok (ii, jj, xy) ∧
      t'.intersectEdgesOnEdge Ex.qEnv [(⟨0, 0⟩, ⟨2, 0⟩), (⟨2, 0⟩, ⟨2, 2⟩), (⟨2, 2⟩, ⟨0, 2⟩), (⟨0, 2⟩, ⟨0, 0⟩), (⟨0, 0⟩, ⟨2, 2⟩),
        (⟨5, 0⟩, ⟨5, 0⟩), (⟨5, 0⟩, ⟨5, 3⟩)] 2 [1, 0] = .ok (ii', jj', xy') ∧
      ∃ x, ShareAt ⟨-1, 1⟩ ⟨6, 1⟩ ⟨0, 0⟩ ⟨2, 2⟩ x ∧ (∀ c, (0, 4, c) ∈ ii.zip (jj.zip xy) ↔ c = some x) ∧
          ∀ c, (4, 0, c) ∈ ii'.zip (jj'.zip xy') ↔ c = some x := by
  obtain ⟨t, h1, _⟩ := bind_eq_ok.1 (show (EdgeCellTree.init Ex.qEnv Ex.netVerts Ex.netEdges 4 2 >>= fun _ => .ok ()) = .ok () by
    decide +kernel)
  obtain ⟨t', h1', _⟩ := bind_eq_ok.1 (show (EdgeCellTree.init Ex.qEnv Ex.lineVerts Ex.lineEdges 3 1 >>= fun _ => .ok ()) = .ok () by
    decide +kernel)
  obtain ⟨ii, jj, xy, ii', jj', xy', h2, h2', h3⟩ := C104_crossings (by decide +kernel) (by decide +kernel) Ex.net_valid
    Ex.line_valid h1 h1' (segs := [(⟨0, 0⟩, ⟨2, 0⟩), (⟨2, 0⟩, ⟨2, 2⟩), (⟨2, 2⟩, ⟨0, 2⟩), (⟨0, 2⟩, ⟨0, 0⟩), (⟨0, 0⟩, ⟨2, 2⟩),
        (⟨5, 0⟩, ⟨5, 0⟩), (⟨5, 0⟩, ⟨5, 3⟩)]) (segs' := [(⟨-1, 1⟩, ⟨6, 1⟩), (⟨6, 1⟩, ⟨6, 4⟩)])
    (by
      rintro i a b ⟨v, w, g1, g2, g3⟩
      rcases i with _ | _ | _ | _ | _ | _ | _ | i <;> simp [Ex.netEdges] at g1 <;> obtain ⟨rfl, rfl⟩ := g1 <;>
        simp [Ex.netVerts] at g2 g3 <;> subst g2 <;> subst g3 <;> rfl)
    (by
      rintro i a b ⟨v, w, g1, g2, g3⟩
      rcases i with _ | _ | i <;> simp [Ex.lineEdges] at g1 <;> obtain ⟨rfl, rfl⟩ := g1 <;>
        simp [Ex.lineVerts] at g2 g3 <;> simp [g2, g3])
    (nThreads := 1) (nThreads' := 2) (by decide) (sched := [0]) (by decide) (by decide) (sched' := [1, 0]) (by decide)
  exact ⟨t, t', h1, h1', ii, jj, xy, ii', jj', xy', h2, h2', h3 0 4 ⟨-1, 1⟩ ⟨6, 1⟩ ⟨0, 0⟩ ⟨2, 2⟩ ⟨0, 1, rfl, rfl, rfl⟩ ⟨0, 2, rfl, rfl, rfl⟩
    (by unfold ProperCross; decide +kernel) (by decide +kernel) (by decide +kernel)⟩

/-- The mesh of two decimal cells, with two trees. -/
example : ∃ t h' ii jj areas h'' ii' jj' areas', Makes Fl.env Ex.decVerts Ex.decFaces (-1) 4 2 t ∧
    t.intersectFacesH Fl.env [Ex.decFaces] Ex.decVerts 0 (-1) 1 [0, 1] [0] List.range List.range = .ok (h', ii, jj, areas) ∧
    t.intersectFacesH Fl.env [Ex.decFaces] Ex.decVerts 0 (-1) 2 [1, 0] [1, 0] List.range List.range = .ok (h'', ii', jj', areas') ∧
    ∃ a a', 0 ≤ a ∧ 0 ≤ a' ∧
      |a - a'| ≤ Fl.rectAcc 1 Ex.decCell Ex.decCell2 + Fl.rectAcc 1 Ex.decCell2 Ex.decCell ∧
      (Fl.commonX Ex.decCell Ex.decCell2 = 0 ∨ Fl.commonY Ex.decCell Ex.decCell2 = 0 → a = 0 ∧ a' = 0) ∧
      (∀ x, (0, 1, x) ∈ ii.zip (jj.zip areas) ↔ x = Fl.fin a ∧ 0 < a) ∧
      ∀ x, (1, 0, x) ∈ ii'.zip (jj'.zip areas') ↔ x = Fl.fin a' ∧ 0 < a' := by
  obtain ⟨t, ht, _⟩ := Ex.dec_run
  obtain ⟨h', ii, jj, areas, h'', ii', jj', areas', h1, h2, h3⟩ := Fl.C104_rectangles (M := 1) Ex.dec_good ht Ex.dec_good ht
    (by norm_num) (by norm_num) Ex.dec_rects Ex.dec_rects (h := [Ex.decFaces]) (ref := 0) rfl (hA := [Ex.decFaces])
    (refA := 0) rfl (nThreads := 1) (nThreadsA := 2) (by decide) (by decide) (sched := [0, 1]) (sched1 := [0]) (sched2 := List.range)
    (sched3 := List.range) (schedA := [1, 0]) (sched1A := [1, 0]) (sched2A := List.range) (sched3A := List.range) (by decide) (by decide)
    (fun _ => List.Perm.refl _) (fun _ => List.Perm.refl _) (by decide) (by decide) (fun _ => List.Perm.refl _) (fun _ => List.Perm.refl _)
  exact ⟨t, h', ii, jj, areas, h'', ii', jj', areas', ht, h1, h2, h3 0 1 _ _ _ _ rfl rfl Ex.decCell_rect Ex.decCell_good
    Ex.decCell2_rect Ex.decCell2_good⟩

end Celltree
