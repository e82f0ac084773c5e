import Verif.Proofs.FaceEdges
import Verif.Props.CyrusBeck
import Verif.Props.Boxes

/-!
# Edge search on a tree of faces: C40, and the edges in C04 and C05
-/

set_option linter.unusedSectionVars false

namespace Celltree

section
variable {K : Type} [Field K] [LinearOrder K] [IsStrictOrderedRing K]
variable {env : Env K} {vertices : List (Pt K)} {faces : IntArr} {fill nBuckets cellsPerLeaf : Int} {t : CellTree K}

/-- **C40** (exact arithmetic, any polygons): the edge search never fails. It returns `(i, j, (c, d))` exactly if edge `i`
has a piece in common with the bounding box of face `j`, and the clip of edge `i` to the polygon of face `j`, as stored,
returns `(c, d)`. No pair occurs twice; the result is ordered by edge. -/
theorem C40_intersect_edges_brute_force (hm : GoodMesh env vertices faces fill)
    (ht : Makes env vertices faces fill nBuckets cellsPerLeaf t) (edges : List (Pt K × Pt K)) {nThreads : Nat}
    (hn : 0 < nThreads) {sched : List Nat} (hs : sched.Perm (List.range nThreads)) :
    ∃ ii jj xy, t.intersectEdges env edges nThreads sched = .ok (ii, jj, xy) ∧ ii.length = jj.length ∧
      jj.length = xy.length ∧ (ii.zip jj).Nodup ∧ ii.Pairwise (· ≤ ·) ∧
      ∀ i j cd, (i, j, cd) ∈ ii.zip (jj.zip xy) ↔ ∃ a b r stored box, edges[i]? = some (a, b) ∧
        faces.rows[j]? = some r ∧ t.data.elements[j]? = some stored ∧
        IsBBox (facePts vertices fill r) box ∧ SharesPiece a b (InBox box) ∧
        ∃ c d, cd = (some c, some d) ∧ cyrusBeck a b (facePts vertices (-1) stored)
          (max env.minTol (env.tolFactor * max (box.xmax - box.xmin) (box.ymax - box.ymin))) = .ok (some (c, d)) := by
  obtain ⟨hcol, _, bt, hc⟩ := ht.constructed' hm
  obtain ⟨hnd, hsorted⟩ := edgeAll_nodup (isect := edgeFaceIntersect env t.data) hc.tree edges
  refine ⟨_, _, _, locateEdges_spec hc.tree edges (fun q _ => (faceEdgeTotal hc hcol q.1 q.2).runs hc.tree) hn hs, by simp, by simp, ?_,
    hsorted, ?_⟩
  · rw [List.zip_map', ]
    exact hnd
  · intro i j cd
    rw [List.zip_map', List.zip_map']
    have hstored : ∀ r stored, faces.rows[j]? = some r → t.data.elements[j]? = some stored →
        facePts vertices (-1) stored = storedPts vertices fill faces.ncol r := by
      intro r stored h1 h2
      obtain ⟨B, e1, _, _, e4⟩ := hc.elements.row j r h1
      rw [e1] at h2
      cases h2
      unfold storedPts
      rw [e4]
      rfl
    constructor
    · intro h
      obtain ⟨⟨i', x⟩, hx, he⟩ := List.mem_map.1 h
      obtain ⟨⟨a, b⟩, hq, hmem⟩ := mem_edgeAll.1 hx
      simp only [Prod.mk.injEq] at he
      obtain ⟨rfl, he2, he3⟩ := he
      have : x = (j, cd) := Prod.ext he2 he3
      rw [this] at hmem
      obtain ⟨r, box, h1, h2, h3, c, d, h4, h5⟩ := (mem_faceEdgeHits hc hcol).1 hmem
      obtain ⟨B, e1, _⟩ := hc.elements.row j r h1
      exact ⟨a, b, r, _, box, hq, h1, e1, h2, h3, c, d, h4, by rw [hstored r _ h1 e1]; exact h5⟩
    · rintro ⟨a, b, r, stored, box, hq, h1, e1, h2, h3, c, d, h4, h5⟩
      rw [hstored r _ h1 e1] at h5
      exact List.mem_map.2 ⟨(i, j, cd), mem_edgeAll.2 ⟨(a, b), hq,
        (mem_faceEdgeHits hc hcol).2 ⟨r, box, h1, h2, h3, c, d, h4, h5⟩⟩, rfl⟩

/-- The corners of a face in counter-clockwise order, for a face that is strictly convex, given in either order. -/
def CcwFace (vertices : List (Pt K)) (fill : Int) (r : List Int) (poly : List (Pt K)) : Prop :=
  StrictlyConvex poly ∧ (poly = facePts vertices fill r ∨ poly = (facePts vertices fill r).reverse)

/-- The point is outside the polygon but within the tolerance for a face with this bounding box. -/
def InBand (env : Env K) (poly : List (Pt K)) (box : Box K) (p : Pt K) : Prop :=
  ¬ InPoly poly p ∧ ∃ s ∈ sides poly,
    Near (max env.minTol (env.tolFactor * max (box.xmax - box.xmin) (box.ymax - box.ymin))) p s

/-- **C40** (exact arithmetic, geometry): for a strictly convex face `j`, given in either order, and an edge `i` whose ends
are not just outside the face: the search reports `(i, j)` exactly if the edge and the face have a piece of positive length
in common, and the reported points are the ends of that piece. -/
theorem C40_intersect_edges_geometry (hm : GoodMesh env vertices faces fill) (hmin : 0 < env.minTol)
    (ht : Makes env vertices faces fill nBuckets cellsPerLeaf t) (edges : List (Pt K × Pt K)) {nThreads : Nat}
    (hn : 0 < nThreads) {sched : List Nat} (hs : sched.Perm (List.range nThreads)) :
    ∃ ii jj xy, t.intersectEdges env edges nThreads sched = .ok (ii, jj, xy) ∧ ii.length = jj.length ∧
      jj.length = xy.length ∧ (ii.zip jj).Nodup ∧ ii.Pairwise (· ≤ ·) ∧
      ∀ i j a b r poly box, edges[i]? = some (a, b) → a ≠ b → faces.rows[j]? = some r → CcwFace vertices fill r poly →
        IsBBox poly box → ¬ InBand env poly box a → ¬ InBand env poly box b →
        ∀ cd, (i, j, cd) ∈ ii.zip (jj.zip xy) ↔
          ∃ c d, cd = (some c, some d) ∧ ClipSpec a b (InPoly poly) (some (c, d)) := by
  obtain ⟨ii, jj, xy, h1, h2, h3, h4, h5, h6⟩ := C40_intersect_edges_brute_force hm ht edges hn hs
  refine ⟨ii, jj, xy, h1, h2, h3, h4, h5, ?_⟩
  intro i j a b r poly box hi hab hj ⟨hconv, hpoly⟩ hbox ha hb cd
  have htol : 0 < max env.minTol (env.tolFactor * max (box.xmax - box.xmin) (box.ymax - box.ymin)) :=
    lt_max_of_lt_left hmin
  -- the polygon as stored
  obtain ⟨hcol, _, bt, hc⟩ := ht.constructed' hm
  have hrow : Row vertices.length faces.ncol (rowIndices fill r) :=
    (hm.valid.rows r (List.mem_of_getElem? hj)).row (hm.valid.rect r (List.mem_of_getElem? hj))
  obtain ⟨B, e1, e2, e3, e4⟩ := hc.elements.row j r hj
  have hst : facePts vertices (-1) (padRow faces.ncol B) = poly := by
    have h0 : facePts vertices (-1) (padRow faces.ncol B) = storedPts vertices fill faces.ncol r := by
      unfold storedPts; rw [e4]; rfl
    rw [h0]
    rcases hpoly with rfl | rfl
    · exact storedPts_convex hrow hconv.convex
    · exact storedPts_clockwise hrow hconv
  have hbox' : IsBBox (facePts vertices fill r) box := by
    apply hbox.of_mem
    intro q
    rcases hpoly with rfl | rfl <;> simp
  obtain ⟨clip, c1, _, c3⟩ := C39_cyrus_beck hconv (a := a) (b := b) htol
    (fun s hs hnear => by by_contra h; exact ha ⟨h, s, hs, hnear⟩)
    (fun s hs hnear => by by_contra h; exact hb ⟨h, s, hs, hnear⟩)
  have c3 := c3 hab
  rw [h6]
  constructor
  · rintro ⟨a', b', r', stored, box', g1, g2, g3, g4, g5, c, d, g6, g7⟩
    rw [hi] at g1
    cases g1
    rw [hj] at g2
    cases g2
    rw [e1] at g3
    cases g3
    rw [hst, g4.unique hbox', c1] at g7
    rw [Except.ok.inj g7] at c3
    exact ⟨c, d, g6, c3⟩
  · rintro ⟨c, d, g1, g2⟩
    have : clip = some (c, d) := c3.unique g2
    subst this
    refine ⟨a, b, r, _, box, hi, hj, e1, hbox', ?_, c, d, g1, by rw [hst]; exact c1⟩
    exact ((g2.isSome_iff hab).1 rfl).mono fun p hp => InPoly.inBox hconv.convex hbox hp

/-- **C69** for the public function (exact arithmetic): for a strictly convex face `j`, given in either order, and an edge `i`
anywhere: a common piece of positive length is reported, and every reported piece contains all of the edge that is in the
face, and is at most twice the tolerance away from the face. -/
theorem C69_intersect_edges_near (hm : GoodMesh env vertices faces fill) (hmin : 0 < env.minTol)
    (ht : Makes env vertices faces fill nBuckets cellsPerLeaf t) (edges : List (Pt K × Pt K)) {nThreads : Nat}
    (hn : 0 < nThreads) {sched : List Nat} (hs : sched.Perm (List.range nThreads)) :
    ∃ ii jj xy, t.intersectEdges env edges nThreads sched = .ok (ii, jj, xy) ∧
      ∀ i j a b r poly box, edges[i]? = some (a, b) → a ≠ b → faces.rows[j]? = some r → CcwFace vertices fill r poly →
        IsBBox poly box →
        (SharesPiece a b (InPoly poly) → ∃ cd, (i, j, cd) ∈ ii.zip (jj.zip xy)) ∧
        ∀ cd, (i, j, cd) ∈ ii.zip (jj.zip xy) → ∃ c d, cd = (some c, some d) ∧
          ClipNear (2 * max env.minTol (env.tolFactor * max (box.xmax - box.xmin) (box.ymax - box.ymin))) a b (InPoly poly)
            (some (c, d)) := by
  obtain ⟨ii, jj, xy, h1, h2, h3, h4, h5, h6⟩ := C40_intersect_edges_brute_force hm ht edges hn hs
  refine ⟨ii, jj, xy, h1, ?_⟩
  intro i j a b r poly box hi hab hj ⟨hconv, hpoly⟩ hbox
  have htol : 0 < max env.minTol (env.tolFactor * max (box.xmax - box.xmin) (box.ymax - box.ymin)) :=
    lt_max_of_lt_left hmin
  obtain ⟨hcol, _, bt, hc⟩ := ht.constructed' hm
  have hrow : Row vertices.length faces.ncol (rowIndices fill r) :=
    (hm.valid.rows r (List.mem_of_getElem? hj)).row (hm.valid.rect r (List.mem_of_getElem? hj))
  obtain ⟨B, e1, e2, e3, e4⟩ := hc.elements.row j r hj
  have hst : facePts vertices (-1) (padRow faces.ncol B) = poly := by
    have h0 : facePts vertices (-1) (padRow faces.ncol B) = storedPts vertices fill faces.ncol r := by
      unfold storedPts; rw [e4]; rfl
    rw [h0]
    rcases hpoly with rfl | rfl
    · exact storedPts_convex hrow hconv.convex
    · exact storedPts_clockwise hrow hconv
  have hbox' : IsBBox (facePts vertices fill r) box := by
    apply hbox.of_mem
    intro q
    rcases hpoly with rfl | rfl <;> simp
  obtain ⟨clip, c1, c3⟩ := C69_clip_near hconv (a := a) (b := b) htol hab
  constructor
  · intro hshare
    match clip, c1, c3 with
    | none, c1, c3 =>
      obtain ⟨_, u, v, g1, g2, g3, g4, g5⟩ := hshare
      exact (c3 u v g1 g2 g3 g4 g5).elim
    | some (c, d), c1, c3 =>
      refine ⟨(some c, some d), ?_⟩
      rw [h6]
      exact ⟨a, b, r, _, box, hi, hj, e1, hbox', hshare.mono fun p hp => InPoly.inBox hconv.convex hbox hp, c, d, rfl,
        by rw [hst]; exact c1⟩
  · intro cd hmem
    rw [h6] at hmem
    obtain ⟨a', b', r', stored, box', g1, g2, g3, g4, g5, c, d, g6, g7⟩ := hmem
    rw [hi] at g1
    cases g1
    rw [hj] at g2
    cases g2
    rw [e1] at g3
    cases g3
    rw [hst, g4.unique hbox', c1] at g7
    rw [Except.ok.inj g7] at c3
    exact ⟨c, d, g6, c3⟩

theorem ClipSpec.reverse {a b : Pt K} {S : Pt K → Prop} {c d : Pt K} (h : ClipSpec a b S (some (c, d))) :
    ClipSpec b a S (some (d, c)) := by
  have e : ∀ u, lineAt b a u = lineAt a b (1 - u) := by
    intro u
    unfold lineAt
    congr 1 <;> ring
  obtain ⟨s, t, h0, h1, h2, h3, h4, h5⟩ := h
  refine ⟨1 - t, 1 - s, by linarith, by linarith, by linarith, ?_, ?_, ?_⟩
  · rw [e, sub_sub_cancel]; exact h4
  · rw [e, sub_sub_cancel]; exact h3
  · intro u hu hu'
    rw [e, h5 (1 - u) (by linarith) (by linarith)]
    constructor <;> rintro ⟨k1, k2⟩ <;> exact ⟨by linarith, by linarith⟩

/-- What remains of **C70** (exact arithmetic): reversing an edge reverses the reported piece, for strictly convex faces.
Missing: edges with an end outside the face but within the tolerance (see below). -/
theorem C70_direction_partial (hm : GoodMesh env vertices faces fill) (hmin : 0 < env.minTol)
    (ht : Makes env vertices faces fill nBuckets cellsPerLeaf t) {a b : Pt K} (hab : a ≠ b) {nThreads : Nat}
    (hn : 0 < nThreads) {sched : List Nat} (hs : sched.Perm (List.range nThreads)) :
    ∃ ii jj xy ii' jj' xy', t.intersectEdges env [(a, b)] nThreads sched = .ok (ii, jj, xy) ∧
      t.intersectEdges env [(b, a)] nThreads sched = .ok (ii', jj', xy') ∧
      ∀ j r poly box, faces.rows[j]? = some r → CcwFace vertices fill r poly → IsBBox poly box →
        ¬ InBand env poly box a → ¬ InBand env poly box b → ∀ c d,
        (j, c, d) ∈ jj.zip xy ↔ (j, d, c) ∈ jj'.zip xy' := by
  obtain ⟨ii, jj, xy, h1, l1, l2, _, _, h2⟩ := C40_intersect_edges_geometry hm hmin ht [(a, b)] hn hs
  obtain ⟨ii', jj', xy', h1', l1', l2', _, _, h2'⟩ := C40_intersect_edges_geometry hm hmin ht [(b, a)] hn hs
  obtain ⟨_, _, _, k1, _, _, _, _, k2⟩ := C40_intersect_edges_brute_force hm ht [(a, b)] hn hs
  obtain ⟨_, _, _, k1', _, _, _, _, k2'⟩ := C40_intersect_edges_brute_force hm ht [(b, a)] hn hs
  rw [h1] at k1
  cases k1
  rw [h1'] at k1'
  cases k1'
  refine ⟨ii, jj, xy, ii', jj', xy', h1, h1', ?_⟩
  -- all pairs are for the only edge
  have only : ∀ (ii jj : List Nat) (xy : List (Option (Pt K) × Option (Pt K))) (q : Pt K × Pt K), ii.length = jj.length →
      jj.length = xy.length → (∀ i j cd, (i, j, cd) ∈ ii.zip (jj.zip xy) → i = 0) →
      ∀ j cd, (j, cd) ∈ jj.zip xy ↔ (0, j, cd) ∈ ii.zip (jj.zip xy) := by
    intro ii jj xy q e1 e2 e3 j cd
    constructor
    · intro h
      obtain ⟨n, hn, e⟩ := List.getElem_of_mem h
      have hlt : n < (ii.zip (jj.zip xy)).length := by
        rw [List.length_zip] at hn ⊢
        rw [List.length_zip]; omega
      have hm := List.getElem_mem hlt
      rw [List.getElem_zip, e] at hm
      have := e3 _ _ _ hm
      rwa [this] at hm
    · intro h
      exact (List.of_mem_zip h).2
  have z : ∀ i j cd, (i, j, cd) ∈ ii.zip (jj.zip xy) → i = 0 := by
    intro i j cd h
    obtain ⟨_, _, _, _, _, g, _⟩ := (k2 i j cd).1 h
    have := (List.getElem?_eq_some_iff.1 g).1
    simpa using this
  have z' : ∀ i j cd, (i, j, cd) ∈ ii'.zip (jj'.zip xy') → i = 0 := by
    intro i j cd h
    obtain ⟨_, _, _, _, _, g, _⟩ := (k2' i j cd).1 h
    have := (List.getElem?_eq_some_iff.1 g).1
    simpa using this
  intro j r poly box hj hp hb ha hb' c d
  rw [only ii jj xy (a, b) l1 l2 z, only ii' jj' xy' (b, a) l1' l2' z', h2 0 j a b r poly box rfl hab hj hp hb ha hb',
    h2' 0 j b a r poly box rfl hab.symm hj hp hb hb' ha]
  constructor
  · rintro ⟨c, d, e, g⟩
    cases e
    exact ⟨d, c, rfl, g.reverse⟩
  · rintro ⟨c, d, e, g⟩
    cases e
    exact ⟨d, c, rfl, g.reverse⟩

/-- **C04** (edges, exact arithmetic): the number of threads and the order in which the chunks are processed have no
influence. -/
theorem C04_intersect_edges_thread_independent (hm : GoodMesh env vertices faces fill)
    (ht : Makes env vertices faces fill nBuckets cellsPerLeaf t) (edges : List (Pt K × Pt K)) {n n' : Nat}
    (hn : 0 < n) (hn' : 0 < n') {sched sched' : List Nat} (hs : sched.Perm (List.range n))
    (hs' : sched'.Perm (List.range n')) :
    t.intersectEdges env edges n sched = t.intersectEdges env edges n' sched' := by
  obtain ⟨hcol, _, bt, hc⟩ := ht.constructed' hm
  exact (locateEdges_spec hc.tree edges (fun q _ => (faceEdgeTotal hc hcol q.1 q.2).runs hc.tree) hn hs).trans
    (locateEdges_spec hc.tree edges (fun q _ => (faceEdgeTotal hc hcol q.1 q.2).runs hc.tree) hn' hs').symm

/-- **C05** (edges, exact arithmetic): the answer to a query does not depend on the other queries of the call. -/
theorem C05_intersect_edges_each_alone (hm : GoodMesh env vertices faces fill)
    (ht : Makes env vertices faces fill nBuckets cellsPerLeaf t) (edges : List (Pt K × Pt K)) {nThreads : Nat}
    (hn : 0 < nThreads) {sched : List Nat} (hs : sched.Perm (List.range nThreads)) :
    ∃ single : Pt K × Pt K → List (Nat × Option (Pt K) × Option (Pt K)),
      (∀ q, t.intersectEdges env [q] 1 [0] =
        .ok ((single q).map (fun _ => 0), (single q).map Prod.fst, (single q).map Prod.snd)) ∧
      t.intersectEdges env edges nThreads sched =
        .ok (edges.zipIdx.flatMap (fun p => (single p.1).map fun _ => p.2), edges.flatMap (fun q => (single q).map Prod.fst),
          edges.flatMap fun q => (single q).map Prod.snd) := by
  obtain ⟨hcol, _, bt, hc⟩ := ht.constructed' hm
  refine ⟨edgeHits t.data bt (edgeFaceIntersect env t.data), ?_, ?_⟩
  · intro q
    have := locateEdges_spec hc.tree [q] (fun q _ => (faceEdgeTotal hc hcol q.1 q.2).runs hc.tree) (n := 1) (by omega) (sched := [0])
      (List.Perm.refl _)
    unfold CellTree.intersectEdges
    rw [this]
    simp [edgeAll, Function.comp_def]
  · have := locateEdges_spec hc.tree edges (fun q _ => (faceEdgeTotal hc hcol q.1 q.2).runs hc.tree) hn hs
    unfold CellTree.intersectEdges
    rw [this]
    congr 2
    · simp [edgeAll, List.map_flatMap, Function.comp_def]
    · congr 1
      · simp only [edgeAll, List.map_flatMap, List.map_map, Function.comp_def]
        exact flatMap_zipIdx_fst _ (fun q => (edgeHits t.data bt (edgeFaceIntersect env t.data) q).map Prod.fst) _
      · simp only [edgeAll, List.map_flatMap, List.map_map, Function.comp_def]
        exact flatMap_zipIdx_fst _ (fun q => (edgeHits t.data bt (edgeFaceIntersect env t.data) q).map Prod.snd) _

end

/-! ## C05: the size of the buffer -/

section
variable {F : Type} [Add F] [Sub F] [Mul F] [Div F] [Neg F] [Zero F] [One F] [IntCast F]
  [LT F] [LE F] [BEq F] [DecidableLT F] [DecidableLE F] [NumOrd F]
variable {env : Env F} {vertices : List (Pt F)} {faces : IntArr} {fill nBuckets cellsPerLeaf : Int} {t : CellTree F}

/-- **C05** (boxes): a buffer of any positive size with any contents gives the same pairs. -/
theorem C05_boxes_any_buffer (hm : GoodMesh env vertices faces fill)
    (ht : Makes env vertices faces fill nBuckets cellsPerLeaf t) (boxes : List (Box F)) (offset : Nat)
    {buf : List (Nat × Nat)} (hbuf : 0 < buf.length) :
    ∃ arr arr' n, boxHelperLoop t.data offset boxes 0 buf 0 0 = .ok (arr, n) ∧
      locateBoxesHelper boxes t.data offset = .ok (arr', n) ∧ n ≤ arr.length ∧ n ≤ arr'.length ∧
      arr.take n = arr'.take n := by
  obtain ⟨bt, hc⟩ := ht.constructed hm
  obtain ⟨arr, n, h1, h2, h3⟩ := boxHelperLoop_spec hc.tree offset boxes 0 buf 0 hbuf (by omega)
  obtain ⟨arr', n', g1, g2, g3⟩ := boxHelperLoop_spec hc.tree offset boxes 0
    (List.replicate (max boxes.length 256) (0, 0)) 0 (by simp) (by omega)
  rw [List.take_zero, List.nil_append] at h3 g3
  have hn : n = n' := by
    have e1 := congrArg List.length h3
    have e2 := congrArg List.length g3
    rw [List.length_take, Nat.min_eq_left (by omega)] at e1 e2
    rw [e1, e2]
  subst hn
  exact ⟨arr, arr', n, h1, g1, h2, g2, by rw [h3, g3]⟩

end

section
variable {K : Type} [Field K] [LinearOrder K] [IsStrictOrderedRing K]
variable {env : Env K} {vertices : List (Pt K)} {faces : IntArr} {fill nBuckets cellsPerLeaf : Int} {t : CellTree K}

/-- **C05** (edges, exact arithmetic): buffers of any positive size with any contents give the same pairs and points. -/
theorem C05_edges_any_buffer (hm : GoodMesh env vertices faces fill)
    (ht : Makes env vertices faces fill nBuckets cellsPerLeaf t) (edges : List (Pt K × Pt K)) (offset : Nat)
    {buf : List (Nat × Nat)} {xy : List (Option (Pt K) × Option (Pt K))} (hbuf : 0 < buf.length)
    (hxy : xy.length = buf.length) :
    ∃ arr arr' axy axy' n,
      edgeHelperLoop t.data (edgeFaceIntersect env t.data) offset edges 0 buf xy 0 0 = .ok (arr, axy, n) ∧
      locateEdgesHelper edges t.data (edgeFaceIntersect env t.data) offset = .ok (arr', axy', n) ∧
      n ≤ arr.length ∧ n ≤ arr'.length ∧ arr.take n = arr'.take n ∧ axy.take n = axy'.take n := by
  obtain ⟨hcol, _, bt, hc⟩ := ht.constructed' hm
  obtain ⟨arr, axy, n, h1, h2, h3, h4, h5⟩ := edgeHelperLoop_spec hc.tree offset edges
    (fun q _ => (faceEdgeTotal hc hcol q.1 q.2).runs hc.tree) 0 buf xy 0 hbuf (by omega) hxy
  obtain ⟨arr', axy', n', g1, g2, g3, g4, g5⟩ := edgeHelperLoop_spec hc.tree offset edges
    (fun q _ => (faceEdgeTotal hc hcol q.1 q.2).runs hc.tree) 0 (List.replicate (max edges.length 256) (0, 0))
    (List.replicate (max edges.length 256) (none, none)) 0 (by simp) (by omega) (by simp)
  rw [List.take_zero, List.nil_append] at h4 h5 g4 g5
  have hn : n = n' := by
    have e1 := congrArg List.length h4
    have e2 := congrArg List.length g4
    rw [List.length_take, Nat.min_eq_left (by omega)] at e1 e2
    rw [e1, e2]
  subst hn
  exact ⟨arr, arr', axy, axy', n, h1, g1, h2, g2, by rw [h4, g4], by rw [h5, g5]⟩

end

/-! ## The hypotheses can be met -/

theorem Ex.qGood : GoodMesh Ex.qEnv Ex.qVerts Ex.faces (-999) :=
  ⟨Ex.faces_valid, fun _ _ _ _ => ⟨trivial, trivial⟩, trivial, trivial⟩

set_option synthInstance.maxSize 1000 in
/-- An edge through the quadrilateral and two triangles, one along a side of three faces, and one of length zero. -/
example : ∃ t, Makes Ex.qEnv Ex.qVerts Ex.faces (-999) 4 1 t ∧
    t.intersectEdges Ex.qEnv [(⟨-1, 1⟩, ⟨5, 1⟩), (⟨1, 2⟩, ⟨3, 2⟩), (⟨1, 1⟩, ⟨1, 1⟩)] 2 [1, 0] =
      .ok ([0, 0, 0, 1, 1, 1], [2, 1, 0, 2, 3, 0],
        [(some ⟨3, 1⟩, some ⟨4, 1⟩), (some ⟨2, 1⟩, some ⟨3, 1⟩), (some ⟨0, 1⟩, some ⟨2, 1⟩),
          (some ⟨2, 2⟩, some ⟨3, 2⟩), (some ⟨1, 2⟩, some ⟨2, 2⟩), (some ⟨1, 2⟩, some ⟨2, 2⟩)]) := by
  obtain ⟨t, h1, h2⟩ := bind_eq_ok.1 (show (CellTree.init Ex.qEnv Ex.qVerts Ex.faces (-999) 4 1 [2, 0, 3, 1] >>= fun t =>
    t.intersectEdges Ex.qEnv [(⟨-1, 1⟩, ⟨5, 1⟩), (⟨1, 2⟩, ⟨3, 2⟩), (⟨1, 1⟩, ⟨1, 1⟩)] 2 [1, 0]) =
      .ok ([0, 0, 0, 1, 1, 1], [2, 1, 0, 2, 3, 0],
        [(some ⟨3, 1⟩, some ⟨4, 1⟩), (some ⟨2, 1⟩, some ⟨3, 1⟩), (some ⟨0, 1⟩, some ⟨2, 1⟩),
          (some ⟨2, 2⟩, some ⟨3, 2⟩), (some ⟨1, 2⟩, some ⟨2, 2⟩), (some ⟨1, 2⟩, some ⟨2, 2⟩)]) by decide +kernel)
  exact ⟨t, ⟨[2, 0, 3, 1], by decide, h1⟩, h2⟩

/-- The second face of the mesh, which is given clockwise, and an end that is not just outside of it. -/
example : CcwFace Ex.qVerts (-999) [1, 4, 2, -999] [⟨4, 0⟩, ⟨2, 2⟩, ⟨2, 0⟩] ∧
    ¬ InBand Ex.qEnv [⟨4, 0⟩, ⟨2, 2⟩, ⟨2, 0⟩] ⟨2, 4, 0, 2⟩ ⟨-1, 1⟩ := by
  refine ⟨⟨by decide +kernel, Or.inr (by decide +kernel)⟩, ?_⟩
  rintro ⟨_, s, hs, hn⟩
  revert s
  decide +kernel

/-- An end just outside of the last face, within the tolerance. -/
def Ex.nearCorner : Pt ℚ := ⟨4 - 2 / 10 ^ 12, -1 / 10 ^ 12⟩

set_option synthInstance.maxSize 1000 in
/-- **C70** does not hold: the edge starts just outside of the face, and touches the face in a single corner. Reported is a
piece up to the corner; for the reversed edge, nothing. -/
theorem C70_direction_violated : ∃ t, Makes Ex.qEnv Ex.quad ⟨4, [[0, 1, 2, 3]]⟩ (-1) 4 2 t ∧
    t.intersectEdges Ex.qEnv [(Ex.nearCorner, ⟨5, 1 / 2⟩)] 1 [0] = .ok ([0], [0], [(some Ex.nearCorner, some ⟨4, 0⟩)]) ∧
    t.intersectEdges Ex.qEnv [(⟨5, 1 / 2⟩, Ex.nearCorner)] 1 [0] = .ok ([], [], []) := by
  obtain ⟨t, h1, h2⟩ := bind_eq_ok.1 (show (CellTree.init Ex.qEnv Ex.quad ⟨4, [[0, 1, 2, 3]]⟩ (-1) 4 2 [0] >>= fun t =>
    t.intersectEdges Ex.qEnv [(Ex.nearCorner, ⟨5, 1 / 2⟩)] 1 [0] >>= fun r =>
    t.intersectEdges Ex.qEnv [(⟨5, 1 / 2⟩, Ex.nearCorner)] 1 [0] >>= fun r' => .ok (r, r')) =
    .ok (([0], [0], [(some Ex.nearCorner, some ⟨4, 0⟩)]), ([], [], [])) by decide +kernel)
  obtain ⟨r, h3, h4⟩ := bind_eq_ok.1 h2
  obtain ⟨r', h5, h6⟩ := bind_eq_ok.1 h4
  obtain ⟨rfl, rfl⟩ := Prod.mk.inj (Except.ok.inj h6)
  exact ⟨t, ⟨[0], by decide, h1⟩, h3, h5⟩

/-- The end of that edge is in the band, and the face is strictly convex. -/
example : StrictlyConvex Ex.quad ∧ InBand Ex.qEnv Ex.quad ⟨0, 5, 0, 4⟩ Ex.nearCorner := by
  unfold InBand
  decide +kernel

end Celltree
