import Verif.Model.Memory
import Verif.Props.Orient
import Verif.Props.EdgeTree

/-!
# What the calls do to the arrays of the caller, and the other way round: C23, C54, C57. Default tolerances: C50.
-/

set_option linter.unusedSectionVars false

namespace Celltree

section
variable {F : Type} [Add F] [Sub F] [Mul F] [Div F] [Neg F] [Zero F] [One F] [IntCast F]
  [LT F] [LE F] [BEq F] [DecidableLT F] [DecidableLE F]

theorem initH_eq_ok {env : Env F} {h h' : Heap} {vertices : List (Pt F)} {ref : Nat} {fill nBuckets cellsPerLeaf : Int}
    {sched : List Nat} {t : CellTree F}
    (hr : CellTree.initH env h vertices ref fill nBuckets cellsPerLeaf sched = .ok (h', t)) :
    ∃ faces copy, h[ref]? = some faces ∧ h' = h ++ [copy] ∧ t.data.elements = copy.rows ∧
      CellTree.init env vertices faces fill nBuckets cellsPerLeaf sched = .ok t := by
  unfold CellTree.initH at hr
  split at hr
  · cases hr
  split at hr
  · cases hr
  obtain ⟨faces, h1, hr⟩ := bind_eq_ok.1 hr
  obtain ⟨cast, h2, hr⟩ := bind_eq_ok.1 hr
  obtain ⟨c2, h3, hr⟩ := bind_eq_ok.1 hr
  obtain ⟨rows, h4, hr⟩ := bind_eq_ok.1 hr
  obtain ⟨hp, h5, hr⟩ := bind_eq_ok.1 hr
  obtain ⟨c3, h6, hr⟩ := bind_eq_ok.1 hr
  obtain ⟨t', h7, hr⟩ := bind_eq_ok.1 hr
  have hr := Except.ok.inj hr
  rw [Prod.mk.injEq] at hr
  obtain ⟨e1, e2⟩ := hr
  subst e1 e2
  have h3 := rd_eq_ok.1 h3
  simp only [List.getElem?_append_right (Nat.le_refl _), Nat.sub_self, List.getElem?_cons_zero, Option.some.injEq] at h3
  subst h3
  obtain ⟨_, h5⟩ := wr_eq_ok.1 h5
  have h5' : hp = h ++ [⟨cast.ncol, rows⟩] := by
    rw [h5, List.set_append_right _ _ (Nat.le_refl _)]; simp
  have h6 := rd_eq_ok.1 h6
  rw [h5'] at h6
  simp only [List.getElem?_append_right (Nat.le_refl _), Nat.sub_self, List.getElem?_cons_zero, Option.some.injEq] at h6
  subst h6
  refine ⟨faces, _, rd_eq_ok.1 h1, h5', ?_, ?_⟩
  · unfold CellTree.ofFaces at h7
    obtain ⟨_, _, h7⟩ := bind_eq_ok.1 h7
    obtain ⟨⟨_, _⟩, _, h7⟩ := bind_eq_ok.1 h7
    obtain ⟨_, _, h7⟩ := bind_eq_ok.1 h7
    cases h7; rfl
  · unfold CellTree.init
    rw [if_neg (by assumption), if_neg (by assumption), h2, ok_bind, h4, ok_bind, h7]

/-- **C23**: constructing a tree leaves all arrays of the caller as they are. It puts one new array in memory, which holds
the table of the tree. The tree is the one of the other theorems. -/
theorem C23_init_unchanged {env : Env F} {h h' : Heap} {vertices : List (Pt F)} {ref : Nat}
    {fill nBuckets cellsPerLeaf : Int} {sched : List Nat} {t : CellTree F}
    (hr : CellTree.initH env h vertices ref fill nBuckets cellsPerLeaf sched = .ok (h', t)) :
    (∃ copy, h' = h ++ [copy] ∧ t.data.elements = copy.rows) ∧
      ∃ faces, h[ref]? = some faces ∧ CellTree.init env vertices faces fill nBuckets cellsPerLeaf sched = .ok t := by
  obtain ⟨faces, copy, h1, h2, h3, h4⟩ := initH_eq_ok hr
  exact ⟨⟨copy, h2, h3⟩, faces, h1, h4⟩

theorem locateFacesH_eq_ok {env : Env F} {h h' : Heap} {t : CellTree F} {vertices : List (Pt F)} {ref nThreads : Nat}
    {sched sched1 : List Nat} {sched2 : Nat → List Nat} {i j : List Nat}
    (hr : t.locateFacesH env h vertices ref nThreads sched sched1 sched2 = .ok (h', i, j)) :
    ∃ faces rows, h[ref]? = some faces ∧ counterClockwise vertices faces.rows sched = .ok rows ∧
      h' = h.set ref ⟨faces.ncol, rows⟩ ∧
      t.locateFaces env vertices faces nThreads sched sched1 sched2 = .ok (rows, i, j) := by
  unfold CellTree.locateFacesH at hr
  obtain ⟨faces, h1, hr⟩ := bind_eq_ok.1 hr
  obtain ⟨⟨rows, i', j'⟩, h2, hr⟩ := bind_eq_ok.1 hr
  obtain ⟨hp, h3, hr⟩ := bind_eq_ok.1 hr
  have hr := Except.ok.inj hr
  simp only [Prod.mk.injEq] at hr
  obtain ⟨e1, e2, e3⟩ := hr
  subst e1 e2 e3
  refine ⟨faces, rows, rd_eq_ok.1 h1, ?_, (wr_eq_ok.1 h3).2, h2⟩
  unfold CellTree.locateFaces at h2
  obtain ⟨rows', h4, h2⟩ := bind_eq_ok.1 h2
  obtain ⟨_, _, h2⟩ := bind_eq_ok.1 h2
  obtain ⟨⟨_, _⟩, _, h2⟩ := bind_eq_ok.1 h2
  obtain ⟨_, _, h2⟩ := bind_eq_ok.1 h2
  have h2 := Except.ok.inj h2
  rw [Prod.mk.injEq] at h2
  rw [h4, h2.1]

/-- **C23**: `intersect_faces` leaves all arrays of the caller as they are. -/
theorem C23_intersect_faces_unchanged {env : Env F} {h h' : Heap} {t : CellTree F} {vertices : List (Pt F)}
    {ref nThreads : Nat} {fill : Int} {sched sched1 : List Nat} {sched2 sched3 : Nat → List Nat} {i j : List Nat}
    {area : List F}
    (hr : t.intersectFacesH env h vertices ref fill nThreads sched sched1 sched2 sched3 = .ok (h', i, j, area)) :
    ∃ copy, h' = h ++ [copy] := by
  unfold CellTree.intersectFacesH at hr
  obtain ⟨faces, h1, hr⟩ := bind_eq_ok.1 hr
  obtain ⟨cast, h2, hr⟩ := bind_eq_ok.1 hr
  obtain ⟨⟨hp, i', j'⟩, h3, hr⟩ := bind_eq_ok.1 hr
  obtain ⟨_, _, hr⟩ := bind_eq_ok.1 hr
  obtain ⟨_, _, hr⟩ := bind_eq_ok.1 hr
  have hr := Except.ok.inj hr
  simp only [Prod.mk.injEq] at hr
  obtain ⟨f2, rows, _, _, h4, _⟩ := locateFacesH_eq_ok h3
  refine ⟨⟨f2.ncol, rows⟩, ?_⟩
  rw [← hr.1, h4, List.set_append_right _ _ (Nat.le_refl _)]
  simp

/-- **C54**: a tree of faces does not share memory with its caller: whatever the caller does later with the arrays it had
(and with new ones), the queries see the same tree. The array that the constructor made is out of reach of the caller. -/
theorem C54_faces_independent {env : Env F} {h h' : Heap} {vertices : List (Pt F)} {ref : Nat}
    {fill nBuckets cellsPerLeaf : Int} {sched : List Nat} {o : TreeObj F}
    (hr : TreeObj.initFaces env h vertices ref fill nBuckets cellsPerLeaf sched = .ok (h', o)) :
    (∃ faces, h[ref]? = some faces ∧
      CellTree.init env vertices faces fill nBuckets cellsPerLeaf sched = .ok o.tree) ∧
      ∀ h2 : Heap, h2[h.length]? = h'[h.length]? → o.now h2 = .ok o.tree := by
  unfold TreeObj.initFaces at hr
  obtain ⟨⟨hp, t⟩, h1, hr⟩ := bind_eq_ok.1 hr
  have hr := Except.ok.inj hr
  rw [Prod.mk.injEq] at hr
  obtain ⟨e1, e2⟩ := hr
  subst e1 e2
  obtain ⟨faces, copy, h2, h3, h4, h5⟩ := initH_eq_ok h1
  refine ⟨⟨faces, h2, h5⟩, ?_⟩
  intro h2 hh
  rw [h3] at hh
  simp only [List.getElem?_append_right (Nat.le_refl _), Nat.sub_self, List.getElem?_cons_zero] at hh
  unfold TreeObj.now
  rw [rd_of_some hh, ok_bind, ← h4]

end

/-! ## `locate_faces` -/

section
variable {F : Type} [Add F] [Sub F] [Mul F] [Div F] [Neg F] [Zero F] [One F] [IntCast F]
  [LT F] [LE F] [BEq F] [DecidableLT F] [DecidableLE F] [NumOrd F]

theorem padRow_eq_self {n : Nat} {faces : IntArr} (hv : ValidFaces n (-1) faces) :
    (faces.rows.map fun r => padRow faces.ncol (rowIndices (-1) r)) = faces.rows := by
  conv => rhs; rw [← List.map_id faces.rows]
  apply List.map_congr_left
  intro r hr
  exact (padRow_of_valid (hv.rows r hr) (hv.rect r hr)).symm

/-- **C23**, `locate_faces` (partial: the property would be that nothing is changed). All other arrays are unchanged, and in
the table of faces that the caller passes every face keeps its place and its padding; its vertices may be reversed. -/
theorem C23_locate_faces_partial {env : Env F} {h h' : Heap} {t : CellTree F} {vertices : List (Pt F)} {ref nThreads : Nat}
    {sched sched1 : List Nat} {sched2 : Nat → List Nat} {i j : List Nat} {faces : IntArr} (href : h[ref]? = some faces)
    (hv : ValidFaces vertices.length (-1) faces) (hs : sched.Perm (List.range faces.rows.length))
    (hr : t.locateFacesH env h vertices ref nThreads sched sched1 sched2 = .ok (h', i, j)) :
    (∀ k, k ≠ ref → h'[k]? = h[k]?) ∧ ∃ rows : List (List Int), h'[ref]? = some ⟨faces.ncol, rows⟩ ∧ rows.length = faces.rows.length ∧
      ∀ (k : Nat) r, faces.rows[k]? = some r → rows[k]? = some r ∨
        rows[k]? = some ((rowIndices (-1) r).reverse ++ List.replicate (faces.ncol - (rowIndices (-1) r).length) (-1)) := by
  obtain ⟨f2, rows, h1, h2, h3, _⟩ := locateFacesH_eq_ok hr
  rw [href] at h1
  cases h1
  obtain ⟨rows', h4, h5⟩ := counterClockwise_oriented hv hs
  rw [padRow_eq_self hv, h2] at h4
  cases h4
  have hlt : ref < h.length := (List.getElem?_eq_some_iff.1 href).1
  refine ⟨fun k hk => ?_, rows, ?_, h5.length, ?_⟩
  · rw [h3, List.getElem?_set_ne (Ne.symm hk)]
  · rw [h3, List.getElem?_set_self hlt]
  · intro k r hk
    obtain ⟨B, e1, e2, _, _⟩ := h5.row k r hk
    have hm := List.mem_of_getElem? hk
    rcases e2 with rfl | rfl
    · left
      rw [e1]
      exact congrArg some (padRow_of_valid (hv.rows r hm) (hv.rect r hm)).symm
    · right
      rw [e1]; simp [padRow, fillValue]

end

section
variable {K : Type} [Field K] [LinearOrder K] [IsStrictOrderedRing K]
variable {env : Env K} {vertices : List (Pt K)} {faces : IntArr} {fill nBuckets cellsPerLeaf : Int} {t : CellTree K}

/-- **C23**, `locate_faces` (partial, exact arithmetic): if all faces that the caller passes are convex and counter-clockwise
then nothing is changed. -/
theorem C23_locate_faces_convex_partial {h h' : Heap} {ref nThreads : Nat}
    {sched sched1 : List Nat} {sched2 : Nat → List Nat} {i j : List Nat} (href : h[ref]? = some faces)
    (hv : ValidFaces vertices.length (-1) faces) (hs : sched.Perm (List.range faces.rows.length))
    (hconv : ∀ r ∈ faces.rows, ConvexPoly (facePts vertices (-1) r))
    (hr : t.locateFacesH env h vertices ref nThreads sched sched1 sched2 = .ok (h', i, j)) : h' = h := by
  obtain ⟨f2, rows, h1, h2, h3, _⟩ := locateFacesH_eq_ok hr
  rw [href] at h1
  cases h1
  have hg : ∀ r ∈ faces.rows, ccwFace vertices r = .ok (id r) := by
    intro r hm
    have := ccwFace_convex ((hv.rows r hm).row (hv.rect r hm)) (hconv r hm)
    have e := padRow_of_valid (hv.rows r hm) (hv.rect r hm)
    rw [show fillValue = -1 from rfl] at e
    rw [← e] at this
    exact this
  have := counterClockwise_ok hs id hg
  rw [h2, List.map_id] at this
  cases this
  rw [h3]
  obtain ⟨hlt, e⟩ := List.getElem?_eq_some_iff.1 href
  subst e
  exact List.set_getElem_self hlt

/-! ## Default tolerances -/

theorem foldl_fmax_mem (l : List K) (x : K) : l.foldl fmax x = x ∨ l.foldl fmax x ∈ l := by
  induction l generalizing x with
  | nil => left; rfl
  | cons y l ih =>
    rw [List.foldl_cons]
    rcases ih (fmax x y) with h | h
    · rw [h]
      rcases fmax_cases x y with h | h
      · rw [h]; exact .inl rfl
      · rw [h]; exact .inr (List.mem_cons_self ..)
    · exact .inr (List.mem_cons_of_mem _ h)

/-- **C50** (exact arithmetic): the default tolerance is the larger one of the smallest tolerance and the tolerance factor
times the largest diagonal of the bounding box of a face. `diag` is the length of the diagonal of the box around points. -/
theorem C50_default_tolerance (hm : GoodMesh env vertices faces fill)
    (ht : Makes env vertices faces fill nBuckets cellsPerLeaf t) (hf : 0 ≤ env.tolFactor) (diag : List (Pt K) → K)
    (hdiag : ∀ pts b, IsBBox pts b → diag pts = env.sqrt ((b.xmax - b.xmin) ^ 2 + (b.ymax - b.ymin) ^ 2)) :
    ∃ tol, t.tolerance env none = .ok tol ∧ env.minTol ≤ tol ∧
      (∀ r ∈ faces.rows, env.tolFactor * diag (facePts vertices fill r) ≤ tol) ∧
      (tol = env.minTol ∨ ∃ r ∈ faces.rows, tol = env.tolFactor * diag (facePts vertices fill r)) := by
  obtain ⟨_, hne, bt, hc⟩ := ht.constructed' hm
  have hbox : ∀ b ∈ t.data.bbCoords, ∃ r ∈ faces.rows, diag (facePts vertices fill r) = (bboxDistance env b).2.2 := by
    intro b hb
    obtain ⟨k, hk⟩ := List.mem_iff_getElem?.1 hb
    have hlt := (List.getElem?_eq_some_iff.1 hk).1
    rw [hc.boxes.length] at hlt
    obtain ⟨b', h1, h2⟩ := hc.boxes.box k _ (List.getElem?_eq_getElem hlt)
    rw [hk] at h1
    cases h1
    refine ⟨_, List.getElem_mem hlt, ?_⟩
    rw [hdiag _ _ h2]
    simp only [bboxDistance, pow_two]
  have hrow : ∀ r ∈ faces.rows, ∃ b ∈ t.data.bbCoords, diag (facePts vertices fill r) = (bboxDistance env b).2.2 := by
    intro r hr
    obtain ⟨k, hk⟩ := List.mem_iff_getElem?.1 hr
    obtain ⟨b, h1, h2⟩ := hc.boxes.box k r hk
    refine ⟨b, List.mem_of_getElem? h1, ?_⟩
    rw [hdiag _ _ h2]
    simp only [bboxDistance, pow_two]
  unfold CellTree.tolerance defaultTolerance
  rw [hc.distances, List.map_map]
  have hne' : t.data.bbCoords ≠ [] := by
    intro h
    have := hc.boxes.length
    rw [h] at this
    exact hne (List.length_eq_zero_iff.1 this.symm)
  obtain ⟨b, l, hbl⟩ := List.exists_cons_of_ne_nil hne'
  have hmax : ∃ m, maxList (t.data.bbCoords.map ((fun d => d.2.2) ∘ bboxDistance env)) = .ok m ∧
      m ∈ t.data.bbCoords.map ((fun d => d.2.2) ∘ bboxDistance env) := by
    rw [hbl, List.map_cons]
    refine ⟨_, rfl, ?_⟩
    rcases foldl_fmax_mem (l.map ((fun d => d.2.2) ∘ bboxDistance env)) (((fun d => d.2.2) ∘ bboxDistance env) b) with h | h
    · rw [h]; exact List.mem_cons_self ..
    · exact List.mem_cons_of_mem _ h
  obtain ⟨m, h1, h2⟩ := hmax
  rw [h1, ok_bind]
  refine ⟨_, rfl, le_fmax_left trivial, ?_, ?_⟩
  · intro r hr
    obtain ⟨b, hb, e⟩ := hrow r hr
    rw [fmax_eq]
    refine le_trans (mul_le_mul_of_nonneg_left ?_ hf) (le_max_right _ _)
    rw [e]
    exact maxList_ge h1 _ (List.mem_map.2 ⟨b, hb, rfl⟩)
  · rcases fmax_cases env.minTol (env.tolFactor * m) with h | h
    · exact .inl h
    · right
      obtain ⟨b, hb, e⟩ := List.mem_map.1 h2
      obtain ⟨r, hr, e'⟩ := hbox b hb
      refine ⟨r, hr, ?_⟩
      rw [h, e', ← e]
      rfl

end

/-! ## Violations -/

/-- **C23** is violated by `locate_faces`: a triangle that is given clockwise is reversed in the array of the caller. -/
theorem C23_locate_faces_violated :
    ∃ (t : CellTree ℚ) (vertices : List (Pt ℚ)) (faces : IntArr) (h' : Heap) (i j : List Nat),
      Makes Ex.qEnv Ex.qVerts Ex.faces (-999) 4 1 t ∧ ValidFaces vertices.length (-1) faces ∧
      t.locateFacesH Ex.qEnv [faces] vertices 0 1 [0] [0] List.range = .ok (h', i, j) ∧ h' ≠ [faces] := by
  let verts : List (Pt ℚ) := [⟨1, 1⟩, ⟨1, 3⟩, ⟨3, 1⟩]
  let faces : IntArr := ⟨3, [[0, 1, 2]]⟩
  obtain ⟨t, h1, h2⟩ := bind_eq_ok.1 (show (CellTree.init Ex.qEnv Ex.qVerts Ex.faces (-999) 4 1 [2, 0, 3, 1] >>= fun t =>
    t.locateFacesH Ex.qEnv [faces] verts 0 1 [0] [0] List.range) =
      .ok ([⟨3, [[2, 1, 0]]⟩], [0, 0, 0], [1, 3, 0]) by decide +kernel)
  refine ⟨t, verts, faces, _, _, _, ⟨_, by decide, h1⟩, ⟨by decide, ?_⟩, h2, by decide⟩
  intro r hr
  simp only [faces, List.mem_cons, List.not_mem_nil, or_false] at hr
  subst hr
  exact ⟨by decide, by decide, by decide⟩

/-- **C54** is violated by `EdgeCellTree2d`: the tree reads the array of the caller. Here the point `(1, 1)` is on edge 4.
After the caller has put the edges in reverse order the query, on the same tree, no longer finds it. -/
theorem C54_edges_violated :
    ∃ (o : TreeObj ℚ) (t t' : CellTree ℚ) (later : IntArr),
      TreeObj.initEdges Ex.qEnv [Ex.netEdges] Ex.netVerts 0 4 1 = .ok o ∧
      o.now [Ex.netEdges] = .ok t ∧ t.locatePointsOnEdge Ex.qEnv [⟨1, 1⟩] none [0] = .ok [4] ∧
      o.now [later] = .ok t' ∧ t'.locatePointsOnEdge Ex.qEnv [⟨1, 1⟩] none [0] = .ok [-1] := by
  obtain ⟨o, h1, h2⟩ := bind_eq_ok.1 (show (TreeObj.initEdges Ex.qEnv [Ex.netEdges] Ex.netVerts 0 4 1 >>= fun o =>
    (o.now [Ex.netEdges] >>= fun t => t.locatePointsOnEdge Ex.qEnv [⟨1, 1⟩] none [0]) >>= fun r =>
    (o.now [⟨2, Ex.netEdges.rows.reverse⟩] >>= fun t => t.locatePointsOnEdge Ex.qEnv [⟨1, 1⟩] none [0]) >>= fun s =>
    pure (r, s)) = .ok ([4], [-1]) by decide +kernel)
  obtain ⟨r, h3, h4⟩ := bind_eq_ok.1 h2
  obtain ⟨s, h5, h6⟩ := bind_eq_ok.1 h4
  obtain ⟨t, h7, h8⟩ := bind_eq_ok.1 h3
  obtain ⟨t', h9, h10⟩ := bind_eq_ok.1 h5
  have h6 := Except.ok.inj h6
  simp only [Prod.mk.injEq] at h6
  exact ⟨o, t, t', _, h1, h7, by rw [h8, h6.1], h9, by rw [h10, h6.2]⟩

/-- **C54** for `EdgeCellTree2d` (partial): the queries see the tree of the other theorems as long as the caller does not
change the content of the array of edges. -/
theorem C54_edges_partial {F : Type} [Add F] [Sub F] [Mul F] [Div F] [Neg F] [Zero F] [One F] [IntCast F]
    [LT F] [LE F] [BEq F] [DecidableLT F] [DecidableLE F] {env : Env F} {h : Heap} {vertices : List (Pt F)} {ref : Nat}
    {nBuckets cellsPerLeaf : Int} {o : TreeObj F}
    (hr : TreeObj.initEdges env h vertices ref nBuckets cellsPerLeaf = .ok o) :
    ∃ edges, h[ref]? = some edges ∧ EdgeCellTree.init env vertices edges nBuckets cellsPerLeaf = .ok o.tree ∧
      ∀ h2 : Heap, h2[ref]? = h[ref]? → o.now h2 = .ok o.tree := by
  unfold TreeObj.initEdges at hr
  obtain ⟨edges, h1, hr⟩ := bind_eq_ok.1 hr
  obtain ⟨t, h2, hr⟩ := bind_eq_ok.1 hr
  cases hr
  refine ⟨edges, rd_eq_ok.1 h1, h2, ?_⟩
  intro h2' hh
  have he : t.data.elements = edges.rows := by
    unfold EdgeCellTree.init at h2
    split at h2
    · cases h2
    split at h2
    · cases h2
    obtain ⟨_, _, h2⟩ := bind_eq_ok.1 h2
    obtain ⟨_, _, h2⟩ := bind_eq_ok.1 h2
    obtain ⟨⟨_, _⟩, _, h2⟩ := bind_eq_ok.1 h2
    obtain ⟨_, _, h2⟩ := bind_eq_ok.1 h2
    cases h2; rfl
  unfold TreeObj.now
  rw [rd_of_some (hh.trans (rd_eq_ok.1 h1)), ok_bind, ← he]

/-- **C57** is violated: a table of faces that is passed as an array-like which is no `np.ndarray` is changed by the
constructor. Padding is overwritten and clockwise faces are reversed. -/
theorem C57_array_like_violated :
    ∃ (o : TreeObj ℚ) (h' : Heap),
      TreeObj.initArrayLike Ex.qEnv [Ex.faces] Ex.qVerts 0 (-999) 4 1 [2, 0, 3, 1] = .ok (h', o) ∧
      h' = [⟨4, [[0, 1, 4, 3], [2, 4, 1, -1], [2, 5, 4, -1], [3, 4, 6, -1]]⟩] := by
  obtain ⟨⟨h', o⟩, h1, h2⟩ := bind_eq_ok.1 (show (TreeObj.initArrayLike Ex.qEnv [Ex.faces] Ex.qVerts 0 (-999) 4 1
    [2, 0, 3, 1] >>= fun r => pure r.1) = .ok [⟨4, [[0, 1, 4, 3], [2, 4, 1, -1], [2, 5, 4, -1], [3, 4, 6, -1]]⟩]
    by decide +kernel)
  exact ⟨o, h', h1, Except.ok.inj h2⟩

/-- **C57** (partial): for an array-like, the tree that is built is the same as for a copy, all other arrays are unchanged,
and the table of the caller becomes the table of the tree. -/
theorem C57_array_like_partial {F : Type} [Add F] [Sub F] [Mul F] [Div F] [Neg F] [Zero F] [One F] [IntCast F]
    [LT F] [LE F] [BEq F] [DecidableLT F] [DecidableLE F] {env : Env F} {h h' : Heap} {vertices : List (Pt F)} {ref : Nat}
    {fill nBuckets cellsPerLeaf : Int} {sched : List Nat} {o : TreeObj F}
    (hr : TreeObj.initArrayLike env h vertices ref fill nBuckets cellsPerLeaf sched = .ok (h', o)) :
    (∃ faces, h[ref]? = some faces ∧
      CellTree.init env vertices faces fill nBuckets cellsPerLeaf sched = .ok o.tree ∧
      h'[ref]? = some ⟨faces.ncol, o.tree.data.elements⟩) ∧ o.now h' = .ok o.tree ∧ ∀ k, k ≠ ref → h'[k]? = h[k]? := by
  unfold TreeObj.initArrayLike at hr
  split at hr
  · cases hr
  split at hr
  · cases hr
  obtain ⟨faces, h1, hr⟩ := bind_eq_ok.1 hr
  obtain ⟨cast, h2, hr⟩ := bind_eq_ok.1 hr
  obtain ⟨hp0, h0, hr⟩ := bind_eq_ok.1 hr
  obtain ⟨c2, h3, hr⟩ := bind_eq_ok.1 hr
  obtain ⟨rows, h4, hr⟩ := bind_eq_ok.1 hr
  obtain ⟨hp, h5, hr⟩ := bind_eq_ok.1 hr
  obtain ⟨c3, h6, hr⟩ := bind_eq_ok.1 hr
  obtain ⟨t, h7, hr⟩ := bind_eq_ok.1 hr
  have hr := Except.ok.inj hr
  rw [Prod.mk.injEq] at hr
  obtain ⟨e1, e2⟩ := hr
  subst e1 e2
  obtain ⟨hlt, h0⟩ := wr_eq_ok.1 h0
  obtain ⟨hlt', h5⟩ := wr_eq_ok.1 h5
  have h3 := rd_eq_ok.1 h3
  rw [h0, List.getElem?_set_self hlt] at h3
  cases h3
  have h6 := rd_eq_ok.1 h6
  rw [h5, List.getElem?_set_self hlt'] at h6
  cases h6
  have hn : cast.ncol = faces.ncol := by
    unfold castFaces at h2
    split at h2
    · cases h2
    split at h2 <;> cases h2 <;> rfl
  have he : t.data.elements = rows := by
    unfold CellTree.ofFaces at h7
    obtain ⟨_, _, h7⟩ := bind_eq_ok.1 h7
    obtain ⟨⟨_, _⟩, _, h7⟩ := bind_eq_ok.1 h7
    obtain ⟨_, _, h7⟩ := bind_eq_ok.1 h7
    cases h7; rfl
  have hget : hp[ref]? = some ⟨cast.ncol, rows⟩ := by rw [h5, List.getElem?_set_self hlt']
  refine ⟨⟨faces, rd_eq_ok.1 h1, ?_, by rw [hget, hn, he]⟩, ?_, ?_⟩
  · unfold CellTree.init
    rw [if_neg (by assumption), if_neg (by assumption), h2, ok_bind, h4, ok_bind, h7]
  · unfold TreeObj.now
    rw [rd_of_some hget, ok_bind, ← he]
  · intro k hk
    rw [h5, List.getElem?_set_ne (Ne.symm hk), h0, List.getElem?_set_ne (Ne.symm hk)]

/-! ## The hypotheses can be met -/

/-- A heap with three arrays: the faces are copied, and the copy is made counter-clockwise. -/
example : ∃ (t : CellTree ℚ) (h' : Heap),
    CellTree.initH Ex.qEnv [Ex.netEdges, Ex.faces, Ex.faces] Ex.qVerts 1 (-999) 4 1 [2, 0, 3, 1] = .ok (h', t) ∧
    h' = [Ex.netEdges, Ex.faces, Ex.faces, ⟨4, [[0, 1, 4, 3], [2, 4, 1, -1], [2, 5, 4, -1], [3, 4, 6, -1]]⟩] := by
  obtain ⟨⟨h', t⟩, h1, h2⟩ := bind_eq_ok.1 (show (CellTree.initH Ex.qEnv [Ex.netEdges, Ex.faces, Ex.faces] Ex.qVerts 1
    (-999) 4 1 [2, 0, 3, 1] >>= fun r => pure r.1) =
      .ok [Ex.netEdges, Ex.faces, Ex.faces, ⟨4, [[0, 1, 4, 3], [2, 4, 1, -1], [2, 5, 4, -1], [3, 4, 6, -1]]⟩]
    by decide +kernel)
  exact ⟨t, h', h1, Except.ok.inj h2⟩

/-- The hypothesis on `diag` can be met. -/
example : ∃ diag : List (Pt ℚ) → ℚ, ∀ pts b, IsBBox pts b →
    diag pts = Ex.qEnv.sqrt ((b.xmax - b.xmin) ^ 2 + (b.ymax - b.ymin) ^ 2) := by
  classical
  refine ⟨fun pts => if h : ∃ b, IsBBox pts b then
    Ex.qEnv.sqrt ((h.choose.xmax - h.choose.xmin) ^ 2 + (h.choose.ymax - h.choose.ymin) ^ 2) else 0, ?_⟩
  intro pts b hb
  have h : ∃ b, IsBBox pts b := ⟨b, hb⟩
  simp only [dif_pos h]
  have hu : ∀ b b' : Box ℚ, IsBBox pts b → IsBBox pts b' →
      b'.xmin ≤ b.xmin ∧ b.xmax ≤ b'.xmax ∧ b'.ymin ≤ b.ymin ∧ b.ymax ≤ b'.ymax := by
    intro b b' h1 h2
    obtain ⟨p1, m1, e1⟩ := h1.left
    obtain ⟨p2, m2, e2⟩ := h1.right
    obtain ⟨p3, m3, e3⟩ := h1.bottom
    obtain ⟨p4, m4, e4⟩ := h1.top
    rw [← e1, ← e2, ← e3, ← e4]
    exact ⟨(h2.contains _ m1).1, (h2.contains _ m2).2.1, (h2.contains _ m3).2.2.1, (h2.contains _ m4).2.2.2⟩
  have a1 := hu _ _ hb h.choose_spec
  have a2 := hu _ _ h.choose_spec hb
  rw [le_antisymm a1.1 a2.1, le_antisymm a2.2.1 a1.2.1, le_antisymm a1.2.2.1 a2.2.2.1, le_antisymm a2.2.2.2 a1.2.2.2]

/-- The default tolerance of the example mesh (with the stand-in `1 + x` for the root). -/
example : ∃ t, Makes Ex.qEnv Ex.qVerts Ex.faces (-999) 4 1 t ∧ t.tolerance Ex.qEnv none = .ok (9 / 10 ^ 12) := by
  obtain ⟨t, h1, h2⟩ := bind_eq_ok.1 (show (CellTree.init Ex.qEnv Ex.qVerts Ex.faces (-999) 4 1 [2, 0, 3, 1] >>= fun t =>
    t.tolerance Ex.qEnv none) = .ok (9 / 10 ^ 12) by decide +kernel)
  exact ⟨t, ⟨_, by decide, h1⟩, h2⟩

end Celltree
