import Verif.Props.Orient
import Verif.Props.FloatRects

/-!
# A tree that is built from the faces of another tree: C94
-/

namespace Celltree

section
variable {F : Type} [Add F] [Sub F] [Mul F] [Div F] [Neg F] [Zero F] [One F] [IntCast F]
  [LT F] [LE F] [BEq F] [DecidableLT F] [DecidableLE F] [NumOrd F]
variable {env : Env F} {vertices : List (Pt F)} {faces : IntArr} {fill nBuckets cellsPerLeaf : Int} {t : CellTree F}

/-- **C94** (any arithmetic): if the order of the stored faces is not changed a second time, building a tree from the attributes
`vertices` and `faces` of a tree gives the same as building it from the arrays of the caller, for all values of the parameters. -/
theorem C94_rebuild_if (hm : GoodMesh env vertices faces fill) (ht : Makes env vertices faces fill nBuckets cellsPerLeaf t)
    (hfix : ∀ s ∈ t.data.elements, ccwFace vertices s = .ok s) (nb cpl : Int) {sched sched' : List Nat}
    (hs : sched.Perm (List.range faces.rows.length)) (hs' : sched'.Perm (List.range t.data.elements.length)) :
    CellTree.init env t.data.vertices ⟨t.nMaxVert, t.data.elements⟩ (-1) nb cpl sched' =
      CellTree.init env vertices faces fill nb cpl sched := by
  obtain ⟨bt, hc⟩ := ht.constructed hm
  obtain ⟨rows, hr, ho⟩ := counterClockwise_oriented hm.valid hs
  have e : rows = t.data.elements := by
    apply List.ext_getElem?
    intro i
    by_cases hi : i < faces.rows.length
    · obtain ⟨B, h1, _, _, h2⟩ := ho.row i _ (List.getElem?_eq_getElem hi)
      obtain ⟨B', h1', _, _, h2'⟩ := hc.elements.row i _ (List.getElem?_eq_getElem hi)
      rw [h1, h1', Except.ok.inj (h2.symm.trans h2')]
    · rw [List.getElem?_eq_none (by rw [ho.length]; omega), List.getElem?_eq_none (by rw [hc.elements.length]; omega)]
  unfold CellTree.init
  rw [castFaces_spec hm.valid, hc.vertices_eq, hc.nMaxVert]
  have h1 : castFaces ⟨faces.ncol, t.data.elements⟩ (-1) =
      if faces.ncol > maxNVertex then .error .valueError else .ok ⟨faces.ncol, t.data.elements⟩ := by
    unfold castFaces
    simp [fillValue]
  rw [h1]
  by_cases h3 : faces.ncol > maxNVertex
  · rw [if_pos h3, if_pos h3]; rfl
  · rw [if_neg h3, if_neg h3, ok_bind, ok_bind]
    simp only
    rw [hr, counterClockwise_ok hs' id (fun s hs => hfix s hs), List.map_id, e]

end

section
variable {K : Type} [Field K] [LinearOrder K] [IsStrictOrderedRing K]
variable {env : Env K} {vertices : List (Pt K)} {faces : IntArr} {fill nBuckets cellsPerLeaf : Int} {t : CellTree K}

/-- **C94** (exact arithmetic): for a mesh of convex faces, in either order, with or without straight corners, a tree that is built
from the attributes `vertices` and `faces` of a tree is the same as one that is built from the arrays of the caller. -/
theorem C94_rebuild (hm : GoodMesh env vertices faces fill) (ht : Makes env vertices faces fill nBuckets cellsPerLeaf t)
    (hconv : ∀ r ∈ faces.rows, ConvexPoly (facePts vertices fill r) ∨ ConvexPoly (facePts vertices fill r).reverse) (nb cpl : Int)
    {sched sched' : List Nat}
    (hs : sched.Perm (List.range faces.rows.length)) (hs' : sched'.Perm (List.range t.data.elements.length)) :
    CellTree.init env t.data.vertices ⟨t.nMaxVert, t.data.elements⟩ (-1) nb cpl sched' =
      CellTree.init env vertices faces fill nb cpl sched := by
  refine C94_rebuild_if hm ht (fun s hs => ?_) nb cpl hs hs'
  obtain ⟨bt, hc⟩ := ht.constructed hm
  obtain ⟨i, hi⟩ := List.mem_iff_getElem?.1 hs
  have hi' : i < faces.rows.length := by rw [← hc.elements.length]; exact (List.getElem?_eq_some_iff.1 hi).1
  obtain ⟨B, h1, h2, h3, h4⟩ := hc.elements.row i _ (List.getElem?_eq_getElem hi')
  rw [h1] at hi
  cases hi
  rcases h2 with rfl | rfl
  · exact h4
  · rcases hconv _ (List.getElem_mem hi') with h | h
    · -- a counter-clockwise face is not reversed
      have := ccwFace_convex (hm.row' (List.getElem?_eq_getElem hi')) h
      rw [Except.ok.inj (h4.symm.trans this)]
      exact this
    · exact ccwFace_convex h3 (by rw [ptsOf_reverse]; exact h)

/-- The same parameters give the same tree. -/
theorem C94_same_tree (hm : GoodMesh env vertices faces fill) (ht : Makes env vertices faces fill nBuckets cellsPerLeaf t)
    (hconv : ∀ r ∈ faces.rows, ConvexPoly (facePts vertices fill r) ∨ ConvexPoly (facePts vertices fill r).reverse) :
    Makes env t.data.vertices ⟨t.nMaxVert, t.data.elements⟩ (-1) nBuckets cellsPerLeaf t := by
  obtain ⟨sched, hs, h⟩ := id ht
  exact ⟨_, List.Perm.refl _, (C94_rebuild hm ht hconv _ _ hs (List.Perm.refl _)).trans h⟩

end

/-! ## binary64 -/

namespace Fl

variable {vertices : List (Pt Fl)} {faces : IntArr} {fill nBuckets cellsPerLeaf : Int} {t : CellTree Fl} {M : ℚ}

/-- **C94** (binary64): the same for a mesh of rectangles with sides along the axes, in either order. -/
theorem C94_rebuild_rectangles (hm : GoodMesh Fl.env vertices faces fill)
    (ht : Makes Fl.env vertices faces fill nBuckets cellsPerLeaf t) (hM : 1 / 2 ^ 100 ≤ M) (hM' : M ≤ 2 ^ 198)
    (hrect : ∀ r ∈ faces.rows, ∃ c, IsRect (facePts vertices fill r) c ∧ GoodRect M c) (nb cpl : Int) {sched sched' : List Nat}
    (hs : sched.Perm (List.range faces.rows.length)) (hs' : sched'.Perm (List.range t.data.elements.length)) :
    CellTree.init Fl.env t.data.vertices ⟨t.nMaxVert, t.data.elements⟩ (-1) nb cpl sched' =
      CellTree.init Fl.env vertices faces fill nb cpl sched := by
  refine C94_rebuild_if hm ht (fun s hs => ?_) nb cpl hs hs'
  obtain ⟨bt, hc⟩ := ht.constructed hm
  obtain ⟨i, hi⟩ := List.mem_iff_getElem?.1 hs
  have hi' : i < faces.rows.length := by rw [← hc.elements.length]; exact (List.getElem?_eq_some_iff.1 hi).1
  obtain ⟨B, h1, h2, h3, h4⟩ := hc.elements.row i _ (List.getElem?_eq_getElem hi')
  rw [h1] at hi
  cases hi
  have hr : Row vertices.length faces.ncol (rowIndices fill faces.rows[i]) :=
    (hm.valid.rows _ (List.getElem_mem hi')).row (hm.valid.rect _ (List.getElem_mem hi'))
  obtain ⟨c, ⟨l, hl, hp⟩, hgood⟩ := hrect _ (List.getElem_mem hi')
  have e1 : ptsOf vertices B = l.map fp := (storedPts_eq h3 h4).symm.trans (rect_stored_of hM hM' hgood hr hl hp)
  obtain ⟨B', g1, g2⟩ := ccwFace_spec h3
  rcases g2 with rfl | rfl
  · exact g1
  · -- it would be stored clockwise
    exfalso
    have hB : rowIndices fillValue (padRow faces.ncol B) = B := h3.rowIndices
    have e2 : storedPts vertices fillValue faces.ncol (padRow faces.ncol B) = ptsOf vertices B.reverse :=
      storedPts_eq h3.reverse (by rw [hB]; exact g1)
    have e3 := rect_stored_of (fill := fillValue) (r := padRow faces.ncol B) hM hM' hgood (by rw [hB]; exact h3) hl
      (Or.inl (by unfold facePts; rw [hB]; exact e1))
    rw [e2, ptsOf_reverse, e1, ← List.map_reverse] at e3
    have e4 := List.map_injective_iff.2 (fun _ _ h => fp_inj h) e3
    obtain ⟨x1, y1⟩ := hgood.pos hM hM'
    rcases rect_rotations hM hM' hgood hgood hl with e | e | e | e <;> rw [e] at e4 <;>
      simp only [List.reverse_cons, List.reverse_nil, List.nil_append, List.cons_append, List.cons.injEq, Pt.mk.injEq] at e4
    · linarith [e4.1.2]
    · linarith [e4.1.1]
    · linarith [e4.1.2]
    · linarith [e4.1.1]

end Fl

/-! ## The hypotheses can be met -/

/-- The first face is given clockwise, and reversed in the tree. -/
example : ∃ t, Makes Fl.env Ex.decVerts Ex.decFaces (-1) 4 2 t ∧ t.data.elements = [[4, 3, 0, 1], [4, 1, 2, 5]] ∧
    Makes Fl.env t.data.vertices ⟨t.nMaxVert, t.data.elements⟩ (-1) 4 2 t := by
  obtain ⟨t, h1, h2⟩ := bind_eq_ok.1 (show (CellTree.init Fl.env Ex.decVerts Ex.decFaces (-1) 4 2 [0, 1] >>= fun t =>
    .ok t.data.elements) = .ok [[4, 3, 0, 1], [4, 1, 2, 5]] by decide +kernel)
  have hm : Makes Fl.env Ex.decVerts Ex.decFaces (-1) 4 2 t := ⟨_, by decide, h1⟩
  exact ⟨t, hm, Except.ok.inj h2, _, List.Perm.refl _, (Fl.C94_rebuild_rectangles (M := 1) Ex.dec_good hm (by norm_num) (by norm_num)
    Ex.dec_rects 4 2 (sched := [0, 1]) (by decide) (List.Perm.refl _)).trans h1⟩

/-- A face with a straight corner, given clockwise: the tree keeps it clockwise (C21), and so does the second tree. -/
example : ConvexPoly (facePts Ex.cwTriangle (-1) [0, 1, 2, 3]).reverse ∧
    ∃ t, Makes Ex.qEnv Ex.cwTriangle ⟨4, [[0, 1, 2, 3]]⟩ (-1) 4 2 t ∧ t.data.elements = [[0, 1, 2, 3]] := by
  obtain ⟨h, t, h1, h2, _⟩ := C21_straight_corner_violated
  exact ⟨h, t, h1, h2⟩

/-- A face that crosses itself is reversed every time. -/
def Ex.bowTie : List (Pt ℚ) := [⟨0, 5⟩, ⟨1, 3⟩, ⟨5, 4⟩, ⟨5, 3⟩]

/-- For a face that is not convex this does not hold in general: a tree that is built from a tree may have its faces in the other
order. -/
theorem C94_bow_tie : ∃ t t', Makes Ex.qEnv Ex.bowTie ⟨4, [[0, 1, 2, 3]]⟩ (-1) 4 2 t ∧ t.data.elements = [[3, 2, 1, 0]] ∧
    Makes Ex.qEnv Ex.bowTie ⟨4, t.data.elements⟩ (-1) 4 2 t' ∧ t'.data.elements = [[0, 1, 2, 3]] := by
  obtain ⟨t, h1, h2⟩ := bind_eq_ok.1 (show (CellTree.init Ex.qEnv Ex.bowTie ⟨4, [[0, 1, 2, 3]]⟩ (-1) 4 2 [0] >>= fun t =>
    .ok t.data.elements) = .ok [[3, 2, 1, 0]] by decide +kernel)
  obtain ⟨t', h1', h2'⟩ := bind_eq_ok.1 (show (CellTree.init Ex.qEnv Ex.bowTie ⟨4, [[3, 2, 1, 0]]⟩ (-1) 4 2 [0] >>= fun t =>
    .ok t.data.elements) = .ok [[0, 1, 2, 3]] by decide +kernel)
  have e := Except.ok.inj h2
  exact ⟨t, t', ⟨[0], by decide, h1⟩, e, by rw [e]; exact ⟨[0], by decide, h1'⟩, Except.ok.inj h2'⟩

end Celltree
