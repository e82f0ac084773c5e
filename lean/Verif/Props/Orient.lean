import Verif.Proofs.FaceEdges
import Verif.Props.CyrusBeck
import Verif.Props.Build

/-!
# Orientation of faces: C21, C22
-/

set_option linter.unusedSectionVars false

namespace Celltree

section
variable {K : Type} [Field K] [LinearOrder K] [IsStrictOrderedRing K]
variable {env : Env K} {vertices : List (Pt K)} {faces : IntArr} {fill nBuckets cellsPerLeaf : Int} {t : CellTree K}

theorem GoodMesh.row' (hm : GoodMesh env vertices faces fill) {i : Nat} {r : List Int} (hi : faces.rows[i]? = some r) :
    Row vertices.length faces.ncol (rowIndices fill r) :=
  (hm.valid.rows r (List.mem_of_getElem? hi)).row (hm.valid.rect r (List.mem_of_getElem? hi))

/-- **C22** (exact arithmetic): a counter-clockwise convex face, possibly with straight or repeated corners, is stored as
it is given, with its padding replaced by `-1`. -/
theorem C22_convex_unchanged (hm : GoodMesh env vertices faces fill)
    (ht : Makes env vertices faces fill nBuckets cellsPerLeaf t) {i : Nat} {r : List Int} (hi : faces.rows[i]? = some r)
    (hconv : ConvexPoly (facePts vertices fill r)) :
    t.data.elements[i]? = some (rowIndices fill r ++ List.replicate (faces.ncol - (rowIndices fill r).length) (-1)) := by
  obtain ⟨B, h1, _, h3⟩ := (C22_only_reverses hm ht).2 i r hi
  have := ccwFace_convex (hm.row' hi) hconv
  rw [h1]
  exact congrArg some (Except.ok.inj (h3.symm.trans this))

/-- **C21** (exact arithmetic): a strictly convex face, given in either order, is stored counter-clockwise. -/
theorem C21_strictly_convex_counter_clockwise (hm : GoodMesh env vertices faces fill)
    (ht : Makes env vertices faces fill nBuckets cellsPerLeaf t) {i : Nat} {r : List Int} (hi : faces.rows[i]? = some r)
    (hconv : StrictlyConvex (facePts vertices fill r) ∨ StrictlyConvex (facePts vertices fill r).reverse) :
    ∃ stored, t.data.elements[i]? = some stored ∧ StrictlyConvex (facePts vertices (-1) stored) := by
  obtain ⟨bt, hc⟩ := ht.constructed hm
  obtain ⟨B, h1, _, h3, h4⟩ := hc.elements.row i r hi
  refine ⟨_, h1, ?_⟩
  have h0 : facePts vertices (-1) (padRow faces.ncol B) = storedPts vertices fill faces.ncol r := by
    unfold storedPts; rw [h4]; rfl
  rw [h0]
  rcases hconv with h | h
  · rw [storedPts_convex (hm.row' hi) h.convex]; exact h
  · rw [storedPts_clockwise (hm.row' hi) h]; exact h

/-- What remains of **C21** for convex faces with straight corners: a face is stored counter-clockwise if it is given
counter-clockwise, or if the corner at its last vertex is not straight. Missing: clockwise faces whose last corner is
straight (see below). -/
theorem C21_counter_clockwise_partial (hm : GoodMesh env vertices faces fill)
    (ht : Makes env vertices faces fill nBuckets cellsPerLeaf t) {i : Nat} {r : List Int} (hi : faces.rows[i]? = some r)
    (hconv : ConvexPoly (facePts vertices fill r) ∨ (ConvexPoly (facePts vertices fill r).reverse ∧
      ∃ l a b c, facePts vertices fill r = c :: l ++ [a, b] ∧ orient a b c ≠ 0)) :
    ∃ stored, t.data.elements[i]? = some stored ∧ ConvexPoly (facePts vertices (-1) stored) := by
  obtain ⟨bt, hc⟩ := ht.constructed hm
  obtain ⟨B, h1, _, h3, h4⟩ := hc.elements.row i r hi
  refine ⟨_, h1, ?_⟩
  have h0 : facePts vertices (-1) (padRow faces.ncol B) = storedPts vertices fill faces.ncol r := by
    unfold storedPts; rw [h4]; rfl
  rw [h0]
  rcases hconv with h | ⟨h, l, a, b, c, hl, ho⟩
  · rw [storedPts_convex (hm.row' hi) h]; exact h
  · have hrow := hm.row' hi
    rw [storedPts_eq hrow.reverse (ccwFace_clockwise hrow h ?_), ptsOf_reverse]
    · exact h
    · intro x y z hxyz
      have hlen := (ptsOf_spec hrow.range).1
      change _ <:+: (facePts vertices fill r).drop _ ++ (facePts vertices fill r).take 1 at hxyz
      change (facePts vertices fill r).length = _ at hlen
      rw [← hlen, hl] at hxyz
      have : (c :: l ++ [a, b]).drop ((c :: l ++ [a, b]).length - 2) ++ (c :: l ++ [a, b]).take 1 = [a, b, c] := by
        simp
      rw [this] at hxyz
      have := hxyz.eq_of_length rfl
      simp only [List.cons.injEq, and_true] at this
      obtain ⟨rfl, rfl, rfl⟩ := this
      exact ho

end

/-! ## A face that is not made counter-clockwise -/

/-- A triangle given clockwise, with an extra corner on its last side. -/
def Ex.cwTriangle : List (Pt ℚ) := [⟨0, 0⟩, ⟨0, 2⟩, ⟨2, 0⟩, ⟨1, 0⟩]

/-- **C21** does not hold: this clockwise convex face is reversed twice, so it is stored clockwise. -/
theorem C21_straight_corner_violated :
    ConvexPoly (facePts Ex.cwTriangle (-1) [0, 1, 2, 3]).reverse ∧
    ∃ t, Makes Ex.qEnv Ex.cwTriangle ⟨4, [[0, 1, 2, 3]]⟩ (-1) 4 2 t ∧ t.data.elements = [[0, 1, 2, 3]] ∧
      ¬ ConvexPoly (facePts Ex.cwTriangle (-1) [0, 1, 2, 3]) := by
  refine ⟨by decide +kernel, ?_⟩
  obtain ⟨t, h1, h2⟩ := bind_eq_ok.1 (show (CellTree.init Ex.qEnv Ex.cwTriangle ⟨4, [[0, 1, 2, 3]]⟩ (-1) 4 2 [0] >>= fun t =>
    .ok t.data.elements) = .ok [[0, 1, 2, 3]] by decide +kernel)
  exact ⟨t, ⟨[0], by decide, h1⟩, Except.ok.inj h2, by decide +kernel⟩

/-! ## The hypotheses can be met -/

/-- The faces of the example: the second one is given clockwise and stored reversed. -/
example : (∀ r ∈ Ex.faces.rows, StrictlyConvex (facePts Ex.qVerts (-999) r) ∨
      StrictlyConvex (facePts Ex.qVerts (-999) r).reverse) ∧
    ∃ t, Makes Ex.qEnv Ex.qVerts Ex.faces (-999) 4 1 t ∧
      t.data.elements = [[0, 1, 4, 3], [2, 4, 1, -1], [2, 5, 4, -1], [3, 4, 6, -1]] := by
  refine ⟨by decide +kernel, ?_⟩
  obtain ⟨t, h1, h2⟩ := bind_eq_ok.1 (show (CellTree.init Ex.qEnv Ex.qVerts Ex.faces (-999) 4 1 [2, 0, 3, 1] >>= fun t =>
    .ok t.data.elements) = .ok [[0, 1, 4, 3], [2, 4, 1, -1], [2, 5, 4, -1], [3, 4, 6, -1]] by decide +kernel)
  exact ⟨t, ⟨[2, 0, 3, 1], by decide, h1⟩, Except.ok.inj h2⟩

/-- A clockwise face with a straight corner elsewhere. -/
example : ConvexPoly ([⟨1, 0⟩, ⟨0, 0⟩, ⟨0, 2⟩, ⟨2, 0⟩] : List (Pt ℚ)).reverse ∧
    orient (⟨0, 2⟩ : Pt ℚ) ⟨2, 0⟩ ⟨1, 0⟩ ≠ 0 := by decide +kernel

end Celltree
