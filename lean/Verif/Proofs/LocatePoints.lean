import Verif.Proofs.Points
import Verif.Proofs.PointTest
import Verif.Spec.Exact

/-!
# `locate_points` on an object made from a mesh
-/

set_option linter.unusedSectionVars false

namespace Celltree

section
variable {F : Type} [Add F] [Sub F] [Mul F] [Div F] [Neg F] [Zero F] [One F] [IntCast F]
  [LT F] [LE F] [BEq F] [DecidableLT F] [DecidableLE F]

theorem pointLoop_error {p : Pt F} {tol : F} {v0 U : Pt F} {l : List (Pt F)} {c : Bool} {e : Err}
    (h : pointInPolygonOrOnEdgeLoop p tol v0 U l c = .error e) : e = .zeroDiv := by
  induction l generalizing v0 U c with
  | nil => cases h
  | cons v1 l ih =>
    unfold pointInPolygonOrOnEdgeLoop at h
    split at h
    · exact ih h
    · simp only at h
      split at h
      · cases h
      · unfold rayCrosses fdiv at h
        split at h
        · split at h
          · cases h; rfl
          · simp only [ok_bind] at h; exact ih h
        · simp only [ok_bind] at h; exact ih h

/-- The only way in which the test can fail is a division by zero. -/
theorem pointTest_error {p : Pt F} {tol : F} {poly : List (Pt F)} (hne : poly ≠ []) {e : Err}
    (h : pointInPolygonOrOnEdge p poly tol = .error e) : e = .zeroDiv := by
  unfold pointInPolygonOrOnEdge at h
  rw [rdI_last hne, ok_bind] at h
  exact pointLoop_error h

variable [NumOrd F]
open NumOrd

/-- Different values have a difference that is not zero: true for IEEE numbers because of gradual underflow. -/
def SubNonzero (ys : List F) : Prop := ∀ a ∈ ys, ∀ b ∈ ys, a < b → (a - b == 0) = false ∧ (b - a == 0) = false

theorem rayCrosses_ok {p v0 v1 : Pt F} {ys : List F} (hs : SubNonzero ys) (h0 : v0.y ∈ ys) (h1 : v1.y ∈ ys)
    (n0 : num v0.y) (n1 : num v1.y) : ∃ b, rayCrosses p v0 v1 = .ok b := by
  unfold rayCrosses
  split
  · rename_i hd
    have : (v1.y - v0.y == 0) = false := by
      by_cases ha : p.y < v0.y
      · have hb : ¬ p.y < v1.y := by
          intro hb; simp [ha, hb] at hd
        have hle := le_of_not_lt (num_of_lt ha).1 n1 hb
        exact (hs _ h1 _ h0 (lt_of_le_of_lt hle ha)).1
      · have hb : p.y < v1.y := by
          by_contra hb; simp [ha, hb] at hd
        have hle := le_of_not_lt (num_of_lt hb).1 n0 ha
        exact (hs _ h0 _ h1 (lt_of_le_of_lt hle hb)).2
    unfold fdiv
    rw [this]
    exact ⟨_, rfl⟩
  · exact ⟨_, rfl⟩

theorem pointLoop_ok {p : Pt F} {tol : F} {ys : List F} (hs : SubNonzero ys) {v0 U : Pt F} {l : List (Pt F)} {c : Bool}
    (h0 : v0.y ∈ ys) (n0 : num v0.y) (hl : ∀ v ∈ l, v.y ∈ ys ∧ num v.y) :
    ∃ b, pointInPolygonOrOnEdgeLoop p tol v0 U l c = .ok b := by
  induction l generalizing v0 U c with
  | nil => exact ⟨_, rfl⟩
  | cons v1 l ih =>
    have hl' : ∀ v ∈ l, v.y ∈ ys ∧ num v.y := fun v hv => hl v (by simp [hv])
    unfold pointInPolygonOrOnEdgeLoop
    split
    · exact ih h0 n0 hl'
    · simp only
      split
      · exact ⟨_, rfl⟩
      · obtain ⟨b, hb⟩ := rayCrosses_ok (p := p) hs h0 (hl v1 (by simp)).1 n0 (hl v1 (by simp)).2
        rw [hb, ok_bind]
        exact ih (hl v1 (by simp)).1 (hl v1 (by simp)).2 hl'

theorem pointTest_ok {p : Pt F} {tol : F} {poly : List (Pt F)} (hne : poly ≠ []) {ys : List F} (hs : SubNonzero ys)
    (hl : ∀ v ∈ poly, v.y ∈ ys ∧ num v.y) : ∃ b, pointInPolygonOrOnEdge p poly tol = .ok b := by
  unfold pointInPolygonOrOnEdge
  rw [rdI_last hne, ok_bind]
  have := List.getLast_mem hne
  exact pointLoop_ok hs (hl _ this).1 (hl _ this).2 hl

theorem IsBBox.has_of {pts : List (Pt F)} {b : Box F} (h : IsBBox pts b) {p : Pt F} (hp : InBoxOf pts p) : b.Has p := by
  obtain ⟨⟨v1, m1, h1⟩, ⟨v2, m2, h2⟩, ⟨v3, m3, h3⟩, ⟨v4, m4, h4⟩⟩ := hp
  exact ⟨NumOrd.le_trans (h.contains v1 m1).1 h1, NumOrd.le_trans h2 (h.contains v2 m2).2.1,
    NumOrd.le_trans (h.contains v3 m3).2.2.1 h3, NumOrd.le_trans h4 (h.contains v4 m4).2.2.2⟩

section
variable {env : Env F} {vertices : List (Pt F)} {faces : IntArr} {fill nBuckets cellsPerLeaf : Int} {t : CellTree F}

theorem Makes.constructed' (h : Makes env vertices faces fill nBuckets cellsPerLeaf t)
    (hm : GoodMesh env vertices faces fill) :
    faces.ncol ≤ maxNVertex ∧ faces.rows ≠ [] ∧
      ∃ bt, Constructed env vertices faces fill nBuckets.toNat cellsPerLeaf.toNat t bt := by
  obtain ⟨sched, hs, ht⟩ := h
  have := CellTree.init_spec env nBuckets cellsPerLeaf hm.valid hm.num hm.max hm.min hs
  rw [ht] at this
  exact this.2.2

/-- The answer for a single point. -/
theorem locatePoint_cases (h : Makes env vertices faces fill nBuckets cellsPerLeaf t)
    (hm : GoodMesh env vertices faces fill) (p : Pt F) (tol : F) :
    (∃ (j : Nat) (r : List Int), locatePoint p t.data tol = .ok (j : Int) ∧ faces.rows[j]? = some r ∧
      pointInPolygonOrOnEdge p (storedPts vertices fill faces.ncol r) tol = .ok true) ∨
    (locatePoint p t.data tol = .ok (-1) ∧ ∀ (j : Nat) (r : List Int), faces.rows[j]? = some r →
      InBoxOf (facePts vertices fill r) p →
      pointInPolygonOrOnEdge p (storedPts vertices fill faces.ncol r) tol = .ok false) ∨
    (∃ (j : Nat) (r : List Int) (e : Err), locatePoint p t.data tol = .error e ∧ faces.rows[j]? = some r ∧
      pointInPolygonOrOnEdge p (storedPts vertices fill faces.ncol r) tol = .error e) := by
  obtain ⟨hcol, hne, bt, hc⟩ := h.constructed' hm
  unfold locatePoint
  rcases locateWith_cases hc.tree (faceTest t.data p tol) p with ⟨j, h1, h2, h3⟩ | ⟨h1, h2⟩ | ⟨j, e, h1, h2, h3⟩
  · left
    rw [hc.boxes.length] at h2
    refine ⟨j, faces.rows[j], h1, by simp, ?_⟩
    rw [← faceTest_eq hc hcol (show faces.rows[j]? = some faces.rows[j] by simp)]
    exact h3
  · right; left
    refine ⟨h1, ?_⟩
    intro j r hj hb
    rw [← faceTest_eq hc hcol hj]
    obtain ⟨b, c1, c2⟩ := hc.boxes.box j r hj
    exact h2 j (pointCells_complete hc.tree c1 (c2.has_of hb))
  · right; right
    rw [hc.boxes.length] at h2
    refine ⟨j, faces.rows[j], e, h1, by simp, ?_⟩
    rw [← faceTest_eq hc hcol (show faces.rows[j]? = some faces.rows[j] by simp)]
    exact h3

theorem locatePoints_ok_iff {points : List (Pt F)} {τ : F} {sched : List Nat}
    (hs : sched.Perm (List.range points.length)) {res : List Int} :
    t.locatePoints env points (some τ) sched = .ok res ↔
      res.length = points.length ∧ ∀ (i : Nat) p v, points[i]? = some p → res[i]? = some v →
        locatePoint p t.data τ = .ok v := by
  unfold CellTree.locatePoints CellTree.tolerance Celltree.locatePoints
  rw [ok_bind, prange_eq_ok hs]
  constructor
  · rintro ⟨h1, h2⟩
    refine ⟨h1, ?_⟩
    intro i p v hp hv
    have hi := (List.getElem?_eq_some_iff.1 hv).1
    have := h2 i hi
    rw [rd_of_some hp, ok_bind, (List.getElem?_eq_some_iff.1 hv).2] at this
    exact this
  · rintro ⟨h1, h2⟩
    refine ⟨h1, ?_⟩
    intro i hi
    have hp : i < points.length := by omega
    rw [rd_of_lt hp, ok_bind]
    exact h2 i _ _ (by simp) (by simp)

end
end

section
variable {K : Type} [Field K] [LinearOrder K] [IsStrictOrderedRing K]
variable {env : Env K} {vertices : List (Pt K)} {faces : IntArr} {fill nBuckets cellsPerLeaf : Int} {t : CellTree K}

theorem storedPts_accepts (hm : GoodMesh env vertices faces fill)
    (h : Makes env vertices faces fill nBuckets cellsPerLeaf t) {j : Nat} {r : List Int} (hj : faces.rows[j]? = some r)
    (p : Pt K) (tol : K) :
    ∃ b, pointInPolygonOrOnEdge p (storedPts vertices fill faces.ncol r) tol = .ok b ∧
      (b = true ↔ Accepts tol (facePts vertices fill r) p) := by
  obtain ⟨hcol, hne, bt, hc⟩ := h.constructed' hm
  obtain ⟨_, h2, h3⟩ := hc.elements.polygon hcol hj
  have hne' : storedPts vertices fill faces.ncol r ≠ [] := by intro h; rw [h] at h3; simp at h3
  obtain ⟨b, h4, h5⟩ := pointInPolygonOrOnEdge_eq p hne' tol
  refine ⟨b, h4, h5.trans ?_⟩
  rcases h2 with h2 | h2 <;> rw [h2]
  exact accepts_reverse tol p _

/-- The answer for a single point, in exact arithmetic. -/
theorem locatePoint_exact (h : Makes env vertices faces fill nBuckets cellsPerLeaf t)
    (hm : GoodMesh env vertices faces fill) (p : Pt K) (tol : K) :
    (∃ (j : Nat) (r : List Int), locatePoint p t.data tol = .ok (j : Int) ∧ faces.rows[j]? = some r ∧
      Accepts tol (facePts vertices fill r) p) ∨
    (locatePoint p t.data tol = .ok (-1) ∧ ∀ (j : Nat) (r : List Int), faces.rows[j]? = some r →
      InBoxOf (facePts vertices fill r) p → ¬ Accepts tol (facePts vertices fill r) p) := by
  rcases locatePoint_cases h hm p tol with ⟨j, r, h1, h2, h3⟩ | ⟨h1, h2⟩ | ⟨j, r, e, h1, h2, h3⟩
  · left
    obtain ⟨b, c1, c2⟩ := storedPts_accepts hm h h2 p tol
    rw [h3] at c1
    cases c1
    exact ⟨j, r, h1, h2, c2.1 rfl⟩
  · right
    refine ⟨h1, ?_⟩
    intro j r hj hb hacc
    obtain ⟨b, c1, c2⟩ := storedPts_accepts hm h hj p tol
    rw [h2 j r hj hb] at c1
    cases c1
    cases c2.2 hacc
  · obtain ⟨b, c1, _⟩ := storedPts_accepts hm h h2 p tol
    rw [h3] at c1
    cases c1

/-- With tolerance zero an accepted point is in the bounding box of the face. -/
theorem accepts_zero_inBox {pts : List (Pt K)} {p : Pt K} (h : Accepts 0 pts p) : InBoxOf pts p := by
  rcases h with ⟨s, _, hs⟩ | h
  · exact (not_near_zero p s hs).elim
  · exact odd_in_box h

end
end Celltree
