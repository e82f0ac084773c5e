import Verif.Spec.FloatSize

/-!
# Edges along the axes in binary64
-/

namespace Celltree.Fl

/-- An edge along one of the axes: nothing overflows, and the edge is longer than `2 ^ -200`. -/
structure PlainEdge (a b : Pt ℚ) : Prop where
  bnd_a : Bnd (2 ^ 200) a
  bnd_b : Bnd (2 ^ 200) b
  dir : (b.y = a.y ∧ 1 / 2 ^ 200 ≤ |b.x - a.x|) ∨ (b.x = a.x ∧ 1 / 2 ^ 200 ≤ |b.y - a.y|)

/-- The point is opposite to a point of the segment, in one of the two directions of the axes, at a distance of at most `δ`. -/
def NearSeg (δ : ℚ) (a b p : Pt ℚ) : Prop :=
  ∃ s, 0 ≤ s ∧ s ≤ 1 ∧ ((p.x = (lineAt a b s).x ∧ |p.y - (lineAt a b s).y| ≤ δ) ∨
    (p.y = (lineAt a b s).y ∧ |p.x - (lineAt a b s).x| ≤ δ))

end Celltree.Fl
