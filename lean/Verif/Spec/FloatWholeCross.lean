import Verif.Spec.FloatWhole
import Verif.Spec.Geometry

/-!
# Pairs of segments that count as meeting
-/

namespace Celltree

/-- The line through `p` and `q` passes between `a` and `b`. A point on the line counts as being to the right of it. -/
def PassesBetween (p q a b : Pt ℚ) : Prop := (0 < orient p q a ∧ orient p q b ≤ 0) ∨ (orient p q a ≤ 0 ∧ 0 < orient p q b)

/-- Two segments that count as meeting: the line of each passes between the ends of the other, or they are on one line and share a
point. -/
def Meet (a b p q : Pt ℚ) : Prop :=
  a ≠ b ∧ p ≠ q ∧ ((PassesBetween p q a b ∧ PassesBetween a b p q) ∨
    (orient a b p = 0 ∧ orient a b q = 0 ∧ ∃ c, ShareAt a b p q c))

end Celltree
