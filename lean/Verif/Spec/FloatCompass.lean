import Verif.Spec.FloatWhole
import Verif.Spec.FloatPieces

/-!
# Edges in the eight compass directions
-/

namespace Celltree

/-- The segment from `a` to `b` is horizontal, vertical or diagonal. -/
def Compass (a b : Pt ℚ) : Prop := b.x - a.x = 0 ∨ b.y - a.y = 0 ∨ |b.x - a.x| = |b.y - a.y|

/-- The segment is `L` steps of integer size, with extents of at most `m`, and there are not too many of them: in a compass direction
up to `2 ^ 24` steps, and for a single step in any direction the extents are up to `2 ^ 12`. -/
def Steps (a b : Pt ℚ) : Prop :=
  ∃ L dx dy m : Int, 0 < L ∧ 1 ≤ m ∧ |dx| ≤ m ∧ |dy| ≤ m ∧ L * m ^ 2 ≤ 2 ^ 24 ∧ b.x - a.x = L * dx ∧ b.y - a.y = L * dy

namespace Fl

/-- A segment between points with integer coordinates, with extents of at most `2 ^ 24`. -/
structure Run (a b : Pt ℚ) : Prop where
  first : WholePt a
  second : WholePt b
  x : |b.x - a.x| ≤ 2 ^ 24
  y : |b.y - a.y| ≤ 2 ^ 24

/-- The segment is in a compass direction, or not too long and no corner of the box is on it. -/
def BoxClear (c : Box ℚ) (a b : Pt ℚ) : Prop :=
  Compass a b ∨ (|b.x - a.x| ≤ 2 ^ 18 ∧ |b.y - a.y| ≤ 2 ^ 18 ∧ ∀ v ∈ corners c, ∀ τ : ℚ, 0 ≤ τ → τ ≤ 1 → lineAt a b τ ≠ v)

/-- The number in binary64 for an end `p` of a piece of the segment from `a` to `b`: accurate, and exact if `p` is an end of the segment. -/
def EndAcc (a b p : Pt ℚ) (p' : Pt Fl) : Prop :=
  ∃ q, p' = fp q ∧ (p = a ∨ p = b → q = p) ∧ |q.x - p.x| ≤ 1 / 2 ^ 26 ∧ |q.y - p.y| ≤ 1 / 2 ^ 26

end Fl

end Celltree
