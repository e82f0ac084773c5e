import Verif.Spec.Float
import Verif.Spec.Geometry
import Mathlib.Algebra.Order.Group.Abs

/-!
# Polygons for which binary64 is accurate enough

`M` bounds the coordinates, `D` bounds the sides. The errors of the computations are bounded by a multiple of
`M` plus a multiple of `D`, relative to the precision of 53 bits.
-/

namespace Celltree.Fl

/-- The numbers with a binary64 representation, without the bound on the exponent. -/
def IsRep (q : ℚ) : Prop := ∃ (m : Int) (e : Int), q = m * 2 ^ e ∧ |m| < 2 ^ 53 ∧ -1074 ≤ e

/-- A value that exists in binary64. -/
def Rep : Fl → Prop
  | fin q => IsRep q ∧ |q| ≤ maxNat
  | _ => True

/-- The point with these finite coordinates. -/
def fp (p : Pt ℚ) : Pt Fl := ⟨fin p.x, fin p.y⟩

/-- The box with these finite coordinates. -/
def fbox (c : Box ℚ) : Box Fl := ⟨fin c.xmin, fin c.xmax, fin c.ymin, fin c.ymax⟩

/-- The point with the coordinates rounded to binary64. -/
def rndPt (x y : ℚ) : Pt Fl := ⟨rnd x, rnd y⟩

/-- A point with finite coordinates that exist in binary64. -/
def RepPt (p : Pt Fl) : Prop := ∃ q : Pt ℚ, p = fp q ∧ Rep p.x ∧ Rep p.y

/-- The coordinates are at most `B` in absolute value. -/
def Bnd (B : ℚ) (p : Pt ℚ) : Prop := |p.x| ≤ B ∧ |p.y| ≤ B

/-- The errors of the point test. -/
def slack (M D : ℚ) : ℚ := (8 * M + 64 * D) / 2 ^ 53

/-- What a side should satisfy: not longer than `D`, but longer than the errors, and not so close to horizontal that
quotients overflow. -/
structure GoodSide (M D : ℚ) (a b : Pt ℚ) : Prop where
  bnd_a : Bnd M a
  bnd_b : Bnd M b
  dx_le : |b.x - a.x| ≤ D
  dy_le : |b.y - a.y| ≤ D
  long : slack M D ≤ |b.x - a.x| ∨ slack M D ≤ |b.y - a.y|
  height : b.y = a.y ∨ 1 / 2 ^ 200 ≤ |b.y - a.y|

/-- What a polygon should satisfy. -/
structure GoodPoly (M D : ℚ) (l : List (Pt ℚ)) : Prop where
  bnd : ∀ v ∈ l, Bnd M v
  side : ∀ s ∈ sides l, s.1 ≠ s.2 → GoodSide M D s.1 s.2

/-- The side is not at 45 degrees up to rounding, with the y-direction just longer than the x-direction. -/
def Clear (a b : Pt ℚ) : Prop := |b.y - a.y| ≤ |b.x - a.x| ∨ (1 + 1 / 2 ^ 50) * |b.x - a.x| < |b.y - a.y|

/-- A convex polygon with coordinates up to `M`. Consecutive corners are equal or not extremely close. -/
structure SatPoly (M : ℚ) (l : List (Pt ℚ)) : Prop where
  convex : ConvexPoly l
  bnd : ∀ v ∈ l, Bnd M v
  apart : ∀ s ∈ sides l, s.1 ≠ s.2 → 1 / 2 ^ 900 ≤ |s.2.x - s.1.x| ∨ 1 / 2 ^ 900 ≤ |s.2.y - s.1.y|

/-- The square around `c` of half-width `r` is in the polygon. -/
def SquareIn (l : List (Pt ℚ)) (c : Pt ℚ) (r : ℚ) : Prop :=
  ∀ q : Pt ℚ, |q.x - c.x| ≤ r → |q.y - c.y| ≤ r → InPoly l q

/-- The polygon `B` reaches the line through the side from `p` to `q`, or comes nearer to it than the rounding errors. -/
def Reaches (M : ℚ) (p q : Pt ℚ) (B : List (Pt ℚ)) : Prop :=
  ∃ w ∈ B, -(M / 2 ^ 49 * (|q.x - p.x| + |q.y - p.y|)) < orient p q w

end Celltree.Fl
