import Verif.Spec.FloatPieces
import Mathlib.Data.List.Rotate

/-!
# Rectangles in binary64
-/

namespace Celltree.Fl

/-- A rectangle with binary64 coordinates of at most `M`. The sides are not so short that they are lost in rounding. -/
structure GoodRect (M : ℚ) (c : Box ℚ) : Prop where
  usual : UsualBox M c
  wide : c.xmin + M / 2 ^ 42 ≤ c.xmax
  high : c.ymin + M / 2 ^ 42 ≤ c.ymax

/-- The corners of a rectangle, counter-clockwise. -/
def rectPts (c : Box ℚ) : List (Pt ℚ) := [⟨c.xmin, c.ymin⟩, ⟨c.xmax, c.ymin⟩, ⟨c.xmax, c.ymax⟩, ⟨c.xmin, c.ymax⟩]

/-- These points are the corners of the rectangle, in either order and starting at any corner. -/
def IsRect (pts : List (Pt Fl)) (c : Box ℚ) : Prop :=
  ∃ l, l ~r rectPts c ∧ (pts = l.map fp ∨ pts = l.reverse.map fp)

/-- A rectangle with binary64 coordinates: nothing overflows, and the sides are longer than `2 ^ -200`. -/
structure PlainRect (c : Box ℚ) : Prop where
  xmin : IsRep c.xmin ∧ |c.xmin| ≤ 2 ^ 200
  xmax : IsRep c.xmax ∧ |c.xmax| ≤ 2 ^ 200
  ymin : IsRep c.ymin ∧ |c.ymin| ≤ 2 ^ 200
  ymax : IsRep c.ymax ∧ |c.ymax| ≤ 2 ^ 200
  wide : c.xmin + 1 / 2 ^ 200 ≤ c.xmax
  high : c.ymin + 1 / 2 ^ 200 ≤ c.ymax

/-- The width of what two rectangles have in common. -/
def commonX (a c : Box ℚ) : ℚ := max 0 (min a.xmax c.xmax - max a.xmin c.xmin)

/-- The height of what two rectangles have in common. -/
def commonY (a c : Box ℚ) : ℚ := max 0 (min a.ymax c.ymax - max a.ymin c.ymin)

/-- How accurate an area of intersection is: an error of `2 ^ -40` times the largest coordinate, times the size of what the
rectangles have in common. -/
def rectAcc (M : ℚ) (a c : Box ℚ) : ℚ := M / 2 ^ 40 * (commonX a c + commonY a c + M / 2 ^ 40)

/-- The rectangles of the faces of a table. -/
def RectsOf (M : ℚ) (vertices : List (Pt Fl)) (fill : Int) (faces : IntArr) (cs : List (Box ℚ)) : Prop :=
  List.Forall₂ (fun r c => IsRect (facePts vertices fill r) c ∧ GoodRect M c) faces.rows cs

/-- The value of a finite number. -/
def val : Fl → ℚ
  | fin q => q
  | _ => 0

/-- How many of the rectangles have an area in common with this one. -/
def nCommon (q : Box ℚ) (cs : List (Box ℚ)) : Nat := cs.countP fun c => decide (commonX q c ≠ 0 ∧ commonY q c ≠ 0)

/-- How accurate a total of areas is: the errors of the areas, with the size of what they have in common at most the size of the
rectangle `q`. -/
def totalAcc (M : ℚ) (q : Box ℚ) (cs : List (Box ℚ)) : ℚ :=
  nCommon q cs * (M / 2 ^ 40 * ((q.xmax - q.xmin) + (q.ymax - q.ymin) + M / 2 ^ 40))

/-- The rectangles cover `q`, and no two of them have an area in common. -/
structure Tiles (cs : List (Box ℚ)) (q : Box ℚ) : Prop where
  apart : cs.Pairwise fun a c => commonX a c = 0 ∨ commonY a c = 0
  cover : ∀ p, InBox q p → ∃ c ∈ cs, InBox c p

end Celltree.Fl
