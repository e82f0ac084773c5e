import Verif.Spec.FloatWhole

/-!
# Points of a grid whose spacing is a power of two
-/

namespace Celltree

/-- The coordinates are multiplied by `2 ^ k`. -/
def gridPt (k : Int) (p : Pt ℚ) : Pt ℚ := ⟨2 ^ k * p.x, 2 ^ k * p.y⟩

/-- A point of the grid with spacing `2 ^ k`, at most `2 ^ 25` spacings from the axes. -/
def GridPt (k : Int) (p : Pt ℚ) : Prop := ∃ q, p = gridPt k q ∧ WholePt q

/-- The corners of a polygon are points of the grid with spacing `2 ^ k`, and it is at most `2 ^ 18` spacings wide and high. -/
def GridPoly (k : Int) (l : List (Pt ℚ)) : Prop := ∃ l0, l = l0.map (gridPt k) ∧ WholePoly l0

end Celltree
