import Verif.Spec.Geometry

/-!
# Wachspress coordinates
-/

namespace Celltree

/-- All corners of a polygon: the previous corner, the corner and the next one. -/
def cornersOf {α : Type} (l : List α) : List (α × α × α) := (l.rotate (l.length - 1)).zip (l.zip (l.rotate 1))

section
variable {K : Type} [Field K]

/-- The weight of corner `b`, between `a` and `c`, for the point `p`: the area of the triangle of the three corners, divided by
the areas of the triangles of the two sides with `p`. -/
def wachspressTerm (p a b c : Pt K) : K := orient a b c / (orient a b p * orient b c p)

/-- The mean of the values `f` at the vertices `l`, which have the positions `P`, with these weights. -/
def wachspressValue (P : Int → Pt K) (f : Int → K) (l : List Int) (p : Pt K) : K :=
  ((cornersOf l).map fun q => wachspressTerm p (P q.1) (P q.2.1) (P q.2.2) * f q.2.1).sum /
    ((cornersOf l).map fun q => wachspressTerm p (P q.1) (P q.2.1) (P q.2.2)).sum

end
end Celltree
