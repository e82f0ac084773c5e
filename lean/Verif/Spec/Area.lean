import Verif.Spec.Geometry
import Mathlib.MeasureTheory.Measure.Lebesgue.Basic

/-!
# Area

The shoelace formula over an ordered field, and, over the reals, the set of points of a polygon as a subset of the plane,
of which the area is the Lebesgue measure.
-/

namespace Celltree

section
variable {K : Type} [Field K] [LinearOrder K]

/-- The shoelace formula: the signed area of a polygon, positive if it is counter-clockwise. -/
def shoelace (l : List (Pt K)) : K := ((sides l).map fun s => s.1.x * s.2.y - s.1.y * s.2.x).sum / 2

end

/-- The closed convex polygon as a set of points in the plane. -/
def region (l : List (Pt ℝ)) : Set (ℝ × ℝ) := {p | InPoly l ⟨p.1, p.2⟩}

/-- The area of a set of points in the plane: its Lebesgue measure. -/
noncomputable def areaOf (s : Set (ℝ × ℝ)) : ℝ := (MeasureTheory.volume s).toReal

end Celltree
