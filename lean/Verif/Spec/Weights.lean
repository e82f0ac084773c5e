import Verif.Spec.Geometry

/-!
# Interpolation weights
-/

namespace Celltree

section
variable {K : Type} [Field K] [LinearOrder K]

/-- The weighted sum of the corners. -/
def weighted (pts : List (Pt K)) (row : List K) : Pt K :=
  ⟨((row.zip pts).map fun q => q.1 * q.2.x).sum, ((row.zip pts).map fun q => q.1 * q.2.y).sum⟩

/-- A row of weights, one for every corner and zero in the remaining columns: the weights are not negative, they sum to
one, and the weighted sum of the corners is the point. -/
structure Interpolates (pts : List (Pt K)) (p : Pt K) (row : List K) : Prop where
  nonneg : ∀ w ∈ row, 0 ≤ w
  sum : row.sum = 1
  pad : ∀ w ∈ row.drop pts.length, w = 0
  point : weighted pts row = p

/-- The weights for linear interpolation along a side that contains the point: all others are zero. -/
def SideWeights (pts : List (Pt K)) (p : Pt K) (row : List K) : Prop :=
  ∃ (i : Nat) (a b : Pt K) (u : K), pts[i]? = some a ∧ pts[(i + 1) % pts.length]? = some b ∧ 0 ≤ u ∧ u ≤ 1 ∧
    p = lineAt a b u ∧ row = ((List.replicate row.length 0).set i (1 - u)).set ((i + 1) % pts.length) u

/-- The point is on the side. -/
def OnSide (p : Pt K) (s : Pt K × Pt K) : Prop := ∃ u, 0 ≤ u ∧ u ≤ 1 ∧ p = lineAt s.1 s.2 u

/-- A face whose corners are not on one line, and in which no corner is given twice in a row. -/
def NonDegenerate (pts : List (Pt K)) : Prop :=
  (∀ s ∈ sides pts, s.1 ≠ s.2) ∧ ∃ a ∈ pts, ∃ b ∈ pts, ∃ c ∈ pts, orient a b c ≠ 0

/-- The square root. -/
def IsSqrt (f : K → K) : Prop := ∀ x, 0 ≤ x → 0 ≤ f x ∧ f x * f x = x

end
end Celltree
