import Verif.Spec.StretchAreas

/-!
# Ranges in which rescaled networks agree
-/

namespace Celltree

section
variable {K : Type} [Add K] [Sub K] [Mul K] [Neg K] [LinearOrder K] [Zero K] [One K]

/-- The coordinates are at most `m` in absolute value, and there is room for the tolerance by which boxes are widened between `m` and the
largest float. -/
def RoomFor (env : Env K) (m : K) (vertices : List (Pt K)) : Prop :=
  (∀ p ∈ vertices, (-m ≤ p.x ∧ p.x ≤ m) ∧ -m ≤ p.y ∧ p.y ≤ m) ∧
    m + max env.minTol (env.tolFactor * (m + m)) < env.floatMax ∧ env.floatMin < -(m + max env.minTol (env.tolFactor * (m + m)))

/-- Two vertices are so far apart in one of the coordinates that the lower limit of the widening of the boxes does not matter. -/
def WideEnough (env : Env K) (vertices : List (Pt K)) : Prop :=
  ∃ p ∈ vertices, ∃ q ∈ vertices, env.minTol ≤ env.tolFactor * (p.x - q.x) ∨ env.minTol ≤ env.tolFactor * (p.y - q.y)

/-- The ends of every edge, other than edges of length zero, are so far apart in one of the coordinates that the lower limit of the
tolerance of the intersection does not matter. -/
def LongEdges (env : Env K) (vertices : List (Pt K)) (edges : IntArr) : Prop :=
  ∀ j p q, IsEdge vertices edges j p q → p ≠ q →
    env.minTol ≤ env.tolFactor * max (max (q.x - p.x) (p.x - q.x)) (max (q.y - p.y) (p.y - q.y))

end

end Celltree
