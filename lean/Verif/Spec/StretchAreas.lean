import Verif.Spec.Stretch
import Mathlib.Order.Defs.LinearOrder

/-!
# Ranges in which rescaled meshes agree
-/

namespace Celltree

/-- Projections of the vertices on the normals of segments between vertices are in the range of the floats. With the constants of the
code this holds if all coordinates are below `10 ^ 153` in absolute value. -/
def ProductsInRange {F : Type} [Add F] [Sub F] [Mul F] [LT F] (env : Env F) (vertices : List (Pt F)) : Prop :=
  ∀ p ∈ vertices, ∀ q ∈ vertices, ∀ v ∈ vertices,
    env.floatMin < v.x * (p.y - q.y) + v.y * (q.x - p.x) ∧ v.x * (p.y - q.y) + v.y * (q.x - p.x) < env.floatMax

/-- The lower limit of the tolerance of the clip by a cell matters for no box. -/
def LimitIdle {K : Type} [Sub K] [Mul K] [LinearOrder K] (env : Env K) (boxes : List (Box K)) : Prop :=
  ∀ b ∈ boxes, env.minTol ≤ env.tolFactor * max (b.xmax - b.xmin) (b.ymax - b.ymin)

end Celltree
