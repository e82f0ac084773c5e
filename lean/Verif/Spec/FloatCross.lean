import Verif.Spec.FloatPieces

/-!
# Edges that cross clearly, or clearly do not cross
-/

namespace Celltree.Fl

/-- `m` is the smallest tolerance and `f` the factor for tolerances. -/
structure Tols (env : Env Fl) (m f : ℚ) : Prop where
  min_eq : env.minTol = fin m
  factor_eq : env.tolFactor = fin f
  m_ge : 1 / 2 ^ 100 ≤ m
  m_le : m ≤ 2 ^ 200
  f_nonneg : 0 ≤ f
  f_le : f ≤ 1

/-- The segments `a b` and `p q` are in general position: no end of one is close to the line of the other. `E` is the size of
the two segments together. -/
structure CrossClear (m f E ρ : ℚ) (a b p q : Pt ℚ) : Prop where
  size : ∀ v ∈ [b, p, q], |v.x - a.x| ≤ E ∧ |v.y - a.y| ≤ E
  rho : 1 / 2 ^ 43 ≤ ρ ∧ ρ ≤ 1
  tol : 4 * m ≤ ρ * E ∧ 9 * f ≤ ρ
  first : ρ * E ^ 2 ≤ |orient a b p|
  second : ρ * E ^ 2 ≤ |orient a b q|
  third : ρ * E ^ 2 ≤ |orient p q a|
  fourth : ρ * E ^ 2 ≤ |orient p q b|

/-- How accurate the location of a crossing is. -/
def crossAcc (M E ρ : ℚ) : ℚ := E / (2 ^ 46 * ρ) + M / 2 ^ 48

/-- The query `a b` can be clipped to the box of the network: it is not close to its corners. -/
structure QueryClear (M : ℚ) (c : Box ℚ) (a b : Pt ℚ) : Prop where
  first : UsualPt M a
  second : UsualPt M b
  ne : a ≠ b
  corners : AvoidsCorners M c a b

end Celltree.Fl
