import Verif.Spec.Faces
import Verif.Spec.Weights

/-!
# Conforming meshes and interpolated values
-/

namespace Celltree

section
variable {K : Type} [Field K] [LinearOrder K]

/-- The interpolated value: the sum of the weights times the values at the vertices of the face. -/
def interpolated (f : Int → K) (face : List Int) (row : List K) : K := ((row.zip face).map fun q => q.1 * f q.2).sum

/-- The point is a vertex that two faces share, or is on a side that they share. -/
def SharedAt (vertices : List (Pt K)) (l m : List Int) (p : Pt K) : Prop :=
  (∃ v ∈ l, v ∈ m ∧ vertices[v.toNat]? = some p) ∨
  ∃ v w a b, ((v, w) ∈ sides l ∨ (w, v) ∈ sides l) ∧ ((v, w) ∈ sides m ∨ (w, v) ∈ sides m) ∧
    vertices[v.toNat]? = some a ∧ vertices[w.toNat]? = some b ∧ OnSide p (a, b)

/-- Wherever two faces meet, they share the vertex or the side: there are no hanging nodes and no overlaps. -/
def Conforming (vertices : List (Pt K)) (fill : Int) (faces : IntArr) : Prop :=
  ∀ (i j : Nat) r s, i ≠ j → faces.rows[i]? = some r → faces.rows[j]? = some s → ∀ p, InFace (facePts vertices fill r) p →
    InFace (facePts vertices fill s) p → SharedAt vertices (rowIndices fill r) (rowIndices fill s) p

end
end Celltree
