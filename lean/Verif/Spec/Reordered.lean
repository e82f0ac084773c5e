import Verif.Spec.Faces
import Mathlib.Data.List.Rotate

/-!
# Other ways to write down the faces of a mesh
-/

namespace Celltree

/-- The same corners in the same cyclic order, from another corner or in the other direction. -/
def SameCorners {α : Type} (l' l : List α) : Prop := l' ~r l ∨ l' ~r l.reverse

/-- The second table has the faces of the first in another order: its face `k` is face `σ[k]` of the first, from any corner and
in any direction. -/
structure Reordered (σ : List Nat) (fill : Int) (faces : IntArr) (fill' : Int) (faces' : IntArr) : Prop where
  perm : σ.Perm (List.range faces.rows.length)
  length : faces'.rows.length = σ.length
  corners : ∀ (k j : Nat) r' r, σ[k]? = some j → faces'.rows[k]? = some r' → faces.rows[j]? = some r →
    SameCorners (rowIndices fill' r') (rowIndices fill r)

/-- The number in the first table of face `k` of the second. -/
def origin (σ : List Nat) (k : Nat) : Nat := σ.getD k 0

/-- The second network has the edges of the first in another order: its edge `k` is edge `σ[k]` of the first. -/
structure ReorderedEdges (σ : List Nat) (edges edges' : IntArr) : Prop where
  perm : σ.Perm (List.range edges.rows.length)
  length : edges'.rows.length = σ.length
  same : ∀ (k j : Nat) r' r, σ[k]? = some j → edges'.rows[k]? = some r' → edges.rows[j]? = some r → r' = r

/-- The second network has the edges of the first in another order, and each of them in any direction. -/
structure Redirected (σ : List Nat) (edges edges' : IntArr) : Prop where
  perm : σ.Perm (List.range edges.rows.length)
  length : edges'.rows.length = σ.length
  ends : ∀ (k j : Nat) r' r, σ[k]? = some j → edges'.rows[k]? = some r' → edges.rows[j]? = some r → r' = r ∨ r' = r.reverse

/-- The same segment, in any direction. -/
def SameEnds {F : Type} (e' e : Pt F × Pt F) : Prop := e' = e ∨ e' = e.swap

end Celltree
