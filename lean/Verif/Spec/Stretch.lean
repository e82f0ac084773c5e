import Verif.Spec.Mesh
import Mathlib.Data.List.Forall2

/-!
# Changes of the coordinates along the axes
-/

namespace Celltree

section
variable {F : Type}

/-- The point with changed coordinates: `f false` is applied to `x`, `f true` to `y`. -/
def mapPt (f : Bool → F → F) (p : Pt F) : Pt F := ⟨f false p.x, f true p.y⟩

/-- The box with changed coordinates. -/
def mapBox (f : Bool → F → F) (b : Box F) : Box F := ⟨f false b.xmin, f false b.xmax, f true b.ymin, f true b.ymax⟩

/-- The node `nd'` has the children and cells of `nd`, and its splitting planes are those of `nd` in the changed coordinates. -/
structure SameNode (f : Bool → F → F) (nd nd' : Node F) : Prop where
  child : nd'.child = nd.child
  ptr : nd'.ptr = nd.ptr
  size : nd'.size = nd.size
  dim : nd'.dim = nd.dim
  planes : nd.child ≠ -1 → nd'.Lmax = f nd.dim nd.Lmax ∧ nd'.Rmin = f nd.dim nd.Rmin

/-- The object `t'` is `t` in the changed coordinates. -/
structure SameShape (f : Bool → F → F) (t t' : CellTree F) : Prop where
  faces : t'.data.elements = t.data.elements
  vertices : t'.data.vertices = t.data.vertices.map (mapPt f)
  nodes : List.Forall₂ (SameNode f) t.data.nodes t'.data.nodes
  indices : t'.data.bbIndices = t.data.bbIndices
  boxes : t'.data.bbCoords = t.data.bbCoords.map (mapBox f)
  bbox : t'.data.bbox = mapBox f t.data.bbox

end

/-- The largest and the smallest float are outside of the range of the coordinates. -/
def InRange {F : Type} [LT F] (env : Env F) (vertices : List (Pt F)) : Prop :=
  ∀ p ∈ vertices, (env.floatMin < p.x ∧ p.x < env.floatMax) ∧ env.floatMin < p.y ∧ p.y < env.floatMax

/-- Stretch by `kx` and `ky`, and translate by `x0` and `y0`. -/
def stretch {K : Type} [Add K] [Mul K] (kx ky x0 y0 : K) (dim : Bool) (x : K) : K := if dim then ky * x + y0 else kx * x + x0

end Celltree
