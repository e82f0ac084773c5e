import Verif.Spec.Mesh

/-!
# Affine changes of coordinates
-/

namespace Celltree

/-- An affine change of coordinates: `x' = xx x + xy y + x0` and `y' = yx x + yy y + y0`. -/
structure Affine (K : Type) where
  xx : K
  xy : K
  yx : K
  yy : K
  x0 : K
  y0 : K

variable {K : Type} [Add K] [Sub K] [Mul K]

/-- The point in the new coordinates. -/
def Affine.pt (A : Affine K) (p : Pt K) : Pt K := ⟨A.xx * p.x + A.xy * p.y + A.x0, A.yx * p.x + A.yy * p.y + A.y0⟩

/-- The factor by which signed areas change. -/
def Affine.det (A : Affine K) : K := A.xx * A.yy - A.xy * A.yx

end Celltree
