import Verif.Spec.Mesh

/-!
# The coordinates of a mesh and of boxes
-/

namespace Celltree

/-- The x-coordinates that occur in a mesh and in a list of boxes. -/
def xCoords {F : Type} (vertices : List (Pt F)) (boxes : List (Box F)) : List F :=
  vertices.map (·.x) ++ boxes.flatMap fun q => [q.xmin, q.xmax]

/-- The y-coordinates that occur in a mesh and in a list of boxes. -/
def yCoords {F : Type} (vertices : List (Pt F)) (boxes : List (Box F)) : List F :=
  vertices.map (·.y) ++ boxes.flatMap fun q => [q.ymin, q.ymax]

end Celltree
