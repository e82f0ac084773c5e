import Verif.Spec.Mesh
import Verif.Spec.Exact
import Verif.Spec.Float

/-!
# A small mesh used to show that the hypotheses of the theorems can be met

A quadrilateral and three triangles on seven vertices, with the fill value `-999`; the second face is given clockwise.

```
      6
     / \
    3---4---5
    |   | \ |
    0---1---2
```
-/

namespace Celltree.Ex

/-- Vertices with coordinates made from integers by `c`. -/
def verts {F : Type} (c : Int → F) : List (Pt F) :=
  [⟨c 0, c 0⟩, ⟨c 2, c 0⟩, ⟨c 4, c 0⟩, ⟨c 0, c 2⟩, ⟨c 2, c 2⟩, ⟨c 4, c 2⟩, ⟨c 1, c 4⟩]

def faces : IntArr := ⟨4, [[0, 1, 4, 3], [1, 4, 2, -999], [2, 5, 4, -999], [3, 4, 6, -999]]⟩

def flVerts : List (Pt Fl) := verts fun i => .fin i
def qVerts : List (Pt ℚ) := verts fun i => i

/-- Constants for exact arithmetic. The square root is only used for default tolerances: an upper bound of the root. -/
def qEnv : Env ℚ := ⟨10 ^ 300, -10 ^ 300, 1 / 10 ^ 15, 1 / 10 ^ 12, fun x => 1 + x⟩

theorem faces_valid : ValidFaces 7 (-999) faces where
  rect := by decide
  rows := by
    intro r hr
    simp only [faces, List.mem_cons, List.not_mem_nil, or_false] at hr
    rcases hr with rfl | rfl | rfl | rfl <;> exact ⟨by decide, by decide, by decide⟩

/-- The object made from the mesh, in floating point. -/
def flTree : M (CellTree Fl) := CellTree.init Fl.env flVerts faces (-999) 4 1 [2, 0, 3, 1]

def isOk {α : Type} : M α → Bool
  | .ok _ => true
  | .error _ => false

/-- The exception that was raised. -/
def errOf {α : Type} : M α → Option Err
  | .ok _ => none
  | .error e => some e

theorem eq_error_of_errOf {α : Type} {x : M α} {e : Err} (h : errOf x = some e) : x = .error e := by
  cases x with
  | ok _ => cases h
  | error _ => cases h; rfl

end Celltree.Ex
