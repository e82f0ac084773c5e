import Verif.Spec.Area
import Verif.Spec.Mesh

/-!
# Convex faces in either order
-/

namespace Celltree

section
variable {K : Type} [Field K] [LinearOrder K]

/-- The point is in the closed convex face, whose corners are given in either order. -/
def InFace (pts : List (Pt K)) (p : Pt K) : Prop := InPoly pts p ∨ InPoly pts.reverse p

/-- The point is in the interior of the convex face, whose corners are given in either order. -/
def InFaceInterior (pts : List (Pt K)) (p : Pt K) : Prop :=
  (ConvexPoly pts ∧ InInterior pts p) ∨ (ConvexPoly pts.reverse ∧ InInterior pts.reverse p)

/-- A convex face of positive area. Straight corners and repeated corners are allowed; if the corners are given in
clockwise order, the last one is not straight. -/
def ConvexFace (pts : List (Pt K)) : Prop :=
  ConvexPoly pts ∨ (ConvexPoly pts.reverse ∧ ∃ l a b c, pts = c :: l ++ [a, b] ∧ orient a b c ≠ 0)

end

/-- The closed face as a set of points in the plane. -/
def faceRegion (pts : List (Pt ℝ)) : Set (ℝ × ℝ) := {p | InFace pts ⟨p.1, p.2⟩}

/-- The closed box as a set of points in the plane. -/
def boxRegion (b : Box ℝ) : Set (ℝ × ℝ) := {p | InBox b ⟨p.1, p.2⟩}

end Celltree

namespace Celltree

section
variable {K : Type} [Field K] [LinearOrder K]

/-- The coordinates are so small that products of two of them, added, do not exceed the largest number. -/
def SmallPts (env : Env K) (pts : List (Pt K)) : Prop :=
  ∃ B, (∀ v ∈ pts, |v.x| ≤ B ∧ |v.y| ≤ B) ∧ env.floatMin ≤ -(2 * B ^ 2) ∧ 2 * B ^ 2 ≤ env.floatMax

end
end Celltree

namespace Celltree

section
variable {K : Type} [Field K] [LinearOrder K]

/-- The point is in the interior of the box. -/
def InBoxInterior (b : Box K) (p : Pt K) : Prop := b.xmin < p.x ∧ p.x < b.xmax ∧ b.ymin < p.y ∧ p.y < b.ymax

/-- Face `i` of one table and face `j` of another one exist and their interiors have a point in common. -/
def FacesOverlap (verticesA : List (Pt K)) (fillA : Int) (facesA : IntArr) (verticesB : List (Pt K)) (fillB : Int)
    (facesB : IntArr) (i j : Nat) : Prop :=
  ∃ r s, facesA.rows[i]? = some r ∧ facesB.rows[j]? = some s ∧
    ∃ p, InFaceInterior (facePts verticesA fillA r) p ∧ InFaceInterior (facePts verticesB fillB s) p

/-- Box `i` and face `j` exist and their interiors have a point in common. -/
def BoxFaceOverlap (boxes : List (Box K)) (vertices : List (Pt K)) (fill : Int) (faces : IntArr) (i j : Nat) : Prop :=
  ∃ q s, boxes[i]? = some q ∧ faces.rows[j]? = some s ∧
    ∃ p, InBoxInterior q p ∧ InFaceInterior (facePts vertices fill s) p

end
end Celltree

namespace Celltree

/-- The set of points of the mesh. -/
def meshRegion (vertices : List (Pt ℝ)) (fill : Int) (faces : IntArr) : Set (ℝ × ℝ) :=
  {p | ∃ r ∈ faces.rows, p ∈ faceRegion (facePts vertices fill r)}

/-- No two faces of the mesh have an interior point in common. -/
def NoOverlap {K : Type} [Field K] [LinearOrder K] (vertices : List (Pt K)) (fill : Int) (faces : IntArr) : Prop :=
  ∀ i j, i ≠ j → ¬ FacesOverlap vertices fill faces vertices fill faces i j

/-- The total of the areas of the rows with the given number in the given column of numbers. -/
def total {K : Type} [AddMonoid K] (keys : List Nat) (areas : List K) (k : Nat) : K := (((keys.zip areas).filter fun x => x.1 = k).map (·.2)).sum

end Celltree
