import Verif.Model.Basic
import Mathlib.Algebra.Order.Field.Basic
import Mathlib.Algebra.Ring.Parity

/-!
# Geometry in the plane over an ordered field

Independent of the code: polygons are lists of points, given by their corners in order.
-/

namespace Celltree

/-- Pairs of consecutive elements. -/
def pairs {α : Type} : List α → List (α × α)
  | a :: b :: l => (a, b) :: pairs (b :: l)
  | _ => []

/-- The sides of a polygon: every corner with the next one, and the last with the first. -/
def sides {α : Type} : List α → List (α × α)
  | [] => []
  | a :: l => pairs (a :: l ++ [a])

section
variable {K : Type} [Field K] [LinearOrder K]

/-- Twice the signed area of the triangle `a b c`: positive if `c` is on the left of the line from `a` to `b`. -/
def orient (a b c : Pt K) : K := (b.x - a.x) * (c.y - a.y) - (b.y - a.y) * (c.x - a.x)

/-- Squared distance. -/
def dist2 (a b : Pt K) : K := (b.x - a.x) ^ 2 + (b.y - a.y) ^ 2

/-- The horizontal ray from `p` to the right crosses the side `a b`. A side going up includes its lower end, a side going
down as well, so that a ray through a corner counts one of the two sides. -/
def Crosses (p : Pt K) (s : Pt K × Pt K) : Prop :=
  (s.1.y ≤ p.y ∧ p.y < s.2.y ∧ 0 < orient s.1 s.2 p) ∨ (s.2.y ≤ p.y ∧ p.y < s.1.y ∧ orient s.1 s.2 p < 0)

instance (p : Pt K) (s : Pt K × Pt K) : Decidable (Crosses p s) := by unfold Crosses; infer_instance

/-- `p` is at a perpendicular distance less than `tol` of the line through the side (of positive length), and between the
ends of the side along the direction in which it is longest. -/
def Near (tol : K) (p : Pt K) (s : Pt K × Pt K) : Prop :=
  s.1 ≠ s.2 ∧ orient s.1 s.2 p ^ 2 < tol ^ 2 * dist2 s.1 s.2 ∧
  (|s.2.y - s.1.y| ≤ |s.2.x - s.1.x| → min s.1.x s.2.x ≤ p.x ∧ p.x ≤ max s.1.x s.2.x) ∧
  (|s.2.x - s.1.x| < |s.2.y - s.1.y| → min s.1.y s.2.y ≤ p.y ∧ p.y ≤ max s.1.y s.2.y)

/-- A polygon accepts a point: the point is near a side, or it is inside by the even-odd rule. -/
def Accepts (tol : K) (poly : List (Pt K)) (p : Pt K) : Prop :=
  (∃ s ∈ sides poly, Near tol p s) ∨ Odd ((sides poly).countP fun s => decide (Crosses p s))

end
end Celltree

namespace Celltree

section
variable {K : Type} [Field K] [LinearOrder K]

/-- The point on the line through `a` and `b` with parameter `u`: `a` for `0`, `b` for `1`. -/
def lineAt (a b : Pt K) (u : K) : Pt K := ⟨a.x + u * (b.x - a.x), a.y + u * (b.y - a.y)⟩

/-- What it means to clip the segment from `a` to `b` by a convex set `S`: no result if no piece of positive length is in
`S`; otherwise the ends of the piece in `S`, in the direction from `a` to `b`. -/
def ClipSpec (a b : Pt K) (S : Pt K → Prop) : Option (Pt K × Pt K) → Prop
  | none => ∀ u v, 0 ≤ u → u < v → v ≤ 1 → S (lineAt a b u) → ¬ S (lineAt a b v)
  | some (c, d) => ∃ s t, 0 ≤ s ∧ s < t ∧ t ≤ 1 ∧ c = lineAt a b s ∧ d = lineAt a b t ∧
      ∀ u, 0 ≤ u → u ≤ 1 → (S (lineAt a b u) ↔ s ≤ u ∧ u ≤ t)

/-- The point is at most `d` away from a point of `S` in each coordinate. -/
def CloseTo (d : K) (S : Pt K → Prop) (p : Pt K) : Prop := ∃ q, S q ∧ |p.x - q.x| ≤ d ∧ |p.y - q.y| ≤ d

/-- What it means to clip the segment from `a` to `b` by a convex set `S` up to a distance `d`: no result only if no piece of
positive length is in `S`; otherwise the ends of a piece that contains all of the segment that is in `S`, and has only
points that are close to `S`. -/
def ClipNear (d : K) (a b : Pt K) (S : Pt K → Prop) : Option (Pt K × Pt K) → Prop
  | none => ∀ u v, 0 ≤ u → u < v → v ≤ 1 → S (lineAt a b u) → ¬ S (lineAt a b v)
  | some (c, e) => ∃ s t, 0 ≤ s ∧ s < t ∧ t ≤ 1 ∧ c = lineAt a b s ∧ e = lineAt a b t ∧
      (∀ u, 0 ≤ u → u ≤ 1 → S (lineAt a b u) → s ≤ u ∧ u ≤ t) ∧
      ∀ u, s ≤ u → u ≤ t → CloseTo d S (lineAt a b u)

/-- The closed box contains the point. -/
def InBox (b : Box K) (p : Pt K) : Prop := b.xmin ≤ p.x ∧ p.x ≤ b.xmax ∧ b.ymin ≤ p.y ∧ p.y ≤ b.ymax

end
end Celltree

namespace Celltree

section
variable {K : Type} [Field K] [LinearOrder K]

/-- A counter-clockwise convex polygon: any three corners, in their order, turn to the left or are on one line, and some
three are not on one line. Straight corners and repeated corners are allowed. -/
structure ConvexPoly (l : List (Pt K)) : Prop where
  turn : ∀ a b c, List.Sublist [a, b, c] l → 0 ≤ orient a b c
  nondeg : ∃ a b c, List.Sublist [a, b, c] l ∧ 0 < orient a b c

/-- The point is in the closed convex polygon: on the left of, or on, every side. -/
def InPoly (l : List (Pt K)) (p : Pt K) : Prop := ∀ s ∈ sides l, 0 ≤ orient s.1 s.2 p

/-- The point is in the interior of the convex polygon: strictly on the left of every side of positive length. -/
def InInterior (l : List (Pt K)) (p : Pt K) : Prop := ∀ s ∈ sides l, s.1 ≠ s.2 → 0 < orient s.1 s.2 p

end
end Celltree

namespace Celltree

section
variable {K : Type} [Field K] [LinearOrder K]

/-- A counter-clockwise strictly convex polygon: any three corners, in their order, turn to the left. -/
structure StrictlyConvex (l : List (Pt K)) : Prop where
  length : 3 ≤ l.length
  turn : ∀ a b c, List.Sublist [a, b, c] l → 0 < orient a b c

end
end Celltree

namespace Celltree

section
variable {K : Type} [Field K] [LinearOrder K]

/-- The segment from `a` to `b` has a piece of positive length in common with the convex set `S`. -/
def SharesPiece (a b : Pt K) (S : Pt K → Prop) : Prop :=
  a ≠ b ∧ ∃ u v, 0 ≤ u ∧ u < v ∧ v ≤ 1 ∧ S (lineAt a b u) ∧ S (lineAt a b v)

end
end Celltree

namespace Celltree

section
variable {K : Type} [Field K] [LinearOrder K]

/-- The point is in the bounding box of the segment from `p` to `q`, widened by `tol` on all sides (the border not
included). -/
def InWideBox (tol : K) (p q c : Pt K) : Prop :=
  (min p.x q.x - tol < c.x ∧ c.x < max p.x q.x + tol) ∧ (min p.y q.y - tol < c.y ∧ c.y < max p.y q.y + tol)

/-- The two segments have a point in common. -/
def ShareAt (a b p q c : Pt K) : Prop :=
  ∃ u v, 0 ≤ u ∧ u ≤ 1 ∧ 0 ≤ v ∧ v ≤ 1 ∧ c = lineAt a b u ∧ c = lineAt p q v

/-- The segments cross: the ends of each are strictly on different sides of the other. -/
def ProperCross (a b p q : Pt K) : Prop :=
  orient p q a * orient p q b < 0 ∧ orient a b p * orient a b q < 0

end
end Celltree

namespace Celltree

section
variable {K : Type} [Field K] [LinearOrder K]

/-- The point is at a distance less than `tol` of the line. -/
def NearLine (tol : K) (a b p : Pt K) : Prop := orient a b p ^ 2 < tol ^ 2 * dist2 a b

instance (tol : K) (a b p : Pt K) : Decidable (NearLine tol a b p) := by unfold NearLine; infer_instance

end
end Celltree
