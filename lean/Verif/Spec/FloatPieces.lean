import Verif.Spec.FloatSize
import Verif.Spec.Mesh

/-!
# Edges that are well away from where rounding matters

Distances are measured per coordinate: two points are within `d` if both coordinates differ by at most `d`.
-/

namespace Celltree.Fl

/-- A binary64 coordinate of at most `M`, that is zero or at least `2 ^ -147`. -/
def Usual (M x : ℚ) : Prop := IsRep x ∧ |x| ≤ M ∧ (x = 0 ∨ 1 / 2 ^ 147 ≤ |x|)

/-- A point with such coordinates. -/
def UsualPt (M : ℚ) (p : Pt ℚ) : Prop := Usual M p.x ∧ Usual M p.y

/-- A box with such coordinates. -/
structure UsualBox (M : ℚ) (c : Box ℚ) : Prop where
  xmin : Usual M c.xmin
  xmax : Usual M c.xmax
  ymin : Usual M c.ymin
  ymax : Usual M c.ymax
  hx : c.xmin ≤ c.xmax
  hy : c.ymin ≤ c.ymax

/-- Both coordinates differ by at most `d`. -/
def Within (d : ℚ) (p q : Pt ℚ) : Prop := |p.x - q.x| ≤ d ∧ |p.y - q.y| ≤ d

/-- The point `p` is within `d` of a point of the segment from `a` to `b`. -/
def OnNear (d : ℚ) (a b p : Pt ℚ) : Prop := ∃ t : ℚ, 0 ≤ t ∧ t ≤ 1 ∧ Within d p (lineAt a b t)

/-- The corners of a box. -/
def corners (c : Box ℚ) : List (Pt ℚ) := [⟨c.xmin, c.ymin⟩, ⟨c.xmin, c.ymax⟩, ⟨c.xmax, c.ymin⟩, ⟨c.xmax, c.ymax⟩]

/-- What clipping to a box needs: the segment does not pass within `M / 2 ^ 46` of a corner of the box. -/
def AvoidsCorners (M : ℚ) (c : Box ℚ) (a b : Pt ℚ) : Prop := ∀ v ∈ corners c, ¬ OnNear (M / 2 ^ 46) a b v

/-- The point is in the box, at least `d` from its boundary. -/
def Deep (d : ℚ) (c : Box ℚ) (p : Pt ℚ) : Prop :=
  c.xmin + d ≤ p.x ∧ p.x ≤ c.xmax - d ∧ c.ymin + d ≤ p.y ∧ p.y ≤ c.ymax - d

/-- The point is in the box widened by `d`. -/
def NearBox (d : ℚ) (c : Box ℚ) (p : Pt ℚ) : Prop :=
  c.xmin - d ≤ p.x ∧ p.x ≤ c.xmax + d ∧ c.ymin - d ≤ p.y ∧ p.y ≤ c.ymax + d

/-- How accurate the ends of a piece are: `E` is the size of the edge and the face, and `ρ` says how clearly the line of
the edge passes between the corners of the face. -/
def acc (M E ρ : ℚ) : ℚ := E / (2 ^ 44 * ρ) + M / 2 ^ 49

/-- The edge from `a` to `b` is in general position with respect to the convex polygon `l`: its line does not pass close to
a corner, and its ends are not close to a side. -/
structure GenPos (M D E ρ tol : ℚ) (l : List (Pt ℚ)) (a b : Pt ℚ) : Prop where
  convex : ConvexPoly l
  good : GoodPoly M D l
  size : ∀ v ∈ l, |v.x - a.x| ≤ E ∧ |v.y - a.y| ≤ E
  length : |b.x - a.x| ≤ E ∧ |b.y - a.y| ≤ E
  notTiny : 1 / 2 ^ 200 ≤ E
  rho : 1 / 2 ^ 43 ≤ ρ ∧ ρ ≤ 1
  corners : ∀ v ∈ l, ρ * E ^ 2 ≤ |orient a b v|
  first : ∀ s ∈ sides l, ¬ OnNear (2 * max tol (slack M D) + acc M E ρ) s.1 s.2 a
  second : ∀ s ∈ sides l, ¬ OnNear (2 * max tol (slack M D) + acc M E ρ) s.1 s.2 b

/-- What is reported for the piece of the segment from `a` to `b` in a set, up to an error of `d`. -/
def PieceAcc (d : ℚ) (S : Pt ℚ → Prop) (a b : Pt ℚ) : Option (Pt Fl × Pt Fl) → Prop
  | none => ¬ (S a ∧ S b) ∧ ∀ s t, 0 ≤ s → s ≤ 1 → 0 ≤ t → t ≤ 1 → S (lineAt a b s) → S (lineAt a b t) →
      Within d (lineAt a b s) (lineAt a b t)
  | some (c, e) => ∃ s t p q, 0 ≤ s ∧ s ≤ t ∧ t ≤ 1 ∧ (∀ u, 0 ≤ u → u ≤ 1 → (S (lineAt a b u) ↔ s ≤ u ∧ u ≤ t)) ∧
      c = fp p ∧ e = fp q ∧ Within d p (lineAt a b s) ∧ Within d q (lineAt a b t)

/-- The edge from `a` to `b` is in general position with respect to the face with the corners `pts` and the bounding box `c`.
The corners in counter-clockwise order are `l`, and `tol` is the tolerance that the code computes for the face. -/
structure FaceClear (env : Env Fl) (M D E ρ tol : ℚ) (pts : List (Pt Fl)) (c : Box ℚ) (l : List (Pt ℚ)) (a b : Pt ℚ) :
    Prop where
  box : IsBBox pts (fbox c)
  corners : pts = l.map fp ∨ pts = l.reverse.map fp
  tol_eq : fmax env.minTol (env.tolFactor * fmax (fin c.xmax - fin c.xmin) (fin c.ymax - fin c.ymin)) = fin tol
  tol_nonneg : 0 ≤ tol
  tol_le : tol ≤ 2 ^ 200
  pos : GenPos M D E ρ tol l a b

/-- The edge from `a` to `b` is in general position with respect to a mesh: it is not close to the corners of the bounding
boxes, and it is in general position with respect to every face whose bounding box it comes close to. -/
structure EdgeClear (env : Env Fl) (M : ℚ) (vertices : List (Pt Fl)) (faces : IntArr) (fill : Int) (a b : Pt ℚ) : Prop where
  first : UsualPt M a
  second : UsualPt M b
  ne : a ≠ b
  whole : ∀ c, IsBBox (faces.rows.flatMap (facePts vertices fill)) (fbox c) → AvoidsCorners M c a b
  box : ∀ r ∈ faces.rows, ∀ c, IsBBox (facePts vertices fill r) (fbox c) → AvoidsCorners M c a b
  face : ∀ r ∈ faces.rows, ∀ c, IsBBox (facePts vertices fill r) (fbox c) →
    (∃ t, 0 ≤ t ∧ t ≤ 1 ∧ NearBox (M / 2 ^ 47) c (lineAt a b t)) →
    ∃ D E ρ tol l, FaceClear env M D E ρ tol (facePts vertices fill r) c l a b

end Celltree.Fl
