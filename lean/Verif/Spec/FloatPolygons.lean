import Verif.Spec.FloatPieces
import Verif.Spec.Area

/-!
# Two convex polygons in general position

How clearly two polygons are in general position is given by numbers: `E` is the size of the two polygons, `σ` says how
different the directions of two sides are if they are not parallel, and `ρ` says how clearly three sides do not meet in one
point. `σ` and `ρ` have no dimension: they do not change if the polygons are moved or scaled.
-/

namespace Celltree.Fl

/-- The cross product of the directions of two sides: zero if they are parallel. -/
def sideCross (s t : Pt ℚ × Pt ℚ) : ℚ :=
  (s.2.x - s.1.x) * (t.2.y - t.1.y) - (s.2.y - s.1.y) * (t.2.x - t.1.x)

/-- Two strictly convex counter-clockwise polygons with coordinates that exist in binary64, of at most `M`. -/
structure GenPair (M E ρ σ : ℚ) (l c : List (Pt ℚ)) : Prop where
  subject : StrictlyConvex l
  clipper : StrictlyConvex c
  /-- the coordinates exist and are at most `M` -/
  rep : ∀ v ∈ l ++ c, IsRep v.x ∧ IsRep v.y
  bnd : ∀ v ∈ l ++ c, |v.x| ≤ M ∧ |v.y| ≤ M
  /-- `E` is the size of the two together -/
  size : ∀ v ∈ l ++ c, ∀ w ∈ l ++ c, Within E v w
  size_le : E ≤ 2 * M
  /-- no side of one is a side of the other -/
  other : ∀ s ∈ sides l, s ∉ sides c
  /-- two sides are parallel, or have clearly different directions -/
  angle : ∀ s ∈ sides l ++ sides c, ∀ t ∈ sides l ++ sides c, sideCross s t = 0 ∨ σ * E ^ 2 ≤ |sideCross s t|
  /-- no three sides, as lines, come near to meeting in one point of the first polygon -/
  meet : ∀ s ∈ sides l ++ sides c, ∀ t ∈ sides l ++ sides c, ∀ k ∈ sides l ++ sides c, s ≠ t → k ≠ s → k ≠ t →
    sideCross s t ≠ 0 → ∀ p, InPoly l p → orient s.1 s.2 p = 0 → orient t.1 t.2 p = 0 → ρ * E ^ 2 ≤ |orient k.1 k.2 p|
  rho : 0 < ρ ∧ ρ ≤ 1
  sigma : 0 < σ ∧ σ ≤ 1
  /-- this is clear compared to the rounding of the coordinates -/
  clear : M / 2 ^ 35 ≤ ρ * σ * E

/-- A point with real coordinates. -/
noncomputable def realPt (p : Pt ℚ) : Pt ℝ := ⟨p.x, p.y⟩

/-- The points of a polygon, with real coordinates. -/
def polyRegion (l : List (Pt ℚ)) : Set (ℝ × ℝ) := region (l.map realPt)

/-- The area of what two polygons have in common. -/
noncomputable def commonArea (l c : List (Pt ℚ)) : ℝ := areaOf (polyRegion l ∩ polyRegion c)

/-- How accurate the computed area is. -/
def pairAcc (M E σ : ℚ) (l c : List (Pt ℚ)) : ℚ :=
  ((l.length + c.length) * c.length : ℕ) * (M * E / (2 ^ 40 * σ))

/-- How accurate a total is: the errors of the pairs that have an area in common. -/
noncomputable def polyTotalAcc (M E σ : ℚ) (l : List (Pt ℚ)) (cs : List (List (Pt ℚ))) : ℝ :=
  open Classical in (cs.map fun c => if commonArea l c = 0 then 0 else ((pairAcc M E σ l c : ℚ) : ℝ)).sum

/-- The same for the polygons of the query that have an area in common with a face. -/
noncomputable def polyTotalAcc' (M E σ : ℚ) (ls : List (List (Pt ℚ))) (c : List (Pt ℚ)) : ℝ :=
  open Classical in (ls.map fun l => if commonArea l c = 0 then 0 else ((pairAcc M E σ l c : ℚ) : ℝ)).sum

/-- The points of a list of polygons. -/
def polysRegion (cs : List (List (Pt ℚ))) : Set (ℝ × ℝ) := {p | ∃ c ∈ cs, p ∈ polyRegion c}

/-- The bounding boxes of two polygons overlap. -/
def BoundsOverlap (l c : List (Pt ℚ)) : Prop :=
  (∃ v ∈ l, ∃ w ∈ c, v.x < w.x) ∧ (∃ v ∈ l, ∃ w ∈ c, w.x < v.x) ∧ (∃ v ∈ l, ∃ w ∈ c, v.y < w.y) ∧ ∃ v ∈ l, ∃ w ∈ c, w.y < v.y

/-- No two of the polygons have a common interior point. -/
def PolysApart (cs : List (List (Pt ℚ))) : Prop := cs.Pairwise fun a b => ¬ ∃ p, InInterior a p ∧ InInterior b p

end Celltree.Fl
