import Verif.Spec.FloatSize
import Verif.Spec.Geometry

/-!
# Integer coordinates
-/

namespace Celltree

/-- An integer of at most `2 ^ n` in magnitude. -/
def Whole (n : Nat) (q : ℚ) : Prop := ∃ m : Int, q = m ∧ |m| ≤ 2 ^ n

/-- Both coordinates are integers of at most `2 ^ 25` in magnitude. -/
def WholePt (p : Pt ℚ) : Prop := Whole 25 p.x ∧ Whole 25 p.y

/-- The corners of a polygon have integer coordinates, and it is at most `2 ^ 18` wide and high. -/
structure WholePoly (l : List (Pt ℚ)) : Prop where
  corner : ∀ v ∈ l, WholePt v
  small : ∀ u ∈ l, ∀ v ∈ l, |v.x - u.x| ≤ 2 ^ 18 ∧ |v.y - u.y| ≤ 2 ^ 18

end Celltree
