import Verif.Spec.Stretch
import Verif.Spec.Float
import Verif.Spec.FloatSize

/-!
# Powers of two as units
-/

namespace Celltree.Fl

/-- The power of two as a float. -/
def pow2 (k : Int) : Fl := fin (2 ^ k)

/-- The unit of `x` is divided by `2 ^ kx`, that of `y` by `2 ^ ky`: the coordinates are multiplied, in binary64. -/
def rescale (kx ky : Int) (dim : Bool) (x : Fl) : Fl := pow2 (if dim then ky else kx) * x

/-- A float that is a multiple of `1 / 2 ^ e`, and at most `2 ^ 100` in magnitude. -/
def Coarse (e : Nat) (x : Fl) : Prop := ∃ q : ℚ, x = fin q ∧ IsRep q ∧ (∃ m : Int, q * 2 ^ e = m) ∧ |q| ≤ 2 ^ 100

/-- All coordinates are multiples of `1 / 2 ^ 100`, and at most `2 ^ 100` in magnitude. -/
def CoarsePts (l : List (Pt Fl)) : Prop := ∀ p ∈ l, Coarse 100 p.x ∧ Coarse 100 p.y

def CoarseBoxes (l : List (Box Fl)) : Prop := ∀ b ∈ l, (Coarse 100 b.xmin ∧ Coarse 100 b.xmax) ∧ Coarse 100 b.ymin ∧ Coarse 100 b.ymax

/-- All coordinates are multiples of `1 / 2 ^ 100`, and at most `2 ^ 30` in magnitude. -/
def PlainPts (l : List (Pt Fl)) : Prop :=
  CoarsePts l ∧ ∀ p ∈ l, (-fin (2 ^ 30) ≤ p.x ∧ p.x ≤ fin (2 ^ 30)) ∧ -fin (2 ^ 30) ≤ p.y ∧ p.y ≤ fin (2 ^ 30)

end Celltree.Fl
