import Verif.Spec.NumOrd
import Verif.Model.Basic
import Mathlib.Data.Rat.Floor
import Mathlib.Algebra.Order.Ring.Rat

/-!
# Binary floating point numbers

A concrete type of numbers on which the code runs: IEEE 754 binary64 (53 bit significand, smallest exponent `-1074`,
overflow to infinity, round to nearest with ties to even), with NaN and infinities. There is one zero (the sign of a
zero is not represented). It is an instance of the order laws, so the theorems about the tree hold for it, and it is
used to evaluate the model on inputs for which rounding matters.
-/

namespace Celltree

inductive Fl
  | nan
  | ninf
  | fin (q : ℚ)
  | pinf
deriving DecidableEq, Repr

namespace Fl

/-- Nearest integer to `n / d`, ties to even. -/
def roundDiv (n d : Nat) : Nat :=
  let q := n / d
  let r := n % d
  if 2 * r < d then q else if d < 2 * r then q + 1 else if q % 2 = 0 then q else q + 1

/-- `n * 2 ^ k / d` for an integer `k`, as numerator and denominator. -/
def scale (n d : Nat) (k : Int) : Nat × Nat :=
  if 0 ≤ k then (n * 2 ^ k.toNat, d) else (n, d * 2 ^ (-k).toNat)

/-- Exponent `e` of the last bit of the significand for the positive number `n / d`. -/
def lastBit (n d : Nat) : Int :=
  let e0 : Int := (Nat.log2 n : Int) - (Nat.log2 d : Int) - 52
  let s := scale n d (-e0)
  let e1 := if s.1 / s.2 < 2 ^ 52 then e0 - 1 else e0
  if e1 < -1074 then -1074 else e1

/-- Largest finite number. -/
def maxNat : Nat := (2 ^ 53 - 1) * 2 ^ 971

/-- Rounding of a rational number to binary64. -/
def rnd (q : ℚ) : Fl :=
  if q = 0 then fin 0
  else
    let n := q.num.natAbs
    let e := lastBit n q.den
    let s := scale n q.den (-e)
    let m := roundDiv s.1 s.2
    let v : ℚ := if 0 ≤ e then ((m * 2 ^ e.toNat : Nat) : ℚ) else mkRat m (2 ^ (-e).toNat)
    if (maxNat : ℚ) < v then (if 0 < q then pinf else ninf)
    else fin (if 0 < q then v else -v)

protected def add : Fl → Fl → Fl
  | fin a, fin b => rnd (a + b)
  | nan, _ | _, nan => nan
  | pinf, ninf | ninf, pinf => nan
  | pinf, _ | _, pinf => pinf
  | ninf, _ | _, ninf => ninf

protected def neg : Fl → Fl
  | nan => nan
  | ninf => pinf
  | pinf => ninf
  | fin a => fin (-a)

/-- An infinity with the sign of a number. -/
def infOf (q : ℚ) : Fl := if 0 < q then pinf else if q < 0 then ninf else nan

protected def mul : Fl → Fl → Fl
  | fin a, fin b => rnd (a * b)
  | nan, _ | _, nan => nan
  | pinf, pinf | ninf, ninf => pinf
  | pinf, ninf | ninf, pinf => ninf
  | pinf, fin a | fin a, pinf => infOf a
  | ninf, fin a | fin a, ninf => infOf (-a)

/-- Division; the model never divides by zero (`fdiv` raises first), the value given here is that of a division by
positive zero. -/
protected def div : Fl → Fl → Fl
  | fin a, fin b => if b = 0 then infOf a else rnd (a / b)
  | nan, _ | _, nan => nan
  | pinf, pinf | ninf, ninf | pinf, ninf | ninf, pinf => nan
  | fin _, pinf | fin _, ninf => fin 0
  | pinf, fin b => if b < 0 then ninf else pinf
  | ninf, fin b => if b < 0 then pinf else ninf

instance : Add Fl := ⟨Fl.add⟩
instance : Neg Fl := ⟨Fl.neg⟩
instance : Sub Fl := ⟨fun a b => Fl.add a (Fl.neg b)⟩
instance : Mul Fl := ⟨Fl.mul⟩
instance : Div Fl := ⟨Fl.div⟩
instance : Zero Fl := ⟨fin 0⟩
instance : One Fl := ⟨fin 1⟩
instance : IntCast Fl := ⟨fun i => rnd i⟩

protected def le : Fl → Fl → Bool
  | fin a, fin b => decide (a ≤ b)
  | nan, _ | _, nan => false
  | ninf, _ | _, pinf => true
  | pinf, _ | _, ninf => false

protected def lt : Fl → Fl → Bool
  | fin a, fin b => decide (a < b)
  | nan, _ | _, nan => false
  | ninf, ninf => false
  | pinf, _ => false
  | ninf, _ | _, pinf => true
  | _, ninf => false

instance : LE Fl := ⟨fun a b => Fl.le a b = true⟩
instance : LT Fl := ⟨fun a b => Fl.lt a b = true⟩
instance : DecidableLE Fl := fun a b => inferInstanceAs (Decidable (Fl.le a b = true))
instance : DecidableLT Fl := fun a b => inferInstanceAs (Decidable (Fl.lt a b = true))

/-- `==`: a NaN is not equal to itself. -/
instance : BEq Fl := ⟨fun a b => Fl.le a b && Fl.le b a⟩

theorem le_def (a b : Fl) : a ≤ b ↔ Fl.le a b = true := Iff.rfl
theorem lt_def (a b : Fl) : a < b ↔ Fl.lt a b = true := Iff.rfl

instance : NumOrd Fl where
  num a := a ≠ nan
  num_of_le {a b} h := by
    rw [le_def] at h
    constructor <;> rintro rfl
    · cases b <;> simp [Fl.le] at h
    · cases a <;> simp [Fl.le] at h
  num_of_lt {a b} h := by
    rw [lt_def] at h
    constructor <;> rintro rfl
    · cases b <;> simp [Fl.lt] at h
    · cases a <;> simp [Fl.lt] at h
  le_trans {a b c} h1 h2 := by
    rw [le_def] at *
    cases a <;> cases b <;> cases c <;> simp_all [Fl.le]
    exact le_trans h1 h2
  le_total {a b} h1 h2 := by
    simp only [le_def]
    cases a <;> cases b <;> simp_all [Fl.le]
    exact le_total _ _
  lt_iff {a b} h1 h2 := by
    simp only [le_def, lt_def]
    cases a <;> cases b <;> simp_all [Fl.le, Fl.lt]

/-- The constants of `constants.py:146-150`, with a correctly rounded square root: the root is computed to 600 binary
digits, and if it is not exact the middle of the interval is rounded. -/
def env : Env Fl where
  floatMax := fin maxNat
  floatMin := fin (-maxNat)
  minTol := rnd (1 / 1000000000000000)
  tolFactor := rnd (1 / 1000000000000)
  sqrt
    | fin a =>
      if a < 0 then nan
      else
        let s := Nat.sqrt (a * 2 ^ 1200).floor.toNat
        rnd (if (s * s : ℚ) = a * 2 ^ 1200 then mkRat s (2 ^ 600) else mkRat (2 * s + 1) (2 ^ 601))
    | pinf => pinf
    | _ => nan

end Fl
end Celltree
