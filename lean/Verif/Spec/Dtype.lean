import Verif.Model.Dtype
import Verif.Spec.FloatSize

/-!
# The numbers in an array
-/

namespace Celltree

/-- The number that an entry stands for, if it is finite. -/
def Entry.val : Entry → Option ℚ
  | .int n => some n
  | .float (.fin q) => some q
  | .float _ => none

/-- A floating point entry is a binary64 number. -/
def Entry.Ok : Entry → Prop
  | .int _ => True
  | .float x => x.Rep

/-- Two entries, of whatever type, stand for the same number, or are the same infinity or both NaN. -/
def Entry.Same (e f : Entry) : Prop := e = f ∨ ∃ q, e.val = some q ∧ f.val = some q

/-- Two arrays of the same shape with the same numbers. -/
structure SameNumbers (a b : NdArray Entry) : Prop where
  shape : a.shape = b.shape
  data : List.Forall₂ Entry.Same a.data b.data

/-- An array of `float64`. -/
def floatArr (a : NdArray Fl) : NdArray Entry := ⟨a.shape, a.data.map .float⟩

/-- The array, of whatever type, contains these integers, and they fit in 64 bits. -/
structure Holds (a : NdArray Entry) (b : NdArray Int) : Prop where
  shape : a.shape = b.shape
  data : List.Forall₂ (fun (e : Entry) (n : Int) => e.val = some (n : ℚ) ∧ FitsInt64 n) a.data b.data

end Celltree
