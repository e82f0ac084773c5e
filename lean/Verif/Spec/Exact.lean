import Verif.Spec.NumOrd
import Mathlib.Order.Defs.LinearOrder

/-!
# Exact arithmetic

Every linear order satisfies the order laws; no value is a NaN. The theorems about the tree apply to it, and the
theorems about geometry are stated for ordered fields.
-/

namespace Celltree

instance instNumOrdLinear {K : Type} [LinearOrder K] : NumOrd K where
  num _ := True
  num_of_le _ := ⟨trivial, trivial⟩
  num_of_lt _ := ⟨trivial, trivial⟩
  le_trans := _root_.le_trans
  le_total _ _ := _root_.le_total _ _
  lt_iff _ _ := not_le.symm

end Celltree
