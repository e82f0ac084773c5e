import Verif.Model.Query

/-!
# Bounds of nodes
-/

set_option linter.unusedSectionVars false

namespace Celltree

variable {F : Type} [LE F]

/-- Box `b` lies in box `B`. -/
def BoxIn (b B : Box F) : Prop := B.xmin ≤ b.xmin ∧ b.xmax ≤ B.xmax ∧ B.ymin ≤ b.ymin ∧ b.ymax ≤ B.ymax

/-- The bounds given for node `k` are right: those of a leaf contain the boxes of all its cells, those of an inner node
contain the bounds given for its two children. -/
def NodeAccepted (tree : Tree F) (bounds : List (Box F)) (k : Nat) : Prop :=
  ∃ nd B, tree.nodes[k]? = some nd ∧ bounds[k]? = some B ∧
    (nd.child = -1 → ∀ i j b, nd.ptr ≤ i → i < nd.ptr + nd.size → tree.bbIndices[i]? = some j → tree.bbCoords[j]? = some b →
      BoxIn b B) ∧
    (nd.child ≠ -1 → ∃ (c : Nat) (L R : Box F), nd.child = c ∧ bounds[c]? = some L ∧ bounds[c + 1]? = some R ∧ BoxIn L B ∧
      BoxIn R B)

end Celltree
