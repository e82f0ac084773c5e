/-!
# Order laws satisfied by floating point numbers

The theorems about the tree only use these laws. `num x` means that `x` is not a NaN. Comparisons with a NaN are
false. On the other values `≤` is a total preorder (a preorder, since `0.0` and `-0.0` are different values) and `<`
is its strict part. Nothing is assumed about arithmetic.
-/

namespace Celltree

class NumOrd (F : Type) [LT F] [LE F] where
  num : F → Prop
  num_of_le : ∀ {a b : F}, a ≤ b → num a ∧ num b
  num_of_lt : ∀ {a b : F}, a < b → num a ∧ num b
  le_trans : ∀ {a b c : F}, a ≤ b → b ≤ c → a ≤ c
  le_total : ∀ {a b : F}, num a → num b → a ≤ b ∨ b ≤ a
  lt_iff : ∀ {a b : F}, num a → num b → (a < b ↔ ¬ b ≤ a)

namespace NumOrd
variable {F : Type} [LT F] [LE F] [NumOrd F] {a b c : F}

theorem le_refl (h : num a) : a ≤ a := (le_total h h).elim id id

theorem le_of_lt (h : a < b) : a ≤ b := by
  obtain ⟨ha, hb⟩ := num_of_lt h
  exact (le_total ha hb).resolve_right ((lt_iff ha hb).1 h)

theorem le_of_not_lt (ha : num a) (hb : num b) (h : ¬ a < b) : b ≤ a :=
  Classical.byContradiction fun h' => h ((lt_iff ha hb).2 h')

theorem lt_of_lt_of_le (h1 : a < b) (h2 : b ≤ c) : a < c := by
  obtain ⟨ha, hb⟩ := num_of_lt h1
  obtain ⟨_, hc⟩ := num_of_le h2
  exact (lt_iff ha hc).2 fun h => (lt_iff ha hb).1 h1 (le_trans h2 h)

theorem lt_of_le_of_lt (h1 : a ≤ b) (h2 : b < c) : a < c := by
  obtain ⟨ha, hb⟩ := num_of_le h1
  obtain ⟨_, hc⟩ := num_of_lt h2
  exact (lt_iff ha hc).2 fun h => (lt_iff hb hc).1 h2 (le_trans h h1)

theorem lt_irrefl (h : a < a) : False := by
  obtain ⟨ha, _⟩ := num_of_lt h
  exact (lt_iff ha ha).1 h (le_refl ha)

end NumOrd
end Celltree
