import Verif.Spec.Geometry
import Mathlib.Data.List.Perm.Basic
import Mathlib.Data.List.Rotate

/-!
# Sides of polygons
-/

namespace Celltree

section
variable {α : Type}

@[simp] theorem pairs_nil : pairs ([] : List α) = [] := rfl
@[simp] theorem pairs_single (a : α) : pairs [a] = [] := rfl
@[simp] theorem pairs_cons_cons (a b : α) (l : List α) : pairs (a :: b :: l) = (a, b) :: pairs (b :: l) := rfl

theorem pairs_append (l : List α) (a : α) (l' : List α) : pairs (l ++ a :: l') = pairs (l ++ [a]) ++ pairs (a :: l') := by
  induction l with
  | nil => simp
  | cons b l ih =>
    cases l with
    | nil => simp
    | cons c l => simpa using ih

theorem pairs_reverse (l : List α) : pairs l.reverse = ((pairs l).map Prod.swap).reverse := by
  induction l with
  | nil => rfl
  | cons a l ih =>
    cases l with
    | nil => rfl
    | cons b l =>
      rw [List.reverse_cons]
      have : (b :: l).reverse ++ [a] = l.reverse ++ b :: [a] := by simp
      rw [this, pairs_append, ← List.reverse_cons, ih]
      simp

/-- The sides in the order in which the code visits them: the one from the last to the first corner comes first. -/
theorem sides_perm (a : α) (l : List α) :
    (sides (a :: l)).Perm (pairs ((a :: l).getLast (by simp) :: a :: l)) := by
  have h : ∀ z, pairs (a :: l ++ [z]) = pairs (a :: l) ++ [((a :: l).getLast (by simp), z)] := by
    intro z
    have := List.dropLast_append_getLast (show (a :: l) ≠ [] by simp)
    generalize hx : (a :: l).getLast (by simp) = x at *
    generalize (a :: l).dropLast = d at *
    rw [← this, List.append_assoc, List.singleton_append, pairs_append]
    simp
  rw [sides, h, pairs_cons_cons]
  exact List.perm_append_singleton _ _

theorem sides_reverse (l : List α) : (sides l.reverse).Perm ((sides l).map Prod.swap) := by
  cases l with
  | nil => exact List.Perm.refl _
  | cons a l =>
    have h1 : (sides (a :: l)).Perm (pairs ((a :: l).getLast (by simp) :: a :: l)) := sides_perm a l
    have hne : (a :: l).reverse ≠ [] := by simp
    have hh : (a :: l).reverse = (a :: l).getLast (by simp) :: (a :: l).reverse.tail := by
      rw [← List.head_reverse (by simp), List.cons_head_tail]
    have h2 : sides (a :: l).reverse = pairs ((a :: l).reverse ++ [(a :: l).getLast (by simp)]) := by
      conv => lhs; rw [hh]
      conv => rhs; rw [hh]
      rfl
    have : (a :: l).reverse ++ [(a :: l).getLast (by simp)] = ((a :: l).getLast (by simp) :: a :: l).reverse := by simp
    rw [h2, this, pairs_reverse]
    exact (List.reverse_perm _).trans (h1.symm.map _)

theorem sides_rotate (l l' : List α) : (sides (l ++ l')).Perm (sides (l' ++ l)) := by
  cases l with
  | nil => simp
  | cons a l =>
    cases l' with
    | nil => simp
    | cons b l' =>
      simp only [sides, List.cons_append]
      have e1 : a :: (l ++ b :: l' ++ [a]) = (a :: l) ++ b :: (l' ++ [a]) := by simp
      have e2 : b :: (l' ++ a :: l ++ [b]) = (b :: l') ++ a :: (l ++ [b]) := by simp
      simp only [List.append_assoc] at e1 e2 ⊢
      rw [e1, e2, pairs_append, pairs_append (b :: l')]
      simp only [List.cons_append]
      exact List.perm_append_comm

theorem sides_isRotated {l l' : List α} (h : l ~r l') : (sides l).Perm (sides l') := by
  obtain ⟨n, rfl⟩ := h
  have := List.rotate_eq_drop_append_take_mod (l := l) (n := n)
  rw [this]
  have h2 := sides_rotate (l.take (n % l.length)) (l.drop (n % l.length))
  rwa [List.take_append_drop] at h2

theorem mem_pairs_mem {l : List α} {s : α × α} (h : s ∈ pairs l) : s.1 ∈ l ∧ s.2 ∈ l := by
  induction l with
  | nil => simp at h
  | cons a l ih =>
    cases l with
    | nil => simp at h
    | cons b l =>
      rw [pairs_cons_cons, List.mem_cons] at h
      rcases h with rfl | h
      · simp
      · have := ih h
        exact ⟨List.mem_cons_of_mem _ this.1, List.mem_cons_of_mem _ this.2⟩

theorem mem_sides_mem {l : List α} {s : α × α} (h : s ∈ sides l) : s.1 ∈ l ∧ s.2 ∈ l := by
  cases l with
  | nil => simp [sides] at h
  | cons a l =>
    have := mem_pairs_mem h
    simp only [List.cons_append, List.mem_cons, List.mem_append, List.not_mem_nil, or_false] at this ⊢
    tauto

/-- Every corner is the first end of a side. -/
theorem exists_side_fst {l : List α} {a : α} (h : a ∈ l) : ∃ s ∈ sides l, s.1 = a := by
  obtain ⟨l1, l2, rfl⟩ := List.append_of_mem h
  have : ∀ s, s ∈ sides (l1 ++ a :: l2) ↔ s ∈ sides (a :: (l2 ++ l1)) := fun s => (sides_rotate l1 (a :: l2)).mem_iff
  cases hh : l2 ++ l1 with
  | nil => exact ⟨(a, a), (this _).2 (by simp [hh, sides]), rfl⟩
  | cons b t => exact ⟨(a, b), (this _).2 (by simp [hh, sides]), rfl⟩

/-- Around a closed polygon a property of the corners changes an even number of times. -/
theorem even_changes_pairs (f : α → Bool) (a : α) (l : List α) (z : α) :
    (Odd ((pairs (a :: l ++ [z])).countP fun s => f s.1 != f s.2)) ↔ f a ≠ f z := by
  induction l generalizing a with
  | nil => cases h1 : f a <;> cases h2 : f z <;> simp [h1, h2]
  | cons b l ih =>
    have := ih b
    simp only [List.cons_append, pairs_cons_cons, List.countP_cons] at this ⊢
    by_cases h : f a = f b
    · simp only [h, bne_self_eq_false, Bool.false_eq_true, if_false, Nat.add_zero]
      exact this
    · have h' : (f a != f b) = true := by simpa using h
      simp only [h', if_true, Nat.odd_add_one]
      rw [this]
      cases h1 : f a <;> cases h2 : f b <;> cases h3 : f z <;> simp_all

theorem even_changes (f : α → Bool) (l : List α) : Even ((sides l).countP fun s => f s.1 != f s.2) := by
  cases l with
  | nil => simp [sides]
  | cons a l =>
    rw [← Nat.not_odd_iff_even]
    unfold sides
    rw [even_changes_pairs]
    simp

end
end Celltree
