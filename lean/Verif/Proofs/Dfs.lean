import Verif.Model.Query
import Verif.Proofs.Core

/-!
# The traversal loop, on lists
-/

namespace Celltree

variable {α σ ρ : Type}

theorem pushAll_spec [Inhabited α] (vs : List α) {s : Stk α} (h : s.Wf) :
    ∃ s', pushAll s vs = .ok s' ∧ s'.Wf ∧ s'.toList = vs.reverse ++ s.toList := by
  induction vs generalizing s with
  | nil => exact ⟨s, rfl, h, by simp⟩
  | cons v vs ih =>
    obtain ⟨s1, h1, h2, h3⟩ := Stk.push_spec h v
    obtain ⟨s2, h4, h5, h6⟩ := ih h2
    exact ⟨s2, by simp [pushAll, h1, h4], h5, by simp [h6, h3]⟩

/-- The loop with the stack as a list, top first. -/
def dfs (visit : α → σ → M (ρ ⊕ (σ × List α))) : Nat → List α → σ → M (ρ ⊕ σ)
  | _, [], st => .ok (.inr st)
  | 0, _ :: _, _ => .error .fuel
  | fuel + 1, x :: xs, st => do
    match ← visit x st with
    | .inl r => .ok (.inl r)
    | .inr (st, pushed) => dfs visit fuel (pushed.reverse ++ xs) st

theorem whileStack_eq_dfs [Inhabited α] (visit : α → σ → M (ρ ⊕ (σ × List α))) (fuel : Nat) {s : Stk α} (h : s.Wf)
    (st : σ) : whileStack visit fuel s st = dfs visit fuel s.toList st := by
  induction fuel generalizing s st with
  | zero =>
    unfold whileStack
    cases hl : s.toList with
    | nil => simp [dfs, Stk.size_pos_iff h, hl, -gt_iff_lt]
    | cons x xs => simp [dfs, Stk.size_pos_iff h, hl, -gt_iff_lt]
  | succ fuel ih =>
    unfold whileStack
    cases hl : s.toList with
    | nil => simp [dfs, Stk.size_pos_iff h, hl, -gt_iff_lt]
    | cons x xs =>
      obtain ⟨s1, h1, h2, h3⟩ := Stk.pop_spec h hl
      simp only [Stk.size_pos_iff h, hl, h1, dfs, ne_eq, reduceCtorEq, not_false_eq_true, if_true, ok_bind]
      cases visit x st with
      | error e => rfl
      | ok r =>
        rcases r with r | ⟨st', pushed⟩
        · rfl
        · obtain ⟨s2, h4, h5, h6⟩ := pushAll_spec pushed h2
          simp only [ok_bind, h4]
          rw [ih h5, h6, h3]

end Celltree
