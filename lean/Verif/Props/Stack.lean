import Verif.Proofs.Core

/-!
# Stacks: C48
-/

namespace Celltree

/-- An operation of the code on a stack. -/
inductive StackOp (α : Type)
  | push (v : α)
  | pop

/-- Specification: a list, top first; `none` if an empty stack is popped. Returns the popped values and the final
content. -/
def specOps {α : Type} : List (StackOp α) → List α → Option (List α × List α)
  | [], l => some ([], l)
  | .push v :: ops, l => specOps ops (v :: l)
  | .pop :: _, [] => none
  | .pop :: ops, v :: l => (specOps ops l).map fun r => (v :: r.1, r.2)

/-- The same operations on the growable array of the code. -/
def codeOps {α : Type} [Inhabited α] : List (StackOp α) → Stk α → M (List α × Stk α)
  | [], s => .ok ([], s)
  | .push v :: ops, s => do codeOps ops (← s.push v)
  | .pop :: ops, s => do
    let (v, s) ← s.pop
    let (vs, s) ← codeOps ops s
    .ok (v :: vs, s)

/-- **C48**: for every sequence of pushes and pops that does not pop an empty stack, on an array with any positive
capacity and any (uninitialised) content, nothing fails, the popped values are those of a last-in first-out stack, and the
number of stored elements is right. The instance of `Inhabited` is the uninitialised content of new memory: any value. -/
theorem C48_stack_is_lifo {α : Type} [Inhabited α] (arr : List α) (harr : 0 < arr.length) (ops : List (StackOp α))
    {popped rest : List α} (h : specOps ops [] = some (popped, rest)) :
    ∃ s, codeOps ops ⟨arr, 0⟩ = .ok (popped, s) ∧ s.size = rest.length ∧ (s.arr.take s.size).reverse = rest := by
  have key : ∀ (ops : List (StackOp α)) (s : Stk α) (l popped rest : List α), s.Wf → s.toList = l →
      specOps ops l = some (popped, rest) → ∃ s', codeOps ops s = .ok (popped, s') ∧ s'.Wf ∧ s'.toList = rest := by
    intro ops
    induction ops with
    | nil =>
      intro s l popped rest hw hl h
      simp only [specOps, Option.some.injEq, Prod.mk.injEq] at h
      obtain ⟨rfl, rfl⟩ := h
      exact ⟨s, rfl, hw, hl⟩
    | cons op ops ih =>
      intro s l popped rest hw hl h
      cases op with
      | push v =>
        obtain ⟨s', h1, h2, h3⟩ := Stk.push_spec hw v
        rw [hl] at h3
        obtain ⟨s'', e1, e2⟩ := ih s' _ popped rest h2 h3 h
        exact ⟨s'', by simp only [codeOps, h1, ok_bind, e1], e2⟩
      | pop =>
        cases l with
        | nil => simp [specOps] at h
        | cons v l =>
          simp only [specOps, Option.map_eq_some_iff] at h
          obtain ⟨r, h1, h2⟩ := h
          cases h2
          obtain ⟨s', c1, c2, c3⟩ := Stk.pop_spec hw hl
          obtain ⟨s'', e1, e2⟩ := ih s' l r.1 r.2 c2 c3 h1
          exact ⟨s'', by simp only [codeOps, c1, ok_bind, e1], e2⟩
  obtain ⟨s, h1, h2, h3⟩ := key ops ⟨arr, 0⟩ [] popped rest ⟨harr, by simp⟩ (by simp [Stk.toList]) h
  exact ⟨s, h1, by rw [← h3, Stk.length_toList h2], h3⟩

/-- The stacks that the code allocates have a positive capacity. -/
theorem C48_allocated {α : Type} [Inhabited α] : 0 < (Stk.alloc (α := α)).arr.length ∧ (Stk.alloc (α := α)).size = 0 :=
  ⟨by simp [Stk.alloc, initialStackLength], rfl⟩

/-- A case in which the array (capacity one, garbage `7`) grows twice. -/
example : specOps [.push 1, .push 2, .pop, .push 3, .push 4, .push 5, .pop] [] = some ([2, 5], [4, 3, 1]) ∧
    (codeOps (α := Nat) [.push 1, .push 2, .pop, .push 3, .push 4, .push 5, .pop] ⟨[7], 0⟩).map (fun r => (r.1, r.2.size)) =
      .ok ([2, 5], 3) := ⟨rfl, rfl⟩

end Celltree
