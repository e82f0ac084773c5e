import Verif.Model.Basic

/-!
# Reasoning about computations that may fail
-/

namespace Celltree

/-- `x` either returns a value that satisfies `P`, or fails with an error allowed by `E`. -/
def Sat {α : Type} (E : Err → Prop) (P : α → Prop) : M α → Prop
  | .ok a => P a
  | .error e => E e

section
variable {α β : Type} {E E' : Err → Prop} {P P' : α → Prop}

@[simp] theorem Sat_ok {a : α} : Sat E P (.ok a) ↔ P a := Iff.rfl
@[simp] theorem Sat_error {e : Err} : Sat E P (.error e : M α) ↔ E e := Iff.rfl

theorem Sat.bind {x : M α} {f : α → M β} {Q : β → Prop} (hx : Sat E P x) (hf : ∀ a, P a → Sat E Q (f a)) :
    Sat E Q (x >>= f) := by
  cases x with
  | ok a => exact hf a hx
  | error e => exact hx

/-- Like `Sat.bind`, also remembering the equation for the intermediate value. -/
theorem Sat.bind' {x : M α} {f : α → M β} {Q : β → Prop} (hx : Sat E P x)
    (hf : ∀ a, x = .ok a → P a → Sat E Q (f a)) : Sat E Q (x >>= f) := by
  cases x with
  | ok a => exact hf a rfl hx
  | error e => exact hx

theorem Sat.mono {x : M α} (hx : Sat E P x) (hE : ∀ e, E e → E' e) (hP : ∀ a, P a → P' a) : Sat E' P' x := by
  cases x with
  | ok a => exact hP a hx
  | error e => exact hE e hx

theorem Sat.of_ok {x : M α} {a : α} (hx : Sat E P x) (h : x = .ok a) : P a := by
  subst h; exact hx

theorem Sat.of_error {x : M α} {e : Err} (hx : Sat E P x) (h : x = .error e) : E e := by
  subst h; exact hx

theorem Sat.exists_ok {x : M α} (hx : Sat (fun _ => False) P x) : ∃ a, x = .ok a ∧ P a := by
  cases x with
  | ok a => exact ⟨a, rfl, hx⟩
  | error e => exact hx.elim

theorem Sat.and {x : M α} {Q : α → Prop} (h1 : Sat E P x) (h2 : Sat E Q x) : Sat E (fun a => P a ∧ Q a) x := by
  cases x with
  | ok a => exact ⟨h1, h2⟩
  | error e => exact h1

theorem bind_eq_ok {x : M α} {f : α → M β} {b : β} : (x >>= f) = .ok b ↔ ∃ a, x = .ok a ∧ f a = .ok b := by
  cases x with
  | ok a => exact ⟨fun h => ⟨a, rfl, h⟩, fun ⟨a', h1, h2⟩ => by cases h1; exact h2⟩
  | error e => exact ⟨fun h => (nomatch h), fun ⟨a', h1, _⟩ => (nomatch h1)⟩

@[simp] theorem ok_bind (a : α) (f : α → M β) : ((.ok a : M α) >>= f) = f a := rfl
@[simp] theorem error_bind (e : Err) (f : α → M β) : ((.error e : M α) >>= f) = .error e := rfl

theorem rd_eq_ok {l : List α} {i : Nat} {a : α} : rd l i = .ok a ↔ l[i]? = some a := by
  unfold rd; cases h : l[i]? <;> simp

theorem rd_of_lt {l : List α} {i : Nat} (h : i < l.length) : rd l i = .ok l[i] := by
  rw [rd_eq_ok]; simp [h]

theorem rd_of_some {l : List α} {i : Nat} {a : α} (h : l[i]? = some a) : rd l i = .ok a := rd_eq_ok.2 h

theorem wr_of_lt {l : List α} {i : Nat} (h : i < l.length) (v : α) : wr l i v = .ok (l.set i v) := by
  simp [wr, h]

theorem wr_eq_ok {l l' : List α} {i : Nat} {v : α} : wr l i v = .ok l' ↔ i < l.length ∧ l' = l.set i v := by
  unfold wr
  by_cases h : i < l.length
  · simp [h, eq_comm]
  · simp [h]

theorem rdI_nat {l : List α} {i : Nat} : rdI l (i : Int) = rd l i := by
  have h : ¬ ((i : Int) < 0) := by omega
  simp [rdI, wrapIdx, h]

theorem wrI_nat {l : List α} {i : Nat} {v : α} : wrI l (i : Int) v = wr l i v := by
  have h : ¬ ((i : Int) < 0) := by omega
  simp [wrI, wrapIdx, h]

theorem rdI_neg {l : List α} {i : Nat} (h : i < l.length) :
    rdI l (-(i : Int) - 1) = rd l (l.length - 1 - i) := by
  have h1 : (-(i : Int) - 1) < 0 := by omega
  have h2 : ¬ ((l.length : Int) + (-(i : Int) - 1) < 0) := by omega
  have h3 : ((l.length : Int) + (-(i : Int) - 1)).toNat = l.length - 1 - i := by omega
  simp [rdI, wrapIdx, h1, h2, h3]

theorem wrI_neg {l : List α} {i : Nat} {v : α} (h : i < l.length) :
    wrI l (-(i : Int) - 1) v = wr l (l.length - 1 - i) v := by
  have h1 : (-(i : Int) - 1) < 0 := by omega
  have h2 : ¬ ((l.length : Int) + (-(i : Int) - 1) < 0) := by omega
  have h3 : ((l.length : Int) + (-(i : Int) - 1)).toNat = l.length - 1 - i := by omega
  simp [wrI, wrapIdx, h1, h2, h3]

theorem rdI_last {l : List α} (h : l ≠ []) : rdI l (-1) = .ok (l.getLast h) := by
  have hl : 0 < l.length := List.length_pos_iff.2 h
  have := rdI_neg (l := l) (i := 0) hl
  simp only [Int.natCast_zero, Int.neg_zero, Int.zero_sub, Nat.sub_zero] at this
  rw [this, rd_of_lt (by omega)]
  simp [List.getLast_eq_getElem]

theorem rdI_length_sub_one {l : List α} (h : l ≠ []) : rdI l ((l.length : Int) - 1) = .ok (l.getLast h) := by
  have hl : 0 < l.length := List.length_pos_iff.2 h
  have h1 : ((l.length : Int) - 1) = ((l.length - 1 : Nat) : Int) := by omega
  rw [h1, rdI_nat, rd_of_lt (by omega)]
  simp [List.getLast_eq_getElem]

end

/-! ## Stacks refine lists -/

section
variable {α : Type}

/-- The abstract content of a stack, top first. -/
def Stk.toList (s : Stk α) : List α := (s.arr.take s.size).reverse

/-- Representation invariant. -/
def Stk.Wf (s : Stk α) : Prop := 0 < s.arr.length ∧ s.size ≤ s.arr.length

theorem Stk.length_toList {s : Stk α} (h : s.Wf) : s.toList.length = s.size := by
  simp [Stk.toList, h.2]

theorem Stk.push_spec [Inhabited α] {s : Stk α} (h : s.Wf) (v : α) :
    ∃ s', s.push v = .ok s' ∧ s'.Wf ∧ s'.toList = v :: s.toList := by
  obtain ⟨hp, hs⟩ := h
  have key : ∀ arr : List α, s.size < arr.length → arr.take s.size = s.arr.take s.size →
      ∃ s' : Stk α, (do let arr ← wr arr s.size v; (.ok ⟨arr, s.size + 1⟩ : M (Stk α))) = .ok s' ∧ s'.Wf ∧
        s'.toList = v :: s.toList := by
    intro arr hlt htake
    refine ⟨⟨arr.set s.size v, s.size + 1⟩, by simp [wr_of_lt hlt], ⟨by simp; omega, by simp; omega⟩, ?_⟩
    simp only [Stk.toList]
    rw [List.take_add_one, List.take_set_of_le (Nat.le_refl _), htake]
    simp [hlt]
  unfold Stk.push
  by_cases hc : s.size ≥ s.arr.length
  · simp only [hc, if_true]
    refine key _ (by simp [growArr]; omega) ?_
    rw [growArr, List.take_append_of_le_length hs]
  · simp only [hc, if_false]
    exact key _ (by omega) rfl

theorem Stk.pop_spec {s : Stk α} (h : s.Wf) {v : α} {vs : List α} (hl : s.toList = v :: vs) :
    ∃ s', s.pop = .ok (v, s') ∧ s'.Wf ∧ s'.toList = vs := by
  obtain ⟨hp, hs⟩ := h
  have hlen : s.toList.length = s.size := Stk.length_toList ⟨hp, hs⟩
  have hpos : 0 < s.size := by rw [← hlen, hl]; simp
  have hlt : s.size - 1 < s.arr.length := by omega
  have e1 : ((s.size : Int) - 1) = ((s.size - 1 : Nat) : Int) := by omega
  have htake : s.arr.take s.size = s.arr.take (s.size - 1) ++ [s.arr[s.size - 1]] := by
    conv => lhs; rw [show s.size = (s.size - 1) + 1 by omega, List.take_add_one]
    simp [hlt]
  rw [Stk.toList, htake] at hl
  simp only [List.reverse_append, List.reverse_cons, List.reverse_nil, List.nil_append, List.singleton_append,
    List.cons.injEq] at hl
  refine ⟨⟨s.arr, s.size - 1⟩, ?_, ⟨hp, by simp only; omega⟩, hl.2⟩
  unfold Stk.pop
  rw [e1, rdI_nat, rd_of_lt hlt]
  simp [hl.1]

theorem Stk.size_pos_iff {s : Stk α} (h : s.Wf) : s.size > 0 ↔ s.toList ≠ [] := by
  rw [← Stk.length_toList h, gt_iff_lt, List.length_pos_iff]

theorem Stk.single_spec [Inhabited α] (v : α) :
    ∃ s : Stk α, Stk.single v = .ok s ∧ s.Wf ∧ s.toList = [v] := by
  refine ⟨⟨(List.replicate initialStackLength default).set 0 v, 1⟩, rfl, ⟨?_, ?_⟩, ?_⟩
  · simp [initialStackLength]
  · simp [initialStackLength]
  · simp [Stk.toList, initialStackLength, List.replicate]

end

end Celltree
