import Verif.Proofs.BuildStep
import Verif.Proofs.Dfs

/-!
# Traversals as loops over the visited cells

The depth-first traversal of the flat arrays equals a loop over the list `order` of the cells of the visited leaves.
-/

set_option linter.unusedSectionVars false

namespace Celltree

variable {F : Type} [LE F]

/-- Loop over cells with early exit. -/
def runCells {σ ρ : Type} (step : Nat → σ → M (ρ ⊕ σ)) : List Nat → σ → M (ρ ⊕ σ)
  | [], st => .ok (.inr st)
  | c :: cs, st => do
    match ← step c st with
    | .inl r => .ok (.inl r)
    | .inr st => runCells step cs st

/-- Continue after a loop that did not exit. -/
def andThen {σ ρ : Type} (x : M (ρ ⊕ σ)) (f : σ → M (ρ ⊕ σ)) : M (ρ ⊕ σ) := do
  match ← x with
  | .inl r => .ok (.inl r)
  | .inr st => f st

theorem runCells_append {σ ρ : Type} (step : Nat → σ → M (ρ ⊕ σ)) (a b : List Nat) (st : σ) :
    runCells step (a ++ b) st = andThen (runCells step a st) (runCells step b) := by
  induction a generalizing st with
  | nil => rfl
  | cons c a ih =>
    simp only [List.cons_append, runCells]
    cases h : step c st with
    | error e => rfl
    | ok r =>
      cases r with
      | inl r => rfl
      | inr st => simp only [ok_bind]; exact ih st

theorem andThen_assoc {σ ρ : Type} (x : M (ρ ⊕ σ)) (f g : σ → M (ρ ⊕ σ)) :
    andThen (andThen x f) g = andThen x fun s => andThen (f s) g := by
  cases x with
  | error e => rfl
  | ok r => cases r <;> rfl

/-- How the body of a traversal acts: leaves process their cells, inner nodes push the selected children (`false` is
the left child) in the given order. -/
structure Visits {σ ρ : Type} (visit : Int → σ → M (ρ ⊕ (σ × List Int))) (nodes : List (Node F)) (idx : List Nat)
    (step : Nat → σ → M (ρ ⊕ σ)) (sel : Node F → List Bool) : Prop where
  leaf : ∀ (k : Nat) nd st, nodes[k]? = some nd → nd.child = -1 → nd.ptr + nd.size ≤ idx.length →
    visit k st = do
      match ← runCells step (seg idx nd.ptr (nd.ptr + nd.size)) st with
      | .inl r => .ok (.inl r)
      | .inr st => .ok (.inr (st, []))
  inner : ∀ (k : Nat) nd st, nodes[k]? = some nd → nd.child ≠ -1 →
    visit k st = .ok (.inr (st, (sel nd).map fun b => nd.child + if b then 1 else 0))

/-- At most both children. -/
def SelOk (sel : Node F → List Bool) : Prop := ∀ nd, (sel nd).Nodup

/-- The visited cells, in the order in which they are visited (the stack reverses the pushes). -/
def BT.order (nodes : List (Node F)) (idx : List Nat) (sel : Node F → List Bool) : BT → List Nat
  | .leaf _ lo hi => seg idx lo hi
  | .node k _ _ l r =>
    match nodes[k]? with
    | some nd => (sel nd).reverse.flatMap fun b => if b then r.order nodes idx sel else l.order nodes idx sel
    | none => []

theorem nodup_bool_cases {l : List Bool} (h : l.Nodup) :
    l = [] ∨ l = [false] ∨ l = [true] ∨ l = [false, true] ∨ l = [true, false] := by
  match l with
  | [] => simp
  | [false] => simp
  | [true] => simp
  | [false, true] => simp
  | [true, false] => simp
  | a :: b :: c :: l =>
    simp only [List.nodup_cons, List.mem_cons, not_or] at h
    obtain ⟨⟨h1, h2, h3⟩, ⟨h4, h5⟩, h6⟩ := h
    revert h1 h2 h4
    cases a <;> cases b <;> cases c <;> simp
  | [false, false] => simp at h
  | [true, true] => simp at h

theorem dfs_order {σ ρ : Type} {visit : Int → σ → M (ρ ⊕ (σ × List Int))} {coords : List (Box F)}
    {nodes : List (Node F)} {idx : List Nat} {step : Nat → σ → M (ρ ⊕ σ)} {sel : Node F → List Bool}
    (hv : Visits visit nodes idx step sel) (hsel : SelOk sel) (t : BT) (ht : t.Ok coords nodes idx)
    (hlen : t.hi ≤ idx.length) :
    ∃ m, m ≤ t.keys.length ∧ ∀ k rest st, dfs visit (m + k) ((t.root : Int) :: rest) st =
      andThen (runCells step (t.order nodes idx sel) st) (dfs visit k rest) := by
  induction t with
  | leaf n lo hi =>
    obtain ⟨hle, nd, h1, h2, h3, h4⟩ := ht
    have hlen' : hi ≤ idx.length := hlen
    refine ⟨1, by simp [BT.keys], ?_⟩
    intro k rest st
    rw [Nat.add_comm 1 k]
    simp only [dfs, BT.root]
    rw [hv.leaf n nd st h1 h2 (by omega), h4, h3, BT.order]
    cases runCells step (seg idx lo hi) st with
    | error e => rfl
    | ok r => cases r <;> rfl
  | node n lo hi l r ihl ihr =>
    obtain ⟨⟨nd, h1, h2, h3, h4, _, _⟩, hr0, _, e1, e2, e3, e4, e5, hl, hr⟩ := ht
    simp only [BT.hi] at hlen
    obtain ⟨ml, bl, il⟩ := ihl hl (by omega)
    obtain ⟨mr, br, ir⟩ := ihr hr (by omega)
    have hne : nd.child ≠ -1 := by omega
    have er : nd.child + 1 = (r.root : Int) := by omega
    have er' : (l.root : Int) + 1 = (r.root : Int) := by omega
    have key : ∀ k rest st,
        dfs visit (k + 1) ((n : Int) :: rest) st =
        dfs visit k ((((sel nd).map fun b => nd.child + if b then 1 else 0).reverse) ++ rest) st := by
      intro k rest st
      simp only [dfs, hv.inner n nd st h1 hne, ok_bind]
    have ho : (BT.node n lo hi l r).order nodes idx sel =
        (sel nd).reverse.flatMap fun b => if b then r.order nodes idx sel else l.order nodes idx sel := by
      simp only [BT.order, h1]
    simp only [BT.root, ho, BT.keys, List.length_cons, List.length_append]
    have hl0 : nd.child = (l.root : Int) := h2
    rcases nodup_bool_cases (hsel nd) with h | h | h | h | h
    · refine ⟨1, by omega, fun k rest st => ?_⟩
      rw [Nat.add_comm 1 k, key, h]
      rfl
    · refine ⟨ml + 1, by omega, fun k rest st => ?_⟩
      rw [show ml + 1 + k = (ml + k) + 1 by omega, key, h]
      simp [hl0, il]
    · refine ⟨mr + 1, by omega, fun k rest st => ?_⟩
      rw [show mr + 1 + k = (mr + k) + 1 by omega, key, h]
      simp [er, ir]
    · refine ⟨ml + mr + 1, by omega, fun k rest st => ?_⟩
      rw [show ml + mr + 1 + k = (mr + (ml + k)) + 1 by omega, key, h]
      simp only [List.map_cons, List.map_nil, List.reverse_cons, List.reverse_nil, List.nil_append, List.cons_append,
        if_true, if_false, Bool.false_eq_true, Int.add_zero, hl0, er', List.flatMap_cons, List.flatMap_nil,
        List.append_nil]
      rw [ir, runCells_append, andThen_assoc]
      congr 1
      funext s
      exact il k rest s
    · refine ⟨ml + mr + 1, by omega, fun k rest st => ?_⟩
      rw [show ml + mr + 1 + k = (ml + (mr + k)) + 1 by omega, key, h]
      simp only [List.map_cons, List.map_nil, List.reverse_cons, List.reverse_nil, List.nil_append, List.cons_append,
        if_true, if_false, Bool.false_eq_true, Int.add_zero, hl0, er', List.flatMap_cons, List.flatMap_nil,
        List.append_nil]
      rw [il, runCells_append, andThen_assoc]
      congr 1
      funext s
      exact ir k rest s

/-- Only cells of the tree are visited, and none more often than it occurs. -/
theorem order_count {coords : List (Box F)} {nodes : List (Node F)} {idx : List Nat} {sel : Node F → List Bool}
    (hsel : SelOk sel) (t : BT) (ht : t.Ok coords nodes idx) (x : Nat) :
    (t.order nodes idx sel).count x ≤ (seg idx t.lo t.hi).count x := by
  induction t with
  | leaf n lo hi => exact Nat.le_refl _
  | node n lo hi l r ihl ihr =>
    obtain ⟨⟨nd, h1, _⟩, _, _, e1, e2, e3, e4, e5, hl, hr⟩ := ht
    have cl := ihl hl
    have cr := ihr hr
    have ho : (BT.node n lo hi l r).order nodes idx sel =
        (sel nd).reverse.flatMap fun b => if b then r.order nodes idx sel else l.order nodes idx sel := by
      simp only [BT.order, h1]
    have hs : (seg idx lo hi).count x = (seg idx l.lo l.hi).count x + (seg idx r.lo r.hi).count x := by
      rw [e1, ← e2, e3, ← List.count_append, seg_append_seg idx (by omega) (by omega)]
    show _ ≤ (seg idx lo hi).count x
    rw [ho, hs]
    rcases nodup_bool_cases (hsel nd) with h | h | h | h | h <;> rw [h] <;> simp [List.count_append] <;> omega

theorem order_nodup {coords : List (Box F)} {nodes : List (Node F)} {idx : List Nat} {sel : Node F → List Bool}
    (hsel : SelOk sel) {t : BT} (ht : t.Ok coords nodes idx) (hlo : t.lo = 0) (hhi : t.hi = idx.length)
    (hidx : idx.Nodup) : (t.order nodes idx sel).Nodup := by
  rw [List.nodup_iff_count]
  intro x
  have := order_count hsel t ht x
  rw [hlo, hhi, seg_full] at this
  exact Nat.le_trans this (List.nodup_iff_count.1 hidx x)

theorem order_subset {coords : List (Box F)} {nodes : List (Node F)} {idx : List Nat} {sel : Node F → List Bool}
    (hsel : SelOk sel) {t : BT} (ht : t.Ok coords nodes idx) (hlo : t.lo = 0) (hhi : t.hi = idx.length) :
    ∀ x ∈ t.order nodes idx sel, x ∈ idx := by
  intro x hx
  have := order_count hsel t ht x
  rw [hlo, hhi, seg_full] at this
  have h1 : 0 < (t.order nodes idx sel).count x := List.count_pos_iff.2 hx
  exact List.count_pos_iff.1 (by omega)

/-- A cell for which the pruning tests hold at every node above it is visited. -/
theorem order_complete {coords : List (Box F)} {nodes : List (Node F)} {idx : List Nat} {sel : Node F → List Bool}
    {j : Nat} {box : Box F} (hj : coords[j]? = some box)
    (hl : ∀ nd ∈ nodes, box.hi nd.dim ≤ nd.Lmax → false ∈ sel nd)
    (hr : ∀ nd ∈ nodes, nd.Rmin ≤ box.lo nd.dim → true ∈ sel nd)
    (t : BT) (ht : t.Ok coords nodes idx) (hm : j ∈ seg idx t.lo t.hi) : j ∈ t.order nodes idx sel := by
  induction t with
  | leaf n lo hi => exact hm
  | node n lo hi l r ihl ihr =>
    obtain ⟨⟨nd, h1, _, _, _, hL, hR⟩, _, _, e1, e2, e3, e4, e5, hl', hr'⟩ := ht
    simp only [BT.order, h1, List.mem_flatMap, List.mem_reverse]
    have hm' : j ∈ seg idx lo hi := hm
    rw [← e1, ← e3, ← seg_append_seg idx (show l.lo ≤ l.hi by omega) (show l.hi ≤ r.hi by omega),
      List.mem_append] at hm'
    rcases hm' with hm' | hm'
    · exact ⟨false, hl nd (List.mem_of_getElem? h1) (hL j hm' box hj), by simpa using ihl hl' hm'⟩
    · rw [e2] at hm'
      exact ⟨true, hr nd (List.mem_of_getElem? h1) (hR j hm' box hj), by simpa using ihr hr' hm'⟩

/-- The whole loop, started at the root. -/
theorem whileStack_order {σ ρ : Type} {visit : Int → σ → M (ρ ⊕ (σ × List Int))} {coords : List (Box F)}
    {nodes : List (Node F)} {idx : List Nat} {step : Nat → σ → M (ρ ⊕ σ)} {sel : Node F → List Bool}
    (hv : Visits visit nodes idx step sel) (hsel : SelOk sel) {t : BT} (ht : t.Ok coords nodes idx)
    (hroot : t.root = 0) (hlo : t.lo = 0) (hhi : t.hi = idx.length) {s : Stk Int} (hs : s.Wf) (hsl : s.toList = [0])
    (st : σ) :
    whileStack visit (2 * idx.length + 1) s st = runCells step (t.order nodes idx sel) st := by
  rw [whileStack_eq_dfs visit _ hs, hsl]
  obtain ⟨m, hm1, hm2⟩ := dfs_order hv hsel t ht (by omega)
  have hk : t.keys.length ≤ 2 * idx.length + 1 := by
    have h1 := BT.length_keys t
    by_cases h : t.lo < t.hi
    · have := ht.length_leaves h; omega
    · cases t with
      | leaf => simp [BT.keys]
      | node k lo hi l r =>
        obtain ⟨_, _, _, e1, e2, e3, e4, e5, _⟩ := ht
        simp only [BT.lo, BT.hi] at *
        omega
  have := hm2 (2 * idx.length + 1 - m) [] st
  rw [show m + (2 * idx.length + 1 - m) = 2 * idx.length + 1 by omega, hroot] at this
  rw [show ((0 : Int)) = ((0 : Nat) : Int) from rfl, this]
  cases runCells step (t.order nodes idx sel) st with
  | error e => rfl
  | ok r =>
    cases r with
    | inl r => rfl
    | inr st' =>
      simp only [andThen, ok_bind]
      cases 2 * idx.length + 1 - m <;> rfl

end Celltree
