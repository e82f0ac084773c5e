import Verif.Proofs.BoxPairs

/-!
# Nodes and leaves of a constructed tree, in terms of the node array
-/

set_option linter.unusedSectionVars false

namespace Celltree

section
variable {F : Type} [LE F] {coords : List (Box F)} {nodes : List (Node F)} {idx : List Nat}

/-- A node is a leaf, or it has two children with larger numbers. -/
theorem BT.Ok.key_cases {t : BT} (h : t.Ok coords nodes idx) {k : Nat} (hk : k ∈ t.keys) :
    (∃ a b, (k, a, b) ∈ t.leaves) ∨ ∃ nd, ∃ m : Nat, nodes[k]? = some nd ∧ nd.child = (m : Int) ∧ k < m ∧
      m ∈ t.keys ∧ m + 1 ∈ t.keys := by
  induction t with
  | leaf k' lo hi =>
    rw [BT.keys, List.mem_singleton] at hk
    subst hk
    exact Or.inl ⟨lo, hi, by simp [BT.leaves]⟩
  | node k' lo hi l r ihl ihr =>
    obtain ⟨⟨nd, n1, n2, _⟩, h1, h2, _, _, _, _, _, hl, hr⟩ := h
    simp only [BT.keys, List.mem_cons, List.mem_append] at hk
    rcases hk with rfl | hk | hk
    · right
      refine ⟨nd, l.root, n1, n2, h2, ?_, ?_⟩
      · simp [BT.keys, BT.root_mem_keys]
      · rw [← h1]; simp [BT.keys, BT.root_mem_keys]
    · rcases ihl hl hk with ⟨a, b, hab⟩ | ⟨nd', m, c1, c2, c3, c4, c5⟩
      · exact Or.inl ⟨a, b, by simp [BT.leaves, hab]⟩
      · exact Or.inr ⟨nd', m, c1, c2, c3, by simp [BT.keys, c4], by simp [BT.keys, c5]⟩
    · rcases ihr hr hk with ⟨a, b, hab⟩ | ⟨nd', m, c1, c2, c3, c4, c5⟩
      · exact Or.inl ⟨a, b, by simp [BT.leaves, hab]⟩
      · exact Or.inr ⟨nd', m, c1, c2, c3, by simp [BT.keys, c4], by simp [BT.keys, c5]⟩

/-- Every position is in the range of a leaf. -/
theorem BT.Ok.leaf_of_pos {t : BT} (h : t.Ok coords nodes idx) {i : Nat} (h1 : t.lo ≤ i) (h2 : i < t.hi) :
    ∃ k a b, (k, a, b) ∈ t.leaves ∧ a ≤ i ∧ i < b := by
  induction t with
  | leaf k lo hi => exact ⟨k, lo, hi, by simp [BT.leaves], h1, h2⟩
  | node k lo hi l r ihl ihr =>
    obtain ⟨_, _, _, e1, e2, e3, _, _, hl, hr⟩ := h
    change lo ≤ i at h1
    change i < hi at h2
    by_cases hi' : i < l.hi
    · obtain ⟨k', a, b, m, p, q⟩ := ihl hl (by omega) hi'
      exact ⟨k', a, b, by simp [BT.leaves, m], p, q⟩
    · obtain ⟨k', a, b, m, p, q⟩ := ihr hr (by omega) (by omega)
      exact ⟨k', a, b, by simp [BT.leaves, m], p, q⟩

/-- Node numbers other than that of the root. -/
def BT.rest : BT → List Nat
  | .leaf _ _ _ => []
  | .node _ _ _ l r => l.keys ++ r.keys

theorem BT.keys_eq (t : BT) : t.keys = t.root :: t.rest := by cases t <;> rfl

/-- Children of a node according to the node array. -/
def childrenOf (nodes : List (Node F)) (k : Nat) : List Int :=
  match nodes[k]? with
  | some nd => if nd.child = -1 then [] else [nd.child, nd.child + 1]
  | none => []

theorem BT.Ok.children_perm {t : BT} (h : t.Ok coords nodes idx) :
    (t.keys.flatMap (childrenOf nodes)).Perm (t.rest.map Int.ofNat) := by
  induction t with
  | leaf k lo hi =>
    obtain ⟨_, nd, h1, h2, _⟩ := h
    simp [BT.keys, BT.rest, childrenOf, h1, h2]
  | node k lo hi l r ihl ihr =>
    obtain ⟨⟨nd, n1, n2, _⟩, h1, h2, _, _, _, _, _, hl, hr⟩ := h
    have hc : childrenOf nodes k = [Int.ofNat l.root, Int.ofNat r.root] := by
      have : ¬ ((l.root : Int) = -1) := by omega
      rw [h1]
      simp [childrenOf, n1, n2, this]
    simp only [BT.keys, List.flatMap_cons, List.flatMap_append, BT.rest, List.map_append, hc]
    rw [BT.keys_eq l, BT.keys_eq r]
    rw [BT.keys_eq l] at ihl
    rw [BT.keys_eq r] at ihr
    have i1 := ihl hl
    have i2 := ihr hr
    simp only [List.map_cons, List.cons_append, List.nil_append]
    refine List.Perm.cons _ ?_
    refine (List.Perm.trans (List.Perm.cons _ (i1.append i2)) ?_)
    exact List.perm_middle.symm

end

variable {F : Type} [Add F] [Sub F] [Mul F] [Div F] [Zero F] [One F] [Neg F] [IntCast F]
  [LT F] [LE F] [BEq F] [DecidableLT F] [DecidableLE F]

section
variable {tree : Tree F} {bt : BT}

theorem TreeOk.mem_keys (h : TreeOk tree bt) {k : Nat} : k ∈ bt.keys ↔ k < tree.nodes.length := by
  rw [h.keys.mem_iff, List.mem_range]

theorem TreeOk.leaf_iff (h : TreeOk tree bt) {k : Nat} {nd : Node F} (hk : tree.nodes[k]? = some nd) :
    nd.child = -1 ↔ (k, nd.ptr, nd.ptr + nd.size) ∈ bt.leaves := by
  constructor
  · intro hc
    rcases h.ok.key_cases (h.mem_keys.2 (List.getElem?_eq_some_iff.1 hk).1) with ⟨a, b, hab⟩ | ⟨nd', m, c1, c2, _⟩
    · obtain ⟨_, nd', d1, d2, d3, d4⟩ := h.ok.leaf_node hab
      rw [hk] at d1
      cases d1
      rw [d4, d3]
      exact hab
    · rw [hk] at c1
      cases c1
      omega
  · intro hm
    obtain ⟨_, nd', d1, d2, d3, d4⟩ := h.ok.leaf_node hm
    rw [hk] at d1
    cases d1
    exact d2

theorem toDictOfLists_fst (nodes : List (Node F)) : (toDictOfLists nodes).map Prod.fst = List.range nodes.length := by
  unfold toDictOfLists
  rw [List.map_map]
  have : (Prod.fst ∘ fun x : Node F × Nat =>
      if x.1.child = -1 then ((x.2, []) : Nat × List Int) else (x.2, [x.1.child, x.1.child + 1])) = Prod.snd := by
    funext x
    simp only [Function.comp]
    split <;> rfl
  rw [this, List.zipIdx_map_snd, List.range_eq_range']

theorem mem_toDictOfLists {nodes : List (Node F)} {k : Nat} {cs : List Int} :
    (k, cs) ∈ toDictOfLists nodes ↔ k < nodes.length ∧ cs = childrenOf nodes k := by
  unfold toDictOfLists
  simp only [List.mem_map, Prod.exists]
  constructor
  · rintro ⟨nd, k', hm, he⟩
    rw [List.mem_zipIdx_iff_getElem?] at hm
    split at he
    · rename_i hc
      cases he
      exact ⟨(List.getElem?_eq_some_iff.1 hm).1, by simp [childrenOf, hm, hc]⟩
    · rename_i hc
      cases he
      exact ⟨(List.getElem?_eq_some_iff.1 hm).1, by simp [childrenOf, hm, hc]⟩
  · rintro ⟨hk, rfl⟩
    refine ⟨nodes[k], k, ?_, ?_⟩
    · rw [List.mem_zipIdx_iff_getElem?]; simp [hk]
    · simp only [childrenOf, List.getElem?_eq_getElem hk]
      split <;> rfl

theorem toDictOfLists_eq (nodes : List (Node F)) :
    toDictOfLists nodes = (List.range nodes.length).map fun k => (k, childrenOf nodes k) := by
  apply List.ext_getElem?
  intro i
  have h1 := toDictOfLists_fst nodes
  have hl : (toDictOfLists nodes).length = nodes.length := by
    have := congrArg List.length h1
    simpa using this
  by_cases hi : i < nodes.length
  · have hi' : i < (toDictOfLists nodes).length := by omega
    have hm : (toDictOfLists nodes)[i] ∈ toDictOfLists nodes := List.getElem_mem hi'
    have hf : ((toDictOfLists nodes)[i]).1 = i := by
      have := congrArg (fun l : List Nat => l[i]?) h1
      simp [hi, hi'] at this
      exact this
    generalize hx : (toDictOfLists nodes)[i] = x at *
    obtain ⟨k, cs⟩ := x
    simp only at hf
    subst hf
    obtain ⟨_, rfl⟩ := mem_toDictOfLists.1 hm
    rw [List.getElem?_eq_getElem hi', hx]
    simp [hi]
  · rw [List.getElem?_eq_none (by omega), List.getElem?_eq_none (by simp; omega)]

end

end Celltree
