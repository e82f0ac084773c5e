import Verif.Proofs.Leaves
import Verif.Spec.Bounds

/-!
# `collect_node_bounds` and `validate_node_bounds`
-/

set_option linter.unusedSectionVars false

namespace Celltree

variable {F : Type} [Add F] [Sub F] [Mul F] [Div F] [Zero F] [One F] [Neg F] [IntCast F]
  [LT F] [LE F] [BEq F] [DecidableLT F] [DecidableLE F]

/-- Bounds of a child, from the bounds of its parent. -/
def childBox (nd : Node F) (B : Box F) (left : Bool) : Box F :=
  B.setSide nd.dim left (if left then nd.Lmax else nd.Rmin)

/-- The bounds of all nodes of a tree, given those of its root. -/
def BT.boxes (nodes : List (Node F)) : BT → Box F → List (Nat × Box F)
  | .leaf k _ _, B => [(k, B)]
  | .node k _ _ l r, B =>
    match nodes[k]? with
    | some nd => (k, B) :: (l.boxes nodes (childBox nd B true) ++ r.boxes nodes (childBox nd B false))
    | none => []

/-- Write values at positions. -/
def writeAll {α : Type} (st : List α) (ps : List (Nat × α)) : List α := ps.foldl (fun s p => s.set p.1 p.2) st

section writeAll
variable {α : Type}

theorem writeAll_cons (st : List α) (p : Nat × α) (ps : List (Nat × α)) :
    writeAll st (p :: ps) = writeAll (st.set p.1 p.2) ps := rfl

theorem writeAll_append (st : List α) (ps qs : List (Nat × α)) :
    writeAll st (ps ++ qs) = writeAll (writeAll st ps) qs := by simp [writeAll, List.foldl_append]

@[simp] theorem writeAll_length (st : List α) (ps : List (Nat × α)) : (writeAll st ps).length = st.length := by
  induction ps generalizing st with
  | nil => rfl
  | cons p ps ih => rw [writeAll_cons, ih, List.length_set]

theorem writeAll_of_not_mem (st : List α) (ps : List (Nat × α)) {k : Nat} (h : ∀ p ∈ ps, p.1 ≠ k) :
    (writeAll st ps)[k]? = st[k]? := by
  induction ps generalizing st with
  | nil => rfl
  | cons p ps ih =>
    rw [writeAll_cons, ih _ (fun q hq => h q (by simp [hq])), List.getElem?_set_ne (h p (by simp))]

theorem writeAll_mem {st : List α} {ps : List (Nat × α)} (hn : (ps.map Prod.fst).Nodup) {k : Nat} {v : α}
    (h : (k, v) ∈ ps) (hk : k < st.length) : (writeAll st ps)[k]? = some v := by
  induction ps generalizing st with
  | nil => simp at h
  | cons p ps ih =>
    rw [List.map_cons, List.nodup_cons] at hn
    rw [writeAll_cons]
    rcases List.mem_cons.1 h with rfl | h
    · rw [writeAll_of_not_mem _ _ (fun q hq e => hn.1 (List.mem_map.2 ⟨q, hq, e⟩))]
      simp [hk]
    · exact ih hn.2 h (by simpa using hk)

end writeAll

section
variable {coords : List (Box F)} {nodes : List (Node F)} {idx : List Nat}

theorem BT.Ok.boxes_keys {t : BT} (h : t.Ok coords nodes idx) (B : Box F) :
    (t.boxes nodes B).map Prod.fst = t.keys := by
  induction t generalizing B with
  | leaf k lo hi => rfl
  | node k lo hi l r ihl ihr =>
    obtain ⟨⟨nd, n1, _⟩, _, _, _, _, _, _, _, hl, hr⟩ := h
    simp only [BT.boxes, n1, List.map_cons, List.map_append, ihl hl, ihr hr, BT.keys]

theorem BT.Ok.root_le {t : BT} (h : t.Ok coords nodes idx) {k : Nat} (hk : k ∈ t.keys) : t.root ≤ k := by
  induction t with
  | leaf k' lo hi => simp only [BT.keys, List.mem_singleton] at hk; simp [BT.root, hk]
  | node k' lo hi l r ihl ihr =>
    obtain ⟨_, h1, h2, _, _, _, _, _, hl, hr⟩ := h
    simp only [BT.keys, List.mem_cons, List.mem_append] at hk
    simp only [BT.root]
    rcases hk with hk | hk | hk
    · omega
    · have := ihl hl hk; omega
    · have := ihr hr hk; omega

/-- The children of the root are nodes 1 and 2. -/
theorem BT.Ok.root_children {k lo hi : Nat} {l r : BT} (h : (BT.node k lo hi l r).Ok coords nodes idx)
    (hroot : k = 0) (hkeys : (BT.node k lo hi l r).keys.Perm (List.range nodes.length)) :
    l.root = 1 ∧ r.root = 2 := by
  obtain ⟨_, h1, h2, _, _, _, _, _, hl, hr⟩ := h
  have hlen := hkeys.length_eq
  have hpos : 0 < l.keys.length := by rw [BT.keys_eq]; simp
  simp only [BT.keys, List.length_cons, List.length_append, List.length_range] at hlen
  have hm : 1 ∈ (BT.node k lo hi l r).keys := hkeys.mem_iff.2 (List.mem_range.2 (by omega))
  simp only [BT.keys, List.mem_cons, List.mem_append] at hm
  rcases hm with hm | hm | hm
  · omega
  · have := hl.root_le hm; omega
  · have := hr.root_le hm; omega

/-- The loop of `collect_node_bounds`, started at a child. -/
theorem dfs_bounds {tree : Tree F} {t : BT} (h : t.Ok coords tree.nodes idx) (hlt : ∀ k ∈ t.keys, k < tree.nodes.length)
    (hnd : t.keys.Nodup) (f : Nat) (rest : List (Int × Int × Bool)) (st : List (Box F)) (p : Nat) (pn : Node F)
    (PB : Box F) (side : Bool) (hp : tree.nodes[p]? = some pn) (hpb : st[p]? = some PB) (hpk : p ∉ t.keys)
    (hst : st.length = tree.nodes.length) :
    dfs (boundsVisit tree) (t.keys.length + f) (((t.root : Int), (p : Int), side) :: rest) st =
      dfs (boundsVisit tree) f rest (writeAll st (t.boxes tree.nodes (childBox pn PB side))) := by
  induction t generalizing f rest st p pn PB side with
  | leaf k lo hi =>
    obtain ⟨_, nd, n1, n2, _⟩ := h
    have hk : k < st.length := by rw [hst]; exact hlt k (by simp [BT.keys])
    have hv : boundsVisit tree ((k : Int), (p : Int), side) st =
        .ok (.inr (st.set k (childBox pn PB side), [])) := by
      unfold boundsVisit
      simp only [rdI_nat.trans (rd_of_some hp), rdI_nat.trans (rd_of_some hpb), ok_bind, wrI_nat, wr_of_lt hk,
        rdI_nat.trans (rd_of_some n1), n2, if_true, childBox]
    rw [show (BT.leaf k lo hi).keys.length + f = f + 1 by simp [BT.keys]; omega]
    simp only [dfs, BT.root, hv, ok_bind, List.reverse_nil, List.nil_append, BT.boxes, writeAll_cons]
    rfl
  | node k lo hi l r ihl ihr =>
    obtain ⟨⟨nd, n1, n2, _⟩, h1, h2, _, _, _, _, _, hl, hr⟩ := h
    simp only [BT.keys, List.nodup_cons, List.nodup_append, List.mem_append, not_or] at hnd
    obtain ⟨⟨hkl, hkr⟩, hndl, hndr, hdis⟩ := hnd
    simp only [BT.keys, List.mem_cons, List.mem_append, not_or] at hlt hpk
    have hk : k < st.length := by rw [hst]; exact hlt k (Or.inl rfl)
    have hc : nd.child ≠ -1 := by omega
    have hv : boundsVisit tree ((k : Int), (p : Int), side) st =
        .ok (.inr (st.set k (childBox pn PB side), [((r.root : Int), (k : Int), false), ((l.root : Int), (k : Int), true)])) := by
      unfold boundsVisit
      simp only [rdI_nat.trans (rd_of_some hp), rdI_nat.trans (rd_of_some hpb), ok_bind, wrI_nat, wr_of_lt hk,
        rdI_nat.trans (rd_of_some n1), if_neg hc, childBox]
      rw [n2, h1]
      simp
    rw [show (BT.node k lo hi l r).keys.length + f = (l.keys.length + (r.keys.length + f)) + 1 by
      simp [BT.keys]; omega]
    rw [show (BT.node k lo hi l r).root = k from rfl]
    simp only [dfs, hv, ok_bind, List.reverse_cons, List.reverse_nil, List.nil_append, List.cons_append,
      BT.boxes, n1, writeAll_cons, writeAll_append]
    have hs1 : (st.set k (childBox pn PB side)).length = tree.nodes.length := by rw [List.length_set, hst]
    rw [ihl hl (fun k hk => hlt k (Or.inr (Or.inl hk))) hndl _ _ _ k nd (childBox pn PB side) true n1
      (by rw [List.getElem?_set_self hk]) hkl hs1]
    refine ihr hr (fun k hk => hlt k (Or.inr (Or.inr hk))) hndr _ _ _ k nd (childBox pn PB side) false n1 ?_
      hkr (by rw [writeAll_length, hs1])
    rw [writeAll_of_not_mem]
    · simp [hk]
    · intro q hq e
      apply hkl
      rw [← hl.boxes_keys (childBox nd (childBox pn PB side) true)]
      exact List.mem_map.2 ⟨q, hq, e⟩

theorem TreeOk.keys_fuel {tree : Tree F} {t : BT} (h : TreeOk tree t) : t.keys.length ≤ tree.fuel := by
  have h1 := BT.length_keys t
  have h2 := h.hi'
  have h3 := h.lo
  have h4 := h.ok
  unfold Tree.fuel
  by_cases hlt : t.lo < t.hi
  · have := h4.length_leaves hlt; omega
  · cases t with
    | leaf => simp [BT.keys]
    | node k lo hi l r =>
      obtain ⟨_, _, _, e1, e2, e3, e4, e5, _⟩ := h4
      simp only [BT.lo, BT.hi] at *
      omega

/-- Result of `collect_node_bounds` for a tree with more than one node. -/
theorem collectNodeBounds_spec {tree : Tree F} {t : BT} (h : TreeOk tree t) (hn : 1 < tree.nodes.length)
    (garbage : Box F) :
    ∃ bounds, collectNodeBounds tree garbage = .ok bounds ∧ bounds.length = tree.nodes.length ∧
      ∀ k B, (k, B) ∈ t.boxes tree.nodes tree.bbox → bounds[k]? = some B := by
  have hkn : t.keys.Nodup := h.keys.nodup_iff.2 List.nodup_range
  have hfuel := h.keys_fuel
  have hkeys := h.keys
  have hroot := h.root
  have hok := h.ok
  cases t with
  | leaf k lo hi =>
    have := hkeys.length_eq
    simp [BT.keys] at this
    omega
  | node k lo hi l r =>
    have hk0 : k = 0 := hroot
    obtain ⟨hl1, hr2⟩ := hok.root_children hk0 hkeys
    have hall := hok
    obtain ⟨⟨nd, n1, n2, _⟩, h1, h2, _, _, _, _, _, hl, hr⟩ := hok
    subst hk0
    have hlt : ∀ m ∈ (BT.node 0 lo hi l r).keys, m < tree.nodes.length := fun m hm => h.mem_keys.1 hm
    have hkn' := hkn
    simp only [BT.keys, List.nodup_cons, List.nodup_append, List.mem_append, not_or] at hkn'
    obtain ⟨⟨hkl, hkr⟩, hndl, hndr, hdis⟩ := hkn'
    obtain ⟨s0, s1, s2, s3⟩ := Stk.single_spec ((2 : Int), (0 : Int), false)
    obtain ⟨s4, s5, s6, s7⟩ := Stk.push_spec s2 ((1 : Int), (0 : Int), true)
    have hlen0 : 0 < (List.replicate tree.nodes.length garbage).length := by simp; omega
    have hf : tree.fuel = l.keys.length + (r.keys.length + (tree.fuel - l.keys.length - r.keys.length)) := by
      simp only [BT.keys, List.length_cons, List.length_append] at hfuel
      omega
    have e1 : ((1 : Int), (0 : Int), true) = ((l.root : Int), ((0 : Nat) : Int), true) := by rw [hl1]; rfl
    have e2 : ((2 : Int), (0 : Int), false) = ((r.root : Int), ((0 : Nat) : Int), false) := by rw [hr2]; rfl
    refine ⟨writeAll (List.replicate tree.nodes.length garbage) ((BT.node 0 lo hi l r).boxes tree.nodes tree.bbox), ?_, ?_, ?_⟩
    · unfold collectNodeBounds
      rw [wr_of_lt hlen0, ok_bind, s1, ok_bind, s5, ok_bind, whileStack_eq_dfs _ _ s6, s7, s3, hf]
      have hs1 : ((List.replicate tree.nodes.length garbage).set 0 tree.bbox).length = tree.nodes.length := by simp
      have hs2 : ((List.replicate tree.nodes.length garbage).set 0 tree.bbox)[0]? = some tree.bbox :=
        List.getElem?_set_self hlen0
      rw [e1, e2, dfs_bounds hl (fun k hk => hlt k (by simp [BT.keys, hk])) hndl _ _ _ 0 nd tree.bbox true n1
        hs2 hkl hs1, dfs_bounds hr (fun k hk => hlt k (by simp [BT.keys, hk])) hndr _ _ _ 0 nd
        tree.bbox false n1 ?_ hkr (by rw [writeAll_length, hs1])]
      · have : ∀ f st, dfs (boundsVisit tree) f [] st = .ok (.inr st) := fun f st => by cases f <;> rfl
        rw [this]
        simp only [ok_bind, BT.boxes, n1, writeAll_cons, writeAll_append]
      · rw [writeAll_of_not_mem]
        · exact hs2
        · intro q hq e
          apply hkl
          rw [← hl.boxes_keys (childBox nd tree.bbox true)]
          exact List.mem_map.2 ⟨q, hq, e⟩
    · simp
    · intro k B hkB
      refine writeAll_mem (by rw [hall.boxes_keys]; exact hkn) hkB ?_
      rw [List.length_replicate]
      apply hlt
      rw [← hall.boxes_keys tree.bbox]
      exact List.mem_map.2 ⟨_, hkB, rfl⟩

end

/-! ## Containment -/

theorem BoxIn.dims {b B : Box F} : BoxIn b B ↔ ∀ dim, B.lo dim ≤ b.lo dim ∧ b.hi dim ≤ B.hi dim := by
  constructor
  · rintro ⟨h1, h2, h3, h4⟩ dim
    cases dim
    · exact ⟨h1, h2⟩
    · exact ⟨h3, h4⟩
  · intro h
    exact ⟨(h false).1, (h false).2, (h true).1, (h true).2⟩

theorem childBox_left (nd : Node F) (B : Box F) (dim : Bool) :
    (childBox nd B true).lo dim = B.lo dim ∧
    (childBox nd B true).hi dim = if dim = nd.dim then nd.Lmax else B.hi dim := by
  unfold childBox Box.setSide
  cases nd.dim <;> cases dim <;> simp [Box.lo, Box.hi]

theorem childBox_right (nd : Node F) (B : Box F) (dim : Bool) :
    (childBox nd B false).hi dim = B.hi dim ∧
    (childBox nd B false).lo dim = if dim = nd.dim then nd.Rmin else B.lo dim := by
  unfold childBox Box.setSide
  cases nd.dim <;> cases dim <;> simp [Box.lo, Box.hi]

/-- The boxes of the cells lie in `B`. -/
def AllIn (coords : List (Box F)) (cells : List Nat) (B : Box F) : Prop :=
  ∀ i ∈ cells, ∀ b, coords[i]? = some b → BoxIn b B

section
variable {coords : List (Box F)} {nodes : List (Node F)} {idx : List Nat}

/-- What the bounds of all nodes satisfy. -/
theorem BT.Ok.boxes_spec {t : BT} (h : t.Ok coords nodes idx) {B : Box F}
    (hB : AllIn coords (seg idx t.lo t.hi) B) {k : Nat} {C : Box F} (hk : (k, C) ∈ t.boxes nodes B) :
    ∃ nd, nodes[k]? = some nd ∧ AllIn coords (seg idx nd.ptr (nd.ptr + nd.size)) C ∧
      (nd.child = -1 ∨ ∃ m : Nat, nd.child = m ∧ nd.size ≠ 0 ∧ nd.ptr + nd.size ≤ t.hi ∧
        (m, childBox nd C true) ∈ t.boxes nodes B ∧ (m + 1, childBox nd C false) ∈ t.boxes nodes B) := by
  induction t generalizing B with
  | leaf k' lo hi =>
    obtain ⟨_, nd, n1, n2, n3, n4⟩ := h
    simp only [BT.boxes, List.mem_singleton, Prod.mk.injEq] at hk
    obtain ⟨rfl, rfl⟩ := hk
    exact ⟨nd, n1, by rw [n4, n3]; exact hB, Or.inl n2⟩
  | node k' lo hi l r ihl ihr =>
    obtain ⟨⟨nd, n1, n2, n3, n4, hL, hR⟩, h1, h2, e1, e2, e3, e4, e5, hl, hr⟩ := h
    simp only [BT.lo, BT.hi] at hB
    have hseg : seg idx lo hi = seg idx l.lo l.hi ++ seg idx r.lo r.hi := by
      rw [← e2, seg_append_seg idx (by omega) (by omega), e1, e3]
    have root_mem : ∀ (u : BT) (D : Box F), u.Ok coords nodes idx → (u.root, D) ∈ u.boxes nodes D := by
      intro u D hu
      cases u with
      | leaf => simp [BT.boxes, BT.root]
      | node =>
        obtain ⟨⟨nd, n1, _⟩, _⟩ := hu
        simp [BT.boxes, BT.root, n1]
    have hBl : AllIn coords (seg idx l.lo l.hi) (childBox nd B true) := by
      intro i hi b hb
      have hib := BoxIn.dims.1 (hB i (by rw [hseg]; exact List.mem_append_left _ hi) b hb)
      refine BoxIn.dims.2 fun dim => ?_
      obtain ⟨c1, c2⟩ := childBox_left nd B dim
      rw [c1, c2]
      refine ⟨(hib dim).1, ?_⟩
      split
      · rename_i hd; rw [hd]; exact hL i hi b hb
      · exact (hib dim).2
    have hBr : AllIn coords (seg idx r.lo r.hi) (childBox nd B false) := by
      intro i hi b hb
      have hib := BoxIn.dims.1 (hB i (by rw [hseg]; exact List.mem_append_right _ hi) b hb)
      refine BoxIn.dims.2 fun dim => ?_
      obtain ⟨c1, c2⟩ := childBox_right nd B dim
      rw [c1, c2]
      refine ⟨?_, (hib dim).2⟩
      split
      · rename_i hd; rw [hd]; exact hR i hi b hb
      · exact (hib dim).1
    simp only [BT.boxes, n1, List.mem_cons, List.mem_append, Prod.mk.injEq] at hk ⊢
    rcases hk with ⟨rfl, rfl⟩ | hk | hk
    · refine ⟨nd, n1, by rw [n4, n3]; exact hB, Or.inr ⟨l.root, n2, by omega, by simp only [BT.hi]; omega, ?_, ?_⟩⟩
      · exact Or.inr (Or.inl (root_mem l _ hl))
      · rw [← h1]; exact Or.inr (Or.inr (root_mem r _ hr))
    · obtain ⟨nd', q1, q2, q3⟩ := ihl hl hBl hk
      refine ⟨nd', q1, q2, q3.imp id ?_⟩
      rintro ⟨m, m1, m2, m3, m4, m5⟩
      exact ⟨m, m1, m2, by simp only [BT.hi]; omega, Or.inr (Or.inl m4), Or.inr (Or.inl m5)⟩
    · obtain ⟨nd', q1, q2, q3⟩ := ihr hr hBr hk
      refine ⟨nd', q1, q2, q3.imp id ?_⟩
      rintro ⟨m, m1, m2, m3, m4, m5⟩
      exact ⟨m, m1, m2, by simp only [BT.hi]; omega, Or.inr (Or.inr m4), Or.inr (Or.inr m5)⟩

theorem BT.Ok.mem_boxes {t : BT} (h : t.Ok coords nodes idx) (B : Box F) {k : Nat} (hk : k ∈ t.keys) :
    ∃ C, (k, C) ∈ t.boxes nodes B := by
  rw [← h.boxes_keys B] at hk
  obtain ⟨⟨k', C⟩, h1, rfl⟩ := List.mem_map.1 hk
  exact ⟨C, h1⟩

end

/-! ## `validate_node_bounds` -/

section
variable {coords : List (Box F)} {nodes : List (Node F)} {idx : List Nat}

/-- The loop of `validate_node_bounds`: `v` is the outcome of the test at the nodes. -/
theorem dfs_validate {tree : Tree F} (v : Nat → Bool) {bounds : List (Box F)} {t : BT} (h : t.Ok coords tree.nodes idx)
    (hlt : ∀ k ∈ t.keys, k < tree.nodes.length)
    (hleaf : ∀ k ∈ t.keys, ∀ nd st, tree.nodes[k]? = some nd → nd.child = -1 → st.length = tree.nodes.length →
      validateVisit tree bounds k st = .ok (.inr (st.set k (v k), [])))
    (hnode : ∀ k ∈ t.keys, ∀ nd st, tree.nodes[k]? = some nd → nd.child ≠ -1 → st.length = tree.nodes.length →
      validateVisit tree bounds k st = .ok (.inr (st.set k (v k), [nd.child + 1, nd.child])))
    (f : Nat) (rest : List Int) (st : List Bool) (hst : st.length = tree.nodes.length) :
    dfs (validateVisit tree bounds) (t.keys.length + f) ((t.root : Int) :: rest) st =
      dfs (validateVisit tree bounds) f rest (writeAll st (t.keys.map fun k => (k, v k))) := by
  induction t generalizing f rest st with
  | leaf k lo hi =>
    obtain ⟨_, nd, n1, n2, _⟩ := h
    have hv := hleaf k (by simp [BT.keys]) nd st n1 n2 hst
    rw [show (BT.leaf k lo hi).keys.length + f = f + 1 by simp [BT.keys]; omega]
    simp only [dfs, BT.root, hv, ok_bind, List.reverse_nil, List.nil_append, BT.keys, List.map_cons, writeAll_cons]
    rfl
  | node k lo hi l r ihl ihr =>
    obtain ⟨⟨nd, n1, n2, _⟩, h1, h2, _, _, _, _, _, hl, hr⟩ := h
    have hv := hnode k (by simp [BT.keys]) nd st n1 (by omega) hst
    have e : nd.child + 1 = (r.root : Int) := by rw [n2, h1]; rfl
    rw [show (BT.node k lo hi l r).root = k from rfl]
    rw [show (BT.node k lo hi l r).keys.length + f = (l.keys.length + (r.keys.length + f)) + 1 by
      simp [BT.keys]; omega]
    simp only [dfs, hv, ok_bind, List.reverse_cons, List.reverse_nil, List.nil_append, List.cons_append,
      BT.keys, List.map_cons, List.map_append, writeAll_cons, writeAll_append]
    rw [e, n2]
    have sub1 : ∀ m ∈ l.keys, m ∈ (BT.node k lo hi l r).keys := fun m hm => by simp [BT.keys, hm]
    have sub2 : ∀ m ∈ r.keys, m ∈ (BT.node k lo hi l r).keys := fun m hm => by simp [BT.keys, hm]
    rw [ihl hl (fun m hm => hlt m (sub1 m hm)) (fun m hm => hleaf m (sub1 m hm)) (fun m hm => hnode m (sub1 m hm)) _ _ _
      (by simp [hst]),
      ihr hr (fun m hm => hlt m (sub2 m hm)) (fun m hm => hleaf m (sub2 m hm)) (fun m hm => hnode m (sub2 m hm)) _ _ _
      (by simp [hst])]

theorem leafContained_true {tree : Tree F} {B : Box F} (n i : Nat) (hlen : i + n ≤ tree.bbIndices.length)
    (hin : ∀ j ∈ seg tree.bbIndices i (i + n), ∃ b, tree.bbCoords[j]? = some b ∧ boxContained b B = true) :
    leafContained tree B n i true = .ok true := by
  induction n generalizing i with
  | zero => rfl
  | succ n ih =>
    have hi : i < tree.bbIndices.length := by omega
    rw [seg_cons _ hi] at hin
    obtain ⟨b, hb, hc⟩ := hin tree.bbIndices[i] (by simp)
    unfold leafContained
    rw [rd_of_lt hi, ok_bind, rd_of_some hb, ok_bind, hc]
    exact ih (i + 1) (by omega) fun j hj => hin j (by simp [hj])

theorem leafContained_iff {tree : Tree F} {B : Box F} (n i : Nat) (c : Bool) (hlen : i + n ≤ tree.bbIndices.length)
    (hin : ∀ j ∈ tree.bbIndices, ∃ b, tree.bbCoords[j]? = some b) :
    ∃ v, leafContained tree B n i c = .ok v ∧ (v = true ↔ c = true ∧ ∀ k j b, i ≤ k → k < i + n →
      tree.bbIndices[k]? = some j → tree.bbCoords[j]? = some b → boxContained b B = true) := by
  induction n generalizing i c with
  | zero => exact ⟨c, rfl, fun h => ⟨h, fun k _ _ h1 h2 => by omega⟩, fun h => h.1⟩
  | succ n ih =>
    have hi : i < tree.bbIndices.length := by omega
    obtain ⟨b, hb⟩ := hin tree.bbIndices[i] (List.getElem_mem hi)
    obtain ⟨v, h1, h2⟩ := ih (i + 1) (c && boxContained b B) (by omega)
    refine ⟨v, ?_, ?_⟩
    · unfold leafContained
      rw [rd_of_lt hi, ok_bind, rd_of_some hb, ok_bind]
      exact h1
    · rw [h2, Bool.and_eq_true]
      constructor
      · rintro ⟨⟨e1, e2⟩, e3⟩
        refine ⟨e1, fun k j b' k1 k2 k3 k4 => ?_⟩
        rcases Nat.eq_or_lt_of_le k1 with rfl | k1
        · rw [List.getElem?_eq_getElem hi] at k3
          cases k3
          rw [hb] at k4
          cases k4
          exact e2
        · exact e3 k j b' k1 (by omega) k3 k4
      · rintro ⟨e1, e2⟩
        exact ⟨⟨e1, e2 i _ b (Nat.le_refl _) (by omega) (List.getElem?_eq_getElem hi) hb⟩,
          fun k j b' k1 k2 k3 k4 => e2 k j b' (by omega) (by omega) k3 k4⟩

theorem boxContained_iff {b B : Box F} : boxContained b B = true ↔ BoxIn b B := by
  simp only [boxContained, BoxIn, Bool.and_eq_true, decide_eq_true_eq, ge_iff_le]
  tauto

end

section
variable [NumOrd F]
open NumOrd

/-- `validate_node_bounds` accepts the bounds of every node. -/
theorem validateNodeBounds_spec {env : Env F} {nb cpl : Nat} {tree : Tree F} {t : BT} (h : TreeOk tree t)
    (hb : Built env tree.bbCoords.length tree.bbCoords nb cpl tree.nodes tree.bbIndices t)
    (hfin : ∀ b ∈ tree.bbCoords, ∀ dim, env.floatMin ≤ b.hi dim ∧ b.lo dim ≤ env.floatMax)
    {bounds : List (Box F)} 
    (hbd : ∀ k B, (k, B) ∈ t.boxes tree.nodes tree.bbox → bounds[k]? = some B) :
    validateNodeBounds tree bounds = .ok (List.replicate tree.nodes.length true) := by
  have hlt : ∀ m ∈ t.keys, m < tree.nodes.length := fun m hm => h.mem_keys.1 hm
  have hin : ∀ j ∈ tree.bbIndices, ∃ b, tree.bbCoords[j]? = some b := fun j hj =>
    ⟨_, List.getElem?_eq_getElem (h.mem_iff.1 hj)⟩
  have hAll : AllIn tree.bbCoords (seg tree.bbIndices t.lo t.hi) tree.bbox := by
    intro i hi b hbb
    exact h.bbox b (List.mem_of_getElem? hbb)
  have hsegmem : ∀ a b, ∀ j ∈ seg tree.bbIndices a b, j ∈ tree.bbIndices := by
    intro a b j hj
    obtain ⟨_, _, _, q⟩ := mem_seg.1 hj
    exact List.mem_of_getElem? q
  obtain ⟨s0, s1, s2, s3⟩ := Stk.single_spec (0 : Int)
  unfold validateNodeBounds
  rw [s1, ok_bind]
  simp only
  rw [whileStack_eq_dfs _ _ s2, s3]
  have hf : tree.fuel = t.keys.length + (tree.fuel - t.keys.length) := by have := h.keys_fuel; omega
  have e0 : (0 : Int) = (t.root : Int) := by rw [h.root]; rfl
  rw [hf, e0, dfs_validate (bounds := bounds) (fun _ => true) h.ok hlt ?_ ?_ _ _ _ (by simp)]
  · have : ∀ f st, dfs (validateVisit tree bounds) f [] st = .ok (.inr st) := fun f st => by cases f <;> rfl
    rw [this]
    simp only [ok_bind]
    congr 1
    apply List.ext_getElem?
    intro i
    by_cases hi : i < tree.nodes.length
    · rw [writeAll_mem (v := true) ?_ ?_ (by simpa using hi)]
      · simp [hi]
      · rw [List.map_map]
        have : (Prod.fst ∘ fun k : Nat => (k, true)) = id := rfl
        rw [this, List.map_id]
        exact h.keys.nodup_iff.2 List.nodup_range
      · exact List.mem_map.2 ⟨i, h.mem_keys.2 hi, rfl⟩
    · rw [List.getElem?_eq_none (by simp; omega), List.getElem?_eq_none (by simp; omega)]
  · intro k hk nd st hnd hch hst
    obtain ⟨C, hC⟩ := h.ok.mem_boxes tree.bbox hk
    obtain ⟨nd', q1, q2, _⟩ := h.ok.boxes_spec hAll hC
    rw [hnd] at q1
    cases q1
    have hr : nd.ptr + nd.size ≤ tree.bbIndices.length := by
      have hl := (h.leaf_iff hnd).1 hch
      have := (h.ok.leaf_range hl).2.2
      rw [h.hi'] at this
      exact this
    unfold validateVisit
    rw [rdI_nat.trans (rd_of_some (hbd k C hC)), ok_bind, rdI_nat.trans (rd_of_some hnd), ok_bind, if_pos hch,
      leafContained_true _ _ hr, ok_bind, wrI_nat, wr_of_lt (by rw [hst]; exact hlt k hk), ok_bind]
    intro j hj
    obtain ⟨b, hb'⟩ := hin j (hsegmem _ _ j hj)
    exact ⟨b, hb', boxContained_iff.2 (q2 j hj b hb')⟩
  · intro k hk nd st hnd hch hst
    obtain ⟨C, hC⟩ := h.ok.mem_boxes tree.bbox hk
    obtain ⟨nd', q1, q2, q3⟩ := h.ok.boxes_spec hAll hC
    rw [hnd] at q1
    cases q1
    rcases q3 with q3 | ⟨m, m1, m2, m3, m4, m5⟩
    · exact (hch q3).elim
    have ht := hb.tight k nd hnd hch
    rw [h.hi'] at m3
    -- a cell of the node
    have hpos : 0 < (seg tree.bbIndices nd.ptr (nd.ptr + nd.size)).length := by
      rw [seg_length m3]; omega
    obtain ⟨j, hj⟩ := List.exists_mem_of_length_pos hpos
    obtain ⟨b, hb'⟩ := hin j (hsegmem _ _ j hj)
    have hbC := BoxIn.dims.1 (q2 j hj b hb')
    have hfb := hfin b (List.mem_of_getElem? hb') nd.dim
    have hLmax : nd.Lmax ≤ C.hi nd.dim :=
      ht.1 _ (le_trans hfb.1 (hbC nd.dim).2) fun i hi c hc => (BoxIn.dims.1 (q2 i hi c hc) nd.dim).2
    have hRmin : C.lo nd.dim ≤ nd.Rmin :=
      ht.2.1 _ (le_trans (hbC nd.dim).1 hfb.2) fun i hi c hc => (BoxIn.dims.1 (q2 i hi c hc) nd.dim).1
    have nlo : ∀ dim, C.lo dim ≤ C.lo dim := fun dim => le_refl (num_of_le (hbC dim).1).1
    have nhi : ∀ dim, C.hi dim ≤ C.hi dim := fun dim => le_refl (num_of_le (hbC dim).2).2
    have cl : BoxIn (childBox nd C true) C := by
      refine BoxIn.dims.2 fun dim => ?_
      obtain ⟨c1, c2⟩ := childBox_left nd C dim
      rw [c1, c2]
      refine ⟨nlo dim, ?_⟩
      split
      · rename_i hd; rw [hd]; exact hLmax
      · exact nhi dim
    have cr : BoxIn (childBox nd C false) C := by
      refine BoxIn.dims.2 fun dim => ?_
      obtain ⟨c1, c2⟩ := childBox_right nd C dim
      rw [c1, c2]
      refine ⟨?_, nhi dim⟩
      split
      · rename_i hd; rw [hd]; exact hRmin
      · exact nlo dim
    have e1 : nd.child + 1 = ((m + 1 : Nat) : Int) := by rw [m1]; rfl
    unfold validateVisit
    rw [rdI_nat.trans (rd_of_some (hbd k C hC)), ok_bind, rdI_nat.trans (rd_of_some hnd), ok_bind, if_neg hch, e1, m1,
      rdI_nat.trans (rd_of_some (hbd _ _ m4)), ok_bind, rdI_nat.trans (rd_of_some (hbd _ _ m5)), ok_bind,
      boxContained_iff.2 cl, boxContained_iff.2 cr, wrI_nat, wr_of_lt (by rw [hst]; exact hlt k hk), ok_bind]
    rfl

/-- `validate_node_bounds`, for any table of bounds. -/
theorem validateNodeBounds_iff {tree : Tree F} {t : BT} (h : TreeOk tree t) {bounds : List (Box F)}
    (hlen : bounds.length = tree.nodes.length) :
    ∃ v, validateNodeBounds tree bounds = .ok v ∧ v.length = tree.nodes.length ∧
      ∀ k, v[k]? = some true ↔ NodeAccepted tree bounds k := by
  have hlt : ∀ m ∈ t.keys, m < tree.nodes.length := fun m hm => h.mem_keys.1 hm
  have hin : ∀ j ∈ tree.bbIndices, ∃ b, tree.bbCoords[j]? = some b := fun j hj =>
    ⟨_, List.getElem?_eq_getElem (h.mem_iff.1 hj)⟩
  -- a visit of one node
  have hvisit : ∀ k, ∃ w : Bool, (k ∈ t.keys → (w = true ↔ NodeAccepted tree bounds k) ∧
      ∀ nd st, tree.nodes[k]? = some nd → st.length = tree.nodes.length → validateVisit tree bounds k st =
        .ok (.inr (st.set k w, if nd.child = -1 then [] else [nd.child + 1, nd.child]))) := by
    intro k
    by_cases hk : k ∈ t.keys
    swap
    · exact ⟨true, fun h => (hk h).elim⟩
    have hk' := hlt k hk
    have hnd : tree.nodes[k]? = some tree.nodes[k] := List.getElem?_eq_getElem hk'
    generalize tree.nodes[k] = nd at hnd
    have hB : bounds[k]? = some (bounds[k]'(by omega)) := List.getElem?_eq_getElem _
    generalize bounds[k]'(by omega) = B at hB
    by_cases hch : nd.child = -1
    · have hr : nd.ptr + nd.size ≤ tree.bbIndices.length := by
        have hl := (h.leaf_iff hnd).1 hch
        have := (h.ok.leaf_range hl).2.2
        rw [h.hi'] at this
        exact this
      obtain ⟨w, w1, w2⟩ := leafContained_iff (B := B) nd.size nd.ptr true hr hin
      refine ⟨w, fun _ => ⟨?_, fun nd' st hnd' hst => ?_⟩⟩
      · rw [w2]
        constructor
        · rintro ⟨_, hall⟩
          exact ⟨nd, B, hnd, hB, fun _ i j b i1 i2 i3 i4 => boxContained_iff.1 (hall i j b i1 i2 i3 i4), fun h => (h hch).elim⟩
        · rintro ⟨nd', B', e1, e2, e3, _⟩
          rw [hnd] at e1; cases e1
          rw [hB] at e2; cases e2
          exact ⟨rfl, fun i j b i1 i2 i3 i4 => boxContained_iff.2 (e3 hch i j b i1 i2 i3 i4)⟩
      · rw [hnd] at hnd'; cases hnd'
        unfold validateVisit
        rw [rdI_nat.trans (rd_of_some hB), ok_bind, rdI_nat.trans (rd_of_some hnd), ok_bind, if_pos hch, w1, ok_bind, wrI_nat,
          wr_of_lt (by omega), ok_bind, if_pos hch]
    · rcases h.ok.key_cases hk with ⟨a, b, hab⟩ | ⟨nd', m, c1, c2, _, c3, c4⟩
      · obtain ⟨_, nd', d1, d2, _⟩ := h.ok.leaf_node hab
        rw [hnd] at d1; cases d1
        exact (hch d2).elim
      · rw [hnd] at c1; cases c1
        have hm1 := hlt _ c3
        have hm2 := hlt _ c4
        have hL : bounds[m]? = some (bounds[m]'(by omega)) := List.getElem?_eq_getElem _
        have hR : bounds[m + 1]? = some (bounds[m + 1]'(by omega)) := List.getElem?_eq_getElem _
        generalize bounds[m]'(by omega) = L at hL
        generalize bounds[m + 1]'(by omega) = R at hR
        refine ⟨boxContained L B && boxContained R B, fun _ => ⟨?_, fun nd' st hnd' hst => ?_⟩⟩
        · rw [Bool.and_eq_true, boxContained_iff, boxContained_iff]
          constructor
          · rintro ⟨e1, e2⟩
            exact ⟨nd, B, hnd, hB, fun h => (hch h).elim, fun _ => ⟨m, L, R, c2, hL, hR, e1, e2⟩⟩
          · rintro ⟨nd', B', e1, e2, _, e3⟩
            rw [hnd] at e1; cases e1
            rw [hB] at e2; cases e2
            obtain ⟨c, L', R', f1, f2, f3, f4, f5⟩ := e3 hch
            have : c = m := by omega
            subst this
            rw [hL] at f2; cases f2
            rw [hR] at f3; cases f3
            exact ⟨f4, f5⟩
        · rw [hnd] at hnd'; cases hnd'
          have e1 : nd.child + 1 = ((m + 1 : Nat) : Int) := by rw [c2]; rfl
          unfold validateVisit
          rw [rdI_nat.trans (rd_of_some hB), ok_bind, rdI_nat.trans (rd_of_some hnd), ok_bind, if_neg hch, if_neg hch, e1, c2,
            rdI_nat.trans (rd_of_some hL), ok_bind, rdI_nat.trans (rd_of_some hR), ok_bind, wrI_nat, wr_of_lt (by omega), ok_bind]
  choose w hw using hvisit
  refine ⟨(List.range tree.nodes.length).map w, ?_, by simp, ?_⟩
  · obtain ⟨s0, s1, s2, s3⟩ := Stk.single_spec (0 : Int)
    unfold validateNodeBounds
    rw [s1, ok_bind]
    simp only
    rw [whileStack_eq_dfs _ _ s2, s3]
    have hf : tree.fuel = t.keys.length + (tree.fuel - t.keys.length) := by have := h.keys_fuel; omega
    have e0 : (0 : Int) = (t.root : Int) := by rw [h.root]; rfl
    rw [hf, e0, dfs_validate (bounds := bounds) w h.ok hlt ?_ ?_ _ _ _ (by simp)]
    · have : ∀ f st, dfs (validateVisit tree bounds) f [] st = .ok (.inr st) := fun f st => by cases f <;> rfl
      rw [this]
      simp only [ok_bind]
      congr 1
      apply List.ext_getElem?
      intro i
      by_cases hi : i < tree.nodes.length
      · rw [writeAll_mem (v := w i) ?_ ?_ (by simpa using hi)]
        · simp [hi]
        · rw [List.map_map]
          have : (Prod.fst ∘ fun k : Nat => (k, w k)) = id := rfl
          rw [this, List.map_id]
          exact h.keys.nodup_iff.2 List.nodup_range
        · exact List.mem_map.2 ⟨i, h.mem_keys.2 hi, rfl⟩
      · have hl : ∀ (l : List (Nat × Bool)) (st : List Bool), (writeAll st l).length = st.length := by
          intro l
          induction l with
          | nil => intro st; rfl
          | cons a l ih => intro st; rw [writeAll_cons, ih]; simp
        rw [List.getElem?_eq_none (by rw [hl]; simp; omega), List.getElem?_eq_none (by simp; omega)]
    · intro k hk nd st hnd hch hst
      rw [((hw k) hk).2 nd st hnd hst, if_pos hch]
    · intro k hk nd st hnd hch hst
      rw [((hw k) hk).2 nd st hnd hst, if_neg hch]
  · intro k
    by_cases hk : k < tree.nodes.length
    · rw [← ((hw k) (h.mem_keys.2 hk)).1]
      simp [hk]
    · constructor
      · intro h0
        rw [List.getElem?_eq_none (by simp; omega)] at h0
        cases h0
      · rintro ⟨nd, _, h0, _⟩
        rw [List.getElem?_eq_none (by omega)] at h0
        cases h0

end

end Celltree
