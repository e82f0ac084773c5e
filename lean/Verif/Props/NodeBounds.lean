import Verif.Proofs.NodeBounds
import Verif.Spec.Examples

/-!
# Node bounds: C16, C17
-/

set_option linter.unusedSectionVars false

namespace Celltree

variable {F : Type} [Add F] [Sub F] [Mul F] [Div F] [Neg F] [Zero F] [One F] [IntCast F]
  [LT F] [LE F] [BEq F] [DecidableLT F] [DecidableLE F] [NumOrd F]

section
variable {env : Env F} {vertices : List (Pt F)} {faces : IntArr} {fill nBuckets cellsPerLeaf : Int} {t : CellTree F}

theorem seg_eq_take {α : Type} (l : List α) (a n : Nat) : (l.drop a).take n = seg l a (a + n) := by
  unfold seg
  rw [List.drop_take, Nat.add_sub_cancel_left]

/-- The cells below a node are in the range of the node. -/
theorem BelowNode.mem_seg {tree : Tree F} {bt : BT} (h : TreeOk tree bt) {k j : Nat} (hb : BelowNode tree k j) :
    ∃ nd, tree.nodes[k]? = some nd ∧ j ∈ seg tree.bbIndices nd.ptr (nd.ptr + nd.size) := by
  have sub : ∀ {u : BT}, u.Ok tree.bbCoords tree.nodes tree.bbIndices → ∀ {k c : Nat} {nd nc : Node F}, k ∈ u.keys →
      tree.nodes[k]? = some nd → nd.child ≠ -1 → (nd.child = c ∨ nd.child + 1 = c) → tree.nodes[c]? = some nc →
      nd.ptr ≤ nc.ptr ∧ nc.ptr + nc.size ≤ nd.ptr + nd.size := by
    intro u
    have range : ∀ {u : BT}, u.Ok tree.bbCoords tree.nodes tree.bbIndices → ∃ nd, tree.nodes[u.root]? = some nd ∧
        nd.ptr = u.lo ∧ nd.ptr + nd.size = u.hi := by
      intro u hu
      cases u with
      | leaf => obtain ⟨_, nd, n1, _, n3, n4⟩ := hu; exact ⟨nd, n1, n3, n4⟩
      | node => obtain ⟨⟨nd, n1, _, n3, n4, _⟩, _⟩ := hu; exact ⟨nd, n1, n3, n4⟩
    induction u with
    | leaf k0 lo hi =>
      rintro ⟨_, nd0, n1, n2, _⟩ k c nd nc hk hnd hch _ _
      rw [BT.keys, List.mem_singleton] at hk
      subst hk
      rw [hnd] at n1
      cases n1
      exact (hch n2).elim
    | node k0 lo hi l r ihl ihr =>
      rintro ⟨⟨nd0, n1, n2, n3, n4, _⟩, h1, h2, e1, e2, e3, e4, e5, hl, hr⟩ k c nd nc hk hnd hch hc hnc
      simp only [BT.keys, List.mem_cons, List.mem_append] at hk
      rcases hk with rfl | hk | hk
      · rw [hnd] at n1
        cases n1
        obtain ⟨ndl, l1, l2, l3⟩ := range hl
        obtain ⟨ndr, r1, r2, r3⟩ := range hr
        rcases hc with hc | hc
        · have : c = l.root := by omega
          subst this
          rw [hnc] at l1
          cases l1
          omega
        · have : c = r.root := by omega
          subst this
          rw [hnc] at r1
          cases r1
          omega
      · exact ihl hl hk hnd hch hc hnc
      · exact ihr hr hk hnd hch hc hnc
  induction hb with
  | leaf h1 h2 h3 =>
    rw [seg_eq_take] at h3
    exact ⟨_, h1, h3⟩
  | @child k j c nd h1 h2 h3 _ ih =>
    obtain ⟨nc, q1, q2⟩ := ih
    have hk : k ∈ bt.keys := h.mem_keys.2 (List.getElem?_eq_some_iff.1 h1).1
    have := sub h.ok hk h1 h2 h3 q1
    refine ⟨_, h1, ?_⟩
    obtain ⟨i, i1, i2, i3⟩ := Celltree.mem_seg.1 q2
    exact Celltree.mem_seg.2 ⟨i, by omega, by omega, i3⟩

/-- **C16**: for a tree with more than one node, `node_bounds` returns a box for every node, which contains all vertices
of all faces below the node. `garbage` is the initial content of the array. -/
theorem C16_node_bounds_contain (hm : GoodMesh env vertices faces fill)
    (ht : Makes env vertices faces fill nBuckets cellsPerLeaf t) (hn : 1 < t.data.nodes.length) (garbage : Box F) :
    ∃ bounds, t.nodeBounds garbage = .ok bounds ∧ bounds.length = t.data.nodes.length ∧
      ∀ k j B r p, bounds[k]? = some B → BelowNode t.data k j → faces.rows[j]? = some r →
        p ∈ facePts vertices fill r → B.xmin ≤ p.x ∧ p.x ≤ B.xmax ∧ B.ymin ≤ p.y ∧ p.y ≤ B.ymax := by
  obtain ⟨bt, hc⟩ := ht.constructed hm
  obtain ⟨bounds, h1, h2, h3⟩ := collectNodeBounds_spec hc.tree hn garbage
  refine ⟨bounds, h1, h2, ?_⟩
  intro k j B r p hB hbel hr hp
  have hk : k < t.data.nodes.length := by rw [← h2]; exact (List.getElem?_eq_some_iff.1 hB).1
  obtain ⟨C, hC⟩ := hc.tree.ok.mem_boxes t.data.bbox (hc.tree.mem_keys.2 hk)
  have := h3 k C hC
  rw [hB] at this
  cases this
  obtain ⟨nd, n1, n2⟩ := hbel.mem_seg hc.tree
  obtain ⟨nd', q1, q2, _⟩ := hc.tree.ok.boxes_spec (B := t.data.bbox)
    (fun i hi b hb => hc.tree.bbox b (List.mem_of_getElem? hb)) hC
  rw [n1] at q1
  cases q1
  obtain ⟨b, b1, b2⟩ := hc.boxes.box j r hr
  obtain ⟨i1, i2, i3, i4⟩ := q2 j n2 b b1
  obtain ⟨j1, j2, j3, j4⟩ := b2.contains p hp
  exact ⟨NumOrd.le_trans i1 j1, NumOrd.le_trans j2 i2, NumOrd.le_trans i3 j3, NumOrd.le_trans j4 i4⟩

/-- **C16**: for a tree with more than one node over finite coordinates, `validate_node_bounds` returns `True` for every
node. -/
theorem C16_node_bounds_valid (hm : GoodMesh env vertices faces fill)
    (hfin : ∀ r ∈ faces.rows, FinitePts env (facePts vertices fill r))
    (ht : Makes env vertices faces fill nBuckets cellsPerLeaf t) (hn : 1 < t.data.nodes.length) (garbage : Box F) :
    t.validateNodeBounds garbage = .ok (List.replicate t.data.nodes.length true) := by
  obtain ⟨bt, hc⟩ := ht.constructed hm
  obtain ⟨bounds, h1, h2, h3⟩ := collectNodeBounds_spec hc.tree hn garbage
  unfold CellTree.validateNodeBounds CellTree.nodeBounds
  rw [h1, ok_bind]
  refine Celltree.validateNodeBounds_spec hc.tree hc.built ?_ h3
  intro b hb dim
  obtain ⟨i, r, hi, hi'⟩ := mem_of_getElem?_corr hc.boxes.length hb
  obtain ⟨b', c1, c2⟩ := hc.boxes.box i r hi
  rw [hi'] at c1
  cases c1
  have hf := hfin r (List.mem_of_getElem? hi)
  cases dim
  · obtain ⟨p, p1, p2⟩ := c2.right
    obtain ⟨q, q1, q2⟩ := c2.left
    simp only [Box.hi, Box.lo]
    exact ⟨p2 ▸ (hf p p1).1, q2 ▸ (hf q q1).2.1⟩
  · obtain ⟨p, p1, p2⟩ := c2.top
    obtain ⟨q, q1, q2⟩ := c2.bottom
    simp only [Box.hi, Box.lo]
    exact ⟨p2 ▸ (hf p p1).2.2.1, q2 ▸ (hf q q1).2.2.2⟩

/-- **C16**: `validate_node_bounds` is exact for every table of bounds of the right length, whatever is in it: it returns
`True` at exactly the nodes whose bounds are right, so a wrong table is never accepted. -/
theorem C16_validate_exact (hm : GoodMesh env vertices faces fill)
    (ht : Makes env vertices faces fill nBuckets cellsPerLeaf t) (bounds : List (Box F))
    (hlen : bounds.length = t.data.nodes.length) :
    ∃ v, validateNodeBounds t.data bounds = .ok v ∧ v.length = t.data.nodes.length ∧
      ∀ k, v[k]? = some true ↔ NodeAccepted t.data bounds k := by
  obtain ⟨bt, hc⟩ := ht.constructed hm
  exact validateNodeBounds_iff hc.tree hlen

/-- **C16**: the bounds of the root are the bounds of the mesh. -/
theorem C16_root_bounds (hm : GoodMesh env vertices faces fill)
    (ht : Makes env vertices faces fill nBuckets cellsPerLeaf t) (hn : 1 < t.data.nodes.length) (garbage : Box F) :
    ∃ bounds, t.nodeBounds garbage = .ok bounds ∧ bounds[0]? = some t.data.bbox := by
  obtain ⟨bt, hc⟩ := ht.constructed hm
  obtain ⟨bounds, h1, h2, h3⟩ := collectNodeBounds_spec hc.tree hn garbage
  refine ⟨bounds, h1, h3 0 _ ?_⟩
  have hr := hc.tree.root
  have hok := hc.tree.ok
  cases bt with
  | leaf => simp only [BT.root] at hr; simp [BT.boxes, hr]
  | node =>
    obtain ⟨⟨nd, n1, _⟩, _⟩ := hok
    simp only [BT.root] at hr
    subst hr
    simp only [BT.boxes, n1, List.mem_cons, true_or]

/-- A mesh with no more than `cells_per_leaf` faces gives a tree with one node. -/
theorem single_node (hm : GoodMesh env vertices faces fill)
    (ht : Makes env vertices faces fill nBuckets cellsPerLeaf t) (hsmall : (faces.rows.length : Int) ≤ cellsPerLeaf) :
    t.data.nodes.length = 1 := by
  obtain ⟨bt, hc⟩ := ht.constructed hm
  have hl := hc.tree.keys.length_eq
  rw [List.length_range] at hl
  have hok := hc.tree.ok
  have hhi := hc.tree.hi
  have hlo := hc.tree.lo
  cases bt with
  | leaf => exact hl.symm
  | node k lo hi l r =>
    obtain ⟨⟨nd, n1, n2, n3, n4, _⟩, _⟩ := hok
    have := (hc.built.tight k nd n1 (by omega)).2.2
    simp only [BT.lo, BT.hi] at hlo hhi this
    rw [hc.boxes.length] at hhi
    omega

/-- **C17**: `node_bounds` writes outside its array for every tree with a single node. -/
theorem C17_single_node_oob (hn : t.data.nodes.length = 1) (garbage : Box F) :
    t.nodeBounds garbage = .error .oob ∧ t.validateNodeBounds garbage = .error .oob := by
  have h : t.nodeBounds garbage = .error .oob := by
    unfold CellTree.nodeBounds collectNodeBounds
    obtain ⟨nd, hnd⟩ := List.length_eq_one_iff.1 hn
    obtain ⟨s0, s1, s2, s3⟩ := Stk.single_spec ((2 : Int), (0 : Int), false)
    obtain ⟨s4, s5, s6, s7⟩ := Stk.push_spec s2 ((1 : Int), (0 : Int), true)
    rw [hn, wr_of_lt (by simp), ok_bind, s1, ok_bind, s5, ok_bind, whileStack_eq_dfs _ _ s6, s7, s3]
    have : t.data.fuel = 2 * t.data.bbIndices.length + 1 := rfl
    rw [this]
    simp only [dfs]
    unfold boundsVisit
    simp only [hnd]
    rfl
  refine ⟨h, ?_⟩
  unfold CellTree.validateNodeBounds
  rw [h]
  rfl

/-- **C17** (violated): for every mesh with at most `cells_per_leaf` faces, `node_bounds` and `validate_node_bounds` access
elements outside of their arrays. -/
theorem C17_single_node_violated (hm : GoodMesh env vertices faces fill)
    (ht : Makes env vertices faces fill nBuckets cellsPerLeaf t) (hsmall : (faces.rows.length : Int) ≤ cellsPerLeaf)
    (garbage : Box F) :
    t.nodeBounds garbage = .error .oob ∧ t.validateNodeBounds garbage = .error .oob :=
  C17_single_node_oob (single_node hm ht hsmall) garbage

/-- **C17** (partial): `node_bounds` works exactly for the trees with more than one node. The full statement, that it works
for every tree, is false. -/
theorem C17_node_bounds_partial (hm : GoodMesh env vertices faces fill)
    (ht : Makes env vertices faces fill nBuckets cellsPerLeaf t) (garbage : Box F) :
    (∃ bounds, t.nodeBounds garbage = .ok bounds) ↔ 1 < t.data.nodes.length := by
  constructor
  · rintro ⟨bounds, hb⟩
    by_contra hle
    obtain ⟨bt, hc⟩ := ht.constructed hm
    have h1 : 0 < t.data.nodes.length := by
      have := hc.tree.keys.length_eq
      rw [List.length_range] at this
      rw [← this, BT.keys_eq]
      simp
    rw [(C17_single_node_oob (by omega) garbage).1] at hb
    cases hb
  · intro hn
    obtain ⟨b, hb, _⟩ := C16_root_bounds hm ht hn garbage
    exact ⟨b, hb⟩

end

/-! ## The hypotheses can be met -/

/-- A tree with seven nodes in floating point. -/
example : ∃ t, Makes Fl.env Ex.flVerts Ex.faces (-999) 4 1 t ∧ 1 < t.data.nodes.length ∧
    t.validateNodeBounds ⟨.nan, .nan, .nan, .nan⟩ = .ok (List.replicate 7 true) := by
  obtain ⟨t, h1, h2⟩ := bind_eq_ok.1 (show (CellTree.init Fl.env Ex.flVerts Ex.faces (-999) 4 1 [2, 0, 3, 1] >>= fun t =>
    (t.validateNodeBounds ⟨.nan, .nan, .nan, .nan⟩ >>= fun v => .ok (t.data.nodes.length, v))) =
      .ok (7, List.replicate 7 true) by decide +kernel)
  obtain ⟨v, h3, h4⟩ := bind_eq_ok.1 h2
  have h5 := Except.ok.inj h4
  simp only [Prod.mk.injEq] at h5
  refine ⟨t, ⟨_, by decide, h1⟩, by omega, ?_⟩
  rw [h3, h5.2]

/-- Four cells in two leaves of two, and a table of bounds which is wrong for the first leaf: it covers the last of its two cells only. -/
example : ∃ t, Makes Fl.env Ex.flVerts Ex.faces (-999) 4 2 t ∧ t.data.nodes.length = 3 ∧
    validateNodeBounds t.data [⟨.fin 0, .fin 9, .fin 0, .fin 9⟩, ⟨.fin 0, .fin 2, .fin 2, .fin 4⟩, ⟨.fin 2, .fin 4, .fin 0, .fin 2⟩] =
      .ok [true, false, true] := by
  obtain ⟨t, h1, h2⟩ := bind_eq_ok.1 (show (CellTree.init Fl.env Ex.flVerts Ex.faces (-999) 4 2 [2, 0, 3, 1] >>= fun t =>
    (validateNodeBounds t.data [⟨.fin 0, .fin 9, .fin 0, .fin 9⟩, ⟨.fin 0, .fin 2, .fin 2, .fin 4⟩,
      ⟨.fin 2, .fin 4, .fin 0, .fin 2⟩] >>= fun v => .ok (t.data.nodes.length, v))) =
      .ok (3, [true, false, true]) by decide +kernel)
  obtain ⟨v, h3, h4⟩ := bind_eq_ok.1 h2
  have h5 := Except.ok.inj h4
  simp only [Prod.mk.injEq] at h5
  refine ⟨t, ⟨_, by decide, h1⟩, h5.1, ?_⟩
  rw [h3, h5.2]

/-- The mesh of the examples is finite. -/
example : ∀ r ∈ Ex.faces.rows, FinitePts Fl.env (facePts Ex.flVerts (-999) r) := by
  unfold FinitePts
  decide +kernel

/-- A tree with a single node: four faces and four cells per leaf. -/
example : ∃ t, Makes Fl.env Ex.flVerts Ex.faces (-999) 4 4 t := by
  obtain ⟨t, h1, h2⟩ := bind_eq_ok.1 (show (CellTree.init Fl.env Ex.flVerts Ex.faces (-999) 4 4 [2, 0, 3, 1] >>= fun t =>
    (.ok t.data.nodes.length : M Nat)) = .ok 1 by decide +kernel)
  exact ⟨t, ⟨_, by decide, h1⟩⟩

end Celltree
