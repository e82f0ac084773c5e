import Verif.Proofs.Leaves
import Verif.Spec.Examples

/-!
# Construction: C10, C11, C13, C14, C15, C18, C19, C20, C22, C51
-/

set_option linter.unusedSectionVars false

namespace Celltree

variable {F : Type} [Add F] [Sub F] [Mul F] [Div F] [Neg F] [Zero F] [One F] [IntCast F]
  [LT F] [LE F] [BEq F] [DecidableLT F] [DecidableLE F] [NumOrd F]

section
variable {env : Env F} {vertices : List (Pt F)} {faces : IntArr} {fill nBuckets cellsPerLeaf : Int} {t : CellTree F}

/-- **C10**, **C11**: on every well-formed mesh the constructor returns, or raises `ValueError`, `ZeroDivisionError` or
`IndexError`. It never exhausts the `4 n + 1` rounds given to its loop and it never accesses an array out of bounds. -/
theorem C10_C11_construction_safe (hm : GoodMesh env vertices faces fill) {sched : List Nat}
    (hs : sched.Perm (List.range faces.rows.length)) :
    (∃ t, CellTree.init env vertices faces fill nBuckets cellsPerLeaf sched = .ok t) ∨
    CellTree.init env vertices faces fill nBuckets cellsPerLeaf sched = .error .valueError ∨
    CellTree.init env vertices faces fill nBuckets cellsPerLeaf sched = .error .zeroDiv ∨
    CellTree.init env vertices faces fill nBuckets cellsPerLeaf sched = .error .indexError := by
  have h := CellTree.init_spec env nBuckets cellsPerLeaf hm.valid hm.num hm.max hm.min hs
  cases hi : CellTree.init env vertices faces fill nBuckets cellsPerLeaf sched with
  | ok t => exact Or.inl ⟨t, rfl⟩
  | error e =>
    rw [hi] at h
    rcases h with ⟨rfl, _⟩ | ⟨_, _, _, _, hb⟩
    · simp
    · cases hb <;> simp

/-- **C10**: the loop of the construction ends within `4 n + 1` rounds (`fuel` is the failure of a loop that did not
end). -/
theorem C10_construction_terminates (hm : GoodMesh env vertices faces fill) {sched : List Nat}
    (hs : sched.Perm (List.range faces.rows.length)) :
    CellTree.init env vertices faces fill nBuckets cellsPerLeaf sched ≠ .error .fuel := by
  rcases C10_C11_construction_safe (nBuckets := nBuckets) (cellsPerLeaf := cellsPerLeaf) hm hs with
    ⟨t, h⟩ | h | h | h <;> rw [h] <;> simp

/-- **C11**: no access outside an array (`oob`), in particular not outside the pre-allocated node array. -/
theorem C11_construction_in_bounds (hm : GoodMesh env vertices faces fill) {sched : List Nat}
    (hs : sched.Perm (List.range faces.rows.length)) :
    CellTree.init env vertices faces fill nBuckets cellsPerLeaf sched ≠ .error .oob := by
  rcases C10_C11_construction_safe (nBuckets := nBuckets) (cellsPerLeaf := cellsPerLeaf) hm hs with
    ⟨t, h⟩ | h | h | h <;> rw [h] <;> simp

/-- **C11**: the number of nodes is at most `2 n - 1`, which is at most the pre-allocated number. -/
theorem C11_node_count (hm : GoodMesh env vertices faces fill)
    (ht : Makes env vertices faces fill nBuckets cellsPerLeaf t) :
    t.data.nodes.length ≤ 2 * faces.rows.length - 1 ∧ 2 * faces.rows.length - 1 ≤ pessimisticNNodes faces.rows.length := by
  obtain ⟨sched, hs, hi⟩ := ht
  have h := CellTree.init_spec env nBuckets cellsPerLeaf hm.valid hm.num hm.max hm.min hs
  rw [hi] at h
  obtain ⟨_, _, _, hne, bt, hc⟩ := h
  have hpos : 0 < faces.rows.length := List.length_pos_iff.2 hne
  have h1 := hc.tree.keys.length_eq
  rw [List.length_range] at h1
  have h2 := BT.length_keys bt
  have h3 := hc.tree.ok.length_leaves (by rw [hc.tree.lo, hc.tree.hi, hc.boxes.length]; exact hpos)
  rw [hc.tree.lo, hc.tree.hi, hc.boxes.length] at h3
  exact ⟨by omega, pessimisticNNodes_ge _⟩

/-- **C13**: the index array is a permutation of the faces, and every face is in the range of exactly one leaf. -/
theorem C13_each_face_in_one_leaf (hm : GoodMesh env vertices faces fill)
    (ht : Makes env vertices faces fill nBuckets cellsPerLeaf t) :
    t.data.bbIndices.Perm (List.range faces.rows.length) ∧
    ∀ j, j < faces.rows.length → ∃ (k : Nat) (nd : Node F), t.data.nodes[k]? = some nd ∧ nd.child = -1 ∧
      j ∈ (t.data.bbIndices.drop nd.ptr).take nd.size ∧
      ∀ (k' : Nat) (nd' : Node F), t.data.nodes[k']? = some nd' → nd'.child = -1 →
        j ∈ (t.data.bbIndices.drop nd'.ptr).take nd'.size → k' = k := by
  obtain ⟨bt, hc⟩ := ht.constructed hm
  have hp := hc.tree.perm
  rw [hc.boxes.length] at hp
  refine ⟨hp, ?_⟩
  intro j hj
  have hseg : ∀ nd : Node F, (t.data.bbIndices.drop nd.ptr).take nd.size =
      seg t.data.bbIndices nd.ptr (nd.ptr + nd.size) := by
    intro nd; unfold seg; rw [List.drop_take]; congr 1; omega
  obtain ⟨p, hpj⟩ := List.getElem?_of_mem (hp.mem_iff.2 (List.mem_range.2 hj))
  have hplt := (List.getElem?_eq_some_iff.1 hpj).1
  obtain ⟨k, a, b, hl, ha, hb⟩ := hc.tree.ok.leaf_of_pos (i := p) (by rw [hc.tree.lo]; omega)
    (by rw [hc.tree.hi']; exact hplt)
  obtain ⟨_, nd, h1, h2, h3, h4⟩ := hc.tree.ok.leaf_node hl
  refine ⟨k, nd, h1, h2, ?_, ?_⟩
  · rw [hseg, mem_seg]
    exact ⟨p, by omega, by omega, hpj⟩
  · intro k' nd' h1' h2' hj'
    rw [hseg, mem_seg] at hj'
    obtain ⟨p', q1, q2, q3⟩ := hj'
    have hnd := hc.tree.nodup
    have hpp : p = p' := by
      have := (List.getElem?_eq_some_iff.1 q3).1
      rw [← hpj] at q3
      exact (List.getElem?_inj hplt hnd).1 q3.symm
    subst hpp
    have hl' := (hc.tree.leaf_iff h1').1 h2'
    by_cases hkk : k' = k
    · exact hkk
    · have := hc.tree.ok.leaf_disjoint hl' hl hkk
      omega

/-- The bucket test of the construction for a set of cells (`buckets` consecutive half-open intervals of equal length that
cover the range of the boxes of the cells): all the cells fall in the same bucket. -/
def OneBucket (env : Env F) (coords : List (Box F)) (nBuckets : Nat) (dim : Bool) (cells : List Nat) : Prop :=
  Unsplit ⟨env, coords, nBuckets, 0, 0⟩ dim cells

/-- **C14**: a leaf is not empty, and it holds at most `cells_per_leaf` faces unless all its faces fall in one bucket in
both directions. -/
theorem C14_leaf_capacity (hm : GoodMesh env vertices faces fill)
    (ht : Makes env vertices faces fill nBuckets cellsPerLeaf t) {k : Nat} {nd : Node F}
    (hk : t.data.nodes[k]? = some nd) (hleaf : nd.child = -1) :
    1 ≤ nd.size ∧ ((nd.size : Int) ≤ cellsPerLeaf ∨
      ∀ dim, OneBucket env t.data.bbCoords nBuckets.toNat dim ((t.data.bbIndices.drop nd.ptr).take nd.size)) := by
  obtain ⟨sched, hs, hi⟩ := ht
  have h := CellTree.init_spec env nBuckets cellsPerLeaf hm.valid hm.num hm.max hm.min hs
  rw [hi] at h
  obtain ⟨_, hcpl, _, hne, bt, hc⟩ := h
  have hpos : 0 < faces.rows.length := List.length_pos_iff.2 hne
  have hl := (hc.tree.leaf_iff hk).1 hleaf
  have hne := hc.tree.ok.leaf_nonempty (by rw [hc.tree.lo, hc.tree.hi, hc.boxes.length]; exact hpos) hl
  refine ⟨by omega, ?_⟩
  have hseg : (t.data.bbIndices.drop nd.ptr).take nd.size =
      seg t.data.bbIndices nd.ptr (nd.ptr + nd.size) := by
    unfold seg; rw [List.drop_take]; congr 1; omega
  have hr := (hc.tree.ok.leaf_range hl).2.2
  rw [hc.tree.hi'] at hr
  rcases hc.built.done k _ _ hl with hd | ⟨h1, h2⟩
  · left
    rw [seg_length hr] at hd
    simp only at hd
    omega
  · right
    intro dim
    rw [hseg]
    cases dim
    · exact h1
    · exact h2

/-- **C15**: `to_dict_of_lists` has one entry per node; a node has no children or two consecutive ones with larger
numbers; and the children of all the nodes together are the nodes `1, 2, …`, each once. -/
theorem C15_rooted_binary_tree (hm : GoodMesh env vertices faces fill)
    (ht : Makes env vertices faces fill nBuckets cellsPerLeaf t) :
    (toDictOfLists t.data.nodes).map Prod.fst = List.range t.data.nodes.length ∧
    (∀ k cs, (k, cs) ∈ toDictOfLists t.data.nodes → cs = [] ∨ ∃ m : Nat, cs = [(m : Int), (m : Int) + 1] ∧ k < m) ∧
    ((toDictOfLists t.data.nodes).flatMap Prod.snd).Perm
      ((List.range' 1 (t.data.nodes.length - 1)).map Int.ofNat) := by
  obtain ⟨bt, hc⟩ := ht.constructed hm
  refine ⟨toDictOfLists_fst _, ?_, ?_⟩
  · intro k cs hkc
    obtain ⟨hk, rfl⟩ := mem_toDictOfLists.1 hkc
    rcases hc.tree.ok.key_cases (hc.tree.mem_keys.2 hk) with ⟨a, b, hab⟩ | ⟨nd', m, c1, c2, c3, _⟩
    · obtain ⟨_, nd', d1, d2, _⟩ := hc.tree.ok.leaf_node hab
      left; simp [childrenOf, d1, d2]
    · right
      have : ¬ ((m : Int) = -1) := by omega
      exact ⟨m, by simp [childrenOf, c1, c2, this], c3⟩
  · rw [toDictOfLists_eq, List.flatMap_map]
    have h1 := hc.tree.ok.children_perm
    have h2 := (hc.tree.keys.flatMap_right (childrenOf t.data.nodes)).symm.trans h1
    refine h2.trans (List.Perm.map _ ?_)
    have h3 := hc.tree.keys
    rw [BT.keys_eq, hc.tree.root] at h3
    have hpos : 0 < t.data.nodes.length := by
      have := h3.length_eq; simp at this; omega
    rw [List.range_eq_range', show t.data.nodes.length = (t.data.nodes.length - 1) + 1 by omega, List.range'_succ] at h3
    simpa using h3.cons_inv

/-- **C18**: the box of a face contains its vertices and each side of it goes through a vertex; the padding has no
influence. -/
theorem C18_bounding_boxes_tight (hm : GoodMesh env vertices faces fill)
    (ht : Makes env vertices faces fill nBuckets cellsPerLeaf t) :
    t.data.bbCoords.length = faces.rows.length ∧
    ∀ (i : Nat) r, faces.rows[i]? = some r → ∃ b, t.data.bbCoords[i]? = some b ∧ IsBBox (facePts vertices fill r) b := by
  obtain ⟨bt, hc⟩ := ht.constructed hm
  exact ⟨hc.boxes.length, hc.boxes.box⟩

/-- **C19**: the box of the tree is the bounding box of all the vertices of all the faces. -/
theorem C19_tree_box (hm : GoodMesh env vertices faces fill)
    (ht : Makes env vertices faces fill nBuckets cellsPerLeaf t) :
    IsBBox (faces.rows.flatMap (facePts vertices fill)) t.data.bbox := by
  obtain ⟨bt, hc⟩ := ht.constructed hm
  have key : ∀ c ∈ t.data.bbCoords, ∃ r ∈ faces.rows, IsBBox (facePts vertices fill r) c := by
    intro c hcm
    obtain ⟨i, r, hi, hi'⟩ := mem_of_getElem?_corr hc.boxes.length hcm
    obtain ⟨b', c1, c2⟩ := hc.boxes.box i r hi
    rw [hi'] at c1
    cases c1
    exact ⟨r, List.mem_of_getElem? hi, c2⟩
  constructor
  · intro p hp
    obtain ⟨r, hr, hp⟩ := List.mem_flatMap.1 hp
    obtain ⟨i, hi⟩ := List.getElem?_of_mem hr
    obtain ⟨b, c1, c2⟩ := hc.boxes.box i r hi
    obtain ⟨d1, d2, d3, d4⟩ := c2.contains p hp
    obtain ⟨e1, e2, e3, e4⟩ := hc.bbox.contains b (List.mem_of_getElem? c1)
    exact ⟨NumOrd.le_trans e1 d1, NumOrd.le_trans d2 e2, NumOrd.le_trans e3 d3, NumOrd.le_trans d4 e4⟩
  · obtain ⟨c, h1, h2⟩ := hc.bbox.left
    obtain ⟨r, hr, hb⟩ := key c h1
    obtain ⟨p, hp, e⟩ := hb.left
    exact ⟨p, List.mem_flatMap.2 ⟨r, hr, hp⟩, e.trans h2.symm⟩
  · obtain ⟨c, h1, h2⟩ := hc.bbox.right
    obtain ⟨r, hr, hb⟩ := key c h1
    obtain ⟨p, hp, e⟩ := hb.right
    exact ⟨p, List.mem_flatMap.2 ⟨r, hr, hp⟩, e.trans h2.symm⟩
  · obtain ⟨c, h1, h2⟩ := hc.bbox.bottom
    obtain ⟨r, hr, hb⟩ := key c h1
    obtain ⟨p, hp, e⟩ := hb.bottom
    exact ⟨p, List.mem_flatMap.2 ⟨r, hr, hp⟩, e.trans h2.symm⟩
  · obtain ⟨c, h1, h2⟩ := hc.bbox.top
    obtain ⟨r, hr, hb⟩ := key c h1
    obtain ⟨p, hp, e⟩ := hb.top
    exact ⟨p, List.mem_flatMap.2 ⟨r, hr, hp⟩, e.trans h2.symm⟩

omit [NumOrd F] in
/-- **C20**: two tables with the same faces, written with different fill values, give the same object. -/
theorem C20_fill_value_is_notation {faces' : IntArr} {fill' : Int} {sched : List Nat}
    (hv : ValidFaces vertices.length fill faces) (hv' : ValidFaces vertices.length fill' faces')
    (hcol : faces.ncol = faces'.ncol)
    (hrows : faces.rows.map (rowIndices fill) = faces'.rows.map (rowIndices fill')) :
    CellTree.init env vertices faces fill nBuckets cellsPerLeaf sched =
      CellTree.init env vertices faces' fill' nBuckets cellsPerLeaf sched := by
  unfold CellTree.init
  rw [castFaces_spec hv, castFaces_spec hv', hcol]
  have : (faces.rows.map fun r => padRow faces'.ncol (rowIndices fill r)) =
      faces'.rows.map fun r => padRow faces'.ncol (rowIndices fill' r) := by
    have := congrArg (List.map (padRow faces'.ncol)) hrows
    simpa [Function.comp_def] using this
  rw [this]

/-- **C20**: `ValueError` is raised exactly for `n_buckets < 2`, `cells_per_leaf < 1`, more than 32 columns, or no faces
(for an empty table only if nothing else is raised earlier, which is the case). -/
theorem C20_value_errors (hm : GoodMesh env vertices faces fill) {sched : List Nat}
    (hs : sched.Perm (List.range faces.rows.length)) :
    (nBuckets < 2 ∨ cellsPerLeaf < 1 ∨ faces.ncol > 32 →
      CellTree.init env vertices faces fill nBuckets cellsPerLeaf sched = .error .valueError) ∧
    (CellTree.init env vertices faces fill nBuckets cellsPerLeaf sched = .error .valueError →
      nBuckets < 2 ∨ cellsPerLeaf < 1 ∨ faces.ncol > 32 ∨ faces.rows = []) := by
  constructor
  · intro h
    unfold CellTree.init
    rw [castFaces_spec hm.valid]
    by_cases h1 : nBuckets < 2
    · rw [if_pos h1]
    · rw [if_neg h1]
      by_cases h2 : cellsPerLeaf < 1
      · rw [if_pos h2]
      · rw [if_neg h2, if_pos (show faces.ncol > maxNVertex by unfold maxNVertex; omega)]
        rfl
  · intro h
    have hsp := CellTree.init_spec env nBuckets cellsPerLeaf hm.valid hm.num hm.max hm.min hs
    rw [h] at hsp
    rcases hsp with ⟨_, hsp⟩ | ⟨_, _, _, _, hb⟩
    · exact hsp
    · cases hb

/-- **C22**: a stored row is the row of the caller, with its vertices in the same or in reverse order, and the padding at
the end replaced by `-1`; it depends on its own row only. -/
theorem C22_only_reverses (hm : GoodMesh env vertices faces fill)
    (ht : Makes env vertices faces fill nBuckets cellsPerLeaf t) :
    t.data.elements.length = faces.rows.length ∧
    ∀ (i : Nat) r, faces.rows[i]? = some r → ∃ B, t.data.elements[i]? =
        some (B ++ List.replicate (faces.ncol - B.length) (-1)) ∧
      (B = rowIndices fill r ∨ B = (rowIndices fill r).reverse) ∧
      ccwFace vertices (rowIndices fill r ++ List.replicate (faces.ncol - (rowIndices fill r).length) (-1)) =
        .ok (B ++ List.replicate (faces.ncol - B.length) (-1)) := by
  obtain ⟨bt, hc⟩ := ht.constructed hm
  refine ⟨hc.elements.length, ?_⟩
  intro i r hi
  obtain ⟨B, h1, h2, _, h4⟩ := hc.elements.row i r hi
  exact ⟨B, h1, h2, h4⟩

end

omit [NumOrd F] in
/-- **C51**: partitioning the range `[lo, hi)` of the index array by the bucket test. -/
theorem C51_stable_partition (idx : List Nat) (coords : List (Box F)) (lo hi : Nat) (bucket : Bucket F) (dim : Bool)
    (hlo : lo ≤ hi) (hhi : hi ≤ idx.length) (hin : ∀ i ∈ idx, i < coords.length) :
    ∃ test : Nat → Bool, (∀ (i : Nat) b, coords[i]? = some b → test i = centroidTest bucket b dim) ∧
    stablePartition idx coords lo hi bucket dim =
      .ok (idx.take lo ++ (((idx.take hi).drop lo).filter test ++ ((idx.take hi).drop lo).filter fun i => !test i) ++
            idx.drop hi,
          lo + (((idx.take hi).drop lo).filter test).length) := by
  refine ⟨cellTest coords bucket dim, ?_, ?_⟩
  · intro i b hb
    unfold cellTest
    rw [hb]
  · exact stablePartition_spec idx coords lo hi bucket dim hlo hhi
      (fun i hi => hin i (List.mem_of_mem_take (List.mem_of_mem_drop hi)))

end Celltree
