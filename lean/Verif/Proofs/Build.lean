import Verif.Proofs.Sort

/-!
# The loop of `build`: invariant, termination, capacity of the node array
-/

set_option linter.unusedSectionVars false

namespace Celltree

section
variable {F : Type} [LE F]

/-- Different leaves have disjoint ranges. -/
theorem BT.Ok.leaf_disjoint {coords : List (Box F)} {nodes : List (Node F)} {idx : List Nat} {t : BT}
    (h : t.Ok coords nodes idx) {k a b k' a' b' : Nat} (hm : (k, a, b) ∈ t.leaves) (hm' : (k', a', b') ∈ t.leaves)
    (hk : k ≠ k') : b ≤ a' ∨ b' ≤ a := by
  induction t with
  | leaf k0 lo hi =>
    simp only [leaves, List.mem_singleton, Prod.mk.injEq] at hm hm'
    omega
  | node k0 lo hi l r ihl ihr =>
    obtain ⟨_, _, _, h1, h2, h3, h4, h5, hl, hr⟩ := h
    simp only [leaves, List.mem_append] at hm hm'
    rcases hm with hm | hm <;> rcases hm' with hm' | hm'
    · exact ihl hl hm hm'
    · have := hl.leaf_range hm; have := hr.leaf_range hm'; omega
    · have := hr.leaf_range hm; have := hl.leaf_range hm'; omega
    · exact ihr hr hm hm'

theorem BT.leaf_unique {t : BT} (hk : t.keys.Nodup) {k a b a' b' : Nat} (hm : (k, a, b) ∈ t.leaves)
    (hm' : (k, a', b') ∈ t.leaves) : a = a' ∧ b = b' := by
  induction t with
  | leaf k0 lo hi =>
    simp only [leaves, List.mem_singleton, Prod.mk.injEq] at hm hm'
    omega
  | node k0 lo hi l r ihl ihr =>
    simp only [keys, List.nodup_cons, List.nodup_append, List.mem_append, not_or] at hk
    obtain ⟨_, hkl2, hkr2, hdis⟩ := hk
    simp only [leaves, List.mem_append] at hm hm'
    rcases hm with hm | hm <;> rcases hm' with hm' | hm'
    · exact ihl hkl2 hm hm'
    · exact (hdis k (leaves_sub_keys hm) k (leaves_sub_keys hm') rfl).elim
    · exact (hdis k (leaves_sub_keys hm') k (leaves_sub_keys hm) rfl).elim
    · exact ihr hkr2 hm hm'
end

/-! ## Capacity -/

theorem pessimisticLoop_ge (fuel m acc : Nat) (h : m ≤ fuel) : acc + 2 * (m - 1) ≤ pessimisticLoop fuel m acc := by
  induction fuel generalizing m acc with
  | zero => simp [pessimisticLoop]; omega
  | succ fuel ih =>
    unfold pessimisticLoop
    split
    · have := ih ((m + 1) / 2) (acc + m) (by omega)
      omega
    · omega

theorem pessimisticNNodes_ge (n : Nat) : 2 * n - 1 ≤ pessimisticNNodes n := by
  have := pessimisticLoop_ge ((n + 1) / 2) ((n + 1) / 2) n (Nat.le_refl _)
  unfold pessimisticNNodes
  omega

theorem pessimisticNNodes_pos (n : Nat) : 1 ≤ pessimisticNNodes n := by
  unfold pessimisticNNodes; omega

variable {F : Type} [Add F] [Sub F] [Mul F] [Div F] [Zero F] [One F] [Neg F] [IntCast F]
  [LT F] [LE F] [BEq F] [DecidableLT F] [DecidableLE F]

/-! ## Causes of failure and unsplittable leaves -/

/-- `(Rmin, Lmax)` of a list of cells, as computed by the code. -/
def rangeOf (P : BuildParams F) (dim : Bool) (cells : List Nat) : F × F :=
  boundsFold P.coords dim cells P.env.floatMax P.env.floatMin

/-- Length of the buckets for a list of cells. -/
def bucketLen (P : BuildParams F) (dim : Bool) (cells : List Nat) : F :=
  ((rangeOf P dim cells).2 - (rangeOf P dim cells).1) / ((P.nBuckets : Int) : F)

/-- The centroid of cell `j` lies in bucket `i` of the buckets made for `cells`. -/
def InBucket (P : BuildParams F) (dim : Bool) (cells : List Nat) (i j : Nat) : Prop :=
  ∃ box, P.coords[j]? = some box ∧
    box.lo dim + half * (box.hi dim - box.lo dim) ≥
      ((i : Nat) : Int) * bucketLen P dim cells + (rangeOf P dim cells).1 ∧
    box.lo dim + half * (box.hi dim - box.lo dim) <
      ((i + 1 : Nat) : Int) * bucketLen P dim cells + (rangeOf P dim cells).1

/-- One bucket takes all the cells. -/
def Unsplit (P : BuildParams F) (dim : Bool) (cells : List Nat) : Prop :=
  ∃ cells', cells'.Perm cells ∧ ∃ i < P.nBuckets, ∀ j ∈ cells, InBucket P dim cells' i j

theorem Unsplit.perm {P : BuildParams F} {dim : Bool} {cells cells2 : List Nat} (h : Unsplit P dim cells)
    (hp : cells2.Perm cells) : Unsplit P dim cells2 := by
  obtain ⟨c, h1, i, h2, h3⟩ := h
  exact ⟨c, h1.trans hp.symm, i, h2, fun j hj => h3 j (hp.mem_iff.1 hj)⟩

/-- The ways in which building the tree can fail. -/
inductive BuildErr (P : BuildParams F) : Err → Prop
  | bucketsZero : (((P.nBuckets : Int) : F) == 0) = true → BuildErr P .zeroDiv
  | noBuckets : P.nBuckets = 0 → BuildErr P .indexError
  | noBucket (dim : Bool) (cells : List Nat) (j : Nat) : (∀ i ∈ cells, i < P.coords.length) → j ∈ cells →
      (∀ i < P.nBuckets, ¬ InBucket P dim cells i j) → BuildErr P .indexError
  | lengthZero (dim : Bool) (cells : List Nat) : (∀ i ∈ cells, i < P.coords.length) → cells ≠ [] →
      (bucketLen P dim cells == 0) = true → BuildErr P .zeroDiv
  | noPlane (dim : Bool) (cells left right : List Nat) (m : Nat) : (∀ i ∈ cells, i < P.coords.length) →
      cells.length ≤ P.coords.length →
      left ≠ [] → right ≠ [] → (∀ i ∈ left, i ∈ cells) → (∀ i ∈ right, i ∈ cells) → m ≤ cells.length →
      ¬ (((rangeOf P dim left).2 - (rangeOf P dim cells).1) / bucketLen P dim cells * ((m : Int) : F) +
        ((rangeOf P dim cells).2 - (rangeOf P dim right).1) / bucketLen P dim cells *
          (((cells.length : Int) - (m : Int) : Int) : F) < P.env.floatMax) → BuildErr P .indexError

/-- Dimension encoded in the second value of a stack entry. -/
def flagDim (f : Int) : Bool := (if f < 0 then f + 2 else f) != 0

def flagWeight (s : Nat) (f : Int) : Nat := max 1 (if f < 0 then 4 * s - 3 else 4 * s - 2)

/-- Why a leaf is not split further. -/
def LeafDone (P : BuildParams F) (cells : List Nat) : Prop :=
  cells.length ≤ P.cellsPerLeaf ∨ (Unsplit P false cells ∧ Unsplit P true cells)

/-- The bounds stored in a node are not wider than needed for the cells of the node, and the node has more cells than a
leaf may have. -/
def NodeTight (P : BuildParams F) (idx : List Nat) (nd : Node F) : Prop :=
  (∀ v, P.env.floatMin ≤ v → AllHiLe P.coords nd.dim (seg idx nd.ptr (nd.ptr + nd.size)) v → nd.Lmax ≤ v) ∧
  (∀ v, v ≤ P.env.floatMax → AllLoGe P.coords nd.dim (seg idx nd.ptr (nd.ptr + nd.size)) v → v ≤ nd.Rmin) ∧
  P.cellsPerLeaf < nd.size

theorem NodeTight.congr {P : BuildParams F} {idx idx' : List Nat} {nd : Node F} (h : NodeTight P idx nd)
    (hm : ∀ i, i ∈ seg idx nd.ptr (nd.ptr + nd.size) → i ∈ seg idx' nd.ptr (nd.ptr + nd.size)) :
    NodeTight P idx' nd :=
  ⟨fun v hv ha => h.1 v hv fun i hi => ha i (hm i hi), fun v hv ha => h.2.1 v hv fun i hi => ha i (hm i hi), h.2.2⟩

/-- The range of a node contains the range of a leaf or is disjoint from it. -/
theorem BT.Ok.node_leaf_range {coords : List (Box F)} {nodes : List (Node F)} {idx : List Nat} {t : BT}
    (h : t.Ok coords nodes idx) {m k a b : Nat} (hm : m ∈ t.keys) (hl : (k, a, b) ∈ t.leaves) :
    ∃ nd, nodes[m]? = some nd ∧ t.lo ≤ nd.ptr ∧ nd.ptr + nd.size ≤ t.hi ∧
      ((nd.ptr ≤ a ∧ b ≤ nd.ptr + nd.size) ∨ nd.ptr + nd.size ≤ a ∨ b ≤ nd.ptr) := by
  have key : ∀ {t : BT}, t.Ok coords nodes idx → m ∈ t.keys → ∃ nd, nodes[m]? = some nd ∧ t.lo ≤ nd.ptr ∧
      nd.ptr + nd.size ≤ t.hi := by
    intro t
    induction t with
    | leaf k0 lo hi =>
      intro h hm
      rw [BT.keys, List.mem_singleton] at hm
      subst hm
      obtain ⟨_, nd, n1, _, n3, n4⟩ := h
      exact ⟨nd, n1, by simp only [BT.lo]; omega, by simp only [BT.hi]; omega⟩
    | node k0 lo hi l r ihl ihr =>
      intro h hm
      obtain ⟨⟨nd, n1, _, n3, n4, _⟩, _, _, e1, e2, e3, e4, e5, hl, hr⟩ := h
      simp only [BT.keys, List.mem_cons, List.mem_append] at hm
      simp only [BT.lo, BT.hi]
      rcases hm with rfl | hm | hm
      · exact ⟨nd, n1, by omega, by omega⟩
      · obtain ⟨nd, q1, q2, q3⟩ := ihl hl hm
        exact ⟨nd, q1, by omega, by omega⟩
      · obtain ⟨nd, q1, q2, q3⟩ := ihr hr hm
        exact ⟨nd, q1, by omega, by omega⟩
  induction t with
  | leaf k0 lo hi =>
    obtain ⟨nd, q1, q2, q3⟩ := key h hm
    rw [BT.keys, List.mem_singleton] at hm
    simp only [BT.leaves, List.mem_singleton, Prod.mk.injEq] at hl
    obtain ⟨_, nd', n1, _, n3, n4⟩ := h
    obtain ⟨rfl, rfl, rfl⟩ := hl
    subst hm
    rw [q1] at n1
    cases n1
    exact ⟨nd, q1, q2, q3, Or.inl ⟨by omega, by omega⟩⟩
  | node k0 lo hi l r ihl ihr =>
    have hok := h
    obtain ⟨⟨nd, n1, _, n3, n4, _⟩, _, _, e1, e2, e3, e4, e5, hl', hr'⟩ := h
    simp only [BT.keys, List.mem_cons, List.mem_append] at hm
    simp only [BT.leaves, List.mem_append] at hl
    simp only [BT.lo, BT.hi]
    rcases hm with rfl | hm | hm
    · have := hok.leaf_range (k := k) (a := a) (b := b) (by simpa [BT.leaves] using hl)
      simp only [BT.lo, BT.hi] at this
      exact ⟨nd, n1, by omega, by omega, Or.inl ⟨by omega, by omega⟩⟩
    · rcases hl with hl | hl
      · obtain ⟨nd, q1, q2, q3, q4⟩ := ihl hl' hm hl
        exact ⟨nd, q1, by omega, by omega, q4⟩
      · obtain ⟨nd, q1, q2, q3⟩ := key hl' hm
        have := hr'.leaf_range hl
        exact ⟨nd, q1, by omega, by omega, by omega⟩
    · rcases hl with hl | hl
      · obtain ⟨nd, q1, q2, q3⟩ := key hr' hm
        have := hl'.leaf_range hl
        exact ⟨nd, q1, by omega, by omega, by omega⟩
      · obtain ⟨nd, q1, q2, q3, q4⟩ := ihr hr' hm hl
        exact ⟨nd, q1, by omega, by omega, q4⟩

structure Pend (P : BuildParams F) (t : BT) (nodes : List (Node F)) (idx : List Nat) (k : Nat) (f : Int)
    (a b : Nat) : Prop where
  leaf : (k, a, b) ∈ t.leaves
  flag : f = 0 ∨ f = 1 ∨ f = -2 ∨ f = -1
  dim : ∃ nd, nodes[k]? = some nd ∧ nd.dim = flagDim f
  unsplit : f < 0 → Unsplit P (!flagDim f) (seg idx a b)

/-- Invariant of the loop. -/
structure Inv (P : BuildParams F) (n : Nat) (t : BT) (s : BuildState F) : Prop where
  wf : s.stack.Wf
  perm : s.idx.Perm (List.range n)
  ok : t.Ok P.coords s.nodes s.idx
  root : t.root = 0
  lo : t.lo = 0
  hi : t.hi = n
  keys : t.keys.Perm (List.range s.nodes.length)
  nodup : (s.stack.toList.map Prod.fst).Nodup
  pend : ∀ k f, (k, f) ∈ s.stack.toList → ∃ a b, Pend P t s.nodes s.idx k f a b
  done : ∀ k a b, (k, a, b) ∈ t.leaves → (∀ f, (k, f) ∉ s.stack.toList) → LeafDone P (seg s.idx a b)
  tight : ∀ (k : Nat) nd, s.nodes[k]? = some nd → nd.child ≠ -1 → NodeTight P s.idx nd

/-- Termination measure. -/
def weight (nodes : List (Node F)) (l : List (Nat × Int)) : Nat :=
  (l.map fun p => flagWeight ((nodes[p.1]?.map (·.size)).getD 0) p.2).sum

theorem weight_congr {nodes nodes' : List (Node F)} {l : List (Nat × Int)}
    (h : ∀ p ∈ l, (nodes'[p.1]?.map (·.size)) = (nodes[p.1]?.map (·.size))) : weight nodes' l = weight nodes l := by
  unfold weight
  congr 1
  apply List.map_congr_left
  intro p hp
  rw [h p hp]

theorem flagWeight_pos (s : Nat) (f : Int) : 1 ≤ flagWeight s f := Nat.le_max_left _ _

section
variable {P : BuildParams F} {n : Nat} {t : BT} {s : BuildState F}

theorem Inv.nodupKeys (h : Inv P n t s) : t.keys.Nodup := (h.keys.nodup_iff).2 List.nodup_range

theorem Inv.idx_length (h : Inv P n t s) : s.idx.length = n := by
  rw [h.perm.length_eq, List.length_range]

theorem Inv.mem_seg_lt (h : Inv P n t s) {a b j : Nat} (hj : j ∈ seg s.idx a b) : j < n := by
  obtain ⟨k, _, _, hk⟩ := mem_seg.1 hj
  exact List.mem_range.1 (h.perm.mem_iff.1 (List.mem_of_getElem? hk))

/-- Frame rule: replacing the popped leaf by another tree over the same range. -/
theorem Inv.step {k a b : Nat} {f : Int} {rest : List (Nat × Int)} {u : BT} {s' : BuildState F} {ks : List Nat}
    {new : List (Nat × Int)} (h : Inv P n t s) (hst : s.stack.toList = (k, f) :: rest) (hleaf : (k, a, b) ∈ t.leaves)
    (hu : u.root = k ∧ u.lo = a ∧ u.hi = b) (huk : u.keys = k :: ks)
    (hok : u.Ok P.coords s'.nodes s'.idx) (hnodes : ∀ i, i < s.nodes.length → i ≠ k → s'.nodes[i]? = s.nodes[i]?)
    (hnew : (ks ++ List.range s.nodes.length).Perm (List.range s'.nodes.length))
    (hp : PermOn s.idx s'.idx a b)
    (hwf : s'.stack.Wf) (hst' : s'.stack.toList = new ++ rest)
    (hnd : (new.map Prod.fst).Nodup) (hnew1 : ∀ i g, (i, g) ∈ new → i ∈ k :: ks)
    (hpend : ∀ i g, (i, g) ∈ new → ∃ a' b', (i, a', b') ∈ u.leaves ∧ (g = 0 ∨ g = 1 ∨ g = -2 ∨ g = -1) ∧
      (∃ nd, s'.nodes[i]? = some nd ∧ nd.dim = flagDim g) ∧ (g < 0 → Unsplit P (!flagDim g) (seg s'.idx a' b')))
    (hdone : ∀ i a' b', (i, a', b') ∈ u.leaves → (∀ g, (i, g) ∉ new) → LeafDone P (seg s'.idx a' b'))
    (htight : ∀ (i : Nat) nd, i = k ∨ s.nodes.length ≤ i → s'.nodes[i]? = some nd → nd.child ≠ -1 →
      NodeTight P s'.idx nd) :
    Inv P n (t.replace k u) s' := by
  have hb : b ≤ s.idx.length := by
    have := (h.ok.leaf_range hleaf).2.2
    rw [h.idx_length, ← h.hi]; exact this
  have hab := (h.ok.leaf_range hleaf).2.1
  have hkeyslt : ∀ i ∈ t.keys, i < s.nodes.length := fun i hi => List.mem_range.1 (h.keys.mem_iff.1 hi)
  have hnd0 := h.nodup
  rw [hst, List.map_cons, List.nodup_cons] at hnd0
  have hksNotOld : ∀ i ∈ ks, s.nodes.length ≤ i := by
    intro i hi
    have hnd1 : (ks ++ List.range s.nodes.length).Nodup := hnew.nodup_iff.2 List.nodup_range
    rw [List.nodup_append] at hnd1
    exact Nat.le_of_not_lt fun hlt => hnd1.2.2 i hi i (List.mem_range.2 hlt) rfl
  have hrestKeys : ∀ i g, (i, g) ∈ rest → i < s.nodes.length ∧ i ≠ k := by
    intro i g hi
    obtain ⟨a', b', hpd⟩ := h.pend i g (by rw [hst]; exact List.mem_cons_of_mem _ hi)
    refine ⟨hkeyslt i (BT.leaves_sub_keys hpd.leaf), ?_⟩
    intro e
    exact hnd0.1 (List.mem_map.2 ⟨(i, g), hi, e⟩)
  obtain ⟨e1, e2, e3⟩ := BT.replace_shape h.ok hleaf hu h.nodupKeys
  have hsegSame : ∀ i a' b', (i, a', b') ∈ t.leaves → i ≠ k → seg s'.idx a' b' = seg s.idx a' b' := by
    intro i a' b' hi hik
    apply hp.seg_disjoint hab hb
    have := h.ok.leaf_disjoint hi hleaf hik
    omega
  constructor
  · exact hwf
  · exact (hp.perm hab).trans h.perm
  · exact h.ok.replace hleaf h.nodupKeys hu hok (fun i hi hik => hnodes i (hkeyslt i hi) hik) hp hb
  · rw [e1]; exact h.root
  · rw [e2]; exact h.lo
  · rw [e3]; exact h.hi
  · exact (BT.keys_replace hleaf h.nodupKeys huk).trans ((List.Perm.append_left _ h.keys).trans hnew)
  · rw [hst', List.map_append, List.nodup_append]
    refine ⟨hnd, hnd0.2, ?_⟩
    intro x hx y hy hxy
    subst hxy
    obtain ⟨⟨x', g⟩, hx1, rfl⟩ := List.mem_map.1 hx
    obtain ⟨⟨y', g'⟩, hy1, hy2⟩ := List.mem_map.1 hy
    simp only at hy2
    subst hy2
    have := hrestKeys _ _ hy1
    rcases List.mem_cons.1 (hnew1 _ _ hx1) with e | e
    · exact this.2 e
    · have := hksNotOld _ e; omega
  · intro i g hi
    rw [hst'] at hi
    rcases List.mem_append.1 hi with hi | hi
    · obtain ⟨a', b', p1, p2, p3, p4⟩ := hpend i g hi
      exact ⟨a', b', BT.mem_leaves_replace_new hleaf p1, p2, p3, p4⟩
    · obtain ⟨a', b', hpd⟩ := h.pend i g (by rw [hst]; exact List.mem_cons_of_mem _ hi)
      obtain ⟨hlt, hik⟩ := hrestKeys i g hi
      refine ⟨a', b', BT.mem_leaves_replace_of_ne hpd.leaf hik, hpd.flag, ?_, ?_⟩
      · rw [hnodes i hlt hik]; exact hpd.dim
      · rw [hsegSame i a' b' hpd.leaf hik]; exact hpd.unsplit
  · intro i a' b' hi hno
    rw [hst'] at hno
    rcases BT.mem_leaves_replace hi with ⟨h1, h2⟩ | h1
    · simp only at h2
      rw [hsegSame i a' b' h1 h2]
      apply h.done i a' b' h1
      intro g hg
      rw [hst] at hg
      rcases List.mem_cons.1 hg with e | hg
      · exact h2 (by cases e; rfl)
      · exact hno g (List.mem_append_right _ hg)
    · exact hdone i a' b' h1 fun g hg => hno g (List.mem_append_left _ hg)
  · intro i nd hi hch
    by_cases hik : i = k ∨ s.nodes.length ≤ i
    · exact htight i nd hik hi hch
    · have hi' : s.nodes[i]? = some nd := by rw [← hnodes i (by omega) (by omega)]; exact hi
      obtain ⟨nd', q1, q2, q3, q4⟩ := h.ok.node_leaf_range
        (h.keys.mem_iff.2 (List.mem_range.2 (show i < s.nodes.length by omega))) hleaf
      rw [hi'] at q1
      cases q1
      refine (h.tight i nd hi' hch).congr fun j hj => ?_
      rcases q4 with ⟨q4, q5⟩ | q4
      · exact (hp.seg_superset hab hb q4 q5).mem_iff.2 hj
      · rw [hp.seg_disjoint hab hb (by omega)]; exact hj

end

theorem initBuckets_inBucket {P : BuildParams F} {dim : Bool} {cells : List Nat} {b : Bucket F} {j : Nat}
    (hb : (b.Max, b.Min) ∈ (initBuckets P.nBuckets (bucketLen P dim cells) (rangeOf P dim cells).1).map
      (fun b => (b.Max, b.Min))) (ht : cellTest P.coords b dim j = true) :
    ∃ i < P.nBuckets, InBucket P dim cells i j ∧
      b.Max = ((i + 1 : Nat) : Int) * bucketLen P dim cells + (rangeOf P dim cells).1 ∧
      b.Min = ((i : Nat) : Int) * bucketLen P dim cells + (rangeOf P dim cells).1 := by
  simp only [initBuckets, List.map_map, List.mem_map, List.mem_range, Function.comp, Prod.mk.injEq] at hb
  obtain ⟨i, hi, h1, h2⟩ := hb
  refine ⟨i, hi, ?_, h1.symm, h2.symm⟩
  unfold cellTest at ht
  cases hc : P.coords[j]? with
  | none => rw [hc] at ht; simp at ht
  | some box =>
    rw [hc] at ht
    simp only [centroidTest, Bool.and_eq_true, decide_eq_true_eq] at ht
    rw [← h1, ← h2] at ht
    exact ⟨box, hc, ht.1, ht.2⟩

theorem inBucket_of_bounds {P : BuildParams F} {dim : Bool} {cells : List Nat} {b : Bucket F} {i j : Nat}
    (h1 : b.Max = ((i + 1 : Nat) : Int) * bucketLen P dim cells + (rangeOf P dim cells).1)
    (h2 : b.Min = ((i : Nat) : Int) * bucketLen P dim cells + (rangeOf P dim cells).1)
    (ht : cellTest P.coords b dim j = true) : InBucket P dim cells i j := by
  unfold cellTest at ht
  cases hc : P.coords[j]? with
  | none => rw [hc] at ht; simp at ht
  | some box =>
    rw [hc] at ht
    simp only [centroidTest, Bool.and_eq_true, decide_eq_true_eq] at ht
    rw [h1, h2] at ht
    exact ⟨box, hc, ht.1, ht.2⟩

theorem Chain.mem_ne_nil {Q : Bucket F → List Nat → Prop} {idx : List Nat} {lo hi : Nat} {bs : List (Bucket F)}
    (h : Chain Q idx lo hi bs) (hhi : hi ≤ idx.length) (hne : ∀ b ∈ bs, b.size ≠ 0) {b : Bucket F} (hb : b ∈ bs) :
    ∃ cells, cells ≠ [] ∧ (∀ i ∈ cells, i ∈ seg idx lo hi) ∧ Q b cells := by
  induction bs generalizing lo with
  | nil => simp at hb
  | cons c bs ih =>
    obtain ⟨h1, h2, h3, h4⟩ := h
    rcases List.mem_cons.1 hb with rfl | hb
    · refine ⟨_, ?_, ?_, h3⟩
      · intro e
        have := congrArg List.length e
        rw [seg_length (by omega)] at this
        have h0 := hne b (by simp)
        simp only [List.length_nil] at this
        omega
      · intro i hi
        obtain ⟨k, h5, h6, h7⟩ := mem_seg.1 hi
        exact mem_seg.2 ⟨k, h5, by omega, h7⟩
    · obtain ⟨cells, c1, c2, c3⟩ := ih h4 (fun d hd => hne d (by simp [hd])) hb
      refine ⟨cells, c1, ?_, c3⟩
      intro i hi
      obtain ⟨k, h5, h6, h7⟩ := mem_seg.1 (c2 i hi)
      exact mem_seg.2 ⟨k, by omega, h6, h7⟩

/-- If `split_plane` finds no plane, the first cost is not below `FLOAT_MAX`. -/
theorem splitPlaneLoop_none (rootSize : Nat) (rangeLmax rangeRmin bl : F) (i : Nat) (cur next : Bucket F)
    (bs : List (Bucket F)) (inLeft : Int) (minCost : F) (plane : Option Nat)
    (h : splitPlaneLoop rootSize rangeLmax rangeRmin bl i cur (next :: bs) inLeft minCost plane = .ok none) :
    ¬ ((cur.Lmax - rangeRmin) / bl * ((inLeft + cur.size : Int) : F) +
      (rangeLmax - next.Rmin) / bl * (((rootSize : Int) - (inLeft + cur.size) : Int) : F) < minCost) := by
  have key : ∀ (bs : List (Bucket F)) i cur inLeft minCost (p : Nat),
      splitPlaneLoop rootSize rangeLmax rangeRmin bl i cur bs inLeft minCost (some p) ≠ .ok none := by
    intro bs
    induction bs with
    | nil => intro i cur inLeft minCost p h; simp [splitPlaneLoop] at h
    | cons c bs ih =>
      intro i cur inLeft minCost p h
      unfold splitPlaneLoop at h
      simp only [bind_eq_ok] at h
      obtain ⟨_, _, _, _, h⟩ := h
      split at h
      · exact ih _ _ _ _ _ h
      · exact ih _ _ _ _ _ h
  unfold splitPlaneLoop at h
  simp only [bind_eq_ok] at h
  obtain ⟨x, hx, y, hy, h⟩ := h
  have hdiv : ∀ u v : F, fdiv u bl = .ok v → v = u / bl := by
    intro u v huv
    unfold fdiv at huv
    split at huv
    · cases huv
    · cases huv; rfl
  rw [hdiv _ _ hx, hdiv _ _ hy] at h
  intro hlt
  rw [if_pos hlt] at h
  exact key _ _ _ _ _ _ h

section
variable [NumOrd F]
open NumOrd

/-- Splitting the popped leaf into two leaves keeps the invariant and decreases the measure. -/
theorem Inv.splitStep {P : BuildParams F} {n : Nat} {t : BT} {s s' : BuildState F} {k a b : Nat} {f : Int}
    {rest : List (Nat × Int)} {mid : Nat} {root : Node F}
    {Lmax Rmin : F} {pushed : Bool} (h : Inv P n t s) (hst : s.stack.toList = (k, f) :: rest)
    (hleaf : (k, a, b) ∈ t.leaves) (hroot : s.nodes[k]? = some root) (hptr : root.ptr = a)
    (hsize : root.ptr + root.size = b)
    (hm1 : a < mid) (hm2 : mid < b) (hp : PermOn s.idx s'.idx a b)
    (hL : AllHiLe P.coords root.dim (seg s'.idx a mid) Lmax) (hR : AllLoGe P.coords root.dim (seg s'.idx mid b) Rmin)
    (hn : s'.nodes = (s.nodes.set k { root with child := s.nodes.length, Lmax := Lmax, Rmin := Rmin }) ++
      [createNode a (mid - a) (!root.dim)] ++ [createNode mid (b - mid) (!root.dim)])
    (hwf : s'.stack.Wf)
    (hst' : s'.stack.toList = (if pushed then
        [(s.nodes.length, if root.dim then 0 else 1), (s.nodes.length + 1, if root.dim then 0 else 1)] else []) ++ rest)
    (hdone : pushed = false → mid - a ≤ P.cellsPerLeaf ∧ b - mid ≤ P.cellsPerLeaf)
    (hT1 : ∀ v, P.env.floatMin ≤ v → AllHiLe P.coords root.dim (seg s'.idx a b) v → Lmax ≤ v)
    (hT2 : ∀ v, v ≤ P.env.floatMax → AllLoGe P.coords root.dim (seg s'.idx a b) v → v ≤ Rmin)
    (hbig : P.cellsPerLeaf < root.size) :
    (∃ t', Inv P n t' s') ∧ weight s'.nodes s'.stack.toList < weight s.nodes s.stack.toList := by
  have hk : k < s.nodes.length := by
    rw [List.getElem?_eq_some_iff] at hroot; exact hroot.1
  have hlen' : s'.nodes.length = s.nodes.length + 2 := by rw [hn]; simp
  have hb : b ≤ s.idx.length := by
    have := (h.ok.leaf_range hleaf).2.2
    rw [h.idx_length, ← h.hi]; exact this
  have hlenI := hp.length_eq (show a ≤ b by omega)
  have g0 : s'.nodes[k]? = some { root with child := s.nodes.length, Lmax := Lmax, Rmin := Rmin } := by
    rw [hn, List.append_assoc, List.getElem?_append_left (by simpa using hk)]
    simp [hk]
  have g1 : s'.nodes[s.nodes.length]? = some (createNode a (mid - a) (!root.dim)) := by
    rw [hn, List.append_assoc, List.getElem?_append_right (by simp)]
    simp
  have g2 : s'.nodes[s.nodes.length + 1]? = some (createNode mid (b - mid) (!root.dim)) := by
    rw [hn, List.append_assoc, List.getElem?_append_right (by simp)]
    simp
  have gframe : ∀ i, i < s.nodes.length → i ≠ k → s'.nodes[i]? = s.nodes[i]? := by
    intro i hi hik
    rw [hn, List.append_assoc, List.getElem?_append_left (by simpa using hi)]
    rw [List.getElem?_set_ne (Ne.symm hik)]
  have hdimf : flagDim (if root.dim then 0 else 1) = !root.dim := by cases root.dim <;> rfl
  have hrestKeys : ∀ p ∈ rest, p.1 < s.nodes.length ∧ p.1 ≠ k := by
    rintro ⟨i, g⟩ hi
    obtain ⟨a', b', hpd⟩ := h.pend i g (by rw [hst]; exact List.mem_cons_of_mem _ hi)
    refine ⟨List.mem_range.1 (h.keys.mem_iff.1 (BT.leaves_sub_keys hpd.leaf)), ?_⟩
    have hnd0 := h.nodup
    rw [hst, List.map_cons, List.nodup_cons] at hnd0
    intro e
    exact hnd0.1 (List.mem_map.2 ⟨(i, g), hi, e⟩)
  constructor
  · refine ⟨_, h.step (u := .node k a b (.leaf s.nodes.length a mid) (.leaf (s.nodes.length + 1) mid b))
      (ks := [s.nodes.length, s.nodes.length + 1])
      hst hleaf ⟨rfl, rfl, rfl⟩ rfl ?_ gframe ?_ hp hwf hst' ?_ ?_ ?_ ?_ ?_⟩
    · refine ⟨⟨_, g0, rfl, hptr, hsize, hL, hR⟩, rfl, hk, rfl, rfl, rfl, hm1, hm2, ?_, ?_⟩
      · exact ⟨by omega, _, g1, rfl, rfl, by simp only [createNode]; omega⟩
      · exact ⟨by omega, _, g2, rfl, rfl, by simp only [createNode]; omega⟩
    · rw [hlen', List.range_succ, List.range_succ, List.append_assoc]
      exact List.perm_append_comm
    · cases pushed <;> simp
    · intro i g hi
      cases pushed
      · simp at hi
      · simp only [if_true, List.mem_cons, Prod.mk.injEq, List.not_mem_nil, or_false] at hi
        simp only [List.mem_cons, List.not_mem_nil, or_false]
        omega
    · intro i g hi
      cases pushed
      · simp at hi
      · simp only [if_true, List.mem_cons, Prod.mk.injEq, List.not_mem_nil, or_false] at hi
        rcases hi with ⟨rfl, rfl⟩ | ⟨rfl, rfl⟩
        · refine ⟨a, mid, by simp [BT.leaves], by cases root.dim <;> simp, ⟨_, g1, hdimf.symm⟩, ?_⟩
          intro hlt; cases hd : root.dim <;> rw [hd] at hlt <;> simp at hlt
        · refine ⟨mid, b, by simp [BT.leaves], by cases root.dim <;> simp, ⟨_, g2, hdimf.symm⟩, ?_⟩
          intro hlt; cases hd : root.dim <;> rw [hd] at hlt <;> simp at hlt
    · intro i a' b' hi hno
      cases pushed
      · obtain ⟨d1, d2⟩ := hdone rfl
        simp only [BT.leaves, List.mem_append, List.mem_singleton, Prod.mk.injEq] at hi
        left
        rw [seg_length (by omega)]
        omega
      · simp only [BT.leaves, List.mem_append, List.mem_singleton, Prod.mk.injEq] at hi
        rcases hi with ⟨rfl, _, _⟩ | ⟨rfl, _, _⟩
        · exact (hno (if root.dim then 0 else 1) (by simp)).elim
        · exact (hno (if root.dim then 0 else 1) (by simp)).elim
    · intro i nd hi hnd hch
      have hlt : i < s'.nodes.length := (List.getElem?_eq_some_iff.1 hnd).1
      have : i = k ∨ i = s.nodes.length ∨ i = s.nodes.length + 1 := by omega
      rcases this with rfl | rfl | rfl
      · rw [g0] at hnd
        cases hnd
        exact ⟨by simpa only [hptr, hptr ▸ hsize] using hT1, by simpa only [hptr, hptr ▸ hsize] using hT2, hbig⟩
      · rw [g1] at hnd
        cases hnd
        exact (hch rfl).elim
      · rw [g2] at hnd
        cases hnd
        exact (hch rfl).elim
  · rw [hst', hst]
    have hw : weight s'.nodes rest = weight s.nodes rest := by
      apply weight_congr
      intro p hp'
      obtain ⟨q1, q2⟩ := hrestKeys p hp'
      rw [gframe _ q1 q2]
    have hcons : ∀ (nd : List (Node F)) (p : Nat × Int) l,
        weight nd (p :: l) = flagWeight ((nd[p.1]?.map (·.size)).getD 0) p.2 + weight nd l := by
      intro nd p l; simp [weight]
    rw [hcons s.nodes, hroot]
    simp only [Option.map_some, Option.getD_some]
    cases pushed
    · simp only [Bool.false_eq_true, if_false, List.nil_append, hw]
      have := flagWeight_pos root.size f
      omega
    · simp only [if_true, List.cons_append, List.nil_append]
      rw [hcons, hcons, hw, g1, g2]
      simp only [Option.map_some, Option.getD_some, createNode, flagWeight]
      have : ¬ ((if root.dim = true then (0 : Int) else 1) < 0) := by cases root.dim <;> simp
      rw [if_neg this, if_neg this]
      split <;> omega

/-- Replacing the popped leaf by itself (possibly with another `dim`), pushing it again or not. -/
theorem Inv.keepStep {P : BuildParams F} {n : Nat} {t : BT} {s s' : BuildState F} {k a b : Nat} {f : Int}
    {rest : List (Nat × Int)} {root root' : Node F} {push : Option Int} (h : Inv P n t s)
    (hst : s.stack.toList = (k, f) :: rest)
    (hleaf : (k, a, b) ∈ t.leaves) (hroot : s.nodes[k]? = some root)
    (hp : PermOn s.idx s'.idx a b)
    (hn : s'.nodes = s.nodes.set k root')
    (hr' : root'.child = root.child ∧ root'.ptr = root.ptr ∧ root'.size = root.size)
    (hwf : s'.stack.Wf)
    (hst' : s'.stack.toList = (match push with | some g => [(k, g)] | none => []) ++ rest)
    (hpush : ∀ g, push = some g → 0 ≤ f ∧ (g = -2 ∨ g = -1) ∧ root'.dim = flagDim g ∧ a < b ∧
      Unsplit P (!flagDim g) (seg s'.idx a b))
    (hdone : push = none → LeafDone P (seg s'.idx a b)) :
    (∃ t', Inv P n t' s') ∧ weight s'.nodes s'.stack.toList < weight s.nodes s.stack.toList := by
  have hk : k < s.nodes.length := by
    rw [List.getElem?_eq_some_iff] at hroot; exact hroot.1
  have g0 : s'.nodes[k]? = some root' := by rw [hn]; simp [hk]
  have gframe : ∀ i, i < s.nodes.length → i ≠ k → s'.nodes[i]? = s.nodes[i]? := by
    intro i hi hik
    rw [hn, List.getElem?_set_ne (Ne.symm hik)]
  have hrestKeys : ∀ p ∈ rest, p.1 < s.nodes.length ∧ p.1 ≠ k := by
    rintro ⟨i, g⟩ hi
    obtain ⟨a', b', hpd⟩ := h.pend i g (by rw [hst]; exact List.mem_cons_of_mem _ hi)
    refine ⟨List.mem_range.1 (h.keys.mem_iff.1 (BT.leaves_sub_keys hpd.leaf)), ?_⟩
    have hnd0 := h.nodup
    rw [hst, List.map_cons, List.nodup_cons] at hnd0
    intro e
    exact hnd0.1 (List.mem_map.2 ⟨(i, g), hi, e⟩)
  obtain ⟨hle, nd, q1, q2, q3, q4⟩ := h.ok.leaf_node hleaf
  rw [hroot] at q1
  cases q1
  constructor
  · refine ⟨_, h.step (u := .leaf k a b) (ks := []) hst hleaf ⟨rfl, rfl, rfl⟩ rfl ?_ gframe ?_ hp hwf hst'
      ?_ ?_ ?_ ?_ ?_⟩
    · refine ⟨hle, _, g0, by rw [hr'.1]; exact q2, by rw [hr'.2.1]; exact q3, by rw [hr'.2.1, hr'.2.2]; exact q4⟩
    · rw [hn]; simp
    · cases push <;> simp
    · intro i g hi
      cases push with
      | none => simp at hi
      | some g' =>
        simp only [List.mem_cons, Prod.mk.injEq, List.not_mem_nil, or_false] at hi
        simp [hi.1]
    · intro i g hi
      cases push with
      | none => simp at hi
      | some g' =>
        simp only [List.mem_cons, Prod.mk.injEq, List.not_mem_nil, or_false] at hi
        obtain ⟨rfl, rfl⟩ := hi
        obtain ⟨p1, p2, p3, p4, p5⟩ := hpush g rfl
        exact ⟨a, b, by simp [BT.leaves], by omega, ⟨_, g0, p3⟩, fun _ => p5⟩
    · intro i a' b' hi hno
      simp only [BT.leaves, List.mem_singleton, Prod.mk.injEq] at hi
      obtain ⟨rfl, rfl, rfl⟩ := hi
      cases push with
      | none => exact hdone rfl
      | some g' => exact (hno g' (by simp)).elim
    · intro i nd hi hnd hch
      have hlt : i < s'.nodes.length := (List.getElem?_eq_some_iff.1 hnd).1
      have : i = k := by rw [hn, List.length_set] at hlt; omega
      subst this
      rw [g0] at hnd
      cases hnd
      exact (hch (by rw [hr'.1]; exact q2)).elim
  · rw [hst', hst]
    have hw : weight s'.nodes rest = weight s.nodes rest := by
      apply weight_congr
      intro p hp'
      obtain ⟨q1, q2⟩ := hrestKeys p hp'
      rw [gframe _ q1 q2]
    have hcons : ∀ (nd : List (Node F)) (p : Nat × Int) l,
        weight nd (p :: l) = flagWeight ((nd[p.1]?.map (·.size)).getD 0) p.2 + weight nd l := by
      intro nd p l; simp [weight]
    rw [hcons s.nodes, hroot]
    simp only [Option.map_some, Option.getD_some]
    cases push with
    | none =>
      simp only [List.nil_append, hw]
      have := flagWeight_pos root.size f
      omega
    | some g =>
      obtain ⟨p1, p2, p3, p4, p5⟩ := hpush g rfl
      simp only [List.cons_append, List.nil_append]
      rw [hcons, hw, g0]
      simp only [Option.map_some, Option.getD_some, hr'.2.2, flagWeight]
      have : ¬ f < 0 := by omega
      rw [if_neg this, if_pos (show g < 0 by omega)]
      omega

end

end Celltree
