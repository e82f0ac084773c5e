import Verif.Model.Creation
import Verif.Proofs.Partition

/-!
# The tree that a flat node array represents

`BT` is a binary tree with node numbers and ranges of `bb_indices`. `BT.Ok` says that the arrays `nodes` and `idx`
represent it, and that the split bounds stored in the nodes are valid.
-/

set_option linter.unusedSectionVars false

namespace Celltree

inductive BT
  | leaf (k lo hi : Nat)
  | node (k lo hi : Nat) (l r : BT)
deriving DecidableEq

namespace BT

def root : BT → Nat
  | leaf k _ _ => k
  | node k _ _ _ _ => k

def lo : BT → Nat
  | leaf _ lo _ => lo
  | node _ lo _ _ _ => lo

def hi : BT → Nat
  | leaf _ _ hi => hi
  | node _ _ hi _ _ => hi

def keys : BT → List Nat
  | leaf k _ _ => [k]
  | node k _ _ l r => k :: (l.keys ++ r.keys)

def leaves : BT → List (Nat × Nat × Nat)
  | leaf k lo hi => [(k, lo, hi)]
  | node _ _ _ l r => l.leaves ++ r.leaves

def replace (t : BT) (m : Nat) (s : BT) : BT :=
  match t with
  | leaf k lo hi => if k = m then s else leaf k lo hi
  | node k lo hi l r => node k lo hi (l.replace m s) (r.replace m s)

end BT

variable {F : Type} [LE F]

/-- All boxes of the cells end at or before `v` in dimension `dim`. -/
def AllHiLe (coords : List (Box F)) (dim : Bool) (cells : List Nat) (v : F) : Prop :=
  ∀ i ∈ cells, ∀ b, coords[i]? = some b → b.hi dim ≤ v

/-- All boxes of the cells start at or after `v` in dimension `dim`. -/
def AllLoGe (coords : List (Box F)) (dim : Bool) (cells : List Nat) (v : F) : Prop :=
  ∀ i ∈ cells, ∀ b, coords[i]? = some b → v ≤ b.lo dim

/-- The arrays represent the tree. -/
def BT.Ok (coords : List (Box F)) (nodes : List (Node F)) (idx : List Nat) : BT → Prop
  | .leaf k lo hi => lo ≤ hi ∧ ∃ nd, nodes[k]? = some nd ∧ nd.child = -1 ∧ nd.ptr = lo ∧ nd.ptr + nd.size = hi
  | .node k lo hi l r =>
    (∃ nd, nodes[k]? = some nd ∧ nd.child = (l.root : Int) ∧ nd.ptr = lo ∧ nd.ptr + nd.size = hi ∧
      AllHiLe coords nd.dim (seg idx l.lo l.hi) nd.Lmax ∧ AllLoGe coords nd.dim (seg idx r.lo r.hi) nd.Rmin) ∧
    r.root = l.root + 1 ∧ k < l.root ∧ l.lo = lo ∧ l.hi = r.lo ∧ r.hi = hi ∧ l.lo < l.hi ∧ r.lo < r.hi ∧
    l.Ok coords nodes idx ∧ r.Ok coords nodes idx

/-- `idx'` is `idx` with the part `[lo, hi)` permuted. -/
def PermOn (idx idx' : List Nat) (lo hi : Nat) : Prop :=
  ∃ s, s.Perm (seg idx lo hi) ∧ idx' = idx.take lo ++ s ++ idx.drop hi

section seg
variable {α : Type}

theorem seg_append_seg (l : List α) {a b c : Nat} (h1 : a ≤ b) (h2 : b ≤ c) : seg l a b ++ seg l b c = seg l a c := by
  unfold seg
  have e : l.take c = l.take b ++ seg l b c := by
    have h : l.take b = (l.take c).take b := by rw [List.take_take, Nat.min_eq_left h2]
    rw [h, seg, List.take_append_drop]
  by_cases hb : b ≤ l.length
  · conv => rhs; rw [e, List.drop_append_of_le_length (by simp; omega)]
    rfl
  · have hb' : l.length ≤ b := by omega
    have hc' : l.length ≤ c := by omega
    rw [List.take_of_length_le hb', List.take_of_length_le hc']
    have : l.drop b = [] := List.drop_eq_nil_of_le hb'
    rw [this, List.append_nil]

theorem seg_empty (l : List α) {a b : Nat} (h : b ≤ a) : seg l a b = [] := by
  unfold seg; apply List.drop_eq_nil_of_le; simp; omega

theorem seg_full (l : List α) : seg l 0 l.length = l := by simp [seg]

theorem mem_seg {l : List α} {a b : Nat} {x : α} : x ∈ seg l a b ↔ ∃ i, a ≤ i ∧ i < b ∧ l[i]? = some x := by
  unfold seg
  rw [List.mem_iff_getElem?]
  constructor
  · rintro ⟨i, hi⟩
    rw [List.getElem?_drop, List.getElem?_take] at hi
    split at hi
    · exact ⟨a + i, by omega, by assumption, hi⟩
    · simp at hi
  · rintro ⟨i, h1, h2, h3⟩
    refine ⟨i - a, ?_⟩
    rw [List.getElem?_drop, List.getElem?_take]
    have : a + (i - a) = i := by omega
    rw [this, if_pos h2, h3]

theorem seg_congr {l l' : List α} {a b : Nat} (h : ∀ i, a ≤ i → i < b → l'[i]? = l[i]?) : seg l' a b = seg l a b := by
  unfold seg
  apply List.ext_getElem?
  intro i
  simp only [List.getElem?_drop, List.getElem?_take]
  split
  · exact h _ (by omega) (by assumption)
  · rfl

end seg

namespace PermOn
variable {idx idx' idx'' : List Nat} {lo hi : Nat}

theorem refl (idx : List Nat) {lo hi : Nat} (h : lo ≤ hi) : PermOn idx idx lo hi :=
  ⟨seg idx lo hi, List.Perm.refl _, (take_seg_drop idx h).symm⟩

theorem length_eq (h : PermOn idx idx' lo hi) (hlo : lo ≤ hi) : idx'.length = idx.length := by
  obtain ⟨s, hs, rfl⟩ := h
  have := hs.length_eq
  have h2 := congrArg List.length (take_seg_drop idx hlo)
  simp only [List.length_append] at h2 ⊢
  omega

theorem perm (h : PermOn idx idx' lo hi) (hlo : lo ≤ hi) : idx'.Perm idx := by
  obtain ⟨s, hs, rfl⟩ := h
  conv => rhs; rw [← take_seg_drop idx hlo]
  exact (List.Perm.append_left _ hs).append_right _

theorem getElem?_lt (h : PermOn idx idx' lo hi) (hlo : lo ≤ hi) (hhi : hi ≤ idx.length) {i : Nat} (hi' : i < lo) :
    idx'[i]? = idx[i]? := by
  obtain ⟨s, hs, rfl⟩ := h
  rw [List.append_assoc, List.getElem?_append_left (by simp; omega), List.getElem?_take, if_pos hi']

theorem getElem?_ge (h : PermOn idx idx' lo hi) (hlo : lo ≤ hi) (hhi : hi ≤ idx.length) {i : Nat} (hi' : hi ≤ i) :
    idx'[i]? = idx[i]? := by
  obtain ⟨s, hs, rfl⟩ := h
  have hl := hs.length_eq
  rw [seg_length hhi] at hl
  have e : (idx.take lo ++ s).length = hi := by simp; omega
  rw [List.getElem?_append_right (by omega), e, List.getElem?_drop]
  congr 1
  omega

theorem seg_eq (h : PermOn idx idx' lo hi) (hlo : lo ≤ hi) (hhi : hi ≤ idx.length) :
    (seg idx' lo hi).Perm (seg idx lo hi) := by
  have hlen := h.length_eq hlo
  obtain ⟨s, hs, rfl⟩ := h
  have hl := hs.length_eq
  rw [seg_length hhi] at hl
  have e0 : (idx.take lo).length = lo := by simp; omega
  have e : (idx.take lo ++ s).length = hi := by simp; omega
  have : seg (idx.take lo ++ s ++ idx.drop hi) lo hi = s := by
    unfold seg
    conv => lhs; arg 2; rw [← e, List.take_left]
    conv => lhs; arg 1; rw [← e0]
    rw [List.drop_left]
  rw [this]
  exact hs

/-- A segment that contains the permuted part is permuted. -/
theorem seg_superset (h : PermOn idx idx' lo hi) (hlo : lo ≤ hi) (hhi : hi ≤ idx.length) {a b : Nat} (ha : a ≤ lo)
    (hb : hi ≤ b) : (seg idx' a b).Perm (seg idx a b) := by
  rw [← seg_append_seg idx' ha (show lo ≤ b by omega), ← seg_append_seg idx' hlo hb,
    ← seg_append_seg idx ha (show lo ≤ b by omega), ← seg_append_seg idx hlo hb]
  have h1 : seg idx' a lo = seg idx a lo := seg_congr fun i _ h2 => h.getElem?_lt hlo hhi h2
  have h2 : seg idx' hi b = seg idx hi b := seg_congr fun i h2 _ => h.getElem?_ge hlo hhi h2
  rw [h1, h2]
  exact List.Perm.append_left _ ((h.seg_eq hlo hhi).append_right _)

/-- A segment disjoint from the permuted part does not change. -/
theorem seg_disjoint (h : PermOn idx idx' lo hi) (hlo : lo ≤ hi) (hhi : hi ≤ idx.length) {a b : Nat}
    (hd : b ≤ lo ∨ hi ≤ a) : seg idx' a b = seg idx a b := by
  apply seg_congr
  intro i h1 h2
  rcases hd with hd | hd
  · exact h.getElem?_lt hlo hhi (by omega)
  · exact h.getElem?_ge hlo hhi (by omega)

theorem trans (h : PermOn idx idx' lo hi) (h' : PermOn idx' idx'' lo hi) (hlo : lo ≤ hi) (hhi : hi ≤ idx.length) :
    PermOn idx idx'' lo hi := by
  have hlen := h.length_eq hlo
  have hs := h.seg_eq hlo hhi
  have e1 : idx'.take lo = idx.take lo := by
    have := h.seg_disjoint hlo hhi (a := 0) (b := lo) (Or.inl (Nat.le_refl _))
    simpa [seg] using this
  have e2 : idx'.drop hi = idx.drop hi := by
    apply List.ext_getElem?
    intro i
    simp only [List.getElem?_drop]
    exact h.getElem?_ge hlo hhi (by omega)
  obtain ⟨s, hs', rfl⟩ := h'
  exact ⟨s, hs'.trans hs, by rw [e1, e2]⟩

/-- A permutation of a part is a permutation of a larger part. -/
theorem widen (h : PermOn idx idx' lo hi) (hlo : lo ≤ hi) (hhi : hi ≤ idx.length) {a b : Nat} (ha : a ≤ lo)
    (hb : hi ≤ b) : PermOn idx idx' a b := by
  have hp := h.seg_superset hlo hhi ha hb
  refine ⟨seg idx' a b, hp, ?_⟩
  have e1 : idx'.take a = idx.take a := by
    have := h.seg_disjoint hlo hhi (a := 0) (b := a) (Or.inl ha)
    simpa [seg] using this
  have e2 : idx'.drop b = idx.drop b := by
    apply List.ext_getElem?
    intro i
    simp only [List.getElem?_drop]
    exact h.getElem?_ge hlo hhi (by omega)
  rw [← e1, ← e2, take_seg_drop idx' (by omega)]

end PermOn

/-! ## Structure lemmas -/

namespace BT

theorem root_mem_keys (t : BT) : t.root ∈ t.keys := by cases t <;> simp [root, keys]

theorem leaves_sub_keys {t : BT} {k a b : Nat} (h : (k, a, b) ∈ t.leaves) : k ∈ t.keys := by
  induction t with
  | leaf k' lo hi => simp [leaves] at h; simp [keys, h.1]
  | node k' lo hi l r ihl ihr =>
    simp only [leaves, List.mem_append] at h
    simp only [keys, List.mem_cons, List.mem_append]
    rcases h with h | h
    · exact Or.inr (Or.inl (ihl h))
    · exact Or.inr (Or.inr (ihr h))

theorem length_keys (t : BT) : t.keys.length + 1 = 2 * t.leaves.length := by
  induction t with
  | leaf => rfl
  | node k lo hi l r ihl ihr => simp [keys, leaves]; omega

theorem replace_of_not_mem {m : Nat} {s t : BT} (h : m ∉ t.keys) : t.replace m s = t := by
  induction t with
  | leaf k lo hi => simp [keys] at h; simp [replace, Ne.symm h]
  | node k lo hi l r ihl ihr =>
    simp only [keys, List.mem_cons, List.mem_append, not_or] at h
    simp [replace, ihl h.2.1, ihr h.2.2]

theorem Ok.lo_le_hi {coords : List (Box F)} {nodes : List (Node F)} {idx : List Nat} {t : BT}
    (h : t.Ok coords nodes idx) : t.lo ≤ t.hi := by
  cases t with
  | leaf k lo hi => exact h.1
  | node k lo hi l r => obtain ⟨_, _, _, h1, h2, h3, h4, h5, _⟩ := h; simp only [BT.lo, BT.hi]; omega

theorem Ok.leaf_range {coords : List (Box F)} {nodes : List (Node F)} {idx : List Nat} {t : BT}
    (h : t.Ok coords nodes idx) {k a b : Nat} (hm : (k, a, b) ∈ t.leaves) : t.lo ≤ a ∧ a ≤ b ∧ b ≤ t.hi := by
  induction t with
  | leaf k' lo hi =>
    simp only [leaves, List.mem_singleton, Prod.mk.injEq] at hm
    obtain ⟨rfl, rfl, rfl⟩ := hm
    exact ⟨Nat.le_refl _, h.1, Nat.le_refl _⟩
  | node k' lo hi l r ihl ihr =>
    obtain ⟨_, _, _, h1, h2, h3, h4, h5, hl, hr⟩ := h
    simp only [leaves, List.mem_append] at hm
    simp only [BT.lo, BT.hi]
    rcases hm with hm | hm
    · have := ihl hl hm; omega
    · have := ihr hr hm; omega

theorem Ok.leaf_node {coords : List (Box F)} {nodes : List (Node F)} {idx : List Nat} {t : BT}
    (h : t.Ok coords nodes idx) {k a b : Nat} (hm : (k, a, b) ∈ t.leaves) :
    (BT.leaf k a b).Ok coords nodes idx := by
  induction t with
  | leaf k' lo hi =>
    simp only [leaves, List.mem_singleton, Prod.mk.injEq] at hm
    obtain ⟨rfl, rfl, rfl⟩ := hm
    exact h
  | node k' lo hi l r ihl ihr =>
    obtain ⟨_, _, _, h1, h2, h3, h4, h5, hl, hr⟩ := h
    simp only [leaves, List.mem_append] at hm
    rcases hm with hm | hm
    · exact ihl hl hm
    · exact ihr hr hm

/-- If the tree has a non-empty range, so have its leaves. -/
theorem Ok.leaf_nonempty {coords : List (Box F)} {nodes : List (Node F)} {idx : List Nat} {t : BT}
    (h : t.Ok coords nodes idx) (hne : t.lo < t.hi) {k a b : Nat} (hm : (k, a, b) ∈ t.leaves) : a < b := by
  induction t with
  | leaf k' lo hi =>
    simp only [leaves, List.mem_singleton, Prod.mk.injEq] at hm
    obtain ⟨rfl, rfl, rfl⟩ := hm
    exact hne
  | node k' lo hi l r ihl ihr =>
    obtain ⟨_, _, _, h1, h2, h3, h4, h5, hl, hr⟩ := h
    simp only [leaves, List.mem_append] at hm
    rcases hm with hm | hm
    · exact ihl hl h4 hm
    · exact ihr hr h5 hm

theorem Ok.length_leaves {coords : List (Box F)} {nodes : List (Node F)} {idx : List Nat} {t : BT}
    (h : t.Ok coords nodes idx) (hne : t.lo < t.hi) : t.leaves.length ≤ t.hi - t.lo := by
  induction t with
  | leaf k' lo hi => simp only [leaves, BT.lo, BT.hi, List.length_singleton] at *; omega
  | node k' lo hi l r ihl ihr =>
    obtain ⟨_, _, _, h1, h2, h3, h4, h5, hl, hr⟩ := h
    have := ihl hl h4
    have := ihr hr h5
    simp only [leaves, List.length_append, BT.lo, BT.hi] at *
    omega

/-- The tree stays valid if its nodes and its part of `idx` do not change. -/
theorem Ok.frame {coords : List (Box F)} {nodes nodes' : List (Node F)} {idx idx' : List Nat} {t : BT}
    (h : t.Ok coords nodes idx) (hn : ∀ k ∈ t.keys, nodes'[k]? = nodes[k]?)
    (hi : ∀ i, t.lo ≤ i → i < t.hi → idx'[i]? = idx[i]?) : t.Ok coords nodes' idx' := by
  induction t with
  | leaf k lo hi => simpa only [BT.Ok, hn k (by simp [keys])] using h
  | node k lo hi l r ihl ihr =>
    obtain ⟨⟨nd, n1, n2, n3, n4, n5, n6⟩, h0, hk, h1, h2, h3, h4, h5, hl, hr⟩ := h
    simp only [keys, List.mem_cons, List.mem_append] at hn
    simp only [BT.lo, BT.hi] at hi
    refine ⟨⟨nd, by rw [hn k (Or.inl rfl)]; exact n1, n2, n3, n4, ?_, ?_⟩, h0, hk, h1, h2, h3, h4, h5,
      ihl hl (fun k hk => hn k (Or.inr (Or.inl hk))) (fun i a b => hi i (by omega) (by omega)),
      ihr hr (fun k hk => hn k (Or.inr (Or.inr hk))) (fun i a b => hi i (by omega) (by omega))⟩
    · rw [seg_congr (fun i a b => hi i (by omega) (by omega))]; exact n5
    · rw [seg_congr (fun i a b => hi i (by omega) (by omega))]; exact n6

theorem replace_shape {coords : List (Box F)} {nodes : List (Node F)} {idx : List Nat} {m a b : Nat} {s t : BT}
    (h : t.Ok coords nodes idx) (hm : (m, a, b) ∈ t.leaves) (hs : s.root = m ∧ s.lo = a ∧ s.hi = b)
    (hk : t.keys.Nodup) :
    (t.replace m s).root = t.root ∧ (t.replace m s).lo = t.lo ∧ (t.replace m s).hi = t.hi := by
  cases t with
  | leaf k lo hi =>
    simp only [leaves, List.mem_singleton, Prod.mk.injEq] at hm
    obtain ⟨rfl, rfl, rfl⟩ := hm
    simpa [replace, root, BT.lo, BT.hi] using hs
  | node k lo hi l r => simp [replace, root, BT.lo, BT.hi]

/-- Replacing a leaf of the tree by a tree over the same range, while `idx` is permuted in that range. -/
theorem Ok.replace {coords : List (Box F)} {nodes nodes' : List (Node F)} {idx idx' : List Nat} {m a b : Nat}
    {s t : BT} (h : t.Ok coords nodes idx) (hm : (m, a, b) ∈ t.leaves) (hk : t.keys.Nodup)
    (hs : s.root = m ∧ s.lo = a ∧ s.hi = b) (hok : s.Ok coords nodes' idx')
    (hn : ∀ k ∈ t.keys, k ≠ m → nodes'[k]? = nodes[k]?) (hp : PermOn idx idx' a b) (hlen : b ≤ idx.length) :
    (t.replace m s).Ok coords nodes' idx' := by
  have hab : a ≤ b := (h.leaf_range hm).2.1
  induction t with
  | leaf k lo hi =>
    simp only [leaves, List.mem_singleton, Prod.mk.injEq] at hm
    obtain ⟨rfl, rfl, rfl⟩ := hm
    simpa [BT.replace] using hok
  | node k lo hi l r ihl ihr =>
    obtain ⟨⟨nd, n1, n2, n3, n4, n5, n6⟩, h0, hkl, h1, h2, h3, h4, h5, hl, hr⟩ := h
    simp only [keys, List.nodup_cons, List.nodup_append, List.mem_append, not_or] at hk
    obtain ⟨⟨hkl1, hkr1⟩, hkl2, hkr2, hdis⟩ := hk
    simp only [keys, List.mem_cons, List.mem_append] at hn
    simp only [leaves, List.mem_append] at hm
    have hdis' : ∀ x, x ∈ l.keys → x ∈ r.keys → False := fun x hx hy => hdis x hx x hy rfl
    rcases hm with hm | hm
    · have hml := leaves_sub_keys hm
      have hkm : k ≠ m := fun e => hkl1 (e ▸ hml)
      have hmr : m ∉ r.keys := fun e => hdis' m hml e
      have hrange := hl.leaf_range hm
      obtain ⟨s1, s2, s3⟩ := replace_shape hl hm hs hkl2
      have hr' : r.Ok coords nodes' idx' := hr.frame
        (fun x hx => hn x (Or.inr (Or.inr hx)) (fun e => hmr (e ▸ hx)))
        (fun i i1 i2 => hp.getElem?_ge hab hlen (by omega))
      simp only [BT.replace, replace_of_not_mem hmr]
      refine ⟨⟨nd, by rw [hn k (Or.inl rfl) hkm]; exact n1, by rw [s1]; exact n2, n3, n4, ?_, ?_⟩, by rw [s1]; exact h0,
        by rw [s1]; exact hkl, by rw [s2]; exact h1, by rw [s3]; exact h2, h3, by rw [s2, s3]; exact h4, h5,
        ihl hl hm hkl2 (fun x hx => hn x (Or.inr (Or.inl hx))), hr'⟩
      · rw [s2, s3]
        intro i hi
        exact n5 i ((hp.seg_superset hab hlen hrange.1 hrange.2.2).mem_iff.1 hi)
      · rw [hp.seg_disjoint hab hlen (Or.inr (by omega))]; exact n6
    · have hmr := leaves_sub_keys hm
      have hkm : k ≠ m := fun e => hkr1 (e ▸ hmr)
      have hml : m ∉ l.keys := fun e => hdis' m e hmr
      have hrange := hr.leaf_range hm
      obtain ⟨s1, s2, s3⟩ := replace_shape hr hm hs hkr2
      have hl' : l.Ok coords nodes' idx' := hl.frame
        (fun x hx => hn x (Or.inr (Or.inl hx)) (fun e => hml (e ▸ hx)))
        (fun i i1 i2 => hp.getElem?_lt hab hlen (by omega))
      simp only [BT.replace, replace_of_not_mem hml]
      refine ⟨⟨nd, by rw [hn k (Or.inl rfl) hkm]; exact n1, n2, n3, n4, ?_, ?_⟩, by rw [s1]; exact h0,
        hkl, h1, by rw [s2]; exact h2, by rw [s3]; exact h3, h4, by rw [s2, s3]; exact h5,
        hl', ihr hr hm hkr2 (fun x hx => hn x (Or.inr (Or.inr hx)))⟩
      · rw [hp.seg_disjoint hab hlen (Or.inl (by omega))]; exact n5
      · rw [s2, s3]
        intro i hi
        exact n6 i ((hp.seg_superset hab hlen hrange.1 hrange.2.2).mem_iff.1 hi)

theorem keys_replace {m a b : Nat} {s t : BT} {ks : List Nat} (hm : (m, a, b) ∈ t.leaves) (hk : t.keys.Nodup)
    (hs : s.keys = m :: ks) : (t.replace m s).keys.Perm (ks ++ t.keys) := by
  induction t with
  | leaf k lo hi =>
    simp only [leaves, List.mem_singleton, Prod.mk.injEq] at hm
    obtain ⟨rfl, rfl, rfl⟩ := hm
    simp only [BT.replace, if_true, hs, keys]
    exact (List.perm_append_singleton _ _).symm
  | node k lo hi l r ihl ihr =>
    simp only [keys, List.nodup_cons, List.nodup_append, List.mem_append, not_or] at hk
    obtain ⟨_, hkl2, hkr2, hdis⟩ := hk
    have hdis' : ∀ x, x ∈ l.keys → x ∈ r.keys → False := fun x hx hy => hdis x hx x hy rfl
    simp only [leaves, List.mem_append] at hm
    rcases hm with hm | hm
    · have hmr : m ∉ r.keys := fun e => hdis' m (leaves_sub_keys hm) e
      simp only [BT.replace, replace_of_not_mem hmr, keys]
      have := ((ihl hm hkl2).append_right r.keys).cons k
      refine this.trans ?_
      rw [List.append_assoc]
      exact List.perm_middle.symm
    · have hml : m ∉ l.keys := fun e => hdis' m e (leaves_sub_keys hm)
      simp only [BT.replace, replace_of_not_mem hml, keys]
      have := ((ihr hm hkr2).append_left l.keys).cons k
      refine this.trans ?_
      refine List.Perm.trans ?_ List.perm_middle.symm
      apply List.Perm.cons
      rw [← List.append_assoc, ← List.append_assoc]
      exact (List.perm_append_comm).append_right _

theorem mem_leaves_replace {m : Nat} {s t : BT} {x : Nat × Nat × Nat} (h : x ∈ (t.replace m s).leaves) :
    (x ∈ t.leaves ∧ x.1 ≠ m) ∨ x ∈ s.leaves := by
  induction t with
  | leaf k lo hi =>
    simp only [BT.replace] at h
    by_cases hk : k = m
    · rw [if_pos hk] at h; exact Or.inr h
    · rw [if_neg hk] at h
      refine Or.inl ⟨h, ?_⟩
      simp only [leaves, List.mem_singleton] at h
      rw [h]; exact hk
  | node k lo hi l r ihl ihr =>
    simp only [BT.replace, leaves, List.mem_append] at *
    rcases h with h | h
    · rcases ihl h with ⟨h1, h2⟩ | h1
      · exact Or.inl ⟨Or.inl h1, h2⟩
      · exact Or.inr h1
    · rcases ihr h with ⟨h1, h2⟩ | h1
      · exact Or.inl ⟨Or.inr h1, h2⟩
      · exact Or.inr h1

theorem mem_leaves_replace_of_ne {m : Nat} {s t : BT} {x : Nat × Nat × Nat} (h : x ∈ t.leaves) (hx : x.1 ≠ m) :
    x ∈ (t.replace m s).leaves := by
  induction t with
  | leaf k lo hi =>
    simp only [leaves, List.mem_singleton] at h
    subst h
    simp only [BT.replace]
    rw [if_neg hx]
    simp [leaves]
  | node k lo hi l r ihl ihr =>
    simp only [BT.replace, leaves, List.mem_append] at *
    exact h.imp ihl ihr

theorem mem_leaves_replace_new {m a b : Nat} {s t : BT} {x : Nat × Nat × Nat} (hm : (m, a, b) ∈ t.leaves)
    (h : x ∈ s.leaves) : x ∈ (t.replace m s).leaves := by
  induction t with
  | leaf k lo hi =>
    simp only [leaves, List.mem_singleton, Prod.mk.injEq] at hm
    obtain ⟨rfl, rfl, rfl⟩ := hm
    simpa [BT.replace] using h
  | node k lo hi l r ihl ihr =>
    simp only [BT.replace, leaves, List.mem_append] at *
    exact hm.imp ihl ihr

end BT

end Celltree
