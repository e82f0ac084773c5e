import Verif.Proofs.Build

/-!
# One round of the loop of `build`, and the whole loop
-/

set_option linter.unusedSectionVars false

namespace Celltree

variable {F : Type} [Add F] [Sub F] [Mul F] [Div F] [Zero F] [One F] [Neg F] [IntCast F]
  [LT F] [LE F] [BEq F] [DecidableLT F] [DecidableLE F] [NumOrd F]
open NumOrd

/-- Assumptions on the numbers: the boxes and the constants are not NaN. -/
structure NumInput (env : Env F) (coords : List (Box F)) : Prop where
  coords : ∀ b ∈ coords, ∀ dim, num (b.lo dim) ∧ num (b.hi dim)
  max : num env.floatMax
  min : num env.floatMin

theorem pushNode_ok {cap : Nat} {nodes : List (Node F)} {nd : Node F} (h : nodes.length < cap) :
    pushNode cap nodes nd = .ok (nodes ++ [nd]) := if_pos h

/-- The sizes after dropping and merging are the nonzero sizes. -/
theorem filter_sizes_mem {bs cs : List (Bucket F)}
    (h : cs.map (·.size) = (bs.map (·.size)).filter (· ≠ 0)) {c : Bucket F} (hc : c ∈ cs) :
    ∃ b ∈ bs, b.size = c.size := by
  have h1 : c.size ∈ cs.map (·.size) := List.mem_map_of_mem hc
  rw [h] at h1
  obtain ⟨b, hb, e⟩ := List.mem_map.1 (List.mem_filter.1 h1).1
  exact ⟨b, hb, e⟩

theorem buildStep_spec {P : BuildParams F} {n : Nat} {t : BT} {s : BuildState F} (hnum : NumInput P.env P.coords)
    (hlen : P.coords.length = n) (hcap : P.cap = pessimisticNNodes n) (h : Inv P n t s) (hne : s.stack.toList ≠ []) :
    Sat (BuildErr P)
      (fun s' => (∃ t', Inv P n t' s') ∧ weight s'.nodes s'.stack.toList < weight s.nodes s.stack.toList)
      (buildStep P s) := by
  obtain ⟨⟨k, f⟩, rest, hst⟩ := List.exists_cons_of_ne_nil hne
  obtain ⟨stk1, hpop, hwf1, hrest⟩ := Stk.pop_spec h.wf hst
  obtain ⟨a, b, hpd⟩ := h.pend k f (by rw [hst]; simp)
  have hleaf := hpd.leaf
  obtain ⟨root, hroot, hrd⟩ := hpd.dim
  obtain ⟨hab, nd, q1, q2, q3, q4⟩ := h.ok.leaf_node hleaf
  rw [hroot] at q1
  cases q1
  have hk : k < s.nodes.length := by
    rw [List.getElem?_eq_some_iff] at hroot; exact hroot.1
  have hbn : b ≤ n := by have := (h.ok.leaf_range hleaf).2.2; rw [h.hi] at this; exact this
  have hlenI := h.idx_length
  have hb : b ≤ s.idx.length := by omega
  unfold buildStep
  rw [hpop]
  simp only [ok_bind]
  rw [show (((if f < 0 then f + 2 else f) : Int) != 0) = root.dim by rw [hrd]; rfl]
  rw [rd_of_some hroot, ok_bind]
  have hsz : root.size = b - a := by omega
  have hcells : (seg s.idx a b).length = root.size := by rw [seg_length hb, hsz]
  have hcellsin : ∀ i ∈ seg s.idx a b, i < P.coords.length := fun i hi => by rw [hlen]; exact h.mem_seg_lt hi
  by_cases hsmall : root.size ≤ P.cellsPerLeaf
  · rw [if_pos hsmall]
    refine h.keepStep (root' := root) (push := none) hst hleaf hroot (PermOn.refl _ hab) ?_ ⟨rfl, rfl, rfl⟩ hwf1
      hrest (by simp) ?_
    · simp only
      rw [List.getElem?_eq_some_iff] at hroot
      obtain ⟨_, hh⟩ := hroot
      rw [← hh]; simp
    · intro _; left; simpa [hcells] using hsmall
  · rw [if_neg hsmall]
    have hnc := fun (c : Box F) (hc : c ∈ P.coords) => hnum.coords c hc root.dim
    rw [q3, getBounds_spec P.env P.coords s.idx root.dim root.size a (by omega)
      (by rw [show a + root.size = b by omega]; exact hcellsin), ok_bind]
    rw [show a + root.size = b by omega]
    have hrange : boundsFold P.coords root.dim (seg s.idx a b) P.env.floatMax P.env.floatMin =
      rangeOf P root.dim (seg s.idx a b) := rfl
    rw [hrange]
    obtain ⟨v1, v2, v3, v4, v5, v6⟩ := boundsFold_valid P.coords root.dim (seg s.idx a b) P.env.floatMax
      P.env.floatMin hnum.max hnum.min hnc
    rw [hrange] at v5 v6
    by_cases hnb : (((P.nBuckets : Int) : F) == 0) = true
    · simp only [fdiv, hnb, if_true, error_bind, Sat_error]
      exact .bucketsZero hnb
    have hfd : fdiv ((rangeOf P root.dim (seg s.idx a b)).2 - (rangeOf P root.dim (seg s.idx a b)).1)
        ((P.nBuckets : Int) : F) = .ok (bucketLen P root.dim (seg s.idx a b)) := by
      simp [fdiv, hnb, bucketLen]
    rw [hfd, ok_bind]
    obtain ⟨bs0, hbs0⟩ : ∃ bs0, bs0 = initBuckets P.nBuckets (bucketLen P root.dim (seg s.idx a b))
      (rangeOf P root.dim (seg s.idx a b)).1 := ⟨_, rfl⟩
    rw [← hbs0]
    have hbs0z : ∀ c ∈ bs0, c.size = 0 := by
      rw [hbs0]; simp only [initBuckets, List.mem_map]
      rintro c ⟨i, _, rfl⟩; rfl
    by_cases hnbz : P.nBuckets = 0
    · have : bs0 = [] := by rw [hbs0, hnbz]; rfl
      rw [this]
      exact .noBuckets hnbz
    have hsort : sortBboxIndices s.idx P.coords bs0 root root.dim =
        sortLoop P.coords root.dim b a bs0 s.idx a := by
      have : bs0 ≠ [] := by
        rw [hbs0]; simp [initBuckets, hnbz]
      obtain ⟨c, cs, hcs⟩ := List.exists_cons_of_ne_nil this
      rw [hcs]
      simp only [sortBboxIndices]
      rw [q3, show a + root.size = b by omega]
    rw [hsort]
    have hsl := sortLoop_spec P.coords root.dim b a bs0 s.idx a rfl hab hb hcellsin hbs0z
    refine Sat.bind (Sat.mono hsl ?_ (fun _ hx => hx)) ?_
    · rintro e ⟨rfl, i, hi1, hi2⟩
      refine .noBucket root.dim _ i hcellsin hi1 ?_
      intro m hm hin
      obtain ⟨box, b1, b2, b3⟩ := hin
      have := hi2 ⟨((m + 1 : Nat) : Int) * (bucketLen P root.dim (seg s.idx a b)) +
          (rangeOf P root.dim (seg s.idx a b)).1, ((m : Nat) : Int) * (bucketLen P root.dim (seg s.idx a b)) +
          (rangeOf P root.dim (seg s.idx a b)).1, -1, -1, -1, 0⟩
        (by rw [hbs0, initBuckets, List.mem_map]; exact ⟨m, by simpa using hm, rfl⟩)
      unfold cellTest at this
      rw [b1] at this
      simp only [centroidTest, Bool.and_eq_false_iff, decide_eq_false_iff_not] at this
      rcases this with h1 | h1
      · exact h1 b2
      · exact h1 b3
    · rintro ⟨bs1, idx1⟩ ⟨hp, hch, hmm⟩
      simp only at hp hch hmm ⊢
      have hlen1 := hp.length_eq hab
      have hperm1 : idx1.Perm (List.range n) := (hp.perm hab).trans h.perm
      have hin1 : ∀ j ∈ idx1, j < P.coords.length := by
        intro j hj; rw [hlen]; exact List.mem_range.1 (hperm1.mem_iff.1 hj)
      obtain ⟨bs2, hbb, hch2, hmm2⟩ := boundBuckets_spec P.env P.coords idx1 root.dim bs1 a b hch (by omega) hin1
      rw [hbb, ok_bind]
      have hsegp := hp.seg_eq hab hb
      -- capacity
      have hleavesN : t.leaves.length ≤ n := by
        have hlt : t.lo < t.hi := by
          have := h.ok.leaf_range hleaf
          have : 0 < root.size := by omega
          omega
        have := h.ok.length_leaves hlt
        rw [h.lo, h.hi] at this; omega
      have hnodesLen : s.nodes.length + 1 = 2 * t.leaves.length := by
        rw [← BT.length_keys, h.keys.length_eq, List.length_range]
      have hleavesN' : 2 ≤ b - a → t.leaves.length + 1 ≤ n := by
        intro h2
        have key : ∀ t : BT, t.Ok P.coords s.nodes s.idx → t.lo < t.hi → (k, a, b) ∈ t.leaves →
            t.leaves.length + 1 ≤ t.hi - t.lo := by
          intro t
          induction t with
          | leaf k' lo hi =>
            intro hok hlt hm
            simp only [BT.leaves, List.mem_singleton, Prod.mk.injEq] at hm
            obtain ⟨rfl, rfl, rfl⟩ := hm
            simp only [BT.leaves, List.length_singleton, BT.lo, BT.hi]; omega
          | node k' lo hi l r ihl ihr =>
            intro hok hlt hm
            obtain ⟨_, _, _, h1, h2, h3, h4, h5, hl, hr⟩ := hok
            simp only [BT.leaves, List.mem_append] at hm
            show (l.leaves ++ r.leaves).length + 1 ≤ hi - lo
            rw [List.length_append]
            have l1 := hl.length_leaves h4
            have r1 := hr.length_leaves h5
            rcases hm with hm | hm
            · have := ihl hl h4 hm; omega
            · have := ihr hr h5 hm; omega
        have hlt : t.lo < t.hi := by have := h.ok.leaf_range hleaf; omega
        have := key t h.ok hlt hleaf
        rw [h.lo, h.hi] at this; omega
      have hcapge : 2 ≤ b - a → s.nodes.length + 2 ≤ P.cap := by
        intro h2
        have := hleavesN' h2
        have := pessimisticNNodes_ge n
        omega
      by_cases hcase2 : P.cellsPerLeaf = 1 ∧ root.size = 2
      · rw [if_pos hcase2]
        have hc := hcapge (by omega)
        rw [wr_of_lt hk, ok_bind, pushNode_ok (by simp; omega), ok_bind, pushNode_ok (by simp; omega), ok_bind]
        refine h.splitStep (mid := a + 1) (pushed := false) (Lmax := (rangeOf P root.dim (seg s.idx a b)).2)
          (Rmin := (rangeOf P root.dim (seg s.idx a b)).1) hst hleaf hroot q3 q4 (by omega) (by omega) hp ?_ ?_ ?_
          hwf1 hrest ?_ ?_ ?_ (by omega)
        · intro i hi
          apply v6 i
          apply hsegp.mem_iff.1
          obtain ⟨m, m1, m2, m3⟩ := mem_seg.1 hi
          exact mem_seg.2 ⟨m, m1, by omega, m3⟩
        · intro i hi
          apply v5 i
          apply hsegp.mem_iff.1
          obtain ⟨m, m1, m2, m3⟩ := mem_seg.1 hi
          exact mem_seg.2 ⟨m, by omega, m2, m3⟩
        · simp only [show a + 1 - a = 1 by omega, show b - (a + 1) = 1 by omega, q3]
        · intro _; omega
        · intro v hv ha
          exact (boundsFold_tight P.coords root.dim (seg s.idx a b) P.env.floatMax P.env.floatMin).1 v hv
            fun i hi => ha i (hsegp.mem_iff.2 hi)
        · intro v hv ha
          exact (boundsFold_tight P.coords root.dim (seg s.idx a b) P.env.floatMax P.env.floatMin).2 v hv
            fun i hi => ha i (hsegp.mem_iff.2 hi)
      · rw [if_neg hcase2]
        obtain ⟨c0, cs, hdrop, hc0, hch3, hsz3⟩ := dropEmptyFront_spec (Q := BoundsQ P.env P.coords root.dim)
          (fun b cells m hq => hq) idx1 bs2 a b hch2 (by omega)
        rw [hdrop, ok_bind]
        simp only
        obtain ⟨hch4, hne4, hsz4⟩ := mergeEmpty_spec (Q := BoundsQ P.env P.coords root.dim)
          (fun b cells m hq => hq) idx1 c0 cs a b hch3 hc0
        rw [hsz3] at hsz4
        obtain ⟨bs, hbs⟩ : ∃ bs, bs = mergeEmpty c0 cs := ⟨_, rfl⟩
        rw [← hbs] at hch4 hne4 hsz4 ⊢
        by_cases hany : (bs.any fun b => decide (b.size = root.size)) = true
        · -- all cells in one bucket
          have hunsplit : Unsplit P root.dim (seg idx1 a b) := by
            rw [List.any_eq_true] at hany
            obtain ⟨c, hc1, hc2⟩ := hany
            simp only [decide_eq_true_eq] at hc2
            obtain ⟨c', hc'1, hc'2⟩ := filter_sizes_mem hsz4 hc1
            have h5 : (c'.Max, c'.Min, c'.index, c'.size) ∈ bs2.map fun b => (b.Max, b.Min, b.index, b.size) :=
              List.mem_map_of_mem hc'1
            rw [hmm2, List.mem_map] at h5
            obtain ⟨d, hd1, hd2⟩ := h5
            simp only [Prod.mk.injEq] at hd2
            have hfull := hch.full hd1 (by omega)
            have h6 : (d.Max, d.Min) ∈ bs1.map fun b => (b.Max, b.Min) := List.mem_map_of_mem hd1
            rw [hmm, hbs0] at h6
            refine ⟨seg s.idx a b, hsegp.symm, ?_⟩
            have hpos : 0 < (seg idx1 a b).length := by rw [seg_length (by omega)]; omega
            obtain ⟨j0, hj0⟩ := List.exists_mem_of_length_pos hpos
            obtain ⟨i, hi1, hi2, hi3, hi4⟩ := initBuckets_inBucket h6 (hfull j0 hj0)
            exact ⟨i, hi1, fun j hj => inBucket_of_bounds hi3 hi4 (hfull j hj)⟩
          rw [if_pos hany]
          by_cases hflag : f ≥ 0
          · rw [if_pos hflag, wr_of_lt hk, ok_bind]
            obtain ⟨stk2, hpush, hwf2, hst2⟩ := Stk.push_spec hwf1 (k, (if root.dim then (0 : Int) else 1) - 2)
            rw [hpush, ok_bind]
            refine h.keepStep (root' := { root with dim := !root.dim })
              (push := some ((if root.dim then (0 : Int) else 1) - 2)) hst hleaf hroot hp (by simp only [q3]) ⟨rfl, rfl, rfl⟩ hwf2
              (by rw [hst2, hrest]; rfl) ?_ (by simp)
            intro g hg
            cases hg
            have e : flagDim ((if root.dim then (0 : Int) else 1) - 2) = !root.dim := by
              cases root.dim <;> rfl
            refine ⟨hflag, ?_, ?_, by omega, ?_⟩
            · cases root.dim <;> simp
            · simp only; rw [e]
            · rw [e, Bool.not_not]; exact hunsplit
          · rw [if_neg hflag, wr_of_lt hk, ok_bind]
            refine h.keepStep (root' := { root with Lmax := -1, Rmin := -1 }) (push := none) hst hleaf hroot hp (by simp only [q3])
              ⟨rfl, rfl, rfl⟩ hwf1 hrest (by simp) ?_
            intro _
            right
            have hu2 := (hpd.unsplit (by omega)).perm hsegp
            rw [← hrd] at hu2
            cases hd : root.dim
            · rw [hd] at hunsplit hu2; exact ⟨hunsplit, hu2⟩
            · rw [hd] at hunsplit hu2; exact ⟨hu2, hunsplit⟩
        · rw [if_neg hany]
          unfold splitNode splitPlane
          -- at least two buckets
          cases hbsc : bs with
          | nil => rw [hbsc] at hch4; have : a = b := hch4; omega
          | cons c1 cs1 =>
            have hcs1 : cs1 ≠ [] := by
              rintro rfl
              apply hany
              rw [hbsc] at hch4 ⊢
              have := hch4.2.2.2
              simp only [Chain] at this
              simp; omega
            obtain ⟨c2, cs2, rfl⟩ := List.exists_cons_of_ne_nil hcs1
            rw [← hbsc]
            simp only
            have hpl := splitPlaneLoop_spec root.size (rangeOf P root.dim (seg s.idx a b)).2
              (rangeOf P root.dim (seg s.idx a b)).1 (bucketLen P root.dim (seg s.idx a b)) 1 c1 (c2 :: cs2) 0
              P.env.floatMax none (by simp) (Nat.le_refl _)
            rw [hbsc]
            simp only
            have hcellsne : seg s.idx a b ≠ [] := by
              intro e; rw [e] at hcells; simp at hcells; omega
            simp only [bind_assoc]
            refine Sat.bind' (Sat.mono hpl ?_ (fun _ hx => hx)) ?_
            · rintro e ⟨rfl, he⟩
              exact .lengthZero root.dim _ hcellsin hcellsne he
            · intro plane hplane hpp
              cases plane with
              | none =>
                have hnn := splitPlaneLoop_none _ _ _ _ _ _ _ _ _ _ _ hplane
                rw [hbsc] at hch4 hne4
                simp only [error_bind, Sat_error]
                obtain ⟨l, l1, l2, l3⟩ := hch4.mem_ne_nil (by omega) hne4 (b := c1) (by simp)
                obtain ⟨r, r1, r2, r3⟩ := hch4.mem_ne_nil (by omega) hne4 (b := c2) (by simp)
                refine .noPlane root.dim (seg s.idx a b) l r c1.size hcellsin ?_ l1 r1
                  (fun i hi => hsegp.mem_iff.1 (l2 i hi)) (fun i hi => hsegp.mem_iff.1 (r2 i hi)) ?_ ?_
                · rw [hcells]; omega
                · rw [hcells]; have := hch4.1; omega
                · rw [BoundsQ] at l3 r3
                  simp only [rangeOf] at hnn ⊢
                  rw [← l3, ← r3, hcells]
                  simpa only [Int.zero_add] using hnn
              | some plane =>
                obtain ⟨p1, p2⟩ := hpp plane rfl
                rw [← hbsc]
                have hlenbs : plane < bs.length := by rw [hbsc]; simp at p2 ⊢; omega
                obtain ⟨br, mid, m1, m2, m3, m4, m5, m6⟩ := hch4.split hne4 p1 hlenbs
                simp only [ok_bind]
                rw [m1]
                simp only [ok_bind, m2]
                have hc := hcapge (by omega)
                rw [wr_of_lt hk, ok_bind, pushNode_ok (by simp; omega), ok_bind, pushNode_ok (by simp; omega), ok_bind]
                obtain ⟨stk2, hpush2, hwf2, hst2⟩ := Stk.push_spec hwf1
                  (s.nodes.length + 1, (if root.dim then (0 : Int) else 1))
                rw [hpush2, ok_bind]
                obtain ⟨stk3, hpush3, hwf3, hst3⟩ := Stk.push_spec hwf2
                  (s.nodes.length, (if root.dim then (0 : Int) else 1))
                rw [hpush3, ok_bind]
                have hnum4 := hch4.num hnum.max hnum.min hnc
                refine h.splitStep (mid := mid) (pushed := true) hst hleaf hroot q3 q4 m3 m4 hp
                  (Lmax := maxLmax P.env.floatMin (bs.take plane))
                  (Rmin := minRmin P.env.floatMax (bs.drop plane)) ?_ ?_ ?_ hwf3 ?_ (by simp) ?_ ?_ (by omega)
                · apply m5.allHiLe hnum.max hnum.min hnc
                  exact (maxLmax_ge (bs.take plane) P.env.floatMin hnum.min
                    (fun c hc => (hnum4 c (List.mem_of_mem_take hc)).2)).2.2
                · apply m6.allLoGe hnum.max hnum.min hnc
                  exact (minRmin_le (bs.drop plane) P.env.floatMax hnum.max
                    (fun c hc => (hnum4 c (List.mem_of_mem_drop hc)).1)).2.2
                · simp only [Int.toNat_natCast, q3]
                  rw [show root.size - (a + root.size - mid) = mid - a by omega,
                    show a + root.size - mid = b - mid by omega]
                · rw [hst3, hst2, hrest]; rfl
                · intro v hv ha
                  exact maxLmax_le _ _ v hv fun c hc => hch4.tight.1 v hv ha c (List.mem_of_mem_take hc)
                · intro v hv ha
                  exact le_minRmin _ _ v hv fun c hc => hch4.tight.2 v hv ha c (List.mem_of_mem_drop hc)

theorem buildLoop_spec {P : BuildParams F} {n : Nat} (hnum : NumInput P.env P.coords)
    (hlen : P.coords.length = n) (hcap : P.cap = pessimisticNNodes n) (fuel : Nat) (t : BT) (s : BuildState F)
    (h : Inv P n t s) (hf : weight s.nodes s.stack.toList ≤ fuel) :
    Sat (BuildErr P) (fun s' => ∃ t', Inv P n t' s' ∧ s'.stack.toList = []) (buildLoop P fuel s) := by
  induction fuel generalizing t s with
  | zero =>
    unfold buildLoop
    have hnil : s.stack.toList = [] := by
      cases hl : s.stack.toList with
      | nil => rfl
      | cons p l =>
        rw [hl] at hf
        simp only [weight, List.map_cons, List.sum_cons] at hf
        have := flagWeight_pos ((s.nodes[p.1]?.map (·.size)).getD 0) p.2
        omega
    rw [if_neg (by rw [Stk.size_pos_iff h.wf]; simp [hnil])]
    exact ⟨t, h, hnil⟩
  | succ fuel ih =>
    unfold buildLoop
    by_cases hnil : s.stack.toList = []
    · rw [if_neg (by rw [Stk.size_pos_iff h.wf]; simp [hnil])]
      exact ⟨t, h, hnil⟩
    · rw [if_pos (by rw [Stk.size_pos_iff h.wf]; exact hnil)]
      refine Sat.bind (buildStep_spec hnum hlen hcap h hnil) ?_
      rintro s' ⟨⟨t', ht'⟩, hw⟩
      exact ih t' s' ht' (by omega)

/-- What is known about a tree that was built. -/
structure Built (env : Env F) (n : Nat) (coords : List (Box F)) (nBuckets cellsPerLeaf : Nat)
    (nodes : List (Node F)) (idx : List Nat) (t : BT) : Prop where
  perm : idx.Perm (List.range n)
  ok : t.Ok coords nodes idx
  root : t.root = 0
  lo : t.lo = 0
  hi : t.hi = n
  keys : t.keys.Perm (List.range nodes.length)
  done : ∀ k a b, (k, a, b) ∈ t.leaves →
    LeafDone ⟨env, coords, nBuckets, cellsPerLeaf, pessimisticNNodes n⟩ (seg idx a b)
  tight : ∀ (k : Nat) nd, nodes[k]? = some nd → nd.child ≠ -1 →
    NodeTight ⟨env, coords, nBuckets, cellsPerLeaf, pessimisticNNodes n⟩ idx nd

/-- The invariant holds at the start of the loop. -/
theorem initial_inv {env : Env F} {n : Nat} {coords : List (Box F)} {nBuckets cellsPerLeaf : Nat} {stk : Stk (Nat × Int)}
    (h2 : stk.Wf) (h3 : stk.toList = [(0, 0)]) :
    Inv ⟨env, coords, nBuckets, cellsPerLeaf, pessimisticNNodes n⟩ n (.leaf 0 0 n)
      ⟨[] ++ [createNode 0 n false], List.range n, stk⟩ := by
  constructor
  · exact h2
  · exact List.Perm.refl _
  · exact ⟨Nat.zero_le _, _, rfl, rfl, rfl, by simp [createNode]⟩
  · rfl
  · rfl
  · rfl
  · simp [BT.keys, List.range_succ]
  · simp [h3]
  · intro k f hkf
    simp only [h3, List.mem_singleton, Prod.mk.injEq] at hkf
    obtain ⟨rfl, rfl⟩ := hkf
    exact ⟨0, n, by simp [BT.leaves], by simp, ⟨_, rfl, rfl⟩, by simp⟩
  · intro k a b hk hno
    simp only [BT.leaves, List.mem_singleton, Prod.mk.injEq] at hk
    exact (hno 0 (by simp [h3, hk.1])).elim
  · intro k nd hk hch
    have : k = 0 := by
      have := (List.getElem?_eq_some_iff.1 hk).1
      simp at this; exact this
    subst this
    simp only [List.nil_append, List.getElem?_cons_zero, Option.some.injEq] at hk
    subst hk
    exact (hch rfl).elim

theorem initTree_spec (env : Env F) (n : Nat) (coords : List (Box F)) (nBuckets cellsPerLeaf : Nat)
    (hnum : NumInput env coords) (hlen : coords.length = n) :
    Sat (BuildErr ⟨env, coords, nBuckets, cellsPerLeaf, pessimisticNNodes n⟩)
      (fun r => ∃ t, Built env n coords nBuckets cellsPerLeaf r.1 r.2 t)
      (initTree env n coords nBuckets cellsPerLeaf) := by
  unfold initTree
  simp only
  rw [pushNode_ok (pessimisticNNodes_pos n), ok_bind]
  obtain ⟨stk, h1, h2, h3⟩ := Stk.single_spec ((0 : Nat), (0 : Int))
  rw [h1, ok_bind]
  have hInv := initial_inv (env := env) (n := n) (coords := coords) (nBuckets := nBuckets) (cellsPerLeaf := cellsPerLeaf) h2 h3
  refine Sat.bind (buildLoop_spec hnum hlen rfl (4 * n + 1) _ _ hInv ?_) ?_
  · simp only [h3, weight, List.nil_append, List.map_cons, List.map_nil, List.sum_cons, List.sum_nil]
    simp [createNode, flagWeight]
    omega
  · rintro s' ⟨t, ht, hnil⟩
    refine ⟨t, ht.perm, ht.ok, ht.root, ht.lo, ht.hi, ht.keys, ?_, ht.tight⟩
    intro k a b hk
    exact ht.done k a b hk (by simp [hnil])

end Celltree
