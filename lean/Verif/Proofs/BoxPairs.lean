import Verif.Proofs.Init

/-!
# The pairs returned by the box search
-/

set_option linter.unusedSectionVars false

namespace Celltree

variable {F : Type} [Add F] [Sub F] [Mul F] [Div F] [Neg F] [Zero F] [One F] [IntCast F]
  [LT F] [LE F] [BEq F] [DecidableLT F] [DecidableLE F] [NumOrd F]

theorem Makes.constructed {env : Env F} {vertices : List (Pt F)} {faces : IntArr} {fill nBuckets cellsPerLeaf : Int}
    {t : CellTree F} (h : Makes env vertices faces fill nBuckets cellsPerLeaf t) (hm : GoodMesh env vertices faces fill) :
    ∃ bt, Constructed env vertices faces fill nBuckets.toNat cellsPerLeaf.toNat t bt := by
  obtain ⟨sched, hs, ht⟩ := h
  have := CellTree.init_spec env nBuckets cellsPerLeaf hm.valid hm.num hm.max hm.min hs
  rw [ht] at this
  exact this.2.2.2.2

section
variable {env : Env F} {vertices : List (Pt F)} {faces : IntArr} {fill nBuckets cellsPerLeaf : Int} {t : CellTree F}

theorem zip_fst_snd {α β : Type} (l : List (α × β)) : (l.map Prod.fst).zip (l.map Prod.snd) = l := by
  induction l with
  | nil => rfl
  | cons a l ih => simp only [List.map_cons, List.zip_cons_cons, ih]

theorem flatMap_zipIdx_fst {α β : Type} (l : List α) (f : α → List β) (k : Nat) :
    (l.zipIdx k).flatMap (fun p => f p.1) = l.flatMap f := by
  induction l generalizing k with
  | nil => rfl
  | cons b l ih => simp only [List.zipIdx_cons, List.flatMap_cons, ih]

theorem mem_boxPairs {tree : Tree F} {bt : BT} {boxes : List (Box F)} {i j : Nat} :
    (i, j) ∈ boxPairs tree bt boxes ↔ ∃ q, boxes[i]? = some q ∧ j ∈ boxHits tree bt q := by
  unfold boxPairs
  simp only [List.mem_flatMap, List.mem_map, Prod.exists, Prod.mk.injEq]
  constructor
  · rintro ⟨q, k, hk, j', hj, rfl, rfl⟩
    rw [List.mem_zipIdx_iff_getElem?] at hk
    exact ⟨q, hk, hj⟩
  · rintro ⟨q, hq, hj⟩
    exact ⟨q, i, by rw [List.mem_zipIdx_iff_getElem?]; exact hq, j, hj, rfl, rfl⟩

theorem boxPairs_nodup {tree : Tree F} {bt : BT} (h : TreeOk tree bt) (boxes : List (Box F)) :
    (boxPairs tree bt boxes).Nodup ∧ (boxPairs tree bt boxes).Pairwise fun a b => a.1 ≤ b.1 := by
  unfold boxPairs
  have key : ∀ (l : List (Box F)) (k : Nat),
      ((l.zipIdx k).flatMap fun p => (boxHits tree bt p.1).map fun j => (p.2, j)).Nodup ∧
      ((l.zipIdx k).flatMap fun p => (boxHits tree bt p.1).map fun j => (p.2, j)).Pairwise (fun a b => a.1 ≤ b.1) ∧
      ∀ x ∈ ((l.zipIdx k).flatMap fun p => (boxHits tree bt p.1).map fun j => (p.2, j)), k ≤ x.1 := by
    intro l
    induction l with
    | nil => intro k; simp
    | cons b l ih =>
      intro k
      obtain ⟨h1, h2, h3⟩ := ih (k + 1)
      rw [List.zipIdx_cons, List.flatMap_cons]
      refine ⟨?_, ?_, ?_⟩
      · rw [List.nodup_append]
        refine ⟨?_, h1, ?_⟩
        · unfold List.Nodup
          rw [List.pairwise_map]
          refine List.Pairwise.imp ?_ (boxHits_nodup h b)
          intro x y hxy e
          exact hxy (Prod.mk.inj e).2
        · intro x hx y hy hxy
          subst hxy
          obtain ⟨j, _, rfl⟩ := List.mem_map.1 hx
          have := h3 _ hy
          simp only at this
          omega
      · rw [List.pairwise_append]
        refine ⟨?_, h2, ?_⟩
        · rw [List.pairwise_map]
          exact List.Pairwise.imp (fun _ => Nat.le_refl _) (boxHits_nodup h b)
        · intro x hx y hy
          obtain ⟨j, _, rfl⟩ := List.mem_map.1 hx
          have := h3 _ hy
          simp only
          omega
      · intro x hx
        rcases List.mem_append.1 hx with hx | hx
        · obtain ⟨j, _, rfl⟩ := List.mem_map.1 hx; exact Nat.le_refl _
        · have := h3 x hx; omega
  exact ⟨(key boxes 0).1, (key boxes 0).2.1⟩

theorem boxHits_perm {t t' : CellTree F} {bt bt' : BT} {nB nB' cpl cpl' : Nat} {fill' : Int} {env' : Env F}
    (hc : Constructed env vertices faces fill nB cpl t bt) (hc' : Constructed env' vertices faces fill' nB' cpl' t' bt')
    (hf : ∀ r ∈ faces.rows, facePts vertices fill r = facePts vertices fill' r) (q : Box F) :
    (boxHits t.data bt q).Perm (boxHits t'.data bt' q) := by
  rw [List.perm_ext_iff_of_nodup (boxHits_nodup hc.tree q) (boxHits_nodup hc'.tree q)]
  intro j
  rw [mem_boxHits hc.tree, mem_boxHits hc'.tree]
  have hl := hc.boxes.length
  have hl' := hc'.boxes.length
  by_cases hj : j < faces.rows.length
  · have hr : faces.rows[j]? = some faces.rows[j] := by simp [hj]
    obtain ⟨b, h1, h2⟩ := hc.boxes.box j _ hr
    obtain ⟨b', h1', h2'⟩ := hc'.boxes.box j _ hr
    rw [← hf _ (List.getElem_mem hj)] at h2'
    rw [h1, h1']
    constructor
    · rintro ⟨c, e, h⟩; cases e; exact ⟨b', rfl, (h2'.overlap_iff q).2 ((h2.overlap_iff q).1 h)⟩
    · rintro ⟨c, e, h⟩; cases e; exact ⟨b, rfl, (h2.overlap_iff q).2 ((h2'.overlap_iff q).1 h)⟩
  · rw [List.getElem?_eq_none (by omega), List.getElem?_eq_none (by omega)]

theorem boxPairs_perm {tree tree' : Tree F} {bt bt' : BT}
    (h : ∀ q, (boxHits tree bt q).Perm (boxHits tree' bt' q)) (boxes : List (Box F)) :
    (boxPairs tree bt boxes).map Prod.fst = (boxPairs tree' bt' boxes).map Prod.fst ∧
      (boxPairs tree bt boxes).Perm (boxPairs tree' bt' boxes) := by
  unfold boxPairs
  generalize boxes.zipIdx = l
  induction l with
  | nil => simp
  | cons p l ih =>
    simp only [List.flatMap_cons, List.map_append, List.map_map]
    refine ⟨?_, ((h p.1).map _).append ih.2⟩
    rw [ih.1]
    congr 1
    have e1 : ∀ l : List Nat, l.map (Prod.fst ∘ fun j => (p.2, j)) = List.replicate l.length p.2 := by
      intro l; induction l with
      | nil => rfl
      | cons a l ih => rw [List.map_cons, ih, List.length_cons, List.replicate_succ]; rfl
    rw [e1, e1, (h p.1).length_eq]

end

end Celltree
