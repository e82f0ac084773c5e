import Verif.Proofs.Boxes
import Verif.Proofs.Chunks

/-!
# `locate_boxes`: all queries
-/

set_option linter.unusedSectionVars false

namespace Celltree

variable {F : Type} [Add F] [Sub F] [Mul F] [Div F] [Zero F] [One F] [Neg F] [IntCast F]
  [LT F] [LE F] [BEq F] [DecidableLT F] [DecidableLE F]

/-- The pairs of all the boxes, in the order of the result. -/
def boxPairs (tree : Tree F) (t : BT) (boxes : List (Box F)) : List (Nat × Nat) :=
  boxes.zipIdx.flatMap fun p => (boxHits tree t p.1).map fun j => (p.2, j)

theorem locateBoxes_spec {tree : Tree F} {t : BT} (h : TreeOk tree t) (boxes : List (Box F)) {n : Nat} (hn : 0 < n)
    {sched : List Nat} (hs : sched.Perm (List.range n)) :
    locateBoxes boxes tree n sched =
      .ok ((boxPairs tree t boxes).map Prod.fst, (boxPairs tree t boxes).map Prod.snd) := by
  unfold locateBoxes
  obtain ⟨cs, h1, h2, h3, _⟩ := arraySplit_spec boxes hn
  obtain ⟨o, h4, h5, h6⟩ := chunkOffsets_spec cs h2 hn
  rw [h1, ok_bind, h4, ok_bind]
  have hex : ∀ i, ∃ r : List (Nat × Nat) × Nat, i < n →
      (do let c ← rd cs i; let off ← rd o i; locateBoxesHelper c tree off) = .ok r ∧ r.2 ≤ r.1.length ∧
        r.1.take r.2 = ((cs[i]?.getD []).zipIdx 0).flatMap fun p =>
          (boxHits tree t p.1).map fun j => (p.2 + (0 + ((cs.take i).map List.length).sum), j) := by
    intro i
    by_cases hi : i < n
    · have hi' : i < cs.length := by omega
      obtain ⟨arr, tot, a1, a2, a3⟩ := boxHelperLoop_spec h (((cs.take i).map List.length).sum) cs[i] 0
        (List.replicate (max cs[i].length 256) (0, 0)) 0 (by simp; omega) (by omega)
      refine ⟨(arr, tot), fun _ => ⟨?_, a2, ?_⟩⟩
      · rw [rd_of_lt hi', ok_bind, rd_of_some (h6 i hi), ok_bind]
        exact a1
      · rw [a3]; simp [hi']
    · exact ⟨([], 0), fun h => (hi h).elim⟩
  obtain ⟨f, hf⟩ := Classical.axiomOfChoice hex
  have hbody : ∀ i < n, (do let c ← rd cs i; let off ← rd o i; locateBoxesHelper c tree off) = .ok (f i) :=
    fun i hi => (hf i hi).1
  rw [prange_ok hs _ hbody, ok_bind, concatenate_spec, ok_bind]
  · have : ((List.range n).map f).flatMap (fun c => c.1.take c.2) = boxPairs tree t boxes := by
      rw [List.flatMap_map]
      have hcongr : (List.range n).flatMap (fun i => (f i).1.take (f i).2) =
          (List.range cs.length).flatMap (fun i => ((cs[i]?.getD []).zipIdx 0).flatMap fun p =>
            (boxHits tree t p.1).map fun j => (p.2 + (0 + ((cs.take i).map List.length).sum), j)) := by
        rw [h2]
        have : ∀ l : List Nat, (∀ i ∈ l, i < n) → l.flatMap (fun i => (f i).1.take (f i).2) =
            l.flatMap (fun i => ((cs[i]?.getD []).zipIdx 0).flatMap fun p =>
              (boxHits tree t p.1).map fun j => (p.2 + (0 + ((cs.take i).map List.length).sum), j)) := by
          intro l hl
          induction l with
          | nil => rfl
          | cons i l ih =>
            rw [List.flatMap_cons, List.flatMap_cons, ih (fun j hj => hl j (by simp [hj])),
              (hf i (hl i (by simp))).2.2]
        exact this _ (fun i hi => List.mem_range.1 hi)
      rw [hcongr, flatMap_chunks cs (fun b i => (boxHits tree t b).map fun j => (i, j)) 0, h3]
      rfl
    rw [this]
  · intro c hc
    obtain ⟨i, hi, rfl⟩ := List.mem_map.1 hc
    exact (hf i (List.mem_range.1 hi)).2.1

section
variable [NumOrd F]
open NumOrd

/-- The hits of a box are the cells whose box overlaps it, each once. -/
theorem mem_boxHits {tree : Tree F} {t : BT} (h : TreeOk tree t) (box : Box F) (j : Nat) :
    j ∈ boxHits tree t box ↔ ∃ b, tree.bbCoords[j]? = some b ∧ boxesIntersect box b = true := by
  have hsel := boxSel_nodup box
  constructor
  · intro hj
    unfold boxHits at hj
    split at hj
    · obtain ⟨_, h2⟩ := List.mem_filter.1 hj
      unfold boxHit at h2
      cases hc : tree.bbCoords[j]? with
      | none => rw [hc] at h2; simp at h2
      | some b => rw [hc] at h2; exact ⟨b, rfl, h2⟩
    · simp at hj
  · rintro ⟨b, hb, hi⟩
    have hbm := List.mem_of_getElem? hb
    obtain ⟨x1, x2, x3, x4⟩ := h.bbox b hbm
    have hi' := hi
    simp only [boxesIntersect, Bool.and_eq_true, decide_eq_true_eq] at hi
    obtain ⟨⟨⟨i1, i2⟩, i3⟩, i4⟩ := hi
    unfold boxHits
    rw [if_pos]
    · rw [List.mem_filter]
      refine ⟨?_, by simp [boxHit, hb, hi']⟩
      apply order_complete hb
      · intro nd _ hle
        unfold boxSel
        apply List.mem_append_left
        rw [if_pos]
        · simp
        · cases hd : nd.dim
          · rw [hd] at hle; exact le_of_lt (lt_of_lt_of_le i1 hle)
          · rw [hd] at hle; exact le_of_lt (lt_of_lt_of_le i3 hle)
      · intro nd _ hle
        unfold boxSel
        apply List.mem_append_right
        rw [if_pos]
        · simp
        · cases hd : nd.dim
          · rw [hd] at hle; exact le_of_lt (lt_of_le_of_lt hle i2)
          · rw [hd] at hle; exact le_of_lt (lt_of_le_of_lt hle i4)
      · exact h.ok
      · rw [h.lo, h.hi', seg_full, h.mem_iff]
        exact (List.getElem?_eq_some_iff.1 hb).1
    · simp only [boxesIntersect, Bool.and_eq_true, decide_eq_true_eq]
      exact ⟨⟨⟨lt_of_lt_of_le i1 x2, lt_of_le_of_lt x1 i2⟩, lt_of_lt_of_le i3 x4⟩, lt_of_le_of_lt x3 i4⟩

theorem boxHits_nodup {tree : Tree F} {t : BT} (h : TreeOk tree t) (box : Box F) : (boxHits tree t box).Nodup := by
  unfold boxHits
  split
  · exact (order_nodup (boxSel_nodup box) h.ok h.lo h.hi' h.nodup).filter _
  · simp

end

end Celltree
