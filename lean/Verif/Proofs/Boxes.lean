import Verif.Proofs.Traverse
import Verif.Model.Api
import Mathlib.Data.List.Perm.Subperm

/-!
# `locate_boxes`
-/

set_option linter.unusedSectionVars false

namespace Celltree

variable {F : Type} [Add F] [Sub F] [Mul F] [Div F] [Zero F] [One F] [Neg F] [IntCast F]
  [LT F] [LE F] [BEq F] [DecidableLT F] [DecidableLE F]

/-- The data of the tree are consistent; `t` is the tree that the arrays represent. -/
structure TreeOk (tree : Tree F) (t : BT) : Prop where
  perm : tree.bbIndices.Perm (List.range tree.bbCoords.length)
  ok : t.Ok tree.bbCoords tree.nodes tree.bbIndices
  root : t.root = 0
  lo : t.lo = 0
  hi : t.hi = tree.bbCoords.length
  keys : t.keys.Perm (List.range tree.nodes.length)
  elements : tree.elements.length = tree.bbCoords.length
  bbox : ∀ b ∈ tree.bbCoords, tree.bbox.xmin ≤ b.xmin ∧ b.xmax ≤ tree.bbox.xmax ∧ tree.bbox.ymin ≤ b.ymin ∧
    b.ymax ≤ tree.bbox.ymax

section
variable {tree : Tree F} {t : BT}

theorem TreeOk.length (h : TreeOk tree t) : tree.bbIndices.length = tree.bbCoords.length := by
  rw [h.perm.length_eq, List.length_range]

theorem TreeOk.hi' (h : TreeOk tree t) : t.hi = tree.bbIndices.length := by rw [h.length, h.hi]

theorem TreeOk.nodup (h : TreeOk tree t) : tree.bbIndices.Nodup := h.perm.nodup_iff.2 List.nodup_range

theorem TreeOk.mem_iff (h : TreeOk tree t) {j : Nat} : j ∈ tree.bbIndices ↔ j < tree.bbCoords.length := by
  rw [h.perm.mem_iff, List.mem_range]

end

/-! ## One box -/

/-- Whether the box of cell `j` is a hit. -/
def boxHit (tree : Tree F) (box : Box F) (j : Nat) : Bool :=
  match tree.bbCoords[j]? with
  | some b => boxesIntersect box b
  | none => false

/-- Selection of children for a box. -/
def boxSel (box : Box F) (nd : Node F) : List Bool :=
  (if box.lo nd.dim ≤ nd.Lmax then [false] else []) ++ (if box.hi nd.dim ≥ nd.Rmin then [true] else [])

theorem boxSel_nodup (box : Box F) : SelOk (boxSel box) := by
  intro nd
  unfold boxSel
  split <;> split <;> simp

/-- Processing of one cell. -/
def boxStep (tree : Tree F) (box : Box F) (index : Nat) (j : Nat) (st : BoxSt) : M (BoxSt ⊕ BoxSt) := do
  let leafBox ← rd tree.bbCoords j
  if boxesIntersect box leafBox then
    if st.size ≥ st.indices.length then .ok (.inl st)
    else do
      let indices ← wr st.indices st.size (index, j)
      .ok (.inr ⟨indices, st.size + 1, st.count + 1⟩)
  else .ok (.inr st)

theorem seg_cons {α : Type} (l : List α) {i n : Nat} (h : i < l.length) :
    seg l i (i + (n + 1)) = l[i] :: seg l (i + 1) (i + 1 + n) := by
  rw [← seg_append_seg l (show i ≤ i + 1 by omega) (show i + 1 ≤ i + (n + 1) by omega)]
  have : seg l i (i + 1) = [l[i]] := by
    unfold seg
    rw [List.take_add_one, List.getElem?_eq_getElem h, List.drop_append]
    have h0 : (l.take i).drop i = [] := List.drop_eq_nil_of_le (by simp; omega)
    have h1 : i - (l.take i).length = 0 := by simp; omega
    rw [h0, h1]; rfl
  rw [this, show i + (n + 1) = i + 1 + n by omega]; rfl

theorem boxLeafLoop_eq (tree : Tree F) (box : Box F) (index n i : Nat) (st : BoxSt)
    (h : i + n ≤ tree.bbIndices.length) :
    boxLeafLoop tree box index n i st = runCells (boxStep tree box index) (seg tree.bbIndices i (i + n)) st := by
  induction n generalizing i st with
  | zero => simp [boxLeafLoop, seg_empty, runCells]
  | succ n ih =>
    have hi : i < tree.bbIndices.length := by omega
    rw [seg_cons _ hi]
    unfold boxLeafLoop runCells boxStep
    rw [rd_of_lt hi, ok_bind]
    cases hr : rd tree.bbCoords tree.bbIndices[i] with
    | error e => rfl
    | ok leafBox =>
      simp only [ok_bind]
      split
      · split
        · rfl
        · rename_i h1 h2
          rw [wr_of_lt (by omega)]
          simp only [ok_bind]
          exact ih _ _ (by omega)
      · simp only [ok_bind]
        exact ih _ _ (by omega)

theorem boxVisit_visits (tree : Tree F) (box : Box F) (index : Nat) :
    Visits (boxVisit tree box index) tree.nodes tree.bbIndices (boxStep tree box index) (boxSel box) := by
  constructor
  · intro k nd st h1 h2 h3
    unfold boxVisit
    rw [rdI_nat, rd_of_some h1, ok_bind, if_pos h2, boxLeafLoop_eq _ _ _ _ _ _ h3]
    cases runCells (boxStep tree box index) (seg tree.bbIndices nd.ptr (nd.ptr + nd.size)) st with
    | error e => rfl
    | ok r => cases r <;> rfl
  · intro k nd st h1 h2
    unfold boxVisit
    rw [rdI_nat, rd_of_some h1, ok_bind, if_neg h2]
    simp only [pushChildren, boxSel]
    by_cases ha : box.lo nd.dim ≤ nd.Lmax <;> by_cases hb : box.hi nd.dim ≥ nd.Rmin <;> simp [ha, hb]

/-- Result of the loop over cells: the hits are appended, or the buffer is full. -/
theorem run_boxStep (tree : Tree F) (box : Box F) (index : Nat) (cells : List Nat)
    (hin : ∀ j ∈ cells, j < tree.bbCoords.length) (st : BoxSt) (hsz : st.size ≤ st.indices.length) :
    ∃ arr : List (Nat × Nat), arr.length = st.indices.length ∧
      arr.take st.size = st.indices.take st.size ∧
      ((st.size + (cells.filter (boxHit tree box)).length ≤ st.indices.length ∧
        arr.take (st.size + (cells.filter (boxHit tree box)).length) =
          st.indices.take st.size ++ (cells.filter (boxHit tree box)).map (fun j => (index, j)) ∧
        runCells (boxStep tree box index) cells st =
          .ok (.inr ⟨arr, st.size + (cells.filter (boxHit tree box)).length,
            st.count + (cells.filter (boxHit tree box)).length⟩)) ∨
       (st.indices.length < st.size + (cells.filter (boxHit tree box)).length ∧
        ∃ size count, runCells (boxStep tree box index) cells st = .ok (.inl ⟨arr, size, count⟩))) := by
  induction cells generalizing st with
  | nil =>
    refine ⟨st.indices, rfl, rfl, Or.inl ⟨by simpa using hsz, by simp, rfl⟩⟩
  | cons j cells ih =>
    have hj : j < tree.bbCoords.length := hin j (by simp)
    have hin' : ∀ i ∈ cells, i < tree.bbCoords.length := fun i hi => hin i (by simp [hi])
    have hbh : boxHit tree box j = boxesIntersect box tree.bbCoords[j] := by simp [boxHit, hj]
    unfold runCells
    simp only [boxStep]
    rw [rd_of_lt hj, ok_bind, ← hbh]
    by_cases hb : boxHit tree box j = true
    · rw [if_pos hb]
      have hf : (j :: cells).filter (boxHit tree box) = j :: cells.filter (boxHit tree box) := by simp [hb]
      rw [hf]
      by_cases hfull : st.size ≥ st.indices.length
      · rw [if_pos hfull]
        refine ⟨st.indices, rfl, rfl, Or.inr ⟨by simp; omega, _, _, rfl⟩⟩
      · rw [if_neg hfull, wr_of_lt (by omega)]
        simp only [ok_bind]
        obtain ⟨arr, a1, a2, a3⟩ := ih hin' ⟨st.indices.set st.size (index, j), st.size + 1, st.count + 1⟩
          (by simp; omega)
        simp only [List.length_set] at a1 a2 a3
        have htake : (st.indices.set st.size (index, j)).take (st.size + 1) =
            st.indices.take st.size ++ [(index, j)] := by
          rw [List.take_add_one, List.take_set_of_le (Nat.le_refl _)]
          have : st.size < st.indices.length := by omega
          simp [this]
        refine ⟨arr, a1, ?_, ?_⟩
        · have := congrArg (List.take st.size) a2
          rw [List.take_take, List.take_take, Nat.min_eq_left (by omega),
            List.take_set_of_le (Nat.le_refl _)] at this
          exact this
        · rcases a3 with ⟨b1, b2, b3⟩ | ⟨b1, b2⟩
          · left
            simp only [List.length_cons, List.map_cons]
            refine ⟨by omega, ?_, ?_⟩
            · rw [show st.size + ((cells.filter (boxHit tree box)).length + 1) =
                st.size + 1 + (cells.filter (boxHit tree box)).length by omega, b2, htake]
              simp
            · rw [show st.size + ((cells.filter (boxHit tree box)).length + 1) =
                st.size + 1 + (cells.filter (boxHit tree box)).length by omega,
                show st.count + ((cells.filter (boxHit tree box)).length + 1) =
                st.count + 1 + (cells.filter (boxHit tree box)).length by omega]
              exact b3
          · right
            simp only [List.length_cons]
            refine ⟨by omega, ?_⟩
            exact b2
    · have hf : (j :: cells).filter (boxHit tree box) = cells.filter (boxHit tree box) := by simp [hb]
      rw [if_neg hb, hf]
      simp only [ok_bind]
      exact ih hin' st hsz

/-- The hits of a box, in the order in which the tree is traversed. -/
def boxHits (tree : Tree F) (t : BT) (box : Box F) : List Nat :=
  if boxesIntersect box tree.bbox then
    (t.order tree.nodes tree.bbIndices (boxSel box)).filter (boxHit tree box)
  else []

theorem locateBox_spec {tree : Tree F} {t : BT} (h : TreeOk tree t) (box : Box F) (indices : List (Nat × Nat))
    (size index : Nat) (hsz : size ≤ indices.length) :
    ∃ arr : List (Nat × Nat), arr.length = indices.length ∧ arr.take size = indices.take size ∧
      ((size + (boxHits tree t box).length ≤ indices.length ∧
        arr.take (size + (boxHits tree t box).length) =
          indices.take size ++ (boxHits tree t box).map (fun j => (index, j)) ∧
        locateBox box tree indices size index =
          .ok (arr, some (boxHits tree t box).length, size + (boxHits tree t box).length)) ∨
       (indices.length < size + (boxHits tree t box).length ∧
        ∃ size', locateBox box tree indices size index = .ok (arr, none, size'))) := by
  unfold locateBox boxHits
  by_cases hb : boxesIntersect box tree.bbox = true
  · simp only [hb, Bool.not_true, Bool.false_eq_true, if_false, if_true]
    obtain ⟨s, h1, h2, h3⟩ := Stk.single_spec (0 : Int)
    rw [h1, ok_bind]
    have hw := whileStack_order (boxVisit_visits tree box index) (boxSel_nodup box) h.ok h.root h.lo h.hi' h2 h3
      ⟨indices, size, 0⟩
    simp only [Tree.fuel]
    rw [hw]
    obtain ⟨arr, a1, a2, a3⟩ := run_boxStep tree box index (t.order tree.nodes tree.bbIndices (boxSel box))
      (fun j hj => h.mem_iff.1 (order_subset (boxSel_nodup box) h.ok h.lo h.hi' j hj)) ⟨indices, size, 0⟩ hsz
    refine ⟨arr, a1, a2, ?_⟩
    rcases a3 with ⟨b1, b2, b3⟩ | ⟨b1, s1, c1, b3⟩
    · left
      refine ⟨b1, b2, ?_⟩
      rw [b3]
      simp
    · right
      refine ⟨b1, s1, ?_⟩
      rw [b3]
      rfl
  · simp only [hb, Bool.not_false, if_true, Bool.false_eq_true, if_false]
    exact ⟨indices, rfl, rfl, Or.inl ⟨by simpa using hsz, by simp, rfl⟩⟩

theorem boxHits_length {tree : Tree F} {t : BT} (h : TreeOk tree t) (box : Box F) :
    (boxHits tree t box).length ≤ tree.bbIndices.length := by
  unfold boxHits
  split
  · refine Nat.le_trans (List.length_filter_le _ _) ?_
    have hn := order_nodup (boxSel_nodup box) h.ok h.lo h.hi' h.nodup
    have hs := order_subset (boxSel_nodup box) h.ok h.lo h.hi'
    exact (List.subperm_of_subset hn hs).length_le
  · simp

/-! ## Retry -/

theorem boxRetry_spec {tree : Tree F} {t : BT} (h : TreeOk tree t) (box : Box F) (index total fuel : Nat)
    (indices : List (Nat × Nat)) (hcap : 0 < indices.length) (htot : total ≤ indices.length)
    (hfuel : total + (boxHits tree t box).length ≤ indices.length + (fuel - 1)) (hf1 : 1 ≤ fuel) :
    ∃ arr : List (Nat × Nat), indices.length ≤ arr.length ∧ total + (boxHits tree t box).length ≤ arr.length ∧
      arr.take (total + (boxHits tree t box).length) =
        indices.take total ++ (boxHits tree t box).map (fun j => (index, j)) ∧
      boxRetry box tree index total fuel indices total =
        .ok (arr, (boxHits tree t box).length, total + (boxHits tree t box).length) := by
  induction fuel generalizing indices with
  | zero => omega
  | succ fuel ih =>
    unfold boxRetry
    obtain ⟨arr, a1, a2, a3⟩ := locateBox_spec h box indices total index htot
    rcases a3 with ⟨b1, b2, b3⟩ | ⟨b1, s', b3⟩
    · rw [b3]
      exact ⟨arr, by omega, by omega, b2, rfl⟩
    · rw [b3]
      simp only [ok_bind]
      have hlen : (growArr (0, 0) arr).length = 2 * indices.length := by simp [growArr, a1]; omega
      obtain ⟨arr', c0, c1, c2, c3⟩ := ih (growArr (0, 0) arr) (by omega) (by omega) (by omega) (by omega)
      refine ⟨arr', by omega, c1, ?_, c3⟩
      rw [c2, growArr, List.take_append_of_le_length (by omega), a2]

theorem boxHelperLoop_spec {tree : Tree F} {t : BT} (h : TreeOk tree t) (offset : Nat) (boxes : List (Box F))
    (k : Nat) (indices : List (Nat × Nat)) (total : Nat) (hcap : 0 < indices.length) (htot : total ≤ indices.length) :
    ∃ arr total', boxHelperLoop tree offset boxes k indices total total = .ok (arr, total') ∧
      total' ≤ arr.length ∧
      arr.take total' = indices.take total ++
        (boxes.zipIdx k).flatMap (fun p => (boxHits tree t p.1).map fun j => (p.2 + offset, j)) := by
  induction boxes generalizing k indices total with
  | nil => exact ⟨indices, total, rfl, htot, by simp⟩
  | cons box boxes ih =>
    unfold boxHelperLoop
    have hl := boxHits_length h box
    obtain ⟨arr, a0, a1, a2, a3⟩ := boxRetry_spec h box (k + offset) total (tree.bbIndices.length + 1) indices hcap
      htot (by omega) (by omega)
    rw [a3]
    simp only [ok_bind]
    have hpos : 0 < arr.length := by omega
    obtain ⟨arr', total', b1, b2, b3⟩ := ih (k + 1) arr (total + (boxHits tree t box).length) hpos a1
    refine ⟨arr', total', b1, b2, ?_⟩
    rw [b3, a2]
    simp

end Celltree
