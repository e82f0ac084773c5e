import Verif.Proofs.LocateBoxes

/-!
# `locate_edges`

As for boxes, with two result arrays and an intersection test that can raise. `EdgeTotal` says that it does not.
-/

set_option linter.unusedSectionVars false

namespace Celltree

variable {F : Type} [Add F] [Sub F] [Mul F] [Div F] [Zero F] [One F] [Neg F] [IntCast F]
  [LT F] [LE F] [BEq F] [DecidableLT F] [DecidableLE F]

/-- A hit: the cell and the two points. -/
abbrev EHit (F : Type) := Nat × Option (Pt F) × Option (Pt F)

/-- No exception is raised while the query `a b` is processed. -/
structure EdgeTotal (tree : Tree F) (isect : Pt F → Pt F → Nat → M (Isect F)) (a b : Pt F) : Prop where
  box : ∃ r, cohenSutherland a b tree.bbox = .ok r
  sides : ∀ nd ∈ tree.nodes, nd.child ≠ -1 → ∃ s, edgeSides nd a b (toVector a b) = .ok s
  isect : ∀ j < tree.bbCoords.length, ∃ r, isect a b j = .ok r

/-- The hit for cell `j`, if any. -/
def edgeHit (isect : Nat → M (Isect F)) (j : Nat) : Option (EHit F) :=
  match isect j with
  | .ok (true, cd) => some (j, cd)
  | _ => none

/-- Selection of children for an edge. -/
def edgeSel (a b : Pt F) (nd : Node F) : List Bool :=
  match edgeSides nd a b (toVector a b) with
  | .ok (l, r) => (if l then [false] else []) ++ (if r then [true] else [])
  | .error _ => []

theorem edgeSel_nodup (a b : Pt F) : SelOk (edgeSel a b) := by
  intro nd
  unfold edgeSel
  split
  · split <;> split <;> simp
  · simp

/-- Processing of one cell. -/
def edgeStep (isect : Nat → M (Isect F)) (index : Nat) (j : Nat) (st : EdgeSt F) : M (EdgeSt F ⊕ EdgeSt F) := do
  let (intersects, c, d) ← isect j
  if intersects then
    if st.size ≥ st.indices.length then .ok (.inl st)
    else do
      let indices ← wr st.indices st.size (index, j)
      let xy ← wr st.xy st.size (c, d)
      .ok (.inr ⟨indices, xy, st.size + 1, st.count + 1⟩)
  else .ok (.inr st)

theorem edgeLeafLoop_eq (tree : Tree F) (isect : Nat → M (Isect F)) (index n i : Nat) (st : EdgeSt F)
    (h : i + n ≤ tree.bbIndices.length) :
    edgeLeafLoop tree isect index n i st = runCells (edgeStep isect index) (seg tree.bbIndices i (i + n)) st := by
  induction n generalizing i st with
  | zero => simp [edgeLeafLoop, seg_empty, runCells]
  | succ n ih =>
    have hi : i < tree.bbIndices.length := by omega
    rw [seg_cons _ hi]
    unfold edgeLeafLoop runCells edgeStep
    rw [rd_of_lt hi, ok_bind]
    cases hr : isect tree.bbIndices[i] with
    | error e => rfl
    | ok r =>
      obtain ⟨f, c, d⟩ := r
      simp only [ok_bind]
      split
      · split
        · rfl
        · rename_i h1 h2
          rw [wr_of_lt (by omega)]
          simp only [ok_bind]
          cases wr st.xy st.size (c, d) with
          | error e => rfl
          | ok xy => simp only [ok_bind]; exact ih _ _ (by omega)
      · simp only [ok_bind]
        exact ih _ _ (by omega)

theorem edgeVisit_visits (tree : Tree F) (isect : Nat → M (Isect F)) (a b : Pt F) (index : Nat)
    (hs : ∀ nd ∈ tree.nodes, nd.child ≠ -1 → ∃ s, edgeSides nd a b (toVector a b) = .ok s) :
    Visits (edgeVisit tree isect a b index) tree.nodes tree.bbIndices (edgeStep isect index) (edgeSel a b) := by
  constructor
  · intro k nd st h1 h2 h3
    unfold edgeVisit
    rw [rdI_nat, rd_of_some h1, ok_bind, if_pos h2, edgeLeafLoop_eq _ _ _ _ _ _ h3]
    cases runCells (edgeStep isect index) (seg tree.bbIndices nd.ptr (nd.ptr + nd.size)) st with
    | error e => rfl
    | ok r => cases r <;> rfl
  · intro k nd st h1 h2
    obtain ⟨⟨l, r⟩, hlr⟩ := hs nd (List.mem_of_getElem? h1) h2
    unfold edgeVisit
    rw [rdI_nat, rd_of_some h1, ok_bind, if_neg h2, hlr]
    simp only [pushChildren, edgeSel, hlr, ok_bind]
    cases l <;> cases r <;> simp

/-- Result of the loop over cells: the hits are appended, or the buffer is full. -/
theorem run_edgeStep (isect : Nat → M (Isect F)) (index : Nat) (cells : List Nat)
    (hin : ∀ j ∈ cells, ∃ r, isect j = .ok r) (st : EdgeSt F) (hsz : st.size ≤ st.indices.length)
    (hxy : st.xy.length = st.indices.length) :
    ∃ (arr : List (Nat × Nat)) (axy : List (Option (Pt F) × Option (Pt F))),
      arr.length = st.indices.length ∧ axy.length = st.indices.length ∧
      arr.take st.size = st.indices.take st.size ∧ axy.take st.size = st.xy.take st.size ∧
      ((st.size + (cells.filterMap (edgeHit isect)).length ≤ st.indices.length ∧
        arr.take (st.size + (cells.filterMap (edgeHit isect)).length) =
          st.indices.take st.size ++ (cells.filterMap (edgeHit isect)).map (fun h => (index, h.1)) ∧
        axy.take (st.size + (cells.filterMap (edgeHit isect)).length) =
          st.xy.take st.size ++ (cells.filterMap (edgeHit isect)).map Prod.snd ∧
        runCells (edgeStep isect index) cells st =
          .ok (.inr ⟨arr, axy, st.size + (cells.filterMap (edgeHit isect)).length,
            st.count + (cells.filterMap (edgeHit isect)).length⟩)) ∨
       (st.indices.length < st.size + (cells.filterMap (edgeHit isect)).length ∧
        ∃ size count, runCells (edgeStep isect index) cells st = .ok (.inl ⟨arr, axy, size, count⟩))) := by
  induction cells generalizing st with
  | nil =>
    refine ⟨st.indices, st.xy, rfl, hxy, rfl, rfl, Or.inl ⟨by simpa using hsz, by simp, by simp, rfl⟩⟩
  | cons j cells ih =>
    obtain ⟨⟨f, cd⟩, hj⟩ := hin j (by simp)
    have hin' : ∀ i ∈ cells, ∃ r, isect i = .ok r := fun i hi => hin i (by simp [hi])
    unfold runCells
    simp only [edgeStep]
    rw [hj, ok_bind]
    cases f
    · have hf : (j :: cells).filterMap (edgeHit isect) = cells.filterMap (edgeHit isect) := by
        simp [edgeHit, hj]
      rw [hf]
      simp only [Bool.false_eq_true, if_false, ok_bind]
      exact ih hin' st hsz hxy
    · have hf : (j :: cells).filterMap (edgeHit isect) = (j, cd) :: cells.filterMap (edgeHit isect) := by
        simp [edgeHit, hj]
      rw [hf]
      simp only [if_true]
      by_cases hfull : st.size ≥ st.indices.length
      · rw [if_pos hfull]
        refine ⟨st.indices, st.xy, rfl, hxy, rfl, rfl, Or.inr ⟨by simp; omega, _, _, rfl⟩⟩
      · rw [if_neg hfull, wr_of_lt (by omega), ok_bind, wr_of_lt (by omega)]
        simp only [ok_bind]
        obtain ⟨arr, axy, a1, a1', a2, a2', a3⟩ := ih hin' ⟨st.indices.set st.size (index, j), st.xy.set st.size cd,
          st.size + 1, st.count + 1⟩ (by simp; omega) (by simpa using hxy)
        simp only [List.length_set] at a1 a1' a2 a2' a3
        have htake : (st.indices.set st.size (index, j)).take (st.size + 1) =
            st.indices.take st.size ++ [(index, j)] := by
          rw [List.take_add_one, List.take_set_of_le (Nat.le_refl _)]
          have : st.size < st.indices.length := by omega
          simp [this]
        have htake' : (st.xy.set st.size cd).take (st.size + 1) = st.xy.take st.size ++ [cd] := by
          rw [List.take_add_one, List.take_set_of_le (Nat.le_refl _)]
          have : st.size < st.xy.length := by omega
          simp [this]
        refine ⟨arr, axy, a1, a1', ?_, ?_, ?_⟩
        · have := congrArg (List.take st.size) a2
          rw [List.take_take, List.take_take, Nat.min_eq_left (by omega),
            List.take_set_of_le (Nat.le_refl _)] at this
          exact this
        · have := congrArg (List.take st.size) a2'
          rw [List.take_take, List.take_take, Nat.min_eq_left (by omega),
            List.take_set_of_le (Nat.le_refl _)] at this
          exact this
        · rcases a3 with ⟨b1, b2, b2', b3⟩ | ⟨b1, b2⟩
          · left
            simp only [List.length_cons, List.map_cons]
            rw [show st.size + ((cells.filterMap (edgeHit isect)).length + 1) =
                st.size + 1 + (cells.filterMap (edgeHit isect)).length by omega]
            refine ⟨by omega, ?_, ?_, ?_⟩
            · rw [b2, htake]; simp
            · rw [b2', htake']; simp
            · rw [show st.count + ((cells.filterMap (edgeHit isect)).length + 1) =
                st.count + 1 + (cells.filterMap (edgeHit isect)).length by omega]
              exact b3
          · right
            simp only [List.length_cons]
            exact ⟨by omega, b2⟩

/-- The hits of an edge, in the order in which the tree is traversed. -/
def edgeHits (tree : Tree F) (t : BT) (isect : Pt F → Pt F → Nat → M (Isect F)) (q : Pt F × Pt F) : List (EHit F) :=
  match cohenSutherland q.1 q.2 tree.bbox with
  | .ok (some _) => (t.order tree.nodes tree.bbIndices (edgeSel q.1 q.2)).filterMap (edgeHit (isect q.1 q.2))
  | _ => []

/-- No exception is raised in the steps that are taken for the query `a b`. -/
structure EdgeRuns (tree : Tree F) (t : BT) (isect : Pt F → Pt F → Nat → M (Isect F)) (a b : Pt F) : Prop where
  box : ∃ r, cohenSutherland a b tree.bbox = .ok r
  sides : ∀ nd ∈ tree.nodes, nd.child ≠ -1 → ∃ s, edgeSides nd a b (toVector a b) = .ok s
  isect : ∀ r, cohenSutherland a b tree.bbox = .ok (some r) →
    ∀ j ∈ t.order tree.nodes tree.bbIndices (edgeSel a b), ∃ r, isect a b j = .ok r

section
variable {tree : Tree F} {t : BT} {isect : Pt F → Pt F → Nat → M (Isect F)}

theorem EdgeTotal.runs {a b : Pt F} (hT : EdgeTotal tree isect a b) (h : TreeOk tree t) : EdgeRuns tree t isect a b :=
  ⟨hT.box, hT.sides, fun _ _ j hj => hT.isect j (h.mem_iff.1 (order_subset (edgeSel_nodup a b) h.ok h.lo h.hi' j hj))⟩

theorem locateEdge_spec (h : TreeOk tree t) {a b : Pt F} (hT : EdgeRuns tree t isect a b) (indices : List (Nat × Nat))
    (xy : List (Option (Pt F) × Option (Pt F))) (size index : Nat) (hsz : size ≤ indices.length)
    (hxy : xy.length = indices.length) :
    ∃ (arr : List (Nat × Nat)) (axy : List (Option (Pt F) × Option (Pt F))),
      arr.length = indices.length ∧ axy.length = indices.length ∧ arr.take size = indices.take size ∧
      axy.take size = xy.take size ∧
      ((size + (edgeHits tree t isect (a, b)).length ≤ indices.length ∧
        arr.take (size + (edgeHits tree t isect (a, b)).length) =
          indices.take size ++ (edgeHits tree t isect (a, b)).map (fun h => (index, h.1)) ∧
        axy.take (size + (edgeHits tree t isect (a, b)).length) =
          xy.take size ++ (edgeHits tree t isect (a, b)).map Prod.snd ∧
        locateEdge a b tree isect indices xy size index =
          .ok (arr, axy, some (edgeHits tree t isect (a, b)).length, size + (edgeHits tree t isect (a, b)).length)) ∨
       (indices.length < size + (edgeHits tree t isect (a, b)).length ∧
        ∃ size', locateEdge a b tree isect indices xy size index = .ok (arr, axy, none, size'))) := by
  unfold locateEdge edgeHits
  obtain ⟨r, hr⟩ := hT.box
  simp only [hr, ok_bind]
  cases r with
  | none =>
    exact ⟨indices, xy, rfl, hxy, rfl, rfl, Or.inl ⟨by simpa using hsz, by simp, by simp, rfl⟩⟩
  | some cd =>
    simp only
    obtain ⟨s, h1, h2, h3⟩ := Stk.single_spec (0 : Int)
    rw [h1, ok_bind]
    have hw := whileStack_order (edgeVisit_visits tree (isect a b) a b index hT.sides) (edgeSel_nodup a b) h.ok h.root
      h.lo h.hi' h2 h3 ⟨indices, xy, size, 0⟩
    simp only [Tree.fuel]
    rw [hw]
    obtain ⟨arr, axy, a1, a1', a2, a2', a3⟩ := run_edgeStep (isect a b) index
      (t.order tree.nodes tree.bbIndices (edgeSel a b))
      (hT.isect _ hr)
      ⟨indices, xy, size, 0⟩ hsz hxy
    refine ⟨arr, axy, a1, a1', a2, a2', ?_⟩
    rcases a3 with ⟨b1, b2, b2', b3⟩ | ⟨b1, s1, c1, b3⟩
    · left
      refine ⟨b1, b2, b2', ?_⟩
      rw [b3]
      simp
    · right
      refine ⟨b1, s1, ?_⟩
      rw [b3]
      rfl

theorem edgeHits_length (h : TreeOk tree t) (q : Pt F × Pt F) :
    (edgeHits tree t isect q).length ≤ tree.bbIndices.length := by
  unfold edgeHits
  split
  · refine Nat.le_trans (List.length_filterMap_le _ _) ?_
    have hn := order_nodup (edgeSel_nodup q.1 q.2) h.ok h.lo h.hi' h.nodup
    have hs := order_subset (edgeSel_nodup q.1 q.2) h.ok h.lo h.hi'
    exact (List.subperm_of_subset hn hs).length_le
  · simp

theorem edgeRetry_spec (h : TreeOk tree t) {a b : Pt F} (hT : EdgeRuns tree t isect a b) (index total fuel : Nat)
    (indices : List (Nat × Nat)) (xy : List (Option (Pt F) × Option (Pt F))) (hcap : 0 < indices.length)
    (htot : total ≤ indices.length) (hxy : xy.length = indices.length)
    (hfuel : total + (edgeHits tree t isect (a, b)).length ≤ indices.length + (fuel - 1)) (hf1 : 1 ≤ fuel) :
    ∃ (arr : List (Nat × Nat)) (axy : List (Option (Pt F) × Option (Pt F))), indices.length ≤ arr.length ∧
      axy.length = arr.length ∧ total + (edgeHits tree t isect (a, b)).length ≤ arr.length ∧
      arr.take (total + (edgeHits tree t isect (a, b)).length) =
        indices.take total ++ (edgeHits tree t isect (a, b)).map (fun h => (index, h.1)) ∧
      axy.take (total + (edgeHits tree t isect (a, b)).length) =
        xy.take total ++ (edgeHits tree t isect (a, b)).map Prod.snd ∧
      edgeRetry a b tree isect index total fuel indices xy total =
        .ok (arr, axy, (edgeHits tree t isect (a, b)).length, total + (edgeHits tree t isect (a, b)).length) := by
  induction fuel generalizing indices xy with
  | zero => omega
  | succ fuel ih =>
    unfold edgeRetry
    obtain ⟨arr, axy, a1, a1', a2, a2', a3⟩ := locateEdge_spec h hT indices xy total index htot hxy
    rcases a3 with ⟨b1, b2, b2', b3⟩ | ⟨b1, s', b3⟩
    · rw [b3]
      exact ⟨arr, axy, by omega, by omega, by omega, b2, b2', rfl⟩
    · rw [b3]
      simp only [ok_bind]
      have hlen : (growArr (0, 0) arr).length = 2 * indices.length := by simp [growArr, a1]; omega
      have hlen' : (growArr (none, none) axy).length = 2 * indices.length := by simp [growArr, a1']; omega
      obtain ⟨arr', axy', c0, c0', c1, c2, c2', c3⟩ := ih (growArr (0, 0) arr) (growArr (none, none) axy) (by omega)
        (by omega) (by omega) (by omega) (by omega)
      refine ⟨arr', axy', by omega, c0', c1, ?_, ?_, c3⟩
      · rw [c2, growArr, List.take_append_of_le_length (by omega), a2]
      · rw [c2', growArr, List.take_append_of_le_length (by omega), a2']

theorem edgeHelperLoop_spec (h : TreeOk tree t) (offset : Nat) (edges : List (Pt F × Pt F))
    (hT : ∀ q ∈ edges, EdgeRuns tree t isect q.1 q.2)
    (k : Nat) (indices : List (Nat × Nat)) (xy : List (Option (Pt F) × Option (Pt F))) (total : Nat)
    (hcap : 0 < indices.length) (htot : total ≤ indices.length) (hxy : xy.length = indices.length) :
    ∃ arr axy total', edgeHelperLoop tree isect offset edges k indices xy total total = .ok (arr, axy, total') ∧
      total' ≤ arr.length ∧ axy.length = arr.length ∧
      arr.take total' = indices.take total ++
        (edges.zipIdx k).flatMap (fun p => (edgeHits tree t isect p.1).map fun h => (p.2 + offset, h.1)) ∧
      axy.take total' = xy.take total ++
        (edges.zipIdx k).flatMap (fun p => (edgeHits tree t isect p.1).map Prod.snd) := by
  induction edges generalizing k indices xy total with
  | nil => exact ⟨indices, xy, total, rfl, htot, hxy, by simp, by simp⟩
  | cons q edges ih =>
    obtain ⟨a, b⟩ := q
    unfold edgeHelperLoop
    have hl := edgeHits_length (isect := isect) h (a, b)
    obtain ⟨arr, axy, a0, a0', a1, a2, a2', a3⟩ := edgeRetry_spec h (a := a) (b := b) (hT (a, b) (by simp)) (k + offset) total
      (tree.bbIndices.length + 1) indices xy hcap htot hxy (by omega) (by omega)
    rw [a3]
    simp only [ok_bind]
    obtain ⟨arr', axy', total', b1, b2, b3, b4, b5⟩ := ih (fun q hq => hT q (by simp [hq])) (k + 1) arr axy
      (total + (edgeHits tree t isect (a, b)).length) (by omega) a1 a0'
    refine ⟨arr', axy', total', b1, b2, b3, ?_, ?_⟩
    · rw [b4, a2]; simp
    · rw [b5, a2']; simp

/-- All hits of all edges, in the order of the result. -/
def edgeAll (tree : Tree F) (t : BT) (isect : Pt F → Pt F → Nat → M (Isect F)) (edges : List (Pt F × Pt F)) :
    List (Nat × EHit F) :=
  edges.zipIdx.flatMap fun p => (edgeHits tree t isect p.1).map fun h => (p.2, h)

theorem locateEdges_spec (h : TreeOk tree t) (edges : List (Pt F × Pt F))
    (hT : ∀ q ∈ edges, EdgeRuns tree t isect q.1 q.2) {n : Nat} (hn : 0 < n)
    {sched : List Nat} (hs : sched.Perm (List.range n)) :
    locateEdges edges tree isect n sched =
      .ok ((edgeAll tree t isect edges).map Prod.fst, (edgeAll tree t isect edges).map (fun r => r.2.1),
        (edgeAll tree t isect edges).map fun r => r.2.2) := by
  unfold locateEdges
  obtain ⟨cs, h1, h2, h3, _⟩ := arraySplit_spec edges hn
  obtain ⟨o, h4, h5, h6⟩ := chunkOffsets_spec cs h2 hn
  rw [h1, ok_bind, h4, ok_bind]
  have hex : ∀ i, ∃ r : List (Nat × Nat) × List (Option (Pt F) × Option (Pt F)) × Nat, i < n →
      (do let c ← rd cs i; let off ← rd o i; locateEdgesHelper c tree isect off) = .ok r ∧ r.2.2 ≤ r.1.length ∧
        r.2.2 ≤ r.2.1.length ∧
        r.1.take r.2.2 = ((cs[i]?.getD []).zipIdx 0).flatMap (fun p =>
          (edgeHits tree t isect p.1).map fun h => (p.2 + (0 + ((cs.take i).map List.length).sum), h.1)) ∧
        r.2.1.take r.2.2 = ((cs[i]?.getD []).zipIdx 0).flatMap (fun p =>
          (edgeHits tree t isect p.1).map Prod.snd) := by
    intro i
    by_cases hi : i < n
    · have hi' : i < cs.length := by omega
      obtain ⟨arr, axy, tot, a1, a2, a3, a4, a5⟩ := edgeHelperLoop_spec (isect := isect) h
        (((cs.take i).map List.length).sum) cs[i]
        (fun q hq => hT q (by rw [← h3]; exact List.mem_flatten.2 ⟨_, List.getElem_mem hi', hq⟩)) 0
        (List.replicate (max cs[i].length 256) (0, 0)) (List.replicate (max cs[i].length 256) (none, none)) 0
        (by simp; omega) (by omega) (by simp)
      refine ⟨(arr, axy, tot), fun _ => ⟨?_, a2, by simp only; omega, ?_, ?_⟩⟩
      · rw [rd_of_lt hi', ok_bind, rd_of_some (h6 i hi), ok_bind]
        exact a1
      · simp only; rw [a4]; simp [hi']
      · simp only; rw [a5]; simp [hi']
    · exact ⟨([], [], 0), fun h => (hi h).elim⟩
  obtain ⟨f, hf⟩ := Classical.axiomOfChoice hex
  have hbody : ∀ i < n, (do let c ← rd cs i; let off ← rd o i; locateEdgesHelper c tree isect off) = .ok (f i) :=
    fun i hi => (hf i hi).1
  have hcong : ∀ {γ : Type} (u v : Nat → List γ), (∀ i < n, u i = v i) →
      (List.range n).flatMap u = (List.range n).flatMap v := by
    intro γ u v huv
    have : ∀ l : List Nat, (∀ i ∈ l, i < n) → l.flatMap u = l.flatMap v := by
      intro l hl
      induction l with
      | nil => rfl
      | cons i l ih =>
        rw [List.flatMap_cons, List.flatMap_cons, ih (fun j hj => hl j (by simp [hj])), huv i (hl i (by simp))]
    exact this _ (fun i hi => List.mem_range.1 hi)
  rw [prange_ok hs _ hbody, ok_bind, concatenate_spec, ok_bind, concatenate_spec, ok_bind]
  · have e1 : (((List.range n).map f).map fun r => (r.1, r.2.2)).flatMap (fun c => c.1.take c.2) =
        (edgeAll tree t isect edges).map fun r => (r.1, r.2.1) := by
      rw [List.map_map, List.flatMap_map]
      simp only [Function.comp]
      rw [hcong _ _ (fun i hi => (hf i hi).2.2.2.1), ← h2,
        flatMap_chunks cs (fun q i => (edgeHits tree t isect q).map fun h => (i, h.1)) 0, h3]
      simp [edgeAll, List.map_flatMap, Function.comp_def]
    have e2 : (((List.range n).map f).map fun r => (r.2.1, r.2.2)).flatMap (fun c => c.1.take c.2) =
        (edgeAll tree t isect edges).map fun r => r.2.2 := by
      rw [List.map_map, List.flatMap_map]
      simp only [Function.comp]
      rw [hcong _ _ (fun i hi => (hf i hi).2.2.2.2), ← h2,
        flatMap_chunks cs (fun q i => (edgeHits tree t isect q).map Prod.snd) 0, h3]
      simp [edgeAll, List.map_flatMap, Function.comp_def]
    rw [e1, e2]
    simp [Function.comp_def]
  · intro c hc
    obtain ⟨r, hr, rfl⟩ := List.mem_map.1 hc
    obtain ⟨i, hi, rfl⟩ := List.mem_map.1 hr
    exact (hf i (List.mem_range.1 hi)).2.1
  · intro c hc
    obtain ⟨r, hr, rfl⟩ := List.mem_map.1 hc
    obtain ⟨i, hi, rfl⟩ := List.mem_map.1 hr
    exact (hf i (List.mem_range.1 hi)).2.2.1

theorem mem_edgeAll {edges : List (Pt F × Pt F)} {i : Nat} {h : EHit F} :
    (i, h) ∈ edgeAll tree t isect edges ↔ ∃ q, edges[i]? = some q ∧ h ∈ edgeHits tree t isect q := by
  unfold edgeAll
  simp only [List.mem_flatMap, List.mem_map, Prod.exists, Prod.mk.injEq]
  constructor
  · rintro ⟨a, b, k, hk, j, c, d, hh, rfl, rfl⟩
    rw [List.mem_zipIdx_iff_getElem?] at hk
    exact ⟨a, b, hk, hh⟩
  · rintro ⟨a, b, hq, hh⟩
    exact ⟨a, b, i, by rw [List.mem_zipIdx_iff_getElem?]; exact hq, h.1, h.2.1, h.2.2, hh, rfl, rfl⟩

theorem edgeHit_fst {isect : Nat → M (Isect F)} {j : Nat} {h : EHit F} (e : edgeHit isect j = some h) :
    h.1 = j ∧ isect j = .ok (true, h.2) := by
  unfold edgeHit at e
  split at e
  · rename_i cd hj
    cases e
    exact ⟨rfl, hj⟩
  · cases e

theorem edgeHits_nodup (h : TreeOk tree t) (q : Pt F × Pt F) : ((edgeHits tree t isect q).map Prod.fst).Nodup := by
  unfold edgeHits
  split
  · have hn := order_nodup (edgeSel_nodup q.1 q.2) h.ok h.lo h.hi' h.nodup
    generalize t.order tree.nodes tree.bbIndices (edgeSel q.1 q.2) = l at hn
    induction l with
    | nil => simp
    | cons j l ih =>
      obtain ⟨h1, h2⟩ := List.nodup_cons.1 hn
      rw [List.filterMap_cons]
      split
      · exact ih h2
      · rename_i hh he
        obtain ⟨e1, e2⟩ := edgeHit_fst he
        rw [List.map_cons, List.nodup_cons]
        refine ⟨?_, ih h2⟩
        intro hm
        obtain ⟨x, hx, hx'⟩ := List.mem_map.1 hm
        obtain ⟨i, hi, hi'⟩ := List.mem_filterMap.1 hx
        obtain ⟨e3, _⟩ := edgeHit_fst hi'
        apply h1
        rw [← e1, ← hx', e3]
        exact hi
  · simp

theorem edgeAll_nodup (h : TreeOk tree t) (edges : List (Pt F × Pt F)) :
    ((edgeAll tree t isect edges).map fun r => (r.1, r.2.1)).Nodup ∧
      ((edgeAll tree t isect edges).map Prod.fst).Pairwise (· ≤ ·) := by
  unfold edgeAll
  have key : ∀ (l : List (Pt F × Pt F)) (k : Nat),
      (((l.zipIdx k).flatMap fun p => (edgeHits tree t isect p.1).map fun h => (p.2, h)).map
        fun r => (r.1, r.2.1)).Nodup ∧
      (((l.zipIdx k).flatMap fun p => (edgeHits tree t isect p.1).map fun h => (p.2, h)).map Prod.fst).Pairwise
        (· ≤ ·) ∧
      ∀ x ∈ ((l.zipIdx k).flatMap fun p => (edgeHits tree t isect p.1).map fun h => (p.2, h)), k ≤ x.1 := by
    intro l
    induction l with
    | nil => intro k; simp
    | cons b l ih =>
      intro k
      obtain ⟨h1, h2, h3⟩ := ih (k + 1)
      rw [List.zipIdx_cons, List.flatMap_cons, List.map_append, List.map_append]
      refine ⟨?_, ?_, ?_⟩
      · rw [List.nodup_append]
        refine ⟨?_, h1, ?_⟩
        · have := edgeHits_nodup (isect := isect) h b
          unfold List.Nodup at this ⊢
          rw [List.pairwise_map] at this
          rw [List.map_map, List.pairwise_map]
          refine List.Pairwise.imp ?_ this
          intro x y hxy e
          exact hxy (Prod.mk.inj e).2
        · intro x hx y hy hxy
          subst hxy
          simp only [List.map_map, List.mem_map] at hx
          obtain ⟨j, _, rfl⟩ := hx
          obtain ⟨r, hr, hr'⟩ := List.mem_map.1 hy
          have := h3 _ hr
          have := (Prod.mk.inj hr').1
          simp only at this
          omega
      · rw [List.pairwise_append]
        refine ⟨?_, h2, ?_⟩
        · rw [List.map_map, List.pairwise_map]
          exact List.Pairwise.imp (S := fun _ _ => k ≤ k) (fun _ => Nat.le_refl _) (List.pairwise_of_forall
            (l := edgeHits tree t isect b) (R := fun _ _ => True) (fun _ _ => trivial))
        · intro x hx y hy
          simp only [List.map_map, List.mem_map] at hx
          obtain ⟨j, _, rfl⟩ := hx
          obtain ⟨r, hr, rfl⟩ := List.mem_map.1 hy
          have := h3 _ hr
          simp only [Function.comp]
          omega
      · intro x hx
        rcases List.mem_append.1 hx with hx | hx
        · obtain ⟨j, _, rfl⟩ := List.mem_map.1 hx; exact Nat.le_refl _
        · have := h3 x hx; omega
  exact ⟨(key edges 0).1, (key edges 0).2.1⟩

/-- A hit is a cell with a positive test. -/
theorem edgeHits_sound (h : TreeOk tree t) {q : Pt F × Pt F} {x : EHit F} (hx : x ∈ edgeHits tree t isect q) :
    x.1 < tree.bbCoords.length ∧ isect q.1 q.2 x.1 = .ok (true, x.2) ∧
      ∃ r, cohenSutherland q.1 q.2 tree.bbox = .ok (some r) := by
  unfold edgeHits at hx
  split at hx
  · rename_i r hr
    obtain ⟨j, hj, hj'⟩ := List.mem_filterMap.1 hx
    obtain ⟨e1, e2⟩ := edgeHit_fst hj'
    subst e1
    exact ⟨h.mem_iff.1 (order_subset (edgeSel_nodup q.1 q.2) h.ok h.lo h.hi' _ hj), e2, r, hr⟩
  · simp at hx

/-- A cell with a positive test is a hit if the query passes the test against the whole box and the traversal goes down to
the cell. -/
theorem edgeHits_complete (h : TreeOk tree t) {q : Pt F × Pt F} {j : Nat} {b : Box F} {cd : Option (Pt F) × Option (Pt F)}
    (hj : tree.bbCoords[j]? = some b) (hi : isect q.1 q.2 j = .ok (true, cd))
    (hc : ∃ r, cohenSutherland q.1 q.2 tree.bbox = .ok (some r))
    (hl : ∀ nd ∈ tree.nodes, b.hi nd.dim ≤ nd.Lmax → false ∈ edgeSel q.1 q.2 nd)
    (hr : ∀ nd ∈ tree.nodes, nd.Rmin ≤ b.lo nd.dim → true ∈ edgeSel q.1 q.2 nd) :
    (j, cd) ∈ edgeHits tree t isect q := by
  obtain ⟨r, hc⟩ := hc
  unfold edgeHits
  rw [hc]
  simp only
  refine List.mem_filterMap.2 ⟨j, order_complete hj hl hr t h.ok ?_, ?_⟩
  · rw [h.lo, h.hi', seg_full, h.mem_iff]
    exact (List.getElem?_eq_some_iff.1 hj).1
  · unfold edgeHit; rw [hi]

end

end Celltree
