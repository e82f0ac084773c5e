import Verif.Proofs.BoxPairs

/-!
# `locate_point` and `locate_point_on_edge` as a search over the visited cells
-/

set_option linter.unusedSectionVars false

namespace Celltree

variable {F : Type} [Add F] [Sub F] [Mul F] [Div F] [Neg F] [Zero F] [One F] [IntCast F]
  [LT F] [LE F] [BEq F] [DecidableLT F] [DecidableLE F]

/-- The first cell of a list that passes the test. -/
def findCell (test : Nat → M Bool) : List Nat → M (Option Nat)
  | [] => .ok none
  | j :: js => do if ← test j then .ok (some j) else findCell test js

/-- Processing of one cell. -/
def pointStep (test : Nat → M Bool) (j : Nat) (_ : Unit) : M (Nat ⊕ Unit) := do
  if ← test j then .ok (.inl j) else .ok (.inr ())

/-- Selection of children for a point, in the order of the pushes. -/
def pointSel (p : Pt F) (nd : Node F) : List Bool :=
  if p.get nd.dim ≤ nd.Lmax then
    if p.get nd.dim ≥ nd.Rmin then
      if nd.Lmax - p.get nd.dim < p.get nd.dim - nd.Rmin then [false, true] else [true, false]
    else [false]
  else if p.get nd.dim ≥ nd.Rmin then [true] else []

theorem pointSel_nodup (p : Pt F) : SelOk (pointSel p) := by
  intro nd
  unfold pointSel
  split <;> split <;> (try split) <;> simp

theorem run_pointStep (test : Nat → M Bool) (cells : List Nat) :
    runCells (pointStep test) cells () = (do
      match ← findCell test cells with
      | some j => .ok (.inl j)
      | none => .ok (.inr ())) := by
  induction cells with
  | nil => rfl
  | cons j cells ih =>
    unfold runCells findCell pointStep
    cases test j with
    | error e => rfl
    | ok b =>
      cases b
      · simp only [ok_bind, Bool.false_eq_true, if_false]; exact ih
      · simp only [ok_bind, if_true]

theorem leafFind_eq (tree : Tree F) (test : Nat → M Bool) (n i : Nat) (h : i + n ≤ tree.bbIndices.length) :
    leafFind tree test n i = findCell test (seg tree.bbIndices i (i + n)) := by
  induction n generalizing i with
  | zero => simp [leafFind, seg_empty, findCell]
  | succ n ih =>
    have hi : i < tree.bbIndices.length := by omega
    rw [seg_cons _ hi]
    unfold leafFind findCell
    rw [rd_of_lt hi, ok_bind]
    cases test tree.bbIndices[i] with
    | error e => rfl
    | ok b =>
      cases b
      · simp only [ok_bind, Bool.false_eq_true, if_false]; exact ih _ (by omega)
      · simp only [ok_bind, if_true]

theorem pointVisit_visits (tree : Tree F) (test : Nat → M Bool) (p : Pt F) :
    Visits (pointVisit tree test p) tree.nodes tree.bbIndices (pointStep test) (pointSel p) := by
  constructor
  · intro k nd st h1 h2 h3
    unfold pointVisit
    rw [rdI_nat, rd_of_some h1, ok_bind, if_pos h2, leafFind_eq _ _ _ _ h3, run_pointStep]
    cases findCell test (seg tree.bbIndices nd.ptr (nd.ptr + nd.size)) with
    | error e => rfl
    | ok r => cases r <;> rfl
  · intro k nd st h1 h2
    unfold pointVisit
    rw [rdI_nat, rd_of_some h1, ok_bind, if_neg h2]
    simp only [pointChildren, pointSel]
    by_cases ha : p.get nd.dim ≤ nd.Lmax <;> by_cases hb : p.get nd.dim ≥ nd.Rmin <;>
      by_cases hc : nd.Lmax - p.get nd.dim < p.get nd.dim - nd.Rmin <;> simp [ha, hb, hc]

/-- The cells visited for a point, in order. -/
def pointCells (tree : Tree F) (t : BT) (p : Pt F) : List Nat := t.order tree.nodes tree.bbIndices (pointSel p)

theorem locateWith_eq {tree : Tree F} {t : BT} (h : TreeOk tree t) (test : Nat → M Bool) (p : Pt F) :
    locateWith tree test p = (do
      match ← findCell test (pointCells tree t p) with
      | some j => .ok (j : Int)
      | none => .ok (-1)) := by
  unfold locateWith
  obtain ⟨s, h1, h2, h3⟩ := Stk.single_spec (0 : Int)
  rw [h1, ok_bind]
  have hw := whileStack_order (pointVisit_visits tree test p) (pointSel_nodup p) h.ok h.root h.lo h.hi' h2 h3 ()
  simp only [Tree.fuel]
  rw [hw, run_pointStep]
  unfold pointCells
  cases findCell test (t.order tree.nodes tree.bbIndices (pointSel p)) with
  | error e => rfl
  | ok r => cases r <;> rfl

theorem pointCells_lt {tree : Tree F} {t : BT} (h : TreeOk tree t) (p : Pt F) :
    ∀ j ∈ pointCells tree t p, j < tree.bbCoords.length :=
  fun j hj => h.mem_iff.1 (order_subset (pointSel_nodup p) h.ok h.lo h.hi' j hj)

/-- The closed box contains the point. -/
def Box.Has (b : Box F) (p : Pt F) : Prop := b.xmin ≤ p.x ∧ p.x ≤ b.xmax ∧ b.ymin ≤ p.y ∧ p.y ≤ b.ymax

theorem pointCells_complete [NumOrd F] {tree : Tree F} {t : BT} (h : TreeOk tree t) {p : Pt F} {j : Nat} {b : Box F}
    (hj : tree.bbCoords[j]? = some b) (hb : b.Has p) : j ∈ pointCells tree t p := by
  have hget : ∀ dim, b.lo dim ≤ p.get dim ∧ p.get dim ≤ b.hi dim := by
    intro dim
    obtain ⟨h1, h2, h3, h4⟩ := hb
    cases dim
    · exact ⟨h1, h2⟩
    · exact ⟨h3, h4⟩
  refine order_complete hj ?_ ?_ t h.ok ?_
  · intro nd _ hle
    have := NumOrd.le_trans (hget nd.dim).2 hle
    unfold pointSel
    rw [if_pos this]
    split
    · split <;> simp
    · simp
  · intro nd _ hle
    have : p.get nd.dim ≥ nd.Rmin := NumOrd.le_trans hle (hget nd.dim).1
    unfold pointSel
    by_cases hl : p.get nd.dim ≤ nd.Lmax
    · rw [if_pos hl, if_pos this]; split <;> simp
    · rw [if_neg hl, if_pos this]; simp
  · rw [h.lo, h.hi', seg_full]
    exact h.mem_iff.2 (List.getElem?_eq_some_iff.1 hj).1

/-! ## Results of the search -/

theorem findCell_some {test : Nat → M Bool} {cells : List Nat} {j : Nat} (h : findCell test cells = .ok (some j)) :
    j ∈ cells ∧ test j = .ok true := by
  induction cells with
  | nil => cases h
  | cons i cells ih =>
    unfold findCell at h
    obtain ⟨b, h1, h2⟩ := bind_eq_ok.1 h
    cases b
    · obtain ⟨h3, h4⟩ := ih (by simpa using h2)
      exact ⟨by simp [h3], h4⟩
    · simp only [if_true] at h2
      cases h2
      exact ⟨by simp, h1⟩

theorem findCell_none {test : Nat → M Bool} {cells : List Nat} (h : findCell test cells = .ok none) :
    ∀ j ∈ cells, test j = .ok false := by
  induction cells with
  | nil => simp
  | cons i cells ih =>
    unfold findCell at h
    obtain ⟨b, h1, h2⟩ := bind_eq_ok.1 h
    cases b
    · intro j hj
      rcases List.mem_cons.1 hj with rfl | hj
      · exact h1
      · exact ih (by simpa using h2) j hj
    · simp only [if_true] at h2
      cases h2

theorem findCell_error {test : Nat → M Bool} {cells : List Nat} {e : Err} (h : findCell test cells = .error e) :
    ∃ j ∈ cells, test j = .error e := by
  induction cells with
  | nil => cases h
  | cons i cells ih =>
    unfold findCell at h
    cases ht : test i with
    | error e' =>
      rw [ht] at h
      cases h
      exact ⟨i, by simp, ht⟩
    | ok b =>
      rw [ht] at h
      cases b
      · obtain ⟨j, hj, hj'⟩ := ih (by simpa using h)
        exact ⟨j, by simp [hj], hj'⟩
      · simp at h

/-- The answer for one point, as a function of the test. -/
theorem locateWith_cases {tree : Tree F} {t : BT} (h : TreeOk tree t) (test : Nat → M Bool) (p : Pt F) :
    (∃ j : Nat, locateWith tree test p = .ok (j : Int) ∧ j < tree.bbCoords.length ∧ test j = .ok true) ∨
    (locateWith tree test p = .ok (-1) ∧ ∀ j ∈ pointCells tree t p, test j = .ok false) ∨
    (∃ j e, locateWith tree test p = .error e ∧ j < tree.bbCoords.length ∧ test j = .error e) := by
  rw [locateWith_eq h]
  cases hf : findCell test (pointCells tree t p) with
  | error e =>
    obtain ⟨j, hj, hj'⟩ := findCell_error hf
    exact Or.inr (Or.inr ⟨j, e, rfl, pointCells_lt h p j hj, hj'⟩)
  | ok r =>
    cases r with
    | none => exact Or.inr (Or.inl ⟨rfl, findCell_none hf⟩)
    | some j =>
      obtain ⟨hj, hj'⟩ := findCell_some hf
      exact Or.inl ⟨j, rfl, pointCells_lt h p j hj, hj'⟩

/-! ## The polygon of a face -/

theorem mapM_rdI {vertices : List (Pt F)} {A : List Int} (h : ∀ v ∈ A, 0 ≤ v ∧ v < vertices.length) :
    A.mapM (fun i => rdI vertices i) = .ok (A.filterMap fun v => vertices[v.toNat]?) := by
  induction A with
  | nil => rfl
  | cons v A ih =>
    obtain ⟨a, h1, h2⟩ := rdI_of_range (h v (by simp)).1 (h v (by simp)).2
    rw [List.mapM_cons, h1, ok_bind, ih (fun w hw => h w (by simp [hw])), ok_bind, List.filterMap_cons, h2]
    rfl

theorem copyVertices_row {vertices : List (Pt F)} {ncol : Nat} {A : List Int} (h : Row vertices.length ncol A)
    (hc : ncol ≤ maxNVertex) :
    copyVertices vertices (padRow ncol A) = .ok (facePts vertices fillValue (padRow ncol A)) := by
  unfold copyVertices
  have := h.le
  simp only [h.polygonLength]
  rw [if_neg (by omega)]
  unfold facePts
  rw [h.rowIndices]
  have : (padRow ncol A).take A.length = A := by simp [padRow]
  rw [this]
  exact mapM_rdI h.range

/-- The polygon of a face as it is stored, after normalising its orientation. It depends on the row and on the vertices
only. -/
def storedPts (vertices : List (Pt F)) (fill : Int) (ncol : Nat) (row : List Int) : List (Pt F) :=
  match ccwFace vertices (padRow ncol (rowIndices fill row)) with
  | .ok r => facePts vertices fillValue r
  | .error _ => []

theorem Oriented.polygon {vertices : List (Pt F)} {fill : Int} {faces : IntArr} {rows : List (List Int)}
    (h : Oriented vertices fill faces rows) (hc : faces.ncol ≤ maxNVertex) {i : Nat} {r : List Int}
    (hi : faces.rows[i]? = some r) :
    (do copyVertices vertices (← rd rows i)) = .ok (storedPts vertices fill faces.ncol r) ∧
    (storedPts vertices fill faces.ncol r = facePts vertices fill r ∨
      storedPts vertices fill faces.ncol r = (facePts vertices fill r).reverse) ∧
    3 ≤ (storedPts vertices fill faces.ncol r).length := by
  obtain ⟨B, h1, h2, h3, h4⟩ := h.row i r hi
  have he : storedPts vertices fill faces.ncol r = facePts vertices fillValue (padRow faces.ncol B) := by
    unfold storedPts; rw [h4]
  refine ⟨?_, ?_, ?_⟩
  · rw [rd_of_some h1, ok_bind, copyVertices_row h3 hc, he]
  · rw [he]; exact facePts_oriented h3 h2
  · rw [he]
    unfold facePts
    rw [h3.rowIndices]
    have := mapM_eq_ok (mapM_rdI (vertices := vertices) h3.range)
    rw [this.1]
    exact h3.three

theorem faceTest_eq {env : Env F} [NumOrd F] {vertices : List (Pt F)} {faces : IntArr} {fill : Int} {nb cpl : Nat}
    {t : CellTree F} {bt : BT} (hc : Constructed env vertices faces fill nb cpl t bt) (hcol : faces.ncol ≤ maxNVertex)
    {j : Nat} {r : List Int} (hj : faces.rows[j]? = some r) (p : Pt F) (tol : F) :
    faceTest t.data p tol j = pointInPolygonOrOnEdge p (storedPts vertices fill faces.ncol r) tol := by
  have := (hc.elements.polygon hcol hj).1
  unfold faceTest
  rw [hc.vertices_eq]
  obtain ⟨B, h1, _⟩ := hc.elements.row j r hj
  rw [rd_of_some h1, ok_bind] at this ⊢
  rw [this, ok_bind]

end Celltree
