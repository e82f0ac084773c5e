import Verif.Model.Cast
import Verif.Props.Floats

/-!
# Arrays of the wrong shape: C71
-/

set_option linter.unusedSectionVars false

namespace Celltree

/-! ## Arrays of the right shape -/

section
variable {F : Type}

/-- The array with these points as rows: shape `(n, 2)`. -/
def arrOfPts (l : List (Pt F)) : NdArray F := ⟨[l.length, 2], l.flatMap fun p => [p.x, p.y]⟩

/-- The array with these boxes as rows: shape `(n, 4)`. -/
def arrOfBoxes (l : List (Box F)) : NdArray F := ⟨[l.length, 4], l.flatMap fun b => [b.xmin, b.xmax, b.ymin, b.ymax]⟩

/-- The array with these edges: shape `(n, 2, 2)`. -/
def arrOfEdges (l : List (Pt F × Pt F)) : NdArray F :=
  ⟨[l.length, 2, 2], l.flatMap fun e => [e.1.x, e.1.y, e.2.x, e.2.y]⟩

/-- The array with this table: shape `(n, ncol)`. -/
def arrOfTable (a : IntArr) : NdArray Int := ⟨[a.rows.length, a.ncol], a.rows.flatten⟩

theorem toPts_flatMap (l : List (Pt F)) : toPts (l.flatMap fun p => [p.x, p.y]) = l := by
  induction l with
  | nil => rfl
  | cons p l ih => simp only [List.flatMap_cons, List.cons_append, List.nil_append, toPts, ih]

theorem toBoxes_flatMap (l : List (Box F)) : toBoxes (l.flatMap fun b => [b.xmin, b.xmax, b.ymin, b.ymax]) = l := by
  induction l with
  | nil => rfl
  | cons p l ih => simp only [List.flatMap_cons, List.cons_append, List.nil_append, toBoxes, ih]

theorem toEdges_flatMap (l : List (Pt F × Pt F)) : toEdges (l.flatMap fun e => [e.1.x, e.1.y, e.2.x, e.2.y]) = l := by
  induction l with
  | nil => rfl
  | cons p l ih => simp only [List.flatMap_cons, List.cons_append, List.nil_append, toEdges, ih]

theorem toRows_flatten {α : Type} (m : Nat) (l : List (List α)) (h : ∀ r ∈ l, r.length = m) :
    toRows m l.length l.flatten = l := by
  induction l with
  | nil => rfl
  | cons r l ih =>
    have hr : r.length = m := h r (by simp)
    simp only [List.length_cons, List.flatten_cons, toRows]
    rw [List.take_append_of_le_length (by omega), List.drop_append_of_le_length (by omega),
      List.take_of_length_le (by omega), List.drop_of_length_le (by omega), List.nil_append,
      ih fun r hr => h r (by simp [hr])]

theorem flatMap_toPts (l : List F) (n : Nat) (h : l.length = n * 2) :
    (toPts l).length = n ∧ (toPts l).flatMap (fun p => [p.x, p.y]) = l := by
  induction n generalizing l with
  | zero =>
    have : l = [] := List.length_eq_zero_iff.1 (by omega)
    subst this; exact ⟨rfl, rfl⟩
  | succ n ih =>
    match l, h with
    | [], h | [_], h => simp only [List.length_cons, List.length_nil] at h; omega
    | a :: b :: l, h =>
      obtain ⟨h1, h2⟩ := ih l (by simp only [List.length_cons] at h; omega)
      exact ⟨by simp [toPts, h1], by simp [toPts, h2]⟩

theorem flatMap_toBoxes (l : List F) (n : Nat) (h : l.length = n * 4) :
    (toBoxes l).length = n ∧ (toBoxes l).flatMap (fun b => [b.xmin, b.xmax, b.ymin, b.ymax]) = l := by
  induction n generalizing l with
  | zero =>
    have : l = [] := List.length_eq_zero_iff.1 (by omega)
    subst this; exact ⟨rfl, rfl⟩
  | succ n ih =>
    match l, h with
    | [], h | [_], h | [_, _], h | [_, _, _], h => simp only [List.length_cons, List.length_nil] at h; omega
    | a :: b :: c :: d :: l, h =>
      obtain ⟨h1, h2⟩ := ih l (by simp only [List.length_cons] at h; omega)
      exact ⟨by simp [toBoxes, h1], by simp [toBoxes, h2]⟩

theorem flatMap_toEdges (l : List F) (n : Nat) (h : l.length = n * 4) :
    (toEdges l).length = n ∧ (toEdges l).flatMap (fun e => [e.1.x, e.1.y, e.2.x, e.2.y]) = l := by
  induction n generalizing l with
  | zero =>
    have : l = [] := List.length_eq_zero_iff.1 (by omega)
    subst this; exact ⟨rfl, rfl⟩
  | succ n ih =>
    match l, h with
    | [], h | [_], h | [_, _], h | [_, _, _], h => simp only [List.length_cons, List.length_nil] at h; omega
    | a :: b :: c :: d :: l, h =>
      obtain ⟨h1, h2⟩ := ih l (by simp only [List.length_cons] at h; omega)
      exact ⟨by simp [toEdges, h1], by simp [toEdges, h2]⟩

/-- An array has shape `(n, 2)` exactly if it is the array of a list of points. -/
theorem shape_pts {a : NdArray F} (ha : a.Ok) : (∃ n, a.shape = [n, 2]) ↔ ∃ l, a = arrOfPts l := by
  constructor
  · rintro ⟨n, h⟩
    obtain ⟨s, d⟩ := a
    simp only at h
    subst h
    obtain ⟨h1, h2⟩ := flatMap_toPts d n (by simpa [NdArray.Ok] using ha)
    exact ⟨toPts d, by rw [arrOfPts, h1, h2]⟩
  · rintro ⟨l, rfl⟩
    exact ⟨_, rfl⟩

theorem shape_boxes {a : NdArray F} (ha : a.Ok) : (∃ n, a.shape = [n, 4]) ↔ ∃ l, a = arrOfBoxes l := by
  constructor
  · rintro ⟨n, h⟩
    obtain ⟨s, d⟩ := a
    simp only at h
    subst h
    obtain ⟨h1, h2⟩ := flatMap_toBoxes d n (by simpa [NdArray.Ok] using ha)
    exact ⟨toBoxes d, by rw [arrOfBoxes, h1, h2]⟩
  · rintro ⟨l, rfl⟩
    exact ⟨_, rfl⟩

theorem shape_edges {a : NdArray F} (ha : a.Ok) : (∃ n, a.shape = [n, 2, 2]) ↔ ∃ l, a = arrOfEdges l := by
  constructor
  · rintro ⟨n, h⟩
    obtain ⟨s, d⟩ := a
    simp only at h
    subst h
    obtain ⟨h1, h2⟩ := flatMap_toEdges d n (by simpa [NdArray.Ok] using ha)
    exact ⟨toEdges d, by rw [arrOfEdges, h1, h2]⟩
  · rintro ⟨l, rfl⟩
    exact ⟨_, rfl⟩

theorem castVertices_ok (l : List (Pt F)) : castVertices (arrOfPts l) = .ok l := by
  unfold castVertices arrOfPts
  simp [rd, toPts_flatMap, ok_bind]

theorem castBboxes_ok (l : List (Box F)) : castBboxes (arrOfBoxes l) = .ok l := by
  unfold castBboxes arrOfBoxes
  simp [rd, toBoxes_flatMap, ok_bind]

theorem castEdges_ok (l : List (Pt F × Pt F)) : castEdges (arrOfEdges l) = .ok l := by
  unfold castEdges arrOfEdges
  simp [rd, toEdges_flatMap, ok_bind]

theorem castVertices_error {a : NdArray F} (h : ∀ n, a.shape ≠ [n, 2]) : castVertices a = .error .valueError := by
  unfold castVertices
  split
  · rfl
  · next hl =>
    obtain ⟨n, m, e⟩ := List.length_eq_two.1 (not_not.1 hl)
    rw [e]
    have : m ≠ 2 := by rintro rfl; exact h n e
    simp [rd, ok_bind, this]

theorem castBboxes_error {a : NdArray F} (h : ∀ n, a.shape ≠ [n, 4]) : castBboxes a = .error .valueError := by
  unfold castBboxes
  split
  · rfl
  · next hl =>
    obtain ⟨n, m, e⟩ := List.length_eq_two.1 (not_not.1 hl)
    rw [e]
    have : m ≠ 4 := by rintro rfl; exact h n e
    simp [rd, ok_bind, this]

theorem castEdges_error {a : NdArray F} (h : ∀ n, a.shape ≠ [n, 2, 2]) : castEdges a = .error .valueError := by
  unfold castEdges
  split
  · rfl
  · next hl =>
    obtain ⟨n, m, k, e⟩ := List.length_eq_three.1 (not_not.1 hl)
    rw [e]
    by_cases h1 : m = 2
    · have : k ≠ 2 := by rintro rfl; exact h n (by rw [e, h1])
      simp [rd, ok_bind, this, h1]
    · simp [rd, ok_bind, h1]

theorem table_ok {a : IntArr} (h : a.Rect) : (arrOfTable a).table = .ok a := by
  unfold NdArray.table arrOfTable
  simp [rd, ok_bind, toRows_flatten a.ncol a.rows h]

theorem uncheckedPts_ok (l : List (Pt F)) : uncheckedPts (arrOfPts l) = .ok l := by
  unfold uncheckedPts arrOfPts
  simp only
  have : toRows 2 l.length (l.flatMap fun p => [p.x, p.y]) = l.map fun p => [p.x, p.y] := by
    have := toRows_flatten 2 (l.map fun p => [p.x, p.y]) (by simp)
    rwa [List.length_map] at this
  rw [this]
  clear this
  induction l with
  | nil => rfl
  | cons p l ih => simp [List.mapM_cons, ih, ok_bind, pure, Except.pure]

end

section
variable {F : Type} [Add F] [Sub F] [Mul F] [Div F] [Neg F] [Zero F] [One F] [IntCast F]
  [LT F] [LE F] [BEq F] [DecidableLT F] [DecidableLE F]
variable {env : Env F} {t : CellTree F}

/-- **C71**, construction: `ValueError` if the shape of the vertices is not `(n, 2)` or the shape of the faces is not
`(n, m)`. -/
theorem C71_init_rejects {vertices : NdArray F} {faces : NdArray Int} (fill nBuckets cellsPerLeaf : Int) (sched : List Nat)
    (h : (∀ n, vertices.shape ≠ [n, 2]) ∨ ∀ n m, faces.shape ≠ [n, m]) :
    CellTree.initArr env vertices faces fill nBuckets cellsPerLeaf sched = .error .valueError := by
  unfold CellTree.initArr
  split
  · rfl
  · split
    · rfl
    · by_cases hv : ∀ n, vertices.shape ≠ [n, 2]
      · rw [castVertices_error hv]; rfl
      · have hf := h.resolve_left hv
        have : faces.shape.length ≠ 2 := by
          intro hl
          obtain ⟨n, m, e⟩ := List.length_eq_two.1 hl
          exact hf n m e
        cases hc : castVertices vertices with
        | error e =>
          unfold castVertices at hc
          split at hc
          · cases hc; rfl
          · next hl =>
            obtain ⟨n, m, e⟩ := List.length_eq_two.1 (not_not.1 hl)
            rw [e] at hc
            simp only [rd, List.getElem?_cons_succ, List.getElem?_cons_zero, ok_bind] at hc
            split at hc <;> cases hc
            rfl
        | ok l =>
          rw [ok_bind]
          unfold castFacesArr
          rw [if_pos this]; rfl

/-- **C71**, construction: arrays of the right shape are taken as the lists of their rows. -/
theorem C71_init_accepts (vertices : List (Pt F)) {faces : IntArr} (hf : faces.Rect) (fill nBuckets cellsPerLeaf : Int)
    (sched : List Nat) :
    CellTree.initArr env (arrOfPts vertices) (arrOfTable faces) fill nBuckets cellsPerLeaf sched =
      CellTree.init env vertices faces fill nBuckets cellsPerLeaf sched := by
  unfold CellTree.initArr CellTree.init
  rw [castVertices_ok, ok_bind]
  have : castFacesArr (arrOfTable faces) fill = castFaces faces fill := by
    unfold castFacesArr
    rw [if_neg (by simp [arrOfTable]), table_ok hf, ok_bind]
  rw [this]

/-- The tolerance is defined for an object with at least one face or edge. -/
theorem tolerance_ok (h : t.bbDistances ≠ []) (tol : Option F) : ∃ τ, t.tolerance env tol = .ok τ := by
  cases tol with
  | some τ => exact ⟨τ, rfl⟩
  | none =>
    obtain ⟨d, l, hd⟩ := List.exists_cons_of_ne_nil h
    unfold CellTree.tolerance defaultTolerance maxList
    rw [hd]
    exact ⟨_, rfl⟩

/-- **C71**, queries: `ValueError` if the shape is not `(n, 2)`, `(n, 4)` or `(n, 2, 2)`. -/
theorem C71_queries_reject (h : t.bbDistances ≠ []) (a : NdArray F) (tol : Option F) (nThreads : Nat)
    (faces : NdArray Int) (fill : Int) (sched sched1 : List Nat) (sched2 sched3 : Nat → List Nat) :
    ((∀ n, a.shape ≠ [n, 2]) → t.locatePointsArr env a tol sched = .error .valueError ∧
      t.barycentricWeightsArr env a tol sched sched1 = .error .valueError ∧
      t.locatePointsOnEdgeArr env a tol sched = .error .valueError) ∧
    ((∀ n, a.shape ≠ [n, 4]) → t.locateBoxesArr a nThreads sched = .error .valueError ∧
      t.intersectBoxesArr a nThreads sched sched2 = .error .valueError) ∧
    ((∀ n, a.shape ≠ [n, 2, 2]) → t.intersectEdgesArr env a nThreads sched = .error .valueError ∧
      t.intersectEdgesOnEdgeArr env a nThreads sched = .error .valueError) ∧
    ((∀ n, a.shape ≠ [n, 2]) ∨ (∃ l, a = arrOfPts l) ∧ (∀ n m, faces.shape ≠ [n, m]) →
      t.intersectFacesArr env a faces fill nThreads sched sched1 sched2 sched3 = .error .valueError) := by
  obtain ⟨τ, hτ⟩ := tolerance_ok (env := env) h tol
  refine ⟨fun ha => ⟨?_, ?_, ?_⟩, fun ha => ⟨?_, ?_⟩, fun ha => ⟨?_, ?_⟩, ?_⟩
  · unfold CellTree.locatePointsArr; rw [hτ, ok_bind, castVertices_error ha]; rfl
  · unfold CellTree.barycentricWeightsArr CellTree.locatePointsArr CellTree.tolerance
    unfold CellTree.tolerance at hτ
    rw [hτ, ok_bind]
    simp only [ok_bind]
    rw [castVertices_error ha]; rfl
  · unfold CellTree.locatePointsOnEdgeArr; rw [hτ, ok_bind, castVertices_error ha]; rfl
  · unfold CellTree.locateBoxesArr; rw [castBboxes_error ha]; rfl
  · unfold CellTree.intersectBoxesArr; rw [castBboxes_error ha]; rfl
  · unfold CellTree.intersectEdgesArr; rw [castEdges_error ha]; rfl
  · unfold CellTree.intersectEdgesOnEdgeArr; rw [castEdges_error ha]; rfl
  · unfold CellTree.intersectFacesArr
    rintro (ha | ⟨⟨l, rfl⟩, hf⟩)
    · rw [castVertices_error ha]; rfl
    · rw [castVertices_ok, ok_bind, if_pos]
      intro hl
      obtain ⟨n, m, e⟩ := List.length_eq_two.1 hl
      exact hf n m e

/-- **C71**, queries: arrays of the right shape are taken as the lists of their rows. -/
theorem C71_queries_accept (points : List (Pt F)) (boxes : List (Box F)) (edges : List (Pt F × Pt F)) {faces : IntArr}
    (hf : faces.Rect) (tol : Option F) (nThreads : Nat) (fill : Int) (sched sched1 : List Nat)
    (sched2 sched3 : Nat → List Nat) :
    t.locatePointsArr env (arrOfPts points) tol sched = t.locatePoints env points tol sched ∧
    t.barycentricWeightsArr env (arrOfPts points) tol sched sched1 = t.barycentricWeights env points tol sched sched1 ∧
    t.locatePointsOnEdgeArr env (arrOfPts points) tol sched = t.locatePointsOnEdge env points tol sched ∧
    t.locateBoxesArr (arrOfBoxes boxes) nThreads sched = t.locateBoxes boxes nThreads sched ∧
    t.intersectBoxesArr (arrOfBoxes boxes) nThreads sched sched2 = t.intersectBoxes boxes nThreads sched sched2 ∧
    t.intersectEdgesArr env (arrOfEdges edges) nThreads sched = t.intersectEdges env edges nThreads sched ∧
    t.intersectEdgesOnEdgeArr env (arrOfEdges edges) nThreads sched = t.intersectEdgesOnEdge env edges nThreads sched ∧
    t.intersectFacesArr env (arrOfPts points) (arrOfTable faces) fill nThreads sched sched1 sched2 sched3 =
      (do
        let (_, r) ← t.intersectFacesH env [faces] points 0 fill nThreads sched sched1 sched2 sched3
        .ok r) := by
  refine ⟨?_, ?_, ?_, ?_, ?_, ?_, ?_, ?_⟩
  · unfold CellTree.locatePointsArr CellTree.locatePoints; rw [castVertices_ok]; simp only [ok_bind]
  · unfold CellTree.barycentricWeightsArr CellTree.barycentricWeights CellTree.locatePointsArr CellTree.locatePoints
    rw [castVertices_ok, uncheckedPts_ok]; simp only [ok_bind]
  · unfold CellTree.locatePointsOnEdgeArr CellTree.locatePointsOnEdge; rw [castVertices_ok]; simp only [ok_bind]
  · unfold CellTree.locateBoxesArr CellTree.locateBoxes; rw [castBboxes_ok]; simp only [ok_bind]
  · unfold CellTree.intersectBoxesArr; rw [castBboxes_ok]; simp only [ok_bind]
  · unfold CellTree.intersectEdgesArr; rw [castEdges_ok]; simp only [ok_bind]
  · unfold CellTree.intersectEdgesOnEdgeArr; rw [castEdges_ok]; simp only [ok_bind]
  · unfold CellTree.intersectFacesArr
    rw [castVertices_ok, ok_bind, if_neg (by simp [arrOfTable]), table_ok hf]; simp only [ok_bind]

/-- The hypothesis of `C71_queries_reject` holds for every object. -/
theorem C71_object_has_faces {vertices : List (Pt F)} {faces : IntArr} {fill nBuckets cellsPerLeaf : Int}
    {sched : List Nat} (h : CellTree.init env vertices faces fill nBuckets cellsPerLeaf sched = .ok t) :
    t.bbDistances ≠ [] := by
  unfold CellTree.init at h
  split at h
  · cases h
  · split at h
    · cases h
    · obtain ⟨fs, _, h⟩ := bind_eq_ok.1 h
      obtain ⟨rows, _, h⟩ := bind_eq_ok.1 h
      unfold CellTree.ofFaces at h
      obtain ⟨coords, _, h⟩ := bind_eq_ok.1 h
      obtain ⟨⟨nodes, idx⟩, _, h⟩ := bind_eq_ok.1 h
      obtain ⟨bb, hb, h⟩ := bind_eq_ok.1 h
      cases h
      intro h0
      have : coords = [] := List.map_eq_nil_iff.1 h0
      subst this
      cases hb

theorem C71_object_has_edges {vertices : List (Pt F)} {edges : IntArr} {nBuckets cellsPerLeaf : Int}
    (h : EdgeCellTree.init env vertices edges nBuckets cellsPerLeaf = .ok t) : t.bbDistances ≠ [] := by
  unfold EdgeCellTree.init at h
  split at h
  · cases h
  · split at h
    · cases h
    · obtain ⟨tol, _, h⟩ := bind_eq_ok.1 h
      obtain ⟨coords, _, h⟩ := bind_eq_ok.1 h
      obtain ⟨⟨nodes, idx⟩, _, h⟩ := bind_eq_ok.1 h
      obtain ⟨bb, hb, h⟩ := bind_eq_ok.1 h
      cases h
      intro h0
      have : coords = [] := List.map_eq_nil_iff.1 h0
      subst this
      cases hb

/-- **C71**, construction of an edge tree, vertices only. -/
theorem C71_edge_init (vertices : NdArray F) (edges : IntArr) (nBuckets cellsPerLeaf : Int) :
    ((∀ n, vertices.shape ≠ [n, 2]) → EdgeCellTree.initArr env vertices edges nBuckets cellsPerLeaf = .error .valueError) ∧
    ∀ l, vertices = arrOfPts l →
      EdgeCellTree.initArr env vertices edges nBuckets cellsPerLeaf = EdgeCellTree.init env l edges nBuckets cellsPerLeaf := by
  constructor
  · intro hv
    unfold EdgeCellTree.initArr
    rw [castVertices_error hv]
    split
    · rfl
    · split <;> rfl
  · rintro l rfl
    unfold EdgeCellTree.initArr
    rw [castVertices_ok]
    unfold EdgeCellTree.init
    split
    · rfl
    · split
      · rfl
      · rw [ok_bind]

end

/-! ## Functions without a check, and examples -/

/-- Coordinates with a third column. -/
def Ex.spatial : NdArray ℚ := ⟨[3, 3], [1, 1, 7, 3, 1, 7, 1, 3, 7]⟩

/-- **C71** does not hold for `locate_faces`, which takes coordinates with three columns without a complaint, and reads outside
of the rows of coordinates with one column; nor for the edges of an `EdgeCellTree2d`, where a third column is ignored. -/
theorem C71_unchecked_violated :
    (∃ t, Makes Ex.qEnv Ex.qVerts Ex.faces (-999) 4 1 t ∧
      t.locateFacesArr Ex.qEnv Ex.spatial ⟨3, [[0, 1, 2]]⟩ 1 [0] [0] List.range =
        t.locateFaces Ex.qEnv [⟨1, 1⟩, ⟨3, 1⟩, ⟨1, 3⟩] ⟨3, [[0, 1, 2]]⟩ 1 [0] [0] List.range ∧
      t.locateFacesArr Ex.qEnv ⟨[3, 1], [1, 2, 3]⟩ ⟨3, [[0, 1, 2]]⟩ 1 [0] [0] List.range = .error .oob) ∧
    ∃ t, EdgeCellTree.init Ex.qEnv Ex.qVerts ⟨3, [[0, 1, 4], [1, 4, 2]]⟩ 4 2 = .ok t := by
  constructor
  · obtain ⟨t, h1, _⟩ := bind_eq_ok.1 (show (CellTree.init Ex.qEnv Ex.qVerts Ex.faces (-999) 4 1 [2, 0, 3, 1] >>= fun _ =>
      .ok ()) = .ok () by decide +kernel)
    exact ⟨t, ⟨[2, 0, 3, 1], by decide, h1⟩, rfl, rfl⟩
  · obtain ⟨t, h1, _⟩ := bind_eq_ok.1 (show (EdgeCellTree.init Ex.qEnv Ex.qVerts ⟨3, [[0, 1, 4], [1, 4, 2]]⟩ 4 2 >>=
      fun _ => .ok ()) = .ok () by decide +kernel)
    exact ⟨t, h1⟩

/-- Arrays of points and of a table, and arrays that are refused: an empty list has shape `(0,)`. -/
example : arrOfPts ([⟨1, 2⟩, ⟨3, 4⟩] : List (Pt ℚ)) = ⟨[2, 2], [1, 2, 3, 4]⟩ ∧
    arrOfTable Ex.faces = ⟨[4, 4], [0, 1, 4, 3, 1, 4, 2, -999, 2, 5, 4, -999, 3, 4, 6, -999]⟩ ∧
    castVertices (⟨[0], []⟩ : NdArray ℚ) = .error .valueError ∧ castVertices (⟨[0, 2], []⟩ : NdArray ℚ) = .ok [] ∧
    castVertices Ex.spatial = .error .valueError ∧ castBboxes (⟨[1, 2, 2], [0, 1, 0, 1]⟩ : NdArray ℚ) = .error .valueError ∧
    castEdges (⟨[1, 2, 2], [0, 1, 0, 1]⟩ : NdArray ℚ) = .ok [(⟨0, 1⟩, ⟨0, 1⟩)] := by
  decide +kernel

end Celltree
