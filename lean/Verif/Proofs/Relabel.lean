import Verif.Proofs.WeightRows
import Verif.Proofs.Orient

/-!
# Meshes with the same faces and other vertex numbers
-/

set_option linter.unusedSectionVars false

namespace Celltree

variable {F : Type} [Add F] [Sub F] [Mul F] [Div F] [Neg F] [Zero F] [One F] [IntCast F]
  [LT F] [LE F] [BEq F] [DecidableLT F] [DecidableLE F]

/-! ## One face -/

/-- Two rows in the notation of the code with the same points. -/
structure SameRow (vs : List (Pt F)) (n : Nat) (A : List Int) (vs' : List (Pt F)) (n' : Nat) (A' : List Int) : Prop where
  left : Row vs.length n A
  right : Row vs'.length n' A'
  pts : ptsOf vs' A' = ptsOf vs A

section
variable {vs vs' : List (Pt F)} {n n' : Nat} {A A' : List Int}

theorem SameRow.length (h : SameRow vs n A vs' n' A') : A'.length = A.length := by
  have := congrArg List.length h.pts
  rwa [(ptsOf_spec h.right.range).1, (ptsOf_spec h.left.range).1] at this

theorem SameRow.reverse (h : SameRow vs n A vs' n' A') : SameRow vs n A.reverse vs' n' A'.reverse :=
  ⟨h.left.reverse, h.right.reverse, by
    have := h.pts
    unfold ptsOf at this ⊢
    rw [List.filterMap_reverse, List.filterMap_reverse, this]⟩

theorem SameRow.read (h : SameRow vs n A vs' n' A') {i : Nat} (hi : i < A.length) :
    ∃ v v' c, rd (padRow n A) i = .ok v ∧ rd (padRow n' A') i = .ok v' ∧ rdI vs v = .ok c ∧ rdI vs' v' = .ok c := by
  have hi' : i < A'.length := by rw [h.length]; exact hi
  obtain ⟨c, h1, h2⟩ := (ptsOf_spec h.left.range).2 i hi
  obtain ⟨c', h1', h2'⟩ := (ptsOf_spec h.right.range).2 i hi'
  rw [h.pts, h2] at h2'
  cases h2'
  exact ⟨A[i], A'[i], c, rd_of_some (by rw [padRow, List.getElem?_append_left hi]; simp [hi]),
    rd_of_some (by rw [padRow, List.getElem?_append_left hi']; simp [hi']), h1, h1'⟩

theorem ccwLoop_same (k i : Nat) (a b : Pt F) {A A' : List Int} (h : SameRow vs n A vs' n' A') (hk : i + k ≤ A.length) :
    ∃ B B', ccwLoop vs A.length k i a b (padRow n A) = .ok (padRow n B) ∧
      ccwLoop vs' A'.length k i a b (padRow n' A') = .ok (padRow n' B') ∧ SameRow vs n B vs' n' B' := by
  induction k generalizing i a b A A' with
  | zero => exact ⟨A, A', rfl, rfl, h⟩
  | succ k ih =>
    obtain ⟨v, v', c, h1, h2, h3, h4⟩ := h.read (i := i) (by omega)
    unfold ccwLoop
    rw [h1, ok_bind, h3, ok_bind, h2, ok_bind, h4, ok_bind]
    simp only
    split
    · exact ih (i + 1) b c h (by omega)
    · split
      · have e : flip (padRow n A) A.length = .ok (padRow n A.reverse) := by
          rw [padRow, flip_spec]; simp [padRow]
        have e' : flip (padRow n' A') A'.length = .ok (padRow n' A'.reverse) := by
          rw [padRow, flip_spec]; simp [padRow]
        rw [e, e', ok_bind, ok_bind]
        have := ih (i + 1) a b h.reverse (by simp; omega)
        simpa using this
      · exact ⟨A, A', rfl, rfl, h⟩

theorem ccwFace_same (h : SameRow vs n A vs' n' A') :
    ∃ B B', ccwFace vs (padRow n A) = .ok (padRow n B) ∧ ccwFace vs' (padRow n' A') = .ok (padRow n' B') ∧
      SameRow vs n B vs' n' B' := by
  have h3 := h.left.three
  have hl := h.length
  obtain ⟨v, v', a, a1, a2, a3, a4⟩ := h.read (i := A.length - 2) (by omega)
  obtain ⟨w, w', b, b1, b2, b3, b4⟩ := h.read (i := A.length - 1) (by omega)
  unfold ccwFace
  rw [h.left.polygonLength, h.right.polygonLength]
  simp only
  rw [hl, show ((A.length : Int) - 2) = ((A.length - 2 : Nat) : Int) by omega,
    show ((A.length : Int) - 1) = ((A.length - 1 : Nat) : Int) by omega]
  simp only [rdI_nat, a1, a2, a3, a4, b1, b2, b3, b4, ok_bind]
  have := ccwLoop_same A.length 0 a b h (by omega)
  rwa [hl] at this

theorem boundingBoxLoop_same {P P' : List Int} (hP : ∀ v ∈ P, v = fillValue) (hP' : ∀ v ∈ P', v = fillValue)
    {A A' : List Int} (hA : ∀ v ∈ A, 0 ≤ v ∧ v < vs.length) (hA' : ∀ v ∈ A', 0 ≤ v ∧ v < vs'.length)
    (h : ptsOf vs' A' = ptsOf vs A) (b : Box F) :
    boundingBoxLoop vs' (A' ++ P') b = boundingBoxLoop vs (A ++ P) b := by
  induction A generalizing A' b with
  | nil =>
    have : A' = [] := by
      have := congrArg List.length h
      rw [(ptsOf_spec hA').1] at this
      exact List.eq_nil_of_length_eq_zero this
    subst this
    have key : ∀ (ws : List (Pt F)) (Q : List Int), (∀ v ∈ Q, v = fillValue) → boundingBoxLoop ws Q b = .ok b := by
      intro ws Q hQ
      cases Q with
      | nil => rfl
      | cons v Q => simp [boundingBoxLoop, hQ v (by simp)]
    rw [List.nil_append, List.nil_append, key _ _ hP, key _ _ hP']
  | cons v A ih =>
    obtain ⟨h0, h1⟩ := hA v (by simp)
    obtain ⟨p, hp, hp'⟩ := rdI_of_range h0 h1
    cases A' with
    | nil =>
      have := congrArg List.length h
      rw [(ptsOf_spec hA).1] at this
      simp [ptsOf] at this
    | cons v' A' =>
      obtain ⟨h0', h1'⟩ := hA' v' (by simp)
      obtain ⟨q, hq, hq'⟩ := rdI_of_range h0' h1'
      have e : ptsOf vs (v :: A) = p :: ptsOf vs A := by simp [ptsOf, hp']
      have e' : ptsOf vs' (v' :: A') = q :: ptsOf vs' A' := by simp [ptsOf, hq']
      rw [e, e'] at h
      injection h with h5 h6
      subst h5
      rw [List.cons_append, List.cons_append]
      unfold boundingBoxLoop
      rw [if_neg (by unfold fillValue; omega), if_neg (by unfold fillValue; omega), hp, hq, ok_bind, ok_bind]
      exact ih (fun v hv => hA v (by simp [hv])) (fun v hv => hA' v (by simp [hv])) h6 _

theorem boundingBox_same (h : SameRow vs n A vs' n' A') :
    boundingBox (padRow n' A') vs' = boundingBox (padRow n A) vs := by
  have h3 := h.left.three
  have hl := h.length
  match A, A', h, hl with
  | v :: A, v' :: A', h, _ =>
    obtain ⟨p, hp, hp'⟩ := rdI_of_range (h.left.range v (by simp)).1 (h.left.range v (by simp)).2
    obtain ⟨q, hq, hq'⟩ := rdI_of_range (h.right.range v' (by simp)).1 (h.right.range v' (by simp)).2
    have e : ptsOf vs (v :: A) = p :: ptsOf vs A := by simp [ptsOf, hp']
    have e' : ptsOf vs' (v' :: A') = q :: ptsOf vs' A' := by simp [ptsOf, hq']
    have h5 := h.pts
    rw [e, e'] at h5
    injection h5 with h5 h6
    subst h5
    unfold padRow boundingBox
    simp only [List.cons_append]
    rw [hp, hq, ok_bind, ok_bind]
    exact boundingBoxLoop_same (fun v hv => (List.mem_replicate.1 hv).2) (fun v hv => (List.mem_replicate.1 hv).2)
      (fun v hv => h.left.range v (by simp [hv])) (fun v hv => h.right.range v (by simp [hv])) h6 _

theorem copyVertices_same (h : SameRow vs n A vs' n' A') (hn : n ≤ maxNVertex) (hn' : n' ≤ maxNVertex) :
    copyVertices vs' (padRow n' A') = copyVertices vs (padRow n A) := by
  rw [copyVertices_row h.left hn, copyVertices_row h.right hn']
  unfold facePts
  rw [h.left.rowIndices, h.right.rowIndices]
  exact congrArg _ h.pts

theorem asTriangle_same (h : SameRow vs n A vs' n' A') :
    asTriangle vs' (padRow n' A') = asTriangle vs (padRow n A) := by
  have h3 := h.left.three
  obtain ⟨v, v', a, a1, a2, a3, a4⟩ := h.read (i := 0) (by omega)
  obtain ⟨w, w', b, b1, b2, b3, b4⟩ := h.read (i := 1) (by omega)
  obtain ⟨x, x', c, c1, c2, c3, c4⟩ := h.read (i := 2) (by omega)
  unfold asTriangle
  simp only [a1, a2, a3, a4, b1, b2, b3, b4, c1, c2, c3, c4, ok_bind]

end

/-! ## Tables -/

/-- Two tables in the notation of the code with the same points. -/
structure SameRows (vs : List (Pt F)) (n : Nat) (rows : List (List Int)) (vs' : List (Pt F)) (n' : Nat)
    (rows' : List (List Int)) : Prop where
  length : rows'.length = rows.length
  row : ∀ (i : Nat) r r', rows[i]? = some r → rows'[i]? = some r' →
    ∃ A A', r = padRow n A ∧ r' = padRow n' A' ∧ SameRow vs n A vs' n' A'

section
variable {vs vs' : List (Pt F)} {n n' : Nat} {rows rows' : List (List Int)}

theorem SameRows.rd_bind {β : Type} (h : SameRows vs n rows vs' n' rows') {f f' : List Int → M β}
    (hf : ∀ A A', SameRow vs n A vs' n' A' → f' (padRow n' A') = f (padRow n A)) (i : Nat) :
    (rd rows' i >>= f') = (rd rows i >>= f) := by
  by_cases hi : i < rows.length
  · have hi' : i < rows'.length := by rw [h.length]; exact hi
    obtain ⟨A, A', e, e', hA⟩ := h.row i rows[i] rows'[i] (by simp [hi]) (by simp [hi'])
    rw [rd_of_lt hi, rd_of_lt hi', ok_bind, ok_bind, e, e']
    exact hf A A' hA
  · have hi' : ¬ i < rows'.length := by rw [h.length]; exact hi
    unfold rd
    rw [List.getElem?_eq_none (Nat.le_of_not_lt hi), List.getElem?_eq_none (Nat.le_of_not_lt hi')]
    rfl

theorem SameRows.rdI_bind {β : Type} (h : SameRows vs n rows vs' n' rows') {f f' : List Int → M β}
    (hf : ∀ A A', SameRow vs n A vs' n' A' → f' (padRow n' A') = f (padRow n A)) (i : Int) :
    (rdI rows' i >>= f') = (rdI rows i >>= f) := by
  unfold rdI
  rw [h.length]
  split
  · rfl
  · exact h.rd_bind hf _

theorem SameRows.polygon (h : SameRows vs n rows vs' n' rows') (hn : n ≤ maxNVertex) (hn' : n' ≤ maxNVertex)
    {β : Type} (g : List (Pt F) → M β) (i : Nat) :
    (do let f ← rd rows' i; let p ← copyVertices vs' f; g p) = (do let f ← rd rows i; let p ← copyVertices vs f; g p) :=
  h.rd_bind (fun A A' hA => by rw [copyVertices_same hA hn hn']) i

theorem SameFaces.sameRows {fill fill' : Int} {faces faces' : IntArr} (h : SameFaces vs fill faces vs' fill' faces')
    (hv : ValidFaces vs.length fill faces) (hv' : ValidFaces vs'.length fill' faces') :
    SameRows vs faces.ncol (faces.rows.map fun r => padRow faces.ncol (rowIndices fill r)) vs' faces'.ncol
      (faces'.rows.map fun r => padRow faces'.ncol (rowIndices fill' r)) := by
  refine ⟨by simp [h.length], ?_⟩
  intro i r r' hr hr'
  rw [List.getElem?_map] at hr hr'
  obtain ⟨s, hs, rfl⟩ := Option.map_eq_some_iff.1 hr
  obtain ⟨s', hs', rfl⟩ := Option.map_eq_some_iff.1 hr'
  have hm := List.mem_of_getElem? hs
  have hm' := List.mem_of_getElem? hs'
  exact ⟨_, _, rfl, rfl, (hv.rows s hm).row (hv.rect s hm), (hv'.rows s' hm').row (hv'.rect s' hm'), h.pts i s s' hs hs'⟩

theorem counterClockwise_same (h : SameRows vs n rows vs' n' rows') {sched sched' : List Nat}
    (hs : sched.Perm (List.range rows.length)) (hs' : sched'.Perm (List.range rows'.length)) :
    ∃ res res', counterClockwise vs rows sched = .ok res ∧ counterClockwise vs' rows' sched' = .ok res' ∧
      SameRows vs n res vs' n' res' := by
  have get : ∀ (ws : List (Pt F)) (k : Nat) (rs : List (List Int)),
      (∀ r ∈ rs, ∃ A, r = padRow k A ∧ Row ws.length k A) →
      ∃ f : List Int → List Int, ∀ r ∈ rs, ccwFace ws r = .ok (f r) := by
    intro ws k rs hrs
    have : ∀ r : List Int, ∃ s, r ∈ rs → ccwFace ws r = .ok s := by
      intro r
      by_cases hr : r ∈ rs
      · obtain ⟨A, rfl, hA⟩ := hrs r hr
        obtain ⟨B, hB, _⟩ := ccwFace_spec hA
        exact ⟨_, fun _ => hB⟩
      · exact ⟨[], fun h => (hr h).elim⟩
    exact Classical.axiomOfChoice this
  have hl : ∀ r ∈ rows, ∃ A, r = padRow n A ∧ Row vs.length n A := by
    intro r hr
    obtain ⟨i, hi⟩ := List.getElem?_of_mem hr
    have hi' : i < rows'.length := by rw [h.length]; exact (List.getElem?_eq_some_iff.1 hi).1
    obtain ⟨A, A', e, e', hA⟩ := h.row i r rows'[i] hi (by simp [hi'])
    exact ⟨A, e, hA.left⟩
  have hr : ∀ r ∈ rows', ∃ A, r = padRow n' A ∧ Row vs'.length n' A := by
    intro r hr
    obtain ⟨i, hi⟩ := List.getElem?_of_mem hr
    have hi' : i < rows.length := by rw [← h.length]; exact (List.getElem?_eq_some_iff.1 hi).1
    obtain ⟨A, A', e, e', hA⟩ := h.row i rows[i] r (by simp [hi']) hi
    exact ⟨A', e', hA.right⟩
  obtain ⟨f, hf⟩ := get vs n rows hl
  obtain ⟨f', hf'⟩ := get vs' n' rows' hr
  refine ⟨_, _, counterClockwise_ok hs f hf, counterClockwise_ok hs' f' hf', by simp [h.length], ?_⟩
  intro i r r' hri hri'
  rw [List.getElem?_map] at hri hri'
  obtain ⟨s, hs1, rfl⟩ := Option.map_eq_some_iff.1 hri
  obtain ⟨s', hs1', rfl⟩ := Option.map_eq_some_iff.1 hri'
  obtain ⟨A, A', rfl, rfl, hA⟩ := h.row i s s' hs1 hs1'
  obtain ⟨B, B', e1, e2, hB⟩ := ccwFace_same hA
  have g1 := hf _ (List.mem_of_getElem? hs1)
  have g2 := hf' _ (List.mem_of_getElem? hs1')
  rw [e1] at g1
  rw [e2] at g2
  exact ⟨B, B', (Except.ok.inj g1).symm, (Except.ok.inj g2).symm, hB⟩

theorem mapM_same {α α' β : Type} {l : List α} {l' : List α'} {f : α → M β} {f' : α' → M β} (hl : l'.length = l.length)
    (h : ∀ (i : Nat) a a', l[i]? = some a → l'[i]? = some a' → f' a' = f a) : l'.mapM f' = l.mapM f := by
  induction l generalizing l' with
  | nil => rw [List.eq_nil_of_length_eq_zero hl]; rfl
  | cons a l ih =>
    cases l' with
    | nil => simp at hl
    | cons a' l' =>
      rw [List.mapM_cons, List.mapM_cons, h 0 a a' rfl rfl, ih (by simpa using hl) fun i b b' hb hb' =>
        h (i + 1) b b' (by simpa using hb) (by simpa using hb')]

theorem buildFaceBboxes_same (h : SameRows vs n rows vs' n' rows') :
    buildFaceBboxes rows' vs' = buildFaceBboxes rows vs := by
  unfold buildFaceBboxes
  refine mapM_same h.length ?_
  intro i r r' hr hr'
  obtain ⟨A, A', rfl, rfl, hA⟩ := h.row i r r' hr hr'
  exact boundingBox_same hA

end

/-! ## Trees -/

/-- Two objects that are the same, except for the vertices and the table of faces (or edges). -/
structure SameData (t t' : CellTree F) : Prop where
  nodes : t'.data.nodes = t.data.nodes
  bbIndices : t'.data.bbIndices = t.data.bbIndices
  bbCoords : t'.data.bbCoords = t.data.bbCoords
  bbox : t'.data.bbox = t.data.bbox
  cellsPerLeaf : t'.data.cellsPerLeaf = t.data.cellsPerLeaf
  nBuckets : t'.nBuckets = t.nBuckets
  bbDistances : t'.bbDistances = t.bbDistances

/-- Two objects that differ in the numbers of the vertices only. -/
structure SameTree (t t' : CellTree F) : Prop extends SameData t t' where
  le : t.nMaxVert ≤ maxNVertex
  le' : t'.nMaxVert ≤ maxNVertex
  rows : SameRows t.data.vertices t.nMaxVert t.data.elements t'.data.vertices t'.nMaxVert t'.data.elements

theorem castFaces_ok {nv : Nat} {fill : Int} {faces : IntArr} (hv : ValidFaces nv fill faces) (hn : faces.ncol ≤ maxNVertex) :
    castFaces faces fill = .ok ⟨faces.ncol, faces.rows.map fun r => padRow faces.ncol (rowIndices fill r)⟩ := by
  rw [castFaces_spec hv, if_neg (by omega)]

theorem init_same {env : Env F} {vertices vertices' : List (Pt F)} {faces faces' : IntArr} {fill fill' nb cpl : Int}
    {t : CellTree F} (hv : ValidFaces vertices.length fill faces) (hv' : ValidFaces vertices'.length fill' faces')
    (h : SameFaces vertices fill faces vertices' fill' faces') (hn' : faces'.ncol ≤ maxNVertex)
    (ht : Makes env vertices faces fill nb cpl t) {sched' : List Nat} (hs' : sched'.Perm (List.range faces'.rows.length)) :
    ∃ t', CellTree.init env vertices' faces' fill' nb cpl sched' = .ok t' ∧ SameTree t t' ∧ t'.nMaxVert = faces'.ncol ∧
      t.nMaxVert = faces.ncol := by
  obtain ⟨sched, hs, ht⟩ := ht
  unfold CellTree.init at ht ⊢
  split at ht
  · cases ht
  split at ht
  · cases ht
  rename_i h1 h2
  have hn : faces.ncol ≤ maxNVertex := by
    by_contra hc
    rw [castFaces_spec hv, if_pos (by omega)] at ht
    cases ht
  rw [if_neg h1, if_neg h2, castFaces_ok hv' hn', ok_bind]
  rw [castFaces_ok hv hn, ok_bind] at ht
  simp only at ht ⊢
  obtain ⟨res, res', e1, e2, hres⟩ := counterClockwise_same (h.sameRows hv hv') (sched := sched) (sched' := sched')
    (by simpa using hs) (by simpa using hs')
  rw [e1, ok_bind] at ht
  rw [e2, ok_bind]
  unfold CellTree.ofFaces at ht ⊢
  simp only at ht ⊢
  rw [buildFaceBboxes_same hres, hres.length]
  obtain ⟨coords, c1, ht⟩ := bind_eq_ok.1 ht
  obtain ⟨⟨nodes, idx⟩, c2, ht⟩ := bind_eq_ok.1 ht
  obtain ⟨bbox, c3, ht⟩ := bind_eq_ok.1 ht
  cases ht
  rw [c1, ok_bind, c2, ok_bind]
  simp only
  rw [c3, ok_bind]
  refine ⟨_, rfl, ⟨⟨rfl, rfl, rfl, rfl, rfl, rfl, rfl⟩, hn, hn', hres⟩, ?_⟩
  simp

/-! ## Queries -/

section
variable {t t' : CellTree F}

theorem SameData.fuel (h : SameData t t') : t'.data.fuel = t.data.fuel := by
  unfold Tree.fuel; rw [h.bbIndices]

theorem SameData.tolerance (h : SameData t t') (env : Env F) (tol : Option F) : t'.tolerance env tol = t.tolerance env tol := by
  cases tol with
  | some _ => rfl
  | none => unfold CellTree.tolerance; rw [h.bbDistances]

theorem leafFind_same (h : SameData t t') (test : Nat → M Bool) (n i : Nat) :
    leafFind t'.data test n i = leafFind t.data test n i := by
  induction n generalizing i with
  | zero => rfl
  | succ n ih =>
    unfold leafFind
    rw [h.bbIndices]
    simp only [ih]

theorem locateWith_same (h : SameData t t') (test : Nat → M Bool) (p : Pt F) :
    locateWith t'.data test p = locateWith t.data test p := by
  have : pointVisit t'.data test p = pointVisit t.data test p := by
    funext k u
    unfold pointVisit
    simp only [h.nodes, leafFind_same h]
  unfold locateWith
  rw [this, h.fuel]

theorem faceTest_same (h : SameTree t t') (p : Pt F) (tol : F) : faceTest t'.data p tol = faceTest t.data p tol := by
  funext j
  exact h.rows.polygon h.le h.le' (fun poly => pointInPolygonOrOnEdge p poly tol) j

theorem locatePoints_same (h : SameTree t t') (env : Env F) (points : List (Pt F)) (tol : Option F) (sched : List Nat) :
    t'.locatePoints env points tol sched = t.locatePoints env points tol sched := by
  unfold CellTree.locatePoints Celltree.locatePoints locatePoint
  simp only [h.tolerance, locateWith_same h.toSameData, faceTest_same h]

theorem boxLeafLoop_same (h : SameData t t') (box : Box F) (index n i : Nat) (st : BoxSt) :
    boxLeafLoop t'.data box index n i st = boxLeafLoop t.data box index n i st := by
  induction n generalizing i st with
  | zero => rfl
  | succ n ih =>
    unfold boxLeafLoop
    rw [h.bbIndices, h.bbCoords]
    simp only [ih]

theorem locateBox_same (h : SameData t t') (box : Box F) (indices : List (Nat × Nat)) (size index : Nat) :
    locateBox box t'.data indices size index = locateBox box t.data indices size index := by
  have : boxVisit t'.data box index = boxVisit t.data box index := by
    funext k st
    unfold boxVisit
    simp only [h.nodes, boxLeafLoop_same h]
  unfold locateBox
  rw [this, h.fuel, h.bbox]

theorem boxRetry_same (h : SameData t t') (box : Box F) (index total fuel : Nat) (indices : List (Nat × Nat)) (size : Nat) :
    boxRetry box t'.data index total fuel indices size = boxRetry box t.data index total fuel indices size := by
  induction fuel generalizing indices size with
  | zero => rfl
  | succ fuel ih =>
    unfold boxRetry
    simp only [locateBox_same h, ih]

theorem boxHelperLoop_same (h : SameData t t') (offset : Nat) (boxes : List (Box F)) (k : Nat) (indices : List (Nat × Nat))
    (total size : Nat) :
    boxHelperLoop t'.data offset boxes k indices total size = boxHelperLoop t.data offset boxes k indices total size := by
  induction boxes generalizing k indices total size with
  | nil => rfl
  | cons b boxes ih =>
    unfold boxHelperLoop
    simp only [boxRetry_same h, h.bbIndices, ih]

theorem locateBoxes_same (h : SameData t t') (boxes : List (Box F)) (nThreads : Nat) (sched : List Nat) :
    Celltree.locateBoxes boxes t'.data nThreads sched = Celltree.locateBoxes boxes t.data nThreads sched := by
  unfold Celltree.locateBoxes locateBoxesHelper
  simp only [boxHelperLoop_same h]

theorem bind_congr_left {α β : Type} (x : M α) {f g : α → M β} (h : ∀ a, f a = g a) : (x >>= f) = (x >>= g) := by
  rw [show f = g from funext h]

theorem intersectBoxes_same (h : SameTree t t') (boxes : List (Box F)) (nThreads : Nat) (sched : List Nat)
    (sched2 : Nat → List Nat) :
    t'.intersectBoxes boxes nThreads sched sched2 = t.intersectBoxes boxes nThreads sched sched2 := by
  unfold CellTree.intersectBoxes
  rw [locateBoxes_same h.toSameData]
  refine bind_congr_left _ fun ij => ?_
  have : ∀ s, boxAreaOfIntersection boxes t'.data.vertices t'.data.elements ij.1 ij.2 s =
      boxAreaOfIntersection boxes t.data.vertices t.data.elements ij.1 ij.2 s := by
    intro s
    unfold boxAreaOfIntersection
    congr 1
    funext i
    refine bind_congr_left _ fun k => bind_congr_left _ fun box => bind_congr_left _ fun j => ?_
    exact h.rows.polygon h.le h.le' (fun b => polygonPolygonClipArea (copyBoxVertices box) b) j
  simp only [this]

theorem cyrus_same (h : SameTree t t') (env : Env F) : edgeFaceIntersect env t'.data = edgeFaceIntersect env t.data := by
  funext a b j
  unfold edgeFaceIntersect
  rw [h.bbCoords]
  refine bind_congr_left _ fun box => bind_congr_left _ fun r => ?_
  cases r with
  | none => rfl
  | some r =>
    simp only
    exact h.rows.polygon h.le h.le' _ j

theorem edgeLeafLoop_same (h : SameData t t') (isect : Nat → M (Isect F)) (index n i : Nat) (st : EdgeSt F) :
    edgeLeafLoop t'.data isect index n i st = edgeLeafLoop t.data isect index n i st := by
  induction n generalizing i st with
  | zero => rfl
  | succ n ih =>
    unfold edgeLeafLoop
    rw [h.bbIndices]
    simp only [ih]

theorem locateEdge_same (h : SameData t t') (isect : Pt F → Pt F → Nat → M (Isect F)) (a b : Pt F) (indices : List (Nat × Nat))
    (xy : List (Option (Pt F) × Option (Pt F))) (size index : Nat) :
    locateEdge a b t'.data isect indices xy size index = locateEdge a b t.data isect indices xy size index := by
  have : edgeVisit t'.data (isect a b) a b index = edgeVisit t.data (isect a b) a b index := by
    funext k st
    unfold edgeVisit
    simp only [h.nodes, edgeLeafLoop_same h]
  unfold locateEdge
  rw [this, h.fuel, h.bbox]

theorem edgeRetry_same (h : SameData t t') (isect : Pt F → Pt F → Nat → M (Isect F)) (a b : Pt F) (index total fuel : Nat)
    (indices : List (Nat × Nat)) (xy : List (Option (Pt F) × Option (Pt F))) (size : Nat) :
    edgeRetry a b t'.data isect index total fuel indices xy size =
      edgeRetry a b t.data isect index total fuel indices xy size := by
  induction fuel generalizing indices xy size with
  | zero => rfl
  | succ fuel ih =>
    unfold edgeRetry
    simp only [locateEdge_same h, ih]

theorem edgeHelperLoop_same (h : SameData t t') (isect : Pt F → Pt F → Nat → M (Isect F)) (offset : Nat)
    (edges : List (Pt F × Pt F)) (k : Nat) (indices : List (Nat × Nat)) (xy : List (Option (Pt F) × Option (Pt F)))
    (total size : Nat) :
    edgeHelperLoop t'.data isect offset edges k indices xy total size =
      edgeHelperLoop t.data isect offset edges k indices xy total size := by
  induction edges generalizing k indices xy total size with
  | nil => rfl
  | cons e edges ih =>
    unfold edgeHelperLoop
    simp only [edgeRetry_same h, h.bbIndices, ih]

theorem locateEdges_same (h : SameData t t') (isect : Pt F → Pt F → Nat → M (Isect F)) (edges : List (Pt F × Pt F))
    (nThreads : Nat) (sched : List Nat) :
    locateEdges edges t'.data isect nThreads sched = locateEdges edges t.data isect nThreads sched := by
  unfold locateEdges locateEdgesHelper
  simp only [edgeHelperLoop_same h]

theorem intersectEdges_same (h : SameTree t t') (env : Env F) (edges : List (Pt F × Pt F)) (nThreads : Nat) (sched : List Nat) :
    t'.intersectEdges env edges nThreads sched = t.intersectEdges env edges nThreads sched := by
  unfold CellTree.intersectEdges
  rw [cyrus_same h, locateEdges_same h.toSameData]

theorem weights_same (h : SameTree t t') (hm : t'.nMaxVert = t.nMaxVert) (env : Env F) (points : List (Pt F)) (tol : Option F)
    (sched sched1 : List Nat) :
    t'.barycentricWeights env points tol sched sched1 = t.barycentricWeights env points tol sched sched1 := by
  have h1 : ∀ idx, barycentricTriangleWeights points idx t'.data.elements t'.data.vertices sched1 =
      barycentricTriangleWeights points idx t.data.elements t.data.vertices sched1 := by
    intro idx
    unfold barycentricTriangleWeights
    congr 1
    funext i
    refine bind_congr_left _ fun k => ?_
    split
    · rfl
    · exact h.rows.rdI_bind (fun A A' hA => by rw [asTriangle_same hA]) k
  have h2 : ∀ idx τ, barycentricWachspressWeights env points idx t'.data.elements t'.nMaxVert t'.data.vertices τ sched1 =
      barycentricWachspressWeights env points idx t.data.elements t.nMaxVert t.data.vertices τ sched1 := by
    intro idx τ
    unfold barycentricWachspressWeights
    rw [hm]
    congr 1
    funext i
    refine bind_congr_left _ fun k => ?_
    split
    · rfl
    · exact h.rows.rdI_bind (fun A A' hA => by rw [copyVertices_same hA h.le h.le']) k
  unfold CellTree.barycentricWeights
  simp only [h.tolerance, locatePoints_same h, h1, h2]
  rw [hm]

/-- Both the tree and the table of query faces may be replaced by one with the same faces. -/
theorem locateFaces_same (h : SameTree t t') (env : Env F) {vs vs' : List (Pt F)} {n n' : Nat} {faces faces' : IntArr}
    (hq : SameRows vs n faces.rows vs' n' faces'.rows) (hn : n ≤ maxNVertex) (hn' : n' ≤ maxNVertex) (nThreads : Nat)
    {sched sched' : List Nat} (hs : sched.Perm (List.range faces.rows.length))
    (hs' : sched'.Perm (List.range faces'.rows.length)) (sched1 : List Nat) (sched2 : Nat → List Nat) :
    ∃ rows rows', SameRows vs n rows vs' n' rows' ∧ 
      t.locateFaces env vs faces nThreads sched sched1 sched2 = 
        (fun x => (rows, x.1, x.2)) <$> (Prod.snd <$> t.locateFaces env vs faces nThreads sched sched1 sched2) ∧
      t'.locateFaces env vs' faces' nThreads sched' sched1 sched2 =
        (fun x => (rows', x.1, x.2)) <$> (Prod.snd <$> t.locateFaces env vs faces nThreads sched sched1 sched2) := by
  obtain ⟨rows, rows', e1, e2, hr⟩ := counterClockwise_same hq hs hs'
  refine ⟨rows, rows', hr, ?_⟩
  have h1 : ∀ I J s, polygonsIntersect env vs' t'.data.vertices rows' t'.data.elements I J s =
      polygonsIntersect env vs t.data.vertices rows t.data.elements I J s := by
    intro I J s
    unfold polygonsIntersect
    congr 1
    funext i
    refine bind_congr_left _ fun k => ?_
    refine hr.rd_bind (fun A A' hA => ?_) k
    refine bind_congr_left _ fun j => ?_
    refine h.rows.rd_bind (fun B B' hB => ?_) j
    rw [copyVertices_same hA hn hn', copyVertices_same hB h.le h.le']
  unfold CellTree.locateFaces
  rw [e1, e2]
  simp only [ok_bind, buildFaceBboxes_same hr, locateBoxes_same h.toSameData, h1]
  cases buildFaceBboxes rows vs with
  | error e => exact ⟨rfl, rfl⟩
  | ok boxes =>
    simp only [ok_bind]
    cases Celltree.locateBoxes boxes t.data nThreads sched1 with
    | error e => exact ⟨rfl, rfl⟩
    | ok ij =>
      simp only [ok_bind]
      cases polygonsIntersect env vs t.data.vertices rows t.data.elements ij.1 ij.2 (sched2 ij.1.length) with
      | error e => exact ⟨rfl, rfl⟩
      | ok m => exact ⟨rfl, rfl⟩

theorem nodeBounds_same (h : SameData t t') (garbage : Box F) : t'.nodeBounds garbage = t.nodeBounds garbage := by
  have : boundsVisit t'.data = boundsVisit t.data := by
    funext x bounds
    unfold boundsVisit
    simp only [h.nodes]
  unfold CellTree.nodeBounds collectNodeBounds
  rw [this, h.fuel, h.bbox, h.nodes]

theorem leafContained_same (h : SameData t t') (bbox : Box F) (n i : Nat) (valid : Bool) :
    leafContained t'.data bbox n i valid = leafContained t.data bbox n i valid := by
  induction n generalizing i valid with
  | zero => rfl
  | succ n ih =>
    unfold leafContained
    rw [h.bbIndices, h.bbCoords]
    simp only [ih]

theorem validateNodeBounds_same (h : SameData t t') (garbage : Box F) :
    t'.validateNodeBounds garbage = t.validateNodeBounds garbage := by
  have : ∀ bounds, Celltree.validateNodeBounds t'.data bounds = Celltree.validateNodeBounds t.data bounds := by
    intro bounds
    have hv : validateVisit t'.data bounds = validateVisit t.data bounds := by
      funext x v
      unfold validateVisit
      simp only [h.nodes, leafContained_same h]
    unfold Celltree.validateNodeBounds
    rw [hv, h.fuel, h.nodes]
  unfold CellTree.validateNodeBounds
  simp only [nodeBounds_same h, this]

theorem rd_snoc {α : Type} (l : List α) (a : α) : rd (l ++ [a]) l.length = .ok a := rd_of_some (by simp)

theorem intersectFacesH_same (h : SameTree t t') (env : Env F) {vs vs' : List (Pt F)} {fill fill' : Int} {faces faces' : IntArr}
    (hv : ValidFaces vs.length fill faces) (hv' : ValidFaces vs'.length fill' faces')
    (hq : SameFaces vs fill faces vs' fill' faces') (hn : faces.ncol ≤ maxNVertex) (hn' : faces'.ncol ≤ maxNVertex)
    {H H' : Heap} {ref ref' : Nat} (hH : H[ref]? = some faces) (hH' : H'[ref']? = some faces') (nThreads : Nat)
    {sched sched' : List Nat} (hs : sched.Perm (List.range faces.rows.length))
    (hs' : sched'.Perm (List.range faces'.rows.length)) (sched1 : List Nat) (sched2 sched3 : Nat → List Nat) :
    Prod.snd <$> t'.intersectFacesH env H' vs' ref' fill' nThreads sched' sched1 sched2 sched3 =
      Prod.snd <$> t.intersectFacesH env H vs ref fill nThreads sched sched1 sched2 sched3 := by
  obtain ⟨rows, rows', hr, e1, e2⟩ := locateFaces_same h env
    (faces := ⟨faces.ncol, faces.rows.map fun r => padRow faces.ncol (rowIndices fill r)⟩)
    (faces' := ⟨faces'.ncol, faces'.rows.map fun r => padRow faces'.ncol (rowIndices fill' r)⟩)
    (hq.sameRows hv hv') hn hn' nThreads (sched := sched) (sched' := sched') (by simpa using hs) (by simpa using hs')
    sched1 sched2
  unfold CellTree.intersectFacesH CellTree.locateFacesH
  rw [rd_of_some hH, rd_of_some hH', ok_bind, ok_bind, castFaces_ok hv hn, castFaces_ok hv' hn', ok_bind, ok_bind]
  simp only
  rw [rd_snoc, rd_snoc, ok_bind, ok_bind]
  rw [e1, e2]
  cases (Prod.snd <$> t.locateFaces env vs ⟨faces.ncol, faces.rows.map fun r => padRow faces.ncol (rowIndices fill r)⟩
    nThreads sched sched1 sched2 : M (List Nat × List Nat)) with
  | error e => rfl
  | ok x =>
    obtain ⟨I, J⟩ := x
    have hw : ∀ (G : Heap) (a b : IntArr), wr (G ++ [a]) G.length b = .ok (G ++ [b]) := by
      intro G a b
      rw [wr_of_lt (by simp)]
      simp
    have ha : areaOfIntersection vs' t'.data.vertices rows' t'.data.elements I J (sched3 I.length) =
        areaOfIntersection vs t.data.vertices rows t.data.elements I J (sched3 I.length) := by
      unfold areaOfIntersection
      congr 1
      funext i
      refine bind_congr_left _ fun k => ?_
      refine hr.rd_bind (fun A A' hA => ?_) k
      refine bind_congr_left _ fun j => ?_
      refine h.rows.rd_bind (fun B B' hB => ?_) j
      rw [copyVertices_same hA hn hn', copyVertices_same hB h.le h.le']
    simp only [Functor.map, Except.map, ok_bind, hw]
    rw [rd_snoc, rd_snoc, ok_bind, ok_bind]
    simp only [ha]
    cases areaOfIntersection vs t.data.vertices rows t.data.elements I J (sched3 I.length) with
    | error e => rfl
    | ok m => rfl

end

/-! ## Trees of edges -/

section
variable {vs vs' : List (Pt F)} {rows rows' : List (List Int)}

/-- Two tables of edges with the same ends. -/
structure SameEdgeRows (vs : List (Pt F)) (rows : List (List Int)) (vs' : List (Pt F)) (rows' : List (List Int)) : Prop where
  length : rows'.length = rows.length
  row : ∀ (i : Nat) r r', rows[i]? = some r → rows'[i]? = some r' → ∃ v w v' w' p q, r = [v, w] ∧ r' = [v', w'] ∧
    rdI vs v = .ok p ∧ rdI vs' v' = .ok p ∧ rdI vs w = .ok q ∧ rdI vs' w' = .ok q

theorem SameEdgeRows.rd_bind {β : Type} (h : SameEdgeRows vs rows vs' rows') {f f' : List Int → M β}
    (hf : ∀ v w v' w' p q, rdI vs v = .ok p → rdI vs' v' = .ok p → rdI vs w = .ok q → rdI vs' w' = .ok q →
      f' [v', w'] = f [v, w]) (i : Nat) :
    (rd rows' i >>= f') = (rd rows i >>= f) := by
  by_cases hi : i < rows.length
  · have hi' : i < rows'.length := by rw [h.length]; exact hi
    obtain ⟨v, w, v', w', p, q, e, e', h1, h2, h3, h4⟩ := h.row i rows[i] rows'[i] (by simp [hi]) (by simp [hi'])
    rw [rd_of_lt hi, rd_of_lt hi', ok_bind, ok_bind, e, e']
    exact hf _ _ _ _ p q h1 h2 h3 h4
  · have hi' : ¬ i < rows'.length := by rw [h.length]; exact hi
    unfold rd
    rw [List.getElem?_eq_none (Nat.le_of_not_lt hi), List.getElem?_eq_none (Nat.le_of_not_lt hi')]
    rfl

theorem buildEdgeBboxes_same (h : SameEdgeRows vs rows vs' rows') (tol : F) :
    buildEdgeBboxes rows' vs' tol = buildEdgeBboxes rows vs tol := by
  unfold buildEdgeBboxes
  refine mapM_same h.length ?_
  intro i r r' hr hr'
  obtain ⟨v, w, v', w', p, q, rfl, rfl, h1, h2, h3, h4⟩ := h.row i r r' hr hr'
  simp [edgeBoundingBox, rd, h1, h2, h3, h4]

variable {t t' : CellTree F}

theorem edgeTest_same (h : SameEdgeRows t.data.vertices t.data.elements t'.data.vertices t'.data.elements) (p : Pt F) (tol : F) :
    edgeTest t'.data p tol = edgeTest t.data p tol := by
  funext j
  unfold edgeTest
  refine h.rd_bind ?_ j
  intro v w v' w' p q h1 h2 h3 h4
  simp [copyVertices, polygonLength, maxNVertex, List.mapM_cons, h1, h2, h3, h4]

theorem edgeEdgeIntersect_same (env : Env F)
    (h : SameEdgeRows t.data.vertices t.data.elements t'.data.vertices t'.data.elements) :
    edgeEdgeIntersect env t'.data = edgeEdgeIntersect env t.data := by
  funext a b j
  unfold edgeEdgeIntersect
  refine h.rd_bind ?_ j
  intro v w v' w' p q h1 h2 h3 h4
  simp [List.mapM_cons, h1, h2, h3, h4]

theorem edgeInit_same {env : Env F} {vertices vertices' : List (Pt F)} {edges edges' : IntArr} {nb cpl : Int}
    (h : SameEdgeRows vertices edges.rows vertices' edges'.rows)
    (hτ : globalTolerance env vertices' = globalTolerance env vertices)
    (ht : EdgeCellTree.init env vertices edges nb cpl = .ok t) :
    ∃ t', EdgeCellTree.init env vertices' edges' nb cpl = .ok t' ∧ SameData t t' ∧
      SameEdgeRows t.data.vertices t.data.elements t'.data.vertices t'.data.elements := by
  unfold EdgeCellTree.init at ht ⊢
  split at ht
  · cases ht
  split at ht
  · cases ht
  rename_i h1 h2
  rw [if_neg h1, if_neg h2, hτ]
  obtain ⟨τ, c0, ht⟩ := bind_eq_ok.1 ht
  rw [c0, ok_bind, buildEdgeBboxes_same h, h.length]
  obtain ⟨coords, c1, ht⟩ := bind_eq_ok.1 ht
  obtain ⟨⟨nodes, idx⟩, c2, ht⟩ := bind_eq_ok.1 ht
  obtain ⟨bbox, c3, ht⟩ := bind_eq_ok.1 ht
  cases ht
  rw [c1, ok_bind, c2, ok_bind]
  simp only
  rw [c3, ok_bind]
  exact ⟨_, rfl, ⟨rfl, rfl, rfl, rfl, rfl, rfl, rfl⟩, h⟩

end

end Celltree
