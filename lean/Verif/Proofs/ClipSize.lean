import Verif.Proofs.FaceSearch

/-!
# The size of clipped polygons, in any arithmetic

Nothing is assumed about the arithmetic: these statements hold for polygons of any shape, for coordinates that are not
numbers, and for every rounding. Clipping a polygon of `n` corners by one line gives at most `(3 n + 1) / 2` corners.
-/

set_option linter.unusedSectionVars false

namespace Celltree

/-- The number of corners after clipping `n` corners by one line. -/
def clipGrow (n : Nat) : Nat := (3 * n + 1) / 2

/-- The number of corners after clipping `n` corners by `m` lines. -/
def clipSize (n : Nat) : Nat → Nat
  | 0 => n
  | m + 1 => clipSize (clipGrow n) m

theorem le_clipGrow (n : Nat) : n ≤ clipGrow n := by unfold clipGrow; omega

theorem clipGrow_mono {a b : Nat} (h : a ≤ b) : clipGrow a ≤ clipGrow b := by unfold clipGrow; omega

theorem clipSize_mono {a b : Nat} (h : a ≤ b) (m : Nat) : clipSize a m ≤ clipSize b m := by
  induction m generalizing a b with
  | zero => exact h
  | succ m ih => exact ih (clipGrow_mono h)

theorem le_clipSize (n m : Nat) : n ≤ clipSize n m := by
  induction m generalizing n with
  | zero => exact Nat.le_refl _
  | succ m ih => exact (le_clipGrow n).trans (ih _)

theorem clipSize_mono_right (n : Nat) {m m' : Nat} (h : m ≤ m') : clipSize n m ≤ clipSize n m' := by
  induction m' generalizing n m with
  | zero => rw [Nat.le_zero.1 h]
  | succ k ih =>
    cases m with
    | zero => exact le_clipSize n (k + 1)
    | succ m => exact ih (clipGrow n) (Nat.le_of_succ_le_succ h)

section
variable {F : Type} [Add F] [Sub F] [Mul F] [Div F] [Neg F] [Zero F] [One F] [IntCast F] [BEq F] [LT F] [LE F] [DecidableLT F] [DecidableLE F]

theorem shIntersection_ok (a V r N : Pt F) : ∃ o, shIntersection a V r N = .ok o := by
  unfold shIntersection
  simp only
  by_cases h : (dot N V == 0) = true
  · rw [h]; exact ⟨none, rfl⟩
  · have h' := Bool.eq_false_iff.2 h
    rw [h']
    unfold fdiv
    rw [h']
    exact ⟨_, rfl⟩

theorem pushPoint_room {out : List (Pt F)} (p : Pt F) (h : out.length < clipMaxNVertex) : pushPoint out p = .ok (out ++ [p]) := by
  unfold pushPoint; rw [if_pos h]

/-- Clipping by one line. -/
theorem shClipLoop_size (r U N : Pt F) (l : List (Pt F)) (a : Pt F) (aIn : Bool) (out : List (Pt F))
    (h : 2 * out.length + 3 * l.length + 1 ≤ 2 * clipMaxNVertex + aIn.toNat) :
    ∃ o, shClipLoop r U N a aIn l out = .ok o ∧ 2 * o.length + aIn.toNat ≤ 2 * out.length + 3 * l.length + 1 := by
  induction l generalizing a aIn out with
  | nil =>
    refine ⟨out, rfl, ?_⟩
    have := Bool.toNat_le aIn
    simp only [List.length_nil]
    omega
  | cons b l ih =>
    rw [List.length_cons] at h ⊢
    unfold shClipLoop
    simp only
    split
    · obtain ⟨o, h1, h2⟩ := ih a aIn out (by omega)
      exact ⟨o, h1, by omega⟩
    · split
      · cases aIn with
        | true =>
          simp only [Bool.toNat_true] at h ⊢
          simp only [Bool.not_true, Bool.false_eq_true, if_false, ok_bind]
          rw [pushPoint_room _ (by omega), ok_bind]
          obtain ⟨o, h1, h2⟩ := ih b true (out ++ [b]) (by simp; omega)
          refine ⟨o, h1, ?_⟩
          simp at h2
          omega
        | false =>
          simp only [Bool.toNat_false] at h ⊢
          simp only [Bool.not_false, if_true]
          obtain ⟨i, hi⟩ := shIntersection_ok a ⟨b.x - a.x, b.y - a.y⟩ r N
          rw [hi, ok_bind]
          cases i with
          | none =>
            simp only [ok_bind]
            rw [pushPoint_room _ (by omega), ok_bind]
            obtain ⟨o, h1, h2⟩ := ih b true (out ++ [b]) (by simp; omega)
            refine ⟨o, h1, ?_⟩
            simp at h2
            omega
          | some p =>
            simp only
            rw [pushPoint_room _ (by omega), ok_bind, pushPoint_room _ (by simp; omega), ok_bind]
            obtain ⟨o, h1, h2⟩ := ih b true (out ++ [p] ++ [b]) (by simp; omega)
            refine ⟨o, h1, ?_⟩
            simp at h2
            omega
      · cases aIn with
        | true =>
          simp only [Bool.toNat_true] at h ⊢
          simp only [if_true]
          obtain ⟨i, hi⟩ := shIntersection_ok a ⟨b.x - a.x, b.y - a.y⟩ r N
          rw [hi, ok_bind]
          cases i with
          | none =>
            simp only
            rw [pushPoint_room _ (by omega), ok_bind]
            obtain ⟨o, h1, h2⟩ := ih b true (out ++ [b]) (by simp; omega)
            refine ⟨o, h1, ?_⟩
            simp at h2
            omega
          | some p =>
            simp only
            rw [pushPoint_room _ (by omega), ok_bind]
            obtain ⟨o, h1, h2⟩ := ih b false (out ++ [p]) (by simp; omega)
            refine ⟨o, h1, ?_⟩
            simp at h2
            omega
        | false =>
          simp only [Bool.false_eq_true, if_false]
          obtain ⟨o, h1, h2⟩ := ih b false out (by simp at h ⊢; omega)
          exact ⟨o, h1, by simp at h2 ⊢; omega⟩

theorem shOuterLoop_size (cl : List (Pt F)) (r : Pt F) (l : List (Pt F)) (hl : 3 ≤ l.length)
    (h : clipSize l.length cl.length ≤ clipMaxNVertex) :
    ∃ o, shOuterLoop r cl l = .ok o ∧ ∀ out, o = some out → 3 ≤ out.length ∧ out.length ≤ clipMaxNVertex := by
  induction cl generalizing r l with
  | nil =>
    refine ⟨_, rfl, fun out ho => ?_⟩
    cases ho
    exact ⟨hl, h⟩
  | cons s cl ih =>
    have hg : clipSize (clipGrow l.length) cl.length ≤ clipMaxNVertex := h
    unfold shOuterLoop
    simp only
    split
    · exact ih r l hl ((clipSize_mono (le_clipGrow _) _).trans hg)
    · have hne : l ≠ [] := by rintro rfl; simp at hl
      rw [rdI_length_sub_one hne, ok_bind]
      generalize l.getLast hne = a
      have hc : clipGrow l.length ≤ clipMaxNVertex := (le_clipSize _ _).trans hg
      have hc2 := Bool.toNat_le (shInside a r ⟨s.x - r.x, s.y - r.y⟩)
      obtain ⟨o, h1, h2⟩ := shClipLoop_size r ⟨s.x - r.x, s.y - r.y⟩ ⟨-(s.y - r.y), s.x - r.x⟩ l a
        (shInside a r ⟨s.x - r.x, s.y - r.y⟩) [] (by
          unfold clipGrow clipMaxNVertex maxNVertex at hc
          unfold clipMaxNVertex maxNVertex
          rw [List.length_nil]
          omega)
      rw [h1, ok_bind]
      split
      · exact ⟨none, rfl, fun out ho => by cases ho⟩
      · refine ih s o (by omega) ((clipSize_mono ?_ _).trans hg)
        unfold clipGrow
        simp at h2
        omega

/-- Clipping raises nothing as long as the work arrays have room. -/
theorem polygonPolygonClipArea_ok {l cl : List (Pt F)} (hl : 3 ≤ l.length) (hcl : cl ≠ [])
    (h : clipSize l.length cl.length ≤ clipMaxNVertex) : ∃ a, polygonPolygonClipArea l cl = .ok a := by
  obtain ⟨o, h1, h2⟩ := shOuterLoop_size cl (cl.getLast hcl) l hl h
  unfold polygonPolygonClipArea polygonPolygonClip
  rw [if_neg (by have := le_clipSize l.length cl.length; omega), rdI_length_sub_one hcl, ok_bind, h1, ok_bind]
  cases o with
  | none => exact ⟨_, rfl⟩
  | some out =>
    obtain ⟨h3, _⟩ := h2 out rfl
    match out, h3 with
    | a :: b :: rest, _ => exact ⟨_, rfl⟩

theorem separatingAxes_ok {env : Env F} {a : List (Pt F)} (b : List (Pt F)) (h : a ≠ []) :
    ∃ x, separatingAxes env a b = .ok x := by
  unfold separatingAxes
  rw [rdI_length_sub_one h, ok_bind]
  exact ⟨_, rfl⟩

theorem clipSize_box {n : Nat} (h : n ≤ 6) : clipSize 4 n ≤ clipMaxNVertex :=
  (clipSize_mono_right 4 h).trans (by decide)

theorem clipSize_five {n m : Nat} (hn : n ≤ 5) (hm : m ≤ 5) : clipSize n m ≤ clipMaxNVertex :=
  ((clipSize_mono hn m).trans (clipSize_mono_right 5 hm)).trans (by decide)

end

/-! ## Queries -/

section
variable {F : Type} [Add F] [Sub F] [Mul F] [Div F] [Neg F] [Zero F] [One F] [IntCast F] [BEq F] [LT F] [LE F] [DecidableLT F] [DecidableLE F]
variable [NumOrd F]
variable {env : Env F} {vertices : List (Pt F)} {faces : IntArr} {fill : Int} {nb cpl : Nat} {t : CellTree F} {bt : BT}
variable {verticesA : List (Pt F)} {facesA : IntArr} {fillA : Int} {rows : List (List Int)}

theorem storedPts_length (h : Oriented vertices fill faces rows) (hc : faces.ncol ≤ maxNVertex) {i : Nat} {r : List Int}
    (hi : faces.rows[i]? = some r) :
    (storedPts vertices fill faces.ncol r).length = (facePts vertices fill r).length ∧
      3 ≤ (storedPts vertices fill faces.ncol r).length := by
  obtain ⟨_, h2, h3⟩ := h.polygon hc hi
  refine ⟨?_, h3⟩
  rcases h2 with h2 | h2 <;> rw [h2]
  exact List.length_reverse

/-- The pairs found by the search, in terms of the points of the faces, in any arithmetic. -/
theorem mem_boxPairs_iff' (hc : Constructed env vertices faces fill nb cpl t bt) {boxes : List (Box F)} {i j : Nat} :
    (i, j) ∈ boxPairs t.data bt boxes ↔ ∃ q r, boxes[i]? = some q ∧ faces.rows[j]? = some r ∧
        BoxOverlapsPts q (facePts vertices fill r) := by
  rw [mem_boxPairs]
  constructor
  · rintro ⟨q, hq, hj⟩
    obtain ⟨b, hb, hb'⟩ := (mem_boxHits hc.tree q j).1 hj
    have hlt : j < faces.rows.length := by
      rw [← hc.boxes.length]; exact (List.getElem?_eq_some_iff.1 hb).1
    obtain ⟨b', c1, c2⟩ := hc.boxes.box j faces.rows[j] (by simp)
    rw [hb] at c1
    cases c1
    exact ⟨q, _, hq, by simp [hlt], (c2.overlap_iff q).1 hb'⟩
  · rintro ⟨q, r, hq, hr, ho⟩
    obtain ⟨b, c1, c2⟩ := hc.boxes.box j r hr
    exact ⟨q, hq, (mem_boxHits hc.tree q j).2 ⟨b, c1, (c2.overlap_iff q).2 ho⟩⟩

/-- The areas of boxes and faces. -/
theorem boxAreas_total (hc : Constructed env vertices faces fill nb cpl t bt) (hcol : faces.ncol ≤ maxNVertex)
    (hsize : ∀ r ∈ faces.rows, clipSize 4 (facePts vertices fill r).length ≤ clipMaxNVertex) {boxes : List (Box F)}
    {sched : List Nat} (hs : sched.Perm (List.range (boxPairs t.data bt boxes).length)) :
    ∃ f, boxAreaOfIntersection boxes t.data.vertices t.data.elements ((boxPairs t.data bt boxes).map Prod.fst)
        ((boxPairs t.data bt boxes).map Prod.snd) sched = .ok ((boxPairs t.data bt boxes).map f) := by
  have := prange_pairs_exists (L := boxPairs t.data bt boxes) hs (0 : F)
    (body := fun i => do
      let box ← rd boxes (← rd ((boxPairs t.data bt boxes).map Prod.fst) i)
      let face ← rd t.data.elements (← rd ((boxPairs t.data bt boxes).map Prod.snd) i)
      let a := copyBoxVertices box
      let b ← copyVertices t.data.vertices face
      polygonPolygonClipArea a b)
    (Q := fun _ _ => True) (by
      rintro ⟨i, j⟩ hx
      obtain ⟨q, s, hq, hs, _⟩ := (mem_boxPairs_iff' hc).1 hx
      obtain ⟨hl, h3⟩ := storedPts_length hc.elements hcol hs
      obtain ⟨a, ha⟩ := polygonPolygonClipArea_ok (l := copyBoxVertices q) (cl := storedPts vertices fill faces.ncol s)
        (by simp [copyBoxVertices]) (by intro h0; rw [h0] at h3; simp at h3) (by
          rw [hl]; exact hsize s (List.mem_of_getElem? hs))
      refine ⟨a, trivial, fun k hk => ?_⟩
      obtain ⟨y, hy1, hy2⟩ := bind_eq_ok.1 (hc.elements.polygon hcol hs).1
      rw [rd_of_some (show ((boxPairs t.data bt boxes).map Prod.fst)[k]? = some i by simp [hk]),
        rd_of_some (show ((boxPairs t.data bt boxes).map Prod.snd)[k]? = some j by simp [hk])]
      simp only [ok_bind]
      rw [hy1, rd_of_some hq]
      simp only [ok_bind]
      rw [hc.vertices_eq, hy2, ok_bind, ha])
  obtain ⟨f, h1, _⟩ := this
  refine ⟨f, ?_⟩
  unfold boxAreaOfIntersection
  rw [List.length_map, h1]

/-- The separating axis test of all pairs. -/
theorem faceTests_total (hc : Constructed env vertices faces fill nb cpl t bt) (hcol : faces.ncol ≤ maxNVertex)
    (hcolA : facesA.ncol ≤ maxNVertex) (ho : Oriented verticesA fillA facesA rows) {L : List (Nat × Nat)}
    (hL : ∀ i j, (i, j) ∈ L → ∃ r s, facesA.rows[i]? = some r ∧ faces.rows[j]? = some s)
    {sched : List Nat} (hs : sched.Perm (List.range L.length)) :
    ∃ f : Nat × Nat → Bool, polygonsIntersect env verticesA t.data.vertices rows t.data.elements (L.map Prod.fst)
        (L.map Prod.snd) sched = .ok (L.map f) ∧
      ∀ i j r s, (i, j) ∈ L → facesA.rows[i]? = some r → faces.rows[j]? = some s →
        (f (i, j) = true ↔
          separatingAxes env (storedPts verticesA fillA facesA.ncol r) (storedPts vertices fill faces.ncol s) = .ok true ∧
          separatingAxes env (storedPts vertices fill faces.ncol s) (storedPts verticesA fillA facesA.ncol r) = .ok true) := by
  have := prange_pairs_exists (L := L) hs false
    (body := fun i => do
      let faceA ← rd rows (← rd (L.map Prod.fst) i)
      let faceB ← rd t.data.elements (← rd (L.map Prod.snd) i)
      let a ← copyVertices verticesA faceA
      let b ← copyVertices t.data.vertices faceB
      let ab ← separatingAxes env a b
      if ab then separatingAxes env b a else .ok false)
    (Q := fun x b => ∀ r s, facesA.rows[x.1]? = some r → faces.rows[x.2]? = some s →
        (b = true ↔
          separatingAxes env (storedPts verticesA fillA facesA.ncol r) (storedPts vertices fill faces.ncol s) = .ok true ∧
          separatingAxes env (storedPts vertices fill faces.ncol s) (storedPts verticesA fillA facesA.ncol r) = .ok true)) (by
      rintro ⟨i, j⟩ hx
      obtain ⟨r, s, hr, hs⟩ := hL i j hx
      have h3 := (storedPts_length ho hcolA hr).2
      have h3' := (storedPts_length hc.elements hcol hs).2
      obtain ⟨u, hu⟩ := separatingAxes_ok (env := env) (a := storedPts verticesA fillA facesA.ncol r)
        (storedPts vertices fill faces.ncol s) (by intro h0; rw [h0] at h3; simp at h3)
      obtain ⟨v, hv⟩ := separatingAxes_ok (env := env) (a := storedPts vertices fill faces.ncol s)
        (storedPts verticesA fillA facesA.ncol r) (by intro h0; rw [h0] at h3'; simp at h3')
      refine ⟨u && v, fun r' s' hr' hs' => ?_, fun k hk => ?_⟩
      · rw [hr] at hr'; cases hr'
        rw [hs] at hs'; cases hs'
        rw [hu, hv]
        cases u <;> cases v <;> simp
      obtain ⟨x, hx1, hx2⟩ := bind_eq_ok.1 (ho.polygon hcolA hr).1
      obtain ⟨y, hy1, hy2⟩ := bind_eq_ok.1 (hc.elements.polygon hcol hs).1
      rw [rd_of_some (show (L.map Prod.fst)[k]? = some i by simp [hk]),
        rd_of_some (show (L.map Prod.snd)[k]? = some j by simp [hk])]
      simp only [ok_bind]
      rw [hx1, hy1]
      simp only [ok_bind]
      rw [hx2, hc.vertices_eq, hy2]
      simp only [ok_bind]
      rw [hu, ok_bind]
      cases u
      · rfl
      · rw [if_pos rfl, hv, Bool.true_and])
  obtain ⟨f, h1, h2⟩ := this
  refine ⟨f, ?_, fun i j r s hij hr hs => h2 (i, j) hij r s hr hs⟩
  unfold polygonsIntersect
  rw [List.length_map, h1]

/-- The areas of pairs of faces. -/
theorem faceAreas_total (hc : Constructed env vertices faces fill nb cpl t bt) (hcol : faces.ncol ≤ maxNVertex)
    (hcolA : facesA.ncol ≤ maxNVertex) (ho : Oriented verticesA fillA facesA rows)
    (hsize : ∀ r ∈ facesA.rows, ∀ s ∈ faces.rows,
      clipSize (facePts verticesA fillA r).length (facePts vertices fill s).length ≤ clipMaxNVertex) {L : List (Nat × Nat)}
    (hL : ∀ i j, (i, j) ∈ L → ∃ r s, facesA.rows[i]? = some r ∧ faces.rows[j]? = some s)
    {sched : List Nat} (hs : sched.Perm (List.range L.length)) :
    ∃ f, areaOfIntersection verticesA t.data.vertices rows t.data.elements (L.map Prod.fst) (L.map Prod.snd) sched =
      .ok (L.map f) := by
  have := prange_pairs_exists (L := L) hs (0 : F)
    (body := fun i => do
      let faceA ← rd rows (← rd (L.map Prod.fst) i)
      let faceB ← rd t.data.elements (← rd (L.map Prod.snd) i)
      let a ← copyVertices verticesA faceA
      let b ← copyVertices t.data.vertices faceB
      polygonPolygonClipArea a b)
    (Q := fun _ _ => True) (by
      rintro ⟨i, j⟩ hx
      obtain ⟨r, s, hr, hs⟩ := hL i j hx
      obtain ⟨l3, h3⟩ := storedPts_length ho hcolA hr
      obtain ⟨l3', h3'⟩ := storedPts_length hc.elements hcol hs
      obtain ⟨a, ha⟩ := polygonPolygonClipArea_ok (l := storedPts verticesA fillA facesA.ncol r)
        (cl := storedPts vertices fill faces.ncol s) h3 (by intro h0; rw [h0] at h3'; simp at h3') (by
          rw [l3, l3']; exact hsize r (List.mem_of_getElem? hr) s (List.mem_of_getElem? hs))
      refine ⟨a, trivial, fun k hk => ?_⟩
      obtain ⟨x, hx1, hx2⟩ := bind_eq_ok.1 (ho.polygon hcolA hr).1
      obtain ⟨y, hy1, hy2⟩ := bind_eq_ok.1 (hc.elements.polygon hcol hs).1
      rw [rd_of_some (show (L.map Prod.fst)[k]? = some i by simp [hk]),
        rd_of_some (show (L.map Prod.snd)[k]? = some j by simp [hk])]
      simp only [ok_bind]
      rw [hx1, hy1]
      simp only [ok_bind]
      rw [hx2, hc.vertices_eq, hy2]
      exact ha)
  obtain ⟨f, h1, _⟩ := this
  refine ⟨f, ?_⟩
  unfold areaOfIntersection
  rw [List.length_map, h1]

/-- The boxes of the query faces, the search and the separating axis test: what `locate_faces` does after the orientation
has been normalised. -/
theorem faceSearch_total (hc : Constructed env vertices faces fill nb cpl t bt) (hcol : faces.ncol ≤ maxNVertex)
    (hcolA : facesA.ncol ≤ maxNVertex) (ho : Oriented verticesA fillA facesA rows)
    (hnA : NumFaces verticesA fillA facesA)
    {nThreads : Nat} (hn : 0 < nThreads) {sched1 : List Nat} (hs1 : sched1.Perm (List.range nThreads))
    {sched2 : Nat → List Nat} (hs2 : ∀ n, (sched2 n).Perm (List.range n)) :
    ∃ (boxes : List (Box F)) (L P : List (Nat × Nat)) (f : Nat × Nat → Bool), buildFaceBboxes rows verticesA = .ok boxes ∧
      Celltree.locateBoxes boxes t.data nThreads sched1 = .ok (L.map Prod.fst, L.map Prod.snd) ∧
      polygonsIntersect env verticesA t.data.vertices rows t.data.elements (L.map Prod.fst) (L.map Prod.snd)
        (sched2 L.length) = .ok (L.map f) ∧ P = L.filter f ∧ P.Nodup ∧ P.Pairwise (fun a b => a.1 ≤ b.1) ∧
      (∀ i j, (i, j) ∈ P → ∃ r s a b, facesA.rows[i]? = some r ∧ faces.rows[j]? = some s ∧
        IsBBox (facePts verticesA fillA r) a ∧ IsBBox (facePts vertices fill s) b ∧ BoxesOverlap a b) ∧
      ∀ i j r s, facesA.rows[i]? = some r → faces.rows[j]? = some s → ((i, j) ∈ P ↔
        (∃ a, IsBBox (facePts verticesA fillA r) a ∧ BoxOverlapsPts a (facePts vertices fill s)) ∧
          separatingAxes env (storedPts verticesA fillA facesA.ncol r) (storedPts vertices fill faces.ncol s) = .ok true ∧
          separatingAxes env (storedPts vertices fill faces.ncol s) (storedPts verticesA fillA facesA.ncol r) = .ok true) := by
  obtain ⟨boxes, hb1, hb2⟩ := buildFaceBboxes_spec ho hnA
  have hL := boxPairs_nodup hc.tree boxes
  have hmem : ∀ i j, (i, j) ∈ boxPairs t.data bt boxes → ∃ r s a b, facesA.rows[i]? = some r ∧ faces.rows[j]? = some s ∧
      IsBBox (facePts verticesA fillA r) a ∧ IsBBox (facePts vertices fill s) b ∧ BoxesOverlap a b := by
    intro i j hx
    obtain ⟨q, s, hq, hs, hov⟩ := (mem_boxPairs_iff' hc).1 hx
    have hi : i < facesA.rows.length := by rw [← hb2.length]; exact (List.getElem?_eq_some_iff.1 hq).1
    obtain ⟨q', c1, c2⟩ := hb2.box i facesA.rows[i] (by simp)
    rw [hq] at c1
    cases c1
    obtain ⟨b, _, d2⟩ := hc.boxes.box j s hs
    obtain ⟨⟨u1, v1, w1⟩, ⟨u2, v2, w2⟩, ⟨u3, v3, w3⟩, u4, v4, w4⟩ := hov
    exact ⟨_, s, q, b, by simp [hi], hs, c2, d2, NumOrd.lt_of_lt_of_le w1 (d2.contains _ v1).2.1,
      NumOrd.lt_of_le_of_lt (d2.contains _ v2).1 w2, NumOrd.lt_of_lt_of_le w3 (d2.contains _ v3).2.2.2,
      NumOrd.lt_of_le_of_lt (d2.contains _ v4).2.2.1 w4⟩
  obtain ⟨f, hf, hf'⟩ := faceTests_total hc hcol hcolA ho (fun i j hx => by
    obtain ⟨r, s, _, _, h1, h2, _⟩ := hmem i j hx
    exact ⟨r, s, h1, h2⟩) (hs2 _)
  refine ⟨boxes, boxPairs t.data bt boxes, _, f, hb1, locateBoxes_spec hc.tree boxes hn hs1, hf, rfl, hL.1.filter _,
    hL.2.filter _, fun i j h => hmem i j (List.mem_filter.1 h).1, fun i j r s hr hs => ?_⟩
  rw [List.mem_filter]
  constructor
  · rintro ⟨h1, h2⟩
    refine ⟨?_, (hf' i j r s h1 hr hs).1 h2⟩
    obtain ⟨q, s', hq, hs', hov⟩ := (mem_boxPairs_iff' hc).1 h1
    rw [hs] at hs'; cases hs'
    obtain ⟨q', c1, c2⟩ := hb2.box i r hr
    rw [hq] at c1; cases c1
    exact ⟨q, c2, hov⟩
  · rintro ⟨⟨a, h1, h2⟩, h3⟩
    have hij : (i, j) ∈ boxPairs t.data bt boxes := by
      obtain ⟨q', c1, c2⟩ := hb2.box i r hr
      refine (mem_boxPairs_iff' hc).2 ⟨q', s, c1, hs, ?_⟩
      obtain ⟨⟨u1, v1, w1⟩, ⟨u2, v2, w2⟩, ⟨u3, v3, w3⟩, u4, v4, w4⟩ := h2
      obtain ⟨x1, y1, z1⟩ := h1.left
      obtain ⟨x2, y2, z2⟩ := h1.right
      obtain ⟨x3, y3, z3⟩ := h1.bottom
      obtain ⟨x4, y4, z4⟩ := h1.top
      exact ⟨⟨u1, v1, NumOrd.lt_of_le_of_lt (c2.contains _ y1).1 (z1 ▸ w1)⟩,
        ⟨u2, v2, NumOrd.lt_of_lt_of_le (z2 ▸ w2) (c2.contains _ y2).2.1⟩,
        ⟨u3, v3, NumOrd.lt_of_le_of_lt (c2.contains _ y3).2.2.1 (z3 ▸ w3)⟩,
        ⟨u4, v4, NumOrd.lt_of_lt_of_le (z4 ▸ w4) (c2.contains _ y4).2.2.2⟩⟩
    exact ⟨hij, (hf' i j r s hij hr hs).2 h3⟩

end

end Celltree
