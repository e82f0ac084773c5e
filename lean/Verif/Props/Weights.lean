import Verif.Proofs.WeightRows
import Verif.Props.Memory
import Verif.Props.BuildOk
import Mathlib.Analysis.Real.Sqrt

/-!
# C44 – C47, C61 – C63: interpolation weights
-/

set_option linter.unusedSectionVars false

namespace Celltree

section Exact
variable {K : Type} [Field K] [LinearOrder K] [IsStrictOrderedRing K]

/-- **C44** (exact arithmetic): for a triangle of positive area, in either order, and a point in it or on its border, the
weights are not negative, sum to one and reproduce the point. -/
theorem C44_triangle_weights {a b c p : Pt K} (h : orient a b c ≠ 0)
    (hp : InPoly [a, b, c] p ∨ InPoly [a, c, b] p) :
    ∃ row, triangleWeights ⟨a, b, c⟩ p = .ok row ∧ Interpolates [a, b, c] p row := by
  refine ⟨_, triangleWeights_eq h p, ?_⟩
  have hpos : ∀ {a b c : Pt K}, orient a b c ≠ 0 → InPoly [a, b, c] p → 0 < orient a b c := by
    intro a b c h hp
    have h1 := hp (a, b) (by simp [sides])
    have h2 := hp (b, c) (by simp [sides])
    have h3 := hp (c, a) (by simp [sides])
    simp only at h1 h2 h3
    have e : orient a b p + orient b c p + orient c a p = orient a b c := by unfold orient; ring
    exact lt_of_le_of_ne (by linarith) h.symm
  rcases hp with hp | hp
  · exact triangle_interpolates (hpos h hp) hp
  · have e : orient a c b = - orient a b c := by unfold orient; ring
    have h' : orient a c b ≠ 0 := by rw [e]; exact neg_ne_zero.2 h
    have := triangle_interpolates (hpos h' hp) hp
    rw [e, abs_neg] at this
    refine ⟨?_, ?_, by simp, ?_⟩
    · intro w hw
      refine this.nonneg w ?_
      simp only [List.mem_cons, List.not_mem_nil, or_false] at hw ⊢
      rcases hw with hw | hw | hw
      · left; rw [hw]; ring
      · right; right; exact hw
      · right; left; exact hw
    · simp only [List.sum_cons, List.sum_nil]; ring
    · have hx := congrArg Pt.x this.point
      have hy := congrArg Pt.y this.point
      simp only [weighted, List.zip_cons_cons, List.zip_nil_right, List.map_cons, List.map_nil, List.sum_cons,
        List.sum_nil] at hx hy
      apply Pt.ext'
      · rw [← hx]
        simp only [weighted, List.zip_cons_cons, List.zip_nil_right, List.map_cons, List.map_nil, List.sum_cons,
          List.sum_nil]
        ring
      · rw [← hy]
        simp only [weighted, List.zip_cons_cons, List.zip_nil_right, List.map_cons, List.map_nil, List.sum_cons,
          List.sum_nil]
        ring

/-- **C45** (exact arithmetic), inside: for a convex polygon with any number of corners, in which no corner is given twice
in a row, and a point strictly inside that is not within the tolerance of the line of a side, the weights exist (no
division by zero), are not negative, sum to one and reproduce the point. Straight corners are allowed. -/
theorem C45_inside {env : Env K} {l : List (Pt K)} (hl : ConvexPoly l) (hr : ∀ s ∈ sides l, s.1 ≠ s.2) {p : Pt K}
    (hp : InInterior l p) {tol : K} (hn : ∀ s ∈ sides l, ¬ NearLine tol s.1 s.2 p) {m : Nat} (hm : l.length ≤ m) :
    ∃ row, wachspressWeights env l p m tol = .ok row ∧ row.length = m ∧ Interpolates l p row :=
  wachspress_inside hl hr hp hn hm

/-- **C45** (exact arithmetic), on a side: if the point is exactly on a side, and is on all sides whose line is within the
tolerance (one side, or two at a corner), the weights are those of linear interpolation along a side that contains the
point. The polygon need not be convex. -/
theorem C45_on_side {env : Env K} (hsq : IsSqrt env.sqrt) {l : List (Pt K)} (h2 : 2 ≤ l.length)
    (hr : ∀ s ∈ sides l, s.1 ≠ s.2) {p : Pt K} {tol : K} (htol : 0 < tol) (hex : ∃ s ∈ sides l, OnSide p s)
    (hon : ∀ s ∈ sides l, NearLine tol s.1 s.2 p → OnSide p s) {m : Nat} (hm : l.length ≤ m) :
    ∃ row, wachspressWeights env l p m tol = .ok row ∧ row.length = m ∧ SideWeights l p row ∧ Interpolates l p row := by
  obtain ⟨s, hs, u, _, _, hu⟩ := hex
  have hn : NearLine tol s.1 s.2 p := by
    unfold NearLine
    rw [hu, show orient s.1 s.2 (lineAt s.1 s.2 u) = 0 from by unfold orient lineAt; ring]
    have := dist2_pos (hr s hs)
    have : 0 < tol ^ 2 * dist2 s.1 s.2 := by positivity
    simpa using this
  obtain ⟨row, h1, h3, h4⟩ := wachspress_onSide hsq h2 hr htol.ne' ⟨s, hs, hn⟩ hon hm
  exact ⟨row, h1, h3, h4, h4.interpolates h2 (by omega)⟩

theorem onSide_swap {p : Pt K} {s : Pt K × Pt K} : OnSide p s.swap ↔ OnSide p s := by
  have key : ∀ s : Pt K × Pt K, OnSide p s → OnSide p s.swap := by
    rintro s ⟨u, h0, h1, hu⟩
    refine ⟨1 - u, by linarith, by linarith, ?_⟩
    rw [hu]
    simp only [lineAt, Prod.fst_swap, Prod.snd_swap]
    apply Pt.ext' <;> (simp only; ring)
  exact ⟨fun h => by simpa using key _ h, key s⟩

theorem nearLine_swap {tol : K} {p a b : Pt K} : NearLine tol b a p ↔ NearLine tol a b p := by
  unfold NearLine
  rw [orient_swap, neg_sq, dist2_comm]

/-- What holds for all sides of a face, in either direction, holds for the sides of the stored face. -/
theorem stored_sides {Q : Pt K × Pt K → Prop} (hQ : ∀ s, Q s → Q s.swap) {l l' : List (Pt K)}
    (h : l' = l ∨ l' = l.reverse) (hl : ∀ s ∈ sides l, Q s) : ∀ s ∈ sides l', Q s := by
  rcases h with rfl | rfl
  · exact hl
  · intro s hs
    rw [(sides_reverse l).mem_iff, List.mem_map] at hs
    obtain ⟨s', h1, rfl⟩ := hs
    exact hQ _ (hl s' h1)

section Tree
variable {env : Env K} {vertices : List (Pt K)} {faces : IntArr} {fill nBuckets cellsPerLeaf : Int} {t : CellTree K}

theorem stored_row (hm : GoodMesh env vertices faces fill) (ht : Makes env vertices faces fill nBuckets cellsPerLeaf t)
    {j : Nat} {r : List Int} (hj : faces.rows[j]? = some r) :
    ∃ face, t.data.elements[j]? = some face ∧ storedPts vertices fill faces.ncol r = facePts vertices (-1) face ∧
      (storedPts vertices fill faces.ncol r).length ≤ faces.ncol ∧
      (storedPts vertices fill faces.ncol r = facePts vertices fill r ∨
        storedPts vertices fill faces.ncol r = (facePts vertices fill r).reverse) ∧
      3 ≤ (storedPts vertices fill faces.ncol r).length ∧ Row vertices.length faces.ncol (rowIndices fill r) := by
  obtain ⟨hcol, _, bt, hc⟩ := ht.constructed' hm
  obtain ⟨B, b1, _, b3, b4⟩ := hc.elements.row j r hj
  obtain ⟨_, h2, h3⟩ := hc.elements.polygon hcol hj
  refine ⟨_, b1, ?_, ?_, h2, h3, ?_⟩
  · unfold storedPts; rw [b4]; rfl
  · rw [storedPts_eq b3 b4, (ptsOf_spec b3.range).1]; exact b3.le
  · exact (hm.valid.rows r (List.mem_of_getElem? hj)).row (hm.valid.rect r (List.mem_of_getElem? hj))

theorem NonDegenerate.stored {l l' : List (Pt K)} (h : l' = l ∨ l' = l.reverse) (hl : NonDegenerate l) : NonDegenerate l' := by
  refine ⟨stored_sides (fun s (hs : s.1 ≠ s.2) => (Ne.symm hs : s.swap.1 ≠ s.swap.2)) h hl.1, ?_⟩
  obtain ⟨a, ha, b, hb, c, hc, ho⟩ := hl.2
  rcases h with rfl | rfl
  · exact ⟨a, ha, b, hb, c, hc, ho⟩
  · exact ⟨a, by simpa using ha, b, by simpa using hb, c, by simpa using hc, ho⟩

theorem three_collinear {a b c x y z : Pt K} (hx : x = a ∨ x = b ∨ x = c) (hy : y = a ∨ y = b ∨ y = c)
    (hz : z = a ∨ z = b ∨ z = c) (h : orient a b c = 0) : orient x y z = 0 := by
  unfold orient at *
  rcases hx with rfl | rfl | rfl <;> rcases hy with rfl | rfl | rfl <;> rcases hz with rfl | rfl | rfl <;>
    first | (ring_nf; done) | (linear_combination h) | (linear_combination -h)

/-- **C46** (exact arithmetic): if no face is degenerate and the tolerance is positive, `compute_barycentric_weights`
returns the result of `locate_points` and a row of weights for every point: zeros for a point that is not located, and
weights that sum to one for every point that is located. The faces need not be convex. -/
theorem C46_rows (hm : GoodMesh env vertices faces fill) (ht : Makes env vertices faces fill nBuckets cellsPerLeaf t)
    (hsq : ∀ x, 0 < x → env.sqrt x ≠ 0) (hnd : ∀ r ∈ faces.rows, NonDegenerate (facePts vertices fill r))
    {points : List (Pt K)} {tol : Option K} {τ : K} (htol : t.tolerance env tol = .ok τ) (hτ : 0 < τ)
    {sched sched1 : List Nat} (hs : sched.Perm (List.range points.length)) (hs1 : sched1.Perm (List.range points.length)) :
    ∃ idx rows, t.barycentricWeights env points tol sched sched1 = .ok (idx, rows) ∧
      t.locatePoints env points tol sched = .ok idx ∧ idx.length = points.length ∧ rows.length = points.length ∧
      ∀ (i : Nat) v row, idx[i]? = some v → rows[i]? = some row → row.length = faces.ncol ∧
        (v = -1 → ∀ w ∈ row, w = 0) ∧ (v ≠ -1 → row.sum = 1) := by
  have hface : ∀ p, ∀ (j : Nat) r, faces.rows[j]? = some r →
      ∃ row, faceRow env faces.ncol (storedPts vertices fill faces.ncol r) p τ = .ok row ∧ row.length = faces.ncol ∧
        row.sum = 1 := by
    intro p j r hj
    obtain ⟨face, _, _, g2, g3, g4, _⟩ := stored_row hm ht hj
    have hnd' := (hnd r (List.mem_of_getElem? hj)).stored g3
    unfold faceRow
    by_cases h4 : faces.ncol > 3
    · rw [if_pos h4]
      exact wachspress_sum hsq hnd' p hτ.ne' g2
    · rw [if_neg h4]
      generalize storedPts vertices fill faces.ncol r = l at g2 g4 hnd'
      have hl : l.length = 3 := by omega
      match l, hl with
      | [a, b, c], _ =>
        have ho : orient a b c ≠ 0 := by
          intro h0
          obtain ⟨x, hx, y, hy, z, hz, h⟩ := hnd'.2
          simp only [List.mem_cons, List.not_mem_nil, or_false] at hx hy hz
          exact h (three_collinear hx hy hz h0)
        refine ⟨_, triangleWeights_eq ho p, ?_, ?_⟩
        · simp only [List.length_cons, List.length_nil] at g2 ⊢; omega
        · simp only [List.sum_cons, List.sum_nil]; ring
  obtain ⟨idx, rows, h1, h2, h3, h4, h5⟩ := barycentric_rows hm ht htol hs hs1 fun p _ r hr _ => by
    obtain ⟨j, hj⟩ := List.mem_iff_getElem?.1 hr
    obtain ⟨row, h, _⟩ := hface p j r hj
    exact ⟨row, h⟩
  refine ⟨idx, rows, h1, h2, h3, h4, ?_⟩
  intro i v row hv hrow
  have hi : i < points.length := by rw [← h3]; exact (List.getElem?_eq_some_iff.1 hv).1
  rcases h5 i _ v row (List.getElem?_eq_getElem hi) hv hrow with ⟨e1, e2⟩ | ⟨j, r, e1, e2, _, e4⟩
  · rw [e2]
    exact ⟨by simp, fun _ w hw => List.eq_of_mem_replicate hw, fun h => (h e1).elim⟩
  · obtain ⟨row', f1, f2, f3⟩ := hface points[i] j r e2
    rw [f1] at e4
    cases e4
    exact ⟨f2, fun h => by omega, fun _ => f3⟩

/-- **C46** with the default tolerance. -/
theorem C46_rows_default (hm : GoodMesh env vertices faces fill) (ht : Makes env vertices faces fill nBuckets cellsPerLeaf t)
    (hsq : IsSqrt env.sqrt) (hmin : 0 < env.minTol) (hfac : 0 ≤ env.tolFactor)
    (hnd : ∀ r ∈ faces.rows, NonDegenerate (facePts vertices fill r)) {points : List (Pt K)}
    {sched sched1 : List Nat} (hs : sched.Perm (List.range points.length)) (hs1 : sched1.Perm (List.range points.length)) :
    ∃ idx rows, t.barycentricWeights env points none sched sched1 = .ok (idx, rows) ∧
      t.locatePoints env points none sched = .ok idx ∧ idx.length = points.length ∧ rows.length = points.length ∧
      ∀ (i : Nat) v row, idx[i]? = some v → rows[i]? = some row → row.length = faces.ncol ∧
        (v = -1 → ∀ w ∈ row, w = 0) ∧ (v ≠ -1 → row.sum = 1) := by
  obtain ⟨hcol, hne, bt, hc⟩ := ht.constructed' hm
  have huniq : ∀ pts : List (Pt K), ∀ b b' : Box K, IsBBox pts b → IsBBox pts b' → b = b' := by
    intro pts b b' h h'
    obtain ⟨p1, m1, e1⟩ := h.left; obtain ⟨q1, n1, f1⟩ := h'.left
    obtain ⟨p2, m2, e2⟩ := h.right; obtain ⟨q2, n2, f2⟩ := h'.right
    obtain ⟨p3, m3, e3⟩ := h.bottom; obtain ⟨q3, n3, f3⟩ := h'.bottom
    obtain ⟨p4, m4, e4⟩ := h.top; obtain ⟨q4, n4, f4⟩ := h'.top
    have a1 : b.xmin = b'.xmin := le_antisymm (f1 ▸ (h.contains q1 n1).1) (e1 ▸ (h'.contains p1 m1).1)
    have a2 : b.xmax = b'.xmax := le_antisymm (e2 ▸ (h'.contains p2 m2).2.1) (f2 ▸ (h.contains q2 n2).2.1)
    have a3 : b.ymin = b'.ymin := le_antisymm (f3 ▸ (h.contains q3 n3).2.2.1) (e3 ▸ (h'.contains p3 m3).2.2.1)
    have a4 : b.ymax = b'.ymax := le_antisymm (e4 ▸ (h'.contains p4 m4).2.2.2) (f4 ▸ (h.contains q4 n4).2.2.2)
    cases b; cases b'
    simp only at a1 a2 a3 a4
    subst a1 a2 a3 a4
    rfl
  classical
  let diag : List (Pt K) → K := fun pts =>
    if h : ∃ b, IsBBox pts b then env.sqrt ((h.choose.xmax - h.choose.xmin) ^ 2 + (h.choose.ymax - h.choose.ymin) ^ 2) else 0
  obtain ⟨τ, h1, h2, _⟩ := C50_default_tolerance hm ht hfac diag (by
    intro pts b hb
    have hex : ∃ b, IsBBox pts b := ⟨b, hb⟩
    simp only [diag, dif_pos hex]
    rw [huniq pts _ b hex.choose_spec hb])
  exact C46_rows hm ht (fun x hx => (hsq.pos hx).ne') hnd h1 (hmin.trans_le h2) hs hs1

/-- A point on a side of a convex polygon is in it. -/
theorem OnSide.inPoly {l : List (Pt K)} (hl : ConvexPoly l) {p : Pt K} {s : Pt K × Pt K} (hs : s ∈ sides l)
    (hp : OnSide p s) : InPoly l p := by
  obtain ⟨u, h0, h1, rfl⟩ := hp
  exact (hl.corner_inPoly (mem_sides_mem hs).1).convex (hl.corner_inPoly (mem_sides_mem hs).2) h0 h1

/-- The row of weights of a face that accepts the point. -/
theorem face_interpolates (hm : GoodMesh env vertices faces fill) (ht : Makes env vertices faces fill nBuckets cellsPerLeaf t)
    (hsq : IsSqrt env.sqrt)
    (hconv : ∀ r ∈ faces.rows, ConvexFace (facePts vertices fill r) ∧ ∀ s ∈ sides (facePts vertices fill r), s.1 ≠ s.2)
    {τ : K} (hτ : 0 < τ) {p : Pt K}
    (hon : ∀ r ∈ faces.rows, Accepts τ (facePts vertices fill r) p →
      ∀ s ∈ sides (facePts vertices fill r), NearLine τ s.1 s.2 p → OnSide p s)
    {j : Nat} {r : List Int} (hj : faces.rows[j]? = some r) (hacc : Accepts τ (facePts vertices fill r) p) :
    ∃ row, faceRow env faces.ncol (storedPts vertices fill faces.ncol r) p τ = .ok row ∧
      Interpolates (storedPts vertices fill faces.ncol r) p row := by
  obtain ⟨face, _, _, g2, g3, g4, g5⟩ := stored_row hm ht hj
  obtain ⟨hc, hrep⟩ := hconv r (List.mem_of_getElem? hj)
  obtain ⟨hcp, _⟩ := hc.stored g5
  have hrep' := stored_sides (fun s (hs : s.1 ≠ s.2) => (Ne.symm hs : s.swap.1 ≠ s.swap.2)) g3 hrep
  have hon' := stored_sides (Q := fun s => NearLine τ s.1 s.2 p → OnSide p s)
    (fun s h h' => onSide_swap.2 (h (nearLine_swap.1 h'))) g3 (hon r (List.mem_of_getElem? hj) hacc)
  have hacc' : Accepts τ (storedPts vertices fill faces.ncol r) p := by
    rcases g3 with g3 | g3 <;> rw [g3]
    · exact hacc
    · exact (accepts_reverse τ p _).2 hacc
  unfold faceRow
  by_cases h4 : faces.ncol > 3
  · rw [if_pos h4]
    by_cases hex : ∃ s ∈ sides (storedPts vertices fill faces.ncol r), NearLine τ s.1 s.2 p
    · obtain ⟨row, h1, h2, h3⟩ := wachspress_onSide hsq (by omega) hrep' hτ.ne' hex hon' g2
      exact ⟨row, h1, h3.interpolates (by omega) (by omega)⟩
    · push Not at hex
      obtain ⟨row, h1, _, h3⟩ := wachspress_inside (env := env) hcp hrep' (accepts_inside hcp hτ.ne' hacc' hex) hex g2
      exact ⟨row, h1, h3⟩
  · rw [if_neg h4]
    have hin : InPoly (storedPts vertices fill faces.ncol r) p := by
      by_cases hex : ∃ s ∈ sides (storedPts vertices fill faces.ncol r), NearLine τ s.1 s.2 p
      · obtain ⟨s, hs, hn⟩ := hex
        exact (hon' s hs hn).inPoly hcp hs
      · push Not at hex
        exact (accepts_inside hcp hτ.ne' hacc' hex).inPoly
    generalize storedPts vertices fill faces.ncol r = l at g2 g4 hcp hin
    have hl : l.length = 3 := by omega
    match l, hl with
    | [a, b, c], _ =>
      have ho : orient a b c ≠ 0 := by
        obtain ⟨x, y, z, hsub, hpos⟩ := hcp.nondeg
        have := hsub.eq_of_length rfl
        simp only [List.cons.injEq, and_true] at this
        obtain ⟨rfl, rfl, rfl⟩ := this
        exact hpos.ne'
      exact C44_triangle_weights ho (Or.inl hin)

/-- **C44**, **C45**, **C61** (partial) for `compute_barycentric_weights` (exact arithmetic), on meshes of convex faces: for
every point that is located, the weights in its row are not negative, sum to one, are zero in columns without a vertex, and
the weighted sum of the vertices of the face, as stored in the tree, is the point. What is missing for C61 are points that
are within the tolerance of the line of a side without being on that side: at a straight corner this happens for points that
are on another side. -/
theorem C61_located_partial (hm : GoodMesh env vertices faces fill) (ht : Makes env vertices faces fill nBuckets cellsPerLeaf t)
    (hsq : IsSqrt env.sqrt)
    (hconv : ∀ r ∈ faces.rows, ConvexFace (facePts vertices fill r) ∧ ∀ s ∈ sides (facePts vertices fill r), s.1 ≠ s.2)
    {points : List (Pt K)} {tol : Option K} {τ : K} (htol : t.tolerance env tol = .ok τ) (hτ : 0 < τ)
    (hon : ∀ p ∈ points, ∀ r ∈ faces.rows, Accepts τ (facePts vertices fill r) p →
      ∀ s ∈ sides (facePts vertices fill r), NearLine τ s.1 s.2 p → OnSide p s)
    {sched sched1 : List Nat} (hs : sched.Perm (List.range points.length)) (hs1 : sched1.Perm (List.range points.length)) :
    ∃ idx rows, t.barycentricWeights env points tol sched sched1 = .ok (idx, rows) ∧
      t.locatePoints env points tol sched = .ok idx ∧ idx.length = points.length ∧ rows.length = points.length ∧
      ∀ (i : Nat) p v row, points[i]? = some p → idx[i]? = some v → rows[i]? = some row → v ≠ -1 →
        ∃ (j : Nat) (face : List Int), v = j ∧ t.data.elements[j]? = some face ∧
          Interpolates (facePts vertices (-1) face) p row := by
  have hface : ∀ p ∈ points, ∀ (j : Nat) r, faces.rows[j]? = some r → Accepts τ (facePts vertices fill r) p →
      ∃ row, faceRow env faces.ncol (storedPts vertices fill faces.ncol r) p τ = .ok row ∧
        Interpolates (storedPts vertices fill faces.ncol r) p row :=
    fun p hp _ _ hj hacc => face_interpolates hm ht hsq hconv hτ (hon p hp) hj hacc
  obtain ⟨idx, rows, h1, h2, h3, h4, h5⟩ := barycentric_rows hm ht htol hs hs1 fun p hp r hr hacc => by
    obtain ⟨j, hj⟩ := List.mem_iff_getElem?.1 hr
    obtain ⟨row, h, _⟩ := hface p hp j r hj hacc
    exact ⟨row, h⟩
  refine ⟨idx, rows, h1, h2, h3, h4, ?_⟩
  intro i p v row hp hv hrow hne
  rcases h5 i p v row hp hv hrow with ⟨e1, _⟩ | ⟨j, r, e1, e2, e3, e4⟩
  · exact (hne e1).elim
  · obtain ⟨row', f1, f2⟩ := hface p (List.mem_of_getElem? hp) j r e2 e3
    rw [f1] at e4
    cases e4
    obtain ⟨face, g0, g1, _⟩ := stored_row hm ht e2
    exact ⟨j, face, e1, g0, g1 ▸ f2⟩

/-- **C62** (exact arithmetic): on a mesh of convex faces, with a table of more than three columns, the weights of every
located point reproduce it up to three times the tolerance: also for points that are only near a side. Excluded are points
that are within the tolerance of the line of a side, but not between the ends of the side. -/
theorem C62_reproduced (hm : GoodMesh env vertices faces fill) (ht : Makes env vertices faces fill nBuckets cellsPerLeaf t)
    (hcol : 3 < faces.ncol) (hsq : IsSqrt env.sqrt)
    (hconv : ∀ r ∈ faces.rows, ConvexFace (facePts vertices fill r) ∧ ∀ s ∈ sides (facePts vertices fill r), s.1 ≠ s.2)
    {points : List (Pt K)} {tol : Option K} {τ : K} (htol : t.tolerance env tol = .ok τ) (hτ : 0 < τ)
    (hnear : ∀ p ∈ points, ∀ r ∈ faces.rows, Accepts τ (facePts vertices fill r) p →
      ∀ s ∈ sides (facePts vertices fill r), NearLine τ s.1 s.2 p → Near τ p s)
    {sched sched1 : List Nat} (hs : sched.Perm (List.range points.length)) (hs1 : sched1.Perm (List.range points.length)) :
    ∃ idx rows, t.barycentricWeights env points tol sched sched1 = .ok (idx, rows) ∧
      t.locatePoints env points tol sched = .ok idx ∧ idx.length = points.length ∧ rows.length = points.length ∧
      ∀ (i : Nat) p v row, points[i]? = some p → idx[i]? = some v → rows[i]? = some row → v ≠ -1 →
        ∃ (j : Nat) (face : List Int), v = j ∧ t.data.elements[j]? = some face ∧ row.sum = 1 ∧
          dist2 (weighted (facePts vertices (-1) face) row) p < (3 * τ) ^ 2 := by
  have hface : ∀ p ∈ points, ∀ (j : Nat) r, faces.rows[j]? = some r → Accepts τ (facePts vertices fill r) p →
      ∃ row, faceRow env faces.ncol (storedPts vertices fill faces.ncol r) p τ = .ok row ∧ row.sum = 1 ∧
        dist2 (weighted (storedPts vertices fill faces.ncol r) row) p < (3 * τ) ^ 2 := by
    intro p hp j r hj hacc
    obtain ⟨face, _, _, g2, g3, g4, g5⟩ := stored_row hm ht hj
    obtain ⟨hc, hrep⟩ := hconv r (List.mem_of_getElem? hj)
    obtain ⟨hcp, _⟩ := hc.stored g5
    have hrep' := stored_sides (fun s (hs : s.1 ≠ s.2) => (Ne.symm hs : s.swap.1 ≠ s.swap.2)) g3 hrep
    have hnear' := stored_sides (Q := fun s => NearLine τ s.1 s.2 p → Near τ p s)
      (fun s h h' => (near_swap τ p s).2 (h (nearLine_swap.1 h'))) g3 (hnear p hp r (List.mem_of_getElem? hj) hacc)
    have hacc' : Accepts τ (storedPts vertices fill faces.ncol r) p := by
      rcases g3 with g3 | g3 <;> rw [g3]
      · exact hacc
      · exact (accepts_reverse τ p _).2 hacc
    unfold faceRow
    rw [if_pos hcol]
    obtain ⟨row, h1, _, h3, h4⟩ := wachspress_close hsq hcp hrep' hτ.ne' hacc' hnear' g2
    refine ⟨row, h1, h3, h4.trans_lt ?_⟩
    have : 0 < τ ^ 2 := by positivity
    nlinarith
  obtain ⟨idx, rows, h1, h2, h3, h4, h5⟩ := barycentric_rows hm ht htol hs hs1 fun p hp r hr hacc => by
    obtain ⟨j, hj⟩ := List.mem_iff_getElem?.1 hr
    obtain ⟨row, h, _⟩ := hface p hp j r hj hacc
    exact ⟨row, h⟩
  refine ⟨idx, rows, h1, h2, h3, h4, ?_⟩
  intro i p v row hp hv hrow hne
  rcases h5 i p v row hp hv hrow with ⟨e1, _⟩ | ⟨j, r, e1, e2, e3, e4⟩
  · exact (hne e1).elim
  · obtain ⟨row', f1, f2, f3⟩ := hface p (List.mem_of_getElem? hp) j r e2 e3
    rw [f1] at e4
    cases e4
    obtain ⟨face, g0, g1, _⟩ := stored_row hm ht e2
    exact ⟨j, face, e1, g0, f2, g1 ▸ f3⟩

/-- **C44** for `compute_barycentric_weights` (exact arithmetic), on a mesh of triangles that are not degenerate, in either
order: the weights of a point that is in the face reported for it, or on its border, are not negative, sum to one, and
reproduce the point from the vertices of the face as stored in the tree. -/
theorem C44_located (hm : GoodMesh env vertices faces fill) (ht : Makes env vertices faces fill nBuckets cellsPerLeaf t)
    (hcol : faces.ncol = 3) (hnd : ∀ r ∈ faces.rows, NonDegenerate (facePts vertices fill r))
    {points : List (Pt K)} {tol : Option K} {τ : K} (htol : t.tolerance env tol = .ok τ)
    {sched sched1 : List Nat} (hs : sched.Perm (List.range points.length)) (hs1 : sched1.Perm (List.range points.length)) :
    ∃ idx rows, t.barycentricWeights env points tol sched sched1 = .ok (idx, rows) ∧
      t.locatePoints env points tol sched = .ok idx ∧ idx.length = points.length ∧ rows.length = points.length ∧
      ∀ (i : Nat) p (j : Nat) r row, points[i]? = some p → idx[i]? = some (j : Int) → rows[i]? = some row →
        faces.rows[j]? = some r → InPoly (facePts vertices fill r) p ∨ InPoly (facePts vertices fill r).reverse p →
        ∃ face, t.data.elements[j]? = some face ∧ Interpolates (facePts vertices (-1) face) p row := by
  have hface : ∀ p, ∀ (j : Nat) r, faces.rows[j]? = some r →
      ∃ row, faceRow env faces.ncol (storedPts vertices fill faces.ncol r) p τ = .ok row ∧
        (InPoly (facePts vertices fill r) p ∨ InPoly (facePts vertices fill r).reverse p →
          Interpolates (storedPts vertices fill faces.ncol r) p row) := by
    intro p j r hj
    obtain ⟨face, _, _, g2, g3, g4, _⟩ := stored_row hm ht hj
    have hnd' := (hnd r (List.mem_of_getElem? hj)).stored g3
    have hin : InPoly (facePts vertices fill r) p ∨ InPoly (facePts vertices fill r).reverse p →
        InPoly (storedPts vertices fill faces.ncol r) p ∨ InPoly (storedPts vertices fill faces.ncol r).reverse p := by
      rcases g3 with g3 | g3 <;> rw [g3]
      · exact id
      · rw [List.reverse_reverse]; exact Or.symm
    unfold faceRow
    rw [if_neg (by omega)]
    generalize storedPts vertices fill faces.ncol r = l at g2 g4 hnd' hin
    have hl : l.length = 3 := by omega
    match l, hl with
    | [a, b, c], _ =>
      have ho : orient a b c ≠ 0 := by
        intro h0
        obtain ⟨x, hx, y, hy, z, hz, h⟩ := hnd'.2
        simp only [List.mem_cons, List.not_mem_nil, or_false] at hx hy hz
        exact h (three_collinear hx hy hz h0)
      by_cases hp : InPoly (facePts vertices fill r) p ∨ InPoly (facePts vertices fill r).reverse p
      · obtain ⟨row, h1, h2⟩ := C44_triangle_weights ho (p := p) ((hin hp).imp id fun h s hs => h s (by
          simp only [sides, pairs, List.reverse_cons, List.reverse_nil, List.nil_append, List.cons_append, List.mem_cons,
            List.not_mem_nil, or_false] at hs ⊢
          tauto))
        exact ⟨row, h1, fun _ => h2⟩
      · exact ⟨_, triangleWeights_eq ho p, fun h => (hp h).elim⟩
  obtain ⟨idx, rows, h1, h2, h3, h4, h5⟩ := barycentric_rows hm ht htol hs hs1 fun p _ r hr _ => by
    obtain ⟨j, hj⟩ := List.mem_iff_getElem?.1 hr
    obtain ⟨row, h, _⟩ := hface p j r hj
    exact ⟨row, h⟩
  refine ⟨idx, rows, h1, h2, h3, h4, ?_⟩
  intro i p j r row hp hv hrow hr hin
  rcases h5 i p _ row hp hv hrow with ⟨e1, _⟩ | ⟨j', r', e1, e2, _, e4⟩
  · omega
  · obtain rfl : j = j' := by omega
    rw [hr] at e2
    cases e2
    obtain ⟨row', f1, f2⟩ := hface p j r hr
    rw [f1] at e4
    cases e4
    obtain ⟨face, g0, g1, _⟩ := stored_row hm ht hr
    exact ⟨face, g0, g1 ▸ f2 hin⟩

/-- **C47**, partial: what is missing are degenerate faces and the tolerance zero. Without them there is no division by
zero. -/
theorem C47_non_degenerate_partial (hm : GoodMesh env vertices faces fill)
    (ht : Makes env vertices faces fill nBuckets cellsPerLeaf t)
    (hsq : ∀ x, 0 < x → env.sqrt x ≠ 0) (hnd : ∀ r ∈ faces.rows, NonDegenerate (facePts vertices fill r))
    {points : List (Pt K)} {tol : K} (htol : 0 < tol)
    {sched sched1 : List Nat} (hs : sched.Perm (List.range points.length)) (hs1 : sched1.Perm (List.range points.length)) :
    ∃ r, t.barycentricWeights env points (some tol) sched sched1 = .ok r := by
  obtain ⟨_, _, h, _⟩ := C46_rows hm ht hsq hnd (tol := some tol) rfl htol hs hs1
  exact ⟨_, h⟩

/-- **C63**, partial: what is missing are faces given clockwise. For faces given counter-clockwise the columns of the weights
are in the order in which the caller has given the vertices (with the condition of `C61_located_partial` on the points). -/
theorem C63_counter_clockwise_partial (hm : GoodMesh env vertices faces fill)
    (ht : Makes env vertices faces fill nBuckets cellsPerLeaf t) (hsq : IsSqrt env.sqrt)
    (hconv : ∀ r ∈ faces.rows, ConvexPoly (facePts vertices fill r) ∧ ∀ s ∈ sides (facePts vertices fill r), s.1 ≠ s.2)
    {points : List (Pt K)} {tol : Option K} {τ : K} (htol : t.tolerance env tol = .ok τ) (hτ : 0 < τ)
    (hon : ∀ p ∈ points, ∀ r ∈ faces.rows, Accepts τ (facePts vertices fill r) p →
      ∀ s ∈ sides (facePts vertices fill r), NearLine τ s.1 s.2 p → OnSide p s)
    {sched sched1 : List Nat} (hs : sched.Perm (List.range points.length)) (hs1 : sched1.Perm (List.range points.length)) :
    ∃ idx rows, t.barycentricWeights env points tol sched sched1 = .ok (idx, rows) ∧
      t.locatePoints env points tol sched = .ok idx ∧ idx.length = points.length ∧ rows.length = points.length ∧
      ∀ (i : Nat) p v row, points[i]? = some p → idx[i]? = some v → rows[i]? = some row → v ≠ -1 →
        ∃ (j : Nat) (r : List Int), v = j ∧ faces.rows[j]? = some r ∧
          Interpolates (facePts vertices fill r) p row := by
  obtain ⟨idx, rows, h1, h2, h3, h4, h5⟩ := C61_located_partial hm ht hsq (fun r hr => ⟨Or.inl (hconv r hr).1, (hconv r hr).2⟩)
    htol hτ hon hs hs1
  refine ⟨idx, rows, h1, h2, h3, h4, ?_⟩
  intro i p v row hp hv hrow hne
  obtain ⟨j, face, e1, e2, e3⟩ := h5 i p v row hp hv hrow hne
  obtain ⟨hcol, _, bt, hc⟩ := ht.constructed' hm
  have hj : j < faces.rows.length := by
    rw [← hc.elements.length]; exact (List.getElem?_eq_some_iff.1 e2).1
  obtain ⟨face', g0, g1, _, _, _, g5⟩ := stored_row hm ht (List.getElem?_eq_getElem hj)
  rw [e2] at g0
  cases g0
  rw [storedPts_convex g5 (hconv _ (List.getElem_mem hj)).1] at g1
  exact ⟨j, _, e1, List.getElem?_eq_getElem hj, g1 ▸ e3⟩

end Tree

end Exact

/-! ## Violations -/

namespace Ex

/-- A point in binary64. -/
def flPt (x y : ℚ) : Pt Fl := ⟨.fin x, .fin y⟩

/-- A square with a hanging node: vertex 1 is halfway on the bottom side. -/
def hangVerts : List (Pt Fl) := [flPt 0 0, flPt 1 0, flPt 2 0, flPt 2 2, flPt 0 2]

end Ex

set_option synthInstance.maxSize 1000

/-- **C47** is violated, with default tolerance: a point located on a triangle of area zero makes
`compute_barycentric_weights` divide by zero. -/
theorem C47_degenerate_triangle_violated :
    ∃ t : CellTree Fl, Makes Fl.env [Ex.flPt 0 0, Ex.flPt 1 1, Ex.flPt 2 2] ⟨3, [[0, 1, 2]]⟩ (-1) 4 2 t ∧
      t.barycentricWeights Fl.env [Ex.flPt 1 1] none [0] [0] = .error .zeroDiv := by
  obtain ⟨t, h1, h2⟩ := bind_eq_ok.1 (show (CellTree.init Fl.env [Ex.flPt 0 0, Ex.flPt 1 1, Ex.flPt 2 2] ⟨3, [[0, 1, 2]]⟩
    (-1) 4 2 [0] >>= fun t => Except.ok (Ex.errOf (t.barycentricWeights Fl.env [Ex.flPt 1 1] none [0] [0]))) =
    .ok (some .zeroDiv) by decide +kernel)
  exact ⟨t, ⟨_, by decide, h1⟩, Ex.eq_error_of_errOf (Except.ok.inj h2)⟩

/-- **C47** is violated, with default tolerance: a vertex given twice in a row makes it divide by zero for all points
inside the face. -/
theorem C47_repeated_vertex_violated :
    ∃ t : CellTree Fl, Makes Fl.env [Ex.flPt 0 0, Ex.flPt 2 0, Ex.flPt 0 2] ⟨4, [[0, 1, 1, 2]]⟩ (-1) 4 2 t ∧
      t.barycentricWeights Fl.env [Ex.flPt (1 / 2) (1 / 2)] none [0] [0] = .error .zeroDiv := by
  obtain ⟨t, h1, h2⟩ := bind_eq_ok.1 (show (CellTree.init Fl.env [Ex.flPt 0 0, Ex.flPt 2 0, Ex.flPt 0 2]
    ⟨4, [[0, 1, 1, 2]]⟩ (-1) 4 2 [0] >>= fun t =>
      Except.ok (Ex.errOf (t.barycentricWeights Fl.env [Ex.flPt (1 / 2) (1 / 2)] none [0] [0]))) =
    .ok (some .zeroDiv) by decide +kernel)
  exact ⟨t, ⟨_, by decide, h1⟩, Ex.eq_error_of_errOf (Except.ok.inj h2)⟩

/-- **C47** is violated: with the tolerance zero a point exactly on a side of a square makes it divide by zero. -/
theorem C47_zero_tolerance_violated :
    ∃ t : CellTree Fl, Makes Fl.env [Ex.flPt 0 0, Ex.flPt 2 0, Ex.flPt 2 2, Ex.flPt 0 2] ⟨4, [[0, 1, 2, 3]]⟩ (-1) 4 2 t ∧
      t.barycentricWeights Fl.env [Ex.flPt 1 0] (some (.fin 0)) [0] [0] = .error .zeroDiv := by
  obtain ⟨t, h1, h2⟩ := bind_eq_ok.1 (show (CellTree.init Fl.env [Ex.flPt 0 0, Ex.flPt 2 0, Ex.flPt 2 2, Ex.flPt 0 2]
    ⟨4, [[0, 1, 2, 3]]⟩ (-1) 4 2 [0] >>= fun t =>
      Except.ok (Ex.errOf (t.barycentricWeights Fl.env [Ex.flPt 1 0] (some (.fin 0)) [0] [0]))) =
    .ok (some .zeroDiv) by decide +kernel)
  exact ⟨t, ⟨_, by decide, h1⟩, Ex.eq_error_of_errOf (Except.ok.inj h2)⟩

/-- **C61** is violated, with default tolerance: the weights of a point that is exactly on one half of a side with a
hanging node are those of the other half. With the vertices given as 2, 3, 4, 0, 1 the point (1/2, 0) gets the weights 1/2
at the vertices (2, 0) and (1, 0); given as 0, 1, 2, 3, 4 the point (3/2, 0) gets a negative weight. -/
theorem C61_hanging_node_violated :
    (∃ t : CellTree Fl, Makes Fl.env Ex.hangVerts ⟨5, [[2, 3, 4, 0, 1]]⟩ (-1) 4 2 t ∧
      t.barycentricWeights Fl.env [Ex.flPt (1 / 2) 0] none [0] [0] =
        .ok ([0], [[.fin (1 / 2), .fin 0, .fin 0, .fin 0, .fin (1 / 2)]])) ∧
    (∃ t : CellTree Fl, Makes Fl.env Ex.hangVerts ⟨5, [[0, 1, 2, 3, 4]]⟩ (-1) 4 2 t ∧
      t.barycentricWeights Fl.env [Ex.flPt (3 / 2) 0] none [0] [0] =
        .ok ([0], [[.fin (-1 / 2), .fin (3 / 2), .fin 0, .fin 0, .fin 0]])) := by
  constructor
  · obtain ⟨t, h1, h2⟩ := bind_eq_ok.1 (show (CellTree.init Fl.env Ex.hangVerts ⟨5, [[2, 3, 4, 0, 1]]⟩ (-1) 4 2 [0] >>=
      fun t => t.barycentricWeights Fl.env [Ex.flPt (1 / 2) 0] none [0] [0]) =
        .ok ([0], [[.fin (1 / 2), .fin 0, .fin 0, .fin 0, .fin (1 / 2)]]) by decide +kernel)
    exact ⟨t, ⟨_, by decide, h1⟩, h2⟩
  · obtain ⟨t, h1, h2⟩ := bind_eq_ok.1 (show (CellTree.init Fl.env Ex.hangVerts ⟨5, [[0, 1, 2, 3, 4]]⟩ (-1) 4 2 [0] >>=
      fun t => t.barycentricWeights Fl.env [Ex.flPt (3 / 2) 0] none [0] [0]) =
        .ok ([0], [[.fin (-1 / 2), .fin (3 / 2), .fin 0, .fin 0, .fin 0]]) by decide +kernel)
    exact ⟨t, ⟨_, by decide, h1⟩, h2⟩

/-- **C63** is violated: for a face given clockwise, the columns of the weights are not in the order in which the caller has
given the vertices. For the triangle with vertices (0, 0), (0, 2), (2, 0), in this order, and the point (1, 1/2) the weights
are 1/2, 1/4, 1/4: applied to the vertices in the caller's order they give (1/2, 1/2). -/
theorem C63_clockwise_violated :
    ∃ t : CellTree Fl, Makes Fl.env [Ex.flPt 0 0, Ex.flPt 2 0, Ex.flPt 0 2] ⟨3, [[0, 2, 1]]⟩ (-1) 4 2 t ∧
      t.barycentricWeights Fl.env [Ex.flPt 1 (1 / 2)] none [0] [0] =
        .ok ([0], [[.fin (1 / 2), .fin (1 / 4), .fin (1 / 4)]]) := by
  obtain ⟨t, h1, h2⟩ := bind_eq_ok.1 (show (CellTree.init Fl.env [Ex.flPt 0 0, Ex.flPt 2 0, Ex.flPt 0 2] ⟨3, [[0, 2, 1]]⟩
    (-1) 4 2 [0] >>= fun t => t.barycentricWeights Fl.env [Ex.flPt 1 (1 / 2)] none [0] [0]) =
        .ok ([0], [[.fin (1 / 2), .fin (1 / 4), .fin (1 / 4)]]) by decide +kernel)
  exact ⟨t, ⟨_, by decide, h1⟩, h2⟩

/-! ## The hypotheses can be met -/

/-- The real square root. -/
example : IsSqrt Real.sqrt := fun x hx => ⟨Real.sqrt_nonneg x, Real.mul_self_sqrt hx⟩

/-- A pentagon with a straight corner, a point inside it, and one on a side that is not next to the straight corner. -/
example : let l : List (Pt ℚ) := [⟨0, 0⟩, ⟨1, 0⟩, ⟨2, 0⟩, ⟨2, 2⟩, ⟨0, 2⟩]
    ConvexPoly l ∧ (∀ s ∈ sides l, s.1 ≠ s.2) ∧ InInterior l ⟨1, 1⟩ ∧
      (∀ s ∈ sides l, ¬ NearLine (1 / 100) s.1 s.2 ⟨1, 1⟩) ∧
      wachspressWeights Ex.qEnv l ⟨1, 1⟩ 6 (1 / 100) = .ok [1 / 4, 0, 1 / 4, 1 / 4, 1 / 4, 0] := by
  decide +kernel

/-- Triangles of both orientations. -/
example : orient (⟨0, 0⟩ : Pt ℚ) ⟨2, 0⟩ ⟨0, 2⟩ ≠ 0 ∧ InPoly [(⟨0, 0⟩ : Pt ℚ), ⟨2, 0⟩, ⟨0, 2⟩] ⟨1, 1 / 2⟩ ∧
    triangleWeights ⟨⟨0, 0⟩, ⟨0, 2⟩, ⟨2, 0⟩⟩ (⟨1, 1 / 2⟩ : Pt ℚ) = .ok [1 / 4, 1 / 4, 1 / 2] := by
  decide +kernel

namespace Ex

/-- Constants for real arithmetic. -/
noncomputable def realEnv : Env ℝ := ⟨10 ^ 300, -10 ^ 300, 1 / 10 ^ 15, 1 / 10 ^ 12, Real.sqrt⟩

/-- A square with two triangles on its right, one of them clockwise, over the real numbers. -/
def realVerts : List (Pt ℝ) := [⟨0, 0⟩, ⟨2, 0⟩, ⟨2, 2⟩, ⟨0, 2⟩, ⟨4, 1⟩, ⟨4, 3⟩]
def realFaces : IntArr := ⟨4, [[0, 1, 2, 3], [1, 2, 4, -1], [2, 4, 5, -1]]⟩

theorem real_valid : ValidFaces 6 (-1) realFaces where
  rect := by decide
  rows := by
    intro r hr
    simp only [realFaces, List.mem_cons, List.not_mem_nil, or_false] at hr
    rcases hr with rfl | rfl | rfl <;> exact ⟨by decide, by decide, by decide⟩

theorem real_good : GoodMesh realEnv realVerts realFaces (-1) := ⟨real_valid, fun _ _ _ _ => ⟨trivial, trivial⟩, trivial, trivial⟩

theorem real_pts {P : List (Pt ℝ) → Prop} (h1 : P [⟨0, 0⟩, ⟨2, 0⟩, ⟨2, 2⟩, ⟨0, 2⟩]) (h2 : P [⟨2, 0⟩, ⟨2, 2⟩, ⟨4, 1⟩])
    (h3 : P [⟨2, 2⟩, ⟨4, 1⟩, ⟨4, 3⟩]) : ∀ r ∈ realFaces.rows, P (facePts realVerts (-1) r) := by
  intro r hr
  simp only [realFaces, List.mem_cons, List.not_mem_nil, or_false] at hr
  rcases hr with rfl | rfl | rfl
  · exact h1
  · exact h2
  · exact h3

theorem real_makes : ∃ t, Makes realEnv realVerts realFaces (-1) 4 1 t := by
  obtain ⟨t, h⟩ := C12_construction_succeeds (nBuckets := 4) (cellsPerLeaf := 1) real_good (sched := [0, 1, 2]) (by decide) (by decide) (by decide)
    (by decide) (by decide)
    (real_pts (P := fun l => ∃ u ∈ l, ∃ v ∈ l, u.x < v.x) ⟨⟨0, 0⟩, by simp, ⟨2, 0⟩, by simp, by norm_num⟩ ⟨⟨2, 0⟩, by simp, ⟨4, 1⟩, by simp, by norm_num⟩
      ⟨⟨2, 2⟩, by simp, ⟨4, 1⟩, by simp, by norm_num⟩)
    (real_pts (P := fun l => ∃ u ∈ l, ∃ v ∈ l, u.y < v.y) ⟨⟨0, 0⟩, by simp, ⟨2, 2⟩, by simp, by norm_num⟩ ⟨⟨2, 0⟩, by simp, ⟨4, 1⟩, by simp, by norm_num⟩
      ⟨⟨4, 1⟩, by simp, ⟨2, 2⟩, by simp, by norm_num⟩)
    (by
      simp only [realFaces, realEnv, List.length_cons, List.length_nil]
      calc ((4 : Int) : ℝ) * ((0 + 1 + 1 + 1 : Nat) : ℝ) < 10 ^ 2 := by norm_num
        _ ≤ 10 ^ 300 := pow_le_pow_right₀ (by norm_num) (by norm_num))
  exact ⟨t, _, by decide, h⟩

theorem real_nondegenerate : ∀ r ∈ realFaces.rows, NonDegenerate (facePts realVerts (-1) r) := by
  refine real_pts ?_ ?_ ?_
  · exact ⟨by norm_num [sides, pairs], ⟨0, 0⟩, by simp, ⟨2, 0⟩, by simp, ⟨2, 2⟩, by simp, by norm_num [orient]⟩
  · exact ⟨by norm_num [sides, pairs], ⟨2, 0⟩, by simp, ⟨2, 2⟩, by simp, ⟨4, 1⟩, by simp, by norm_num [orient]⟩
  · exact ⟨by norm_num [sides, pairs], ⟨2, 2⟩, by simp, ⟨4, 1⟩, by simp, ⟨4, 3⟩, by simp, by norm_num [orient]⟩

end Ex

/-- The example mesh meets the conditions of C46, with default tolerance, for any points. -/
example (points : List (Pt ℝ)) : ∃ t idx rows, Makes Ex.realEnv Ex.realVerts Ex.realFaces (-1) 4 1 t ∧
    t.barycentricWeights Ex.realEnv points none (List.range points.length) (List.range points.length) = .ok (idx, rows) := by
  obtain ⟨t, ht⟩ := Ex.real_makes
  obtain ⟨idx, rows, h, _⟩ := C46_rows_default Ex.real_good ht (fun x hx => ⟨Real.sqrt_nonneg x, Real.mul_self_sqrt hx⟩)
    (by norm_num [Ex.realEnv]) (by norm_num [Ex.realEnv]) Ex.real_nondegenerate (points := points) (List.Perm.refl _)
    (List.Perm.refl _)
  exact ⟨t, idx, rows, ht, h⟩

/-- The example mesh and two points, one inside the square and one on its bottom side, meet the conditions of C61 and C62. -/
example : (∀ r ∈ Ex.realFaces.rows, ConvexFace (facePts Ex.realVerts (-1) r) ∧
      ∀ s ∈ sides (facePts Ex.realVerts (-1) r), s.1 ≠ s.2) ∧
    ∀ p ∈ [(⟨1, 1⟩ : Pt ℝ), ⟨1, 0⟩], ∀ r ∈ Ex.realFaces.rows, Accepts (1 / 100) (facePts Ex.realVerts (-1) r) p →
      ∀ s ∈ sides (facePts Ex.realVerts (-1) r), NearLine (1 / 100) s.1 s.2 p → OnSide p s := by
  refine ⟨Ex.real_pts (P := fun l => ConvexFace l ∧ ∀ s ∈ sides l, s.1 ≠ s.2) ?_ ?_ ?_, ?_⟩
  · exact ⟨StrictlyConvex.convexFace (Or.inl (by
        simp only [List.reverse_cons, List.reverse_nil, List.nil_append, List.cons_append, strictlyConvex_iff, triples,
          triples.pairsOf, List.map_cons, List.map_nil, List.mem_cons, List.not_mem_nil, forall_eq_or_imp, or_false,
          forall_eq, orient, List.length_cons, List.length_nil]
        norm_num)),
      by norm_num [sides, pairs]⟩
  · exact ⟨StrictlyConvex.convexFace (Or.inr (by
        simp only [List.reverse_cons, List.reverse_nil, List.nil_append, List.cons_append, strictlyConvex_iff, triples,
          triples.pairsOf, List.map_cons, List.map_nil, List.mem_cons, List.not_mem_nil, forall_eq_or_imp, or_false,
          forall_eq, orient, List.length_cons, List.length_nil]
        norm_num)),
      by norm_num [sides, pairs]⟩
  · exact ⟨StrictlyConvex.convexFace (Or.inl (by
        simp only [List.reverse_cons, List.reverse_nil, List.nil_append, List.cons_append, strictlyConvex_iff, triples,
          triples.pairsOf, List.map_cons, List.map_nil, List.mem_cons, List.not_mem_nil, forall_eq_or_imp, or_false,
          forall_eq, orient, List.length_cons, List.length_nil]
        norm_num)),
      by norm_num [sides, pairs]⟩
  · intro p hp
    simp only [List.mem_cons, List.not_mem_nil, or_false] at hp
    rcases hp with rfl | rfl
    · refine Ex.real_pts (P := fun l => Accepts (1 / 100) l _ → ∀ s ∈ sides l, NearLine (1 / 100) s.1 s.2 _ → OnSide _ s)
        ?_ ?_ ?_ <;> (intro _; norm_num [sides, pairs, NearLine, orient, dist2])
    · refine Ex.real_pts (P := fun l => Accepts (1 / 100) l _ → ∀ s ∈ sides l, NearLine (1 / 100) s.1 s.2 _ → OnSide _ s)
        ?_ ?_ ?_ <;> (intro _; norm_num [sides, pairs, NearLine, orient, dist2])
      exact ⟨1 / 2, by norm_num, by norm_num, by norm_num [lineAt]⟩

end Celltree
