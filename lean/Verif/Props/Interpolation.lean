import Verif.Proofs.Interpolation

/-!
# C99: interpolated values
-/

set_option linter.unusedSectionVars false

namespace Celltree

variable {K : Type} [Field K] [LinearOrder K] [IsStrictOrderedRing K]
  {env : Env K} {vertices : List (Pt K)} {faces : IntArr} {fill nBuckets cellsPerLeaf : Int} {t : CellTree K}

/-- The position of a vertex. -/
def posOf (vertices : List (Pt K)) (v : Int) : Pt K := (vertices[v.toNat]?).getD ⟨0, 0⟩

theorem pts_map {L : List Int} (h : ∀ v ∈ L, 0 ≤ v ∧ v < vertices.length) :
    (L.filterMap fun v => vertices[v.toNat]?) = L.map (posOf vertices) := by
  induction L with
  | nil => rfl
  | cons a L ih =>
    have ha := h a (by simp)
    have hlt : a.toNat < vertices.length := by omega
    have e : vertices[a.toNat]? = some (posOf vertices a) := by
      unfold posOf
      rw [List.getElem?_eq_getElem hlt]; rfl
    rw [List.filterMap_cons, e]
    simp only [List.map_cons]
    rw [ih fun v hv => h v (List.mem_cons_of_mem _ hv)]

theorem facePts_posOf {r : List Int} (h : ValidRow vertices.length fill r) :
    facePts vertices fill r = (rowIndices fill r).map (posOf vertices) := pts_map h.range

theorem interpolated_pad {f : Int → K} {B : List Int} {n m : Nat} {row : List K} (h : ∀ w ∈ row.drop m, w = 0) (hm : B.length = m) :
    interpolated f (B ++ List.replicate n (-1)) row = ((row.zip B).map fun q => q.1 * f q.2).sum := by
  unfold interpolated
  induction B generalizing row m with
  | nil =>
    subst hm
    simp only [List.drop_zero, List.length_nil] at h
    simp only [List.nil_append, List.zip_nil_right, List.map_nil, List.sum_nil]
    refine List.sum_eq_zero fun x hx => ?_
    obtain ⟨q, hq, rfl⟩ := List.mem_map.1 hx
    rw [h _ (List.of_mem_zip hq).1, zero_mul]
  | cons b B ih =>
    match row with
    | [] => simp
    | a :: row =>
      subst hm
      simp only [List.cons_append, List.zip_cons_cons, List.map_cons, List.sum_cons]
      rw [ih (row := row) (m := B.length) (by simpa using h) rfl]

/-- The stored face, as vertex numbers. -/
theorem stored_indices (hm : GoodMesh env vertices faces fill) (ht : Makes env vertices faces fill nBuckets cellsPerLeaf t)
    {j : Nat} {r : List Int} (hj : faces.rows[j]? = some r) :
    ∃ B, t.data.elements[j]? = some (B ++ List.replicate (faces.ncol - B.length) (-1)) ∧
      (B = rowIndices fill r ∨ B = (rowIndices fill r).reverse) ∧
      storedPts vertices fill faces.ncol r = B.map (posOf vertices) ∧
      ∀ row p, Interpolates (storedPts vertices fill faces.ncol r) p row → ∀ f : Int → K,
        interpolated f (B ++ List.replicate (faces.ncol - B.length) (-1)) row = ((row.zip B).map fun q => q.1 * f q.2).sum := by
  obtain ⟨hcol, _, bt, hc⟩ := ht.constructed' hm
  obtain ⟨B, b1, b2, b3, b4⟩ := hc.elements.row j r hj
  have e : storedPts vertices fill faces.ncol r = B.map (posOf vertices) := by
    rw [storedPts_eq b3 b4]
    exact pts_map b3.range
  refine ⟨B, b1, b2, e, fun row p h f => interpolated_pad (m := B.length) ?_ rfl⟩
  have := h.pad
  rw [e, List.length_map] at this
  exact this

/-- A strictly convex face, given in either order. -/
def StrictFace (pts : List (Pt K)) : Prop := StrictlyConvex pts ∨ StrictlyConvex pts.reverse

theorem StrictFace.distinct {pts : List (Pt K)} (h : StrictFace pts) : ∀ s ∈ sides pts, s.1 ≠ s.2 := by
  rcases h with h | h
  · exact fun s hs => (h.two_on_line hs).1
  · have := stored_sides (fun s (hs : s.1 ≠ s.2) => (Ne.symm hs : s.swap.1 ≠ s.swap.2)) (l := pts.reverse) (l' := pts)
      (Or.inr (by simp)) fun s hs => (h.two_on_line hs).1
    exact this

theorem StrictFace.sides_ok {pts : List (Pt K)} (h : StrictFace pts) : ConvexFace pts ∧ ∀ s ∈ sides pts, s.1 ≠ s.2 :=
  ⟨StrictlyConvex.convexFace h, h.distinct⟩

/-- Corners of a strictly convex polygon have different positions. -/
theorem StrictlyConvex.nodup {l : List (Pt K)} (h : StrictlyConvex l) : l.Nodup := by
  rw [List.nodup_iff_sublist]
  intro a ha
  obtain ⟨n, h1⟩ : ∃ n, l.length = n := ⟨_, rfl⟩
  -- a third corner
  have h3 := h.length
  have : ∃ c, List.Sublist [a, a, c] l ∨ List.Sublist [a, c, a] l ∨ List.Sublist [c, a, a] l := by
    clear h h1
    induction l with
    | nil => simp at h3
    | cons b l ih =>
      cases ha with
      | cons _ ha =>
        by_cases hl : 3 ≤ l.length
        · obtain ⟨c, hc⟩ := ih ha hl
          exact ⟨c, hc.imp (.cons _) (Or.imp (.cons _) (.cons _))⟩
        · exact ⟨b, Or.inr (Or.inr (ha.cons_cons b))⟩
      | cons_cons _ ha =>
        have ha := List.singleton_sublist.1 ha
        obtain ⟨l1, l2, rfl⟩ := List.append_of_mem ha
        match l1, l2 with
        | [], [] => simp at h3
        | c :: l1, l2 =>
          refine ⟨c, Or.inr (Or.inl ?_)⟩
          refine List.Sublist.cons_cons _ (List.Sublist.cons_cons _ ?_)
          exact List.singleton_sublist.2 (by simp)
        | [], c :: l2 =>
          refine ⟨c, Or.inl ?_⟩
          refine List.Sublist.cons_cons _ (List.Sublist.cons_cons _ ?_)
          exact List.singleton_sublist.2 (by simp)
  obtain ⟨c, hc⟩ := this
  have e : ∀ a c : Pt K, orient a a c = 0 ∧ orient a c a = 0 ∧ orient c a a = 0 := by
    intro a c
    unfold orient
    exact ⟨by ring, by ring, by ring⟩
  obtain ⟨e1, e2, e3⟩ := e a c
  rcases hc with hc | hc | hc
  · exact absurd (h.turn _ _ _ hc) (by rw [e1]; exact lt_irrefl _)
  · exact absurd (h.turn _ _ _ hc) (by rw [e2]; exact lt_irrefl _)
  · exact absurd (h.turn _ _ _ hc) (by rw [e3]; exact lt_irrefl _)

theorem inj_of_nodup {L : List Int} {P : Int → Pt K} (h : (L.map P).Nodup) : ∀ v ∈ L, ∀ w ∈ L, P v = P w → v = w :=
  fun v hv w hw e => List.inj_on_of_nodup_map h hv hw e

theorem mem_sides_of_mem {α : Type} {l : List α} {a : α} (h : a ∈ l) : ∃ b, (a, b) ∈ sides l := by
  have hp : ∀ (l : List α) (z : α), a ∈ l → ∃ b, (a, b) ∈ pairs (l ++ [z]) := by
    intro l z h
    induction l with
    | nil => simp at h
    | cons c l ih =>
      rcases List.mem_cons.1 h with rfl | h
      · cases l with
        | nil => exact ⟨z, by simp [pairs]⟩
        | cons d l => exact ⟨d, by simp [pairs]⟩
      · obtain ⟨b, hb⟩ := ih h
        cases l with
        | nil => simp at h
        | cons d l => exact ⟨b, by simp only [List.cons_append, pairs, List.mem_cons]; exact Or.inr hb⟩
  cases l with
  | nil => simp at h
  | cons c l => exact hp (c :: l) c h

/-- The value at a point that two faces share, in terms of what they share. -/
theorem shared_value {B : List Int} {p : Pt K} {row : List K} (hc : StrictlyConvex (B.map (posOf vertices)))
    (hr : ∀ v ∈ B, 0 ≤ v ∧ v < vertices.length)
    (h : Interpolates (B.map (posOf vertices)) p row) (f : Int → K) :
    (∀ v ∈ B, vertices[v.toNat]? = some p → ((row.zip B).map fun q => q.1 * f q.2).sum = f v) ∧
    ∀ v w, ((v, w) ∈ sides B ∨ (w, v) ∈ sides B) → ∀ u, p = lineAt (posOf vertices v) (posOf vertices w) u →
      ((row.zip B).map fun q => q.1 * f q.2).sum = (1 - u) * f v + u * f w := by
  have hinj := inj_of_nodup hc.nodup
  constructor
  · intro v hv hp
    obtain ⟨w, hw⟩ := mem_sides_of_mem hv
    rw [h.on_side hc hinj hw (u := 0) (by
      have : posOf vertices v = p := by unfold posOf; rw [hp]; rfl
      rw [← this]; unfold lineAt; apply Pt.ext' <;> simp) f]
    ring
  · rintro v w (hs | hs) u hp
    · exact h.on_side hc hinj hs hp f
    · rw [h.on_side hc hinj hs (u := 1 - u) (by rw [hp]; unfold lineAt; apply Pt.ext' <;> (simp only; ring)) f]
      ring

theorem Interpolates.inPoly {l : List (Pt K)} {p : Pt K} {row : List K} {L : List Int} {P : Int → Pt K} (hl : L.map P = l)
    (hc : ConvexPoly l) (h : Interpolates l p row) : InPoly l p := by
  subst hl
  rintro ⟨a, b⟩ hs
  have := h.affine (-(b.y - a.y)) (b.x - a.x) ((b.y - a.y) * a.x - (b.x - a.x) * a.y)
  have e : ∀ x : Pt K, -(b.y - a.y) * x.x + (b.x - a.x) * x.y + ((b.y - a.y) * a.x - (b.x - a.x) * a.y) = orient a b x := by
    intro x; unfold orient; ring
  simp only [e] at this
  simp only
  rw [← this]
  refine List.sum_nonneg fun x hx => ?_
  obtain ⟨q, hq, rfl⟩ := List.mem_map.1 hx
  exact mul_nonneg (h.nonneg' hq) (hc.corner_inPoly (List.mem_map_of_mem (List.of_mem_zip hq).2) _ hs)

theorem Interpolates.inBox {p : Pt K} {row : List K} {L : List Int} {P : Int → Pt K} (h : Interpolates (L.map P) p row) :
    InBoxOf (L.map P) p := by
  have key : ∀ α β γ : K, (∀ v ∈ L, 0 < α * (P v).x + β * (P v).y + γ) → 0 < α * p.x + β * p.y + γ := by
    intro α β γ hpos
    have h1 : ((row.zip L).map fun q => q.1).sum = 1 := (zip_fst_sum (n := L.length) (by simpa using h.pad) rfl).trans h.sum
    rw [← h.affine]
    have h0 : ∀ q ∈ row.zip L, 0 ≤ q.1 * (α * (P q.2).x + β * (P q.2).y + γ) := fun q hq =>
      mul_nonneg (h.nonneg' hq) (hpos _ (List.of_mem_zip hq).2).le
    refine lt_of_le_of_ne (List.sum_nonneg fun x hx => ?_) fun hz => ?_
    · obtain ⟨q, hq, rfl⟩ := List.mem_map.1 hx
      exact h0 q hq
    · have := sum_zero_terms h0 hz.symm
      have h2 : ((row.zip L).map fun q => q.1).sum = 0 := by
        refine List.sum_eq_zero fun x hx => ?_
        obtain ⟨q, hq, rfl⟩ := List.mem_map.1 hx
        rcases mul_eq_zero.1 (this q hq) with h | h
        · exact h
        · exact absurd h (hpos _ (List.of_mem_zip hq).2).ne'
      rw [h1] at h2
      exact one_ne_zero h2
  refine ⟨?_, ?_, ?_, ?_⟩ <;> by_contra hn <;> push Not at hn
  · have := key 1 0 (-p.x) fun v hv => by have := hn _ (List.mem_map_of_mem hv); linarith
    linarith
  · have := key (-1) 0 p.x fun v hv => by have := hn _ (List.mem_map_of_mem hv); linarith
    linarith
  · have := key 0 1 (-p.y) fun v hv => by have := hn _ (List.mem_map_of_mem hv); linarith
    linarith
  · have := key 0 (-1) p.y fun v hv => by have := hn _ (List.mem_map_of_mem hv); linarith
    linarith

/-- The tolerance does not depend on the tuning parameters. -/
theorem tolerance_same (hm : GoodMesh env vertices faces fill) (ht : Makes env vertices faces fill nBuckets cellsPerLeaf t)
    {nBuckets' cellsPerLeaf' : Int} {t' : CellTree K} (ht' : Makes env vertices faces fill nBuckets' cellsPerLeaf' t')
    (tol : Option K) : t'.tolerance env tol = t.tolerance env tol := by
  obtain ⟨_, _, bt, hc⟩ := ht.constructed' hm
  obtain ⟨_, _, bt', hc'⟩ := ht'.constructed' hm
  have hb : t'.data.bbCoords = t.data.bbCoords := by
    refine List.ext_getElem? fun k => ?_
    by_cases hk : k < faces.rows.length
    · obtain ⟨b, h1, h2⟩ := hc.boxes.box k _ (List.getElem?_eq_getElem hk)
      obtain ⟨b', h1', h2'⟩ := hc'.boxes.box k _ (List.getElem?_eq_getElem hk)
      rw [h1, h1', h2.unique h2']
    · rw [List.getElem?_eq_none (show t.data.bbCoords.length ≤ k by rw [hc.boxes.length]; omega),
        List.getElem?_eq_none (show t'.data.bbCoords.length ≤ k by rw [hc'.boxes.length]; omega)]
  cases tol with
  | some _ => rfl
  | none => unfold CellTree.tolerance; rw [hc.distances, hc'.distances, hb]

/-- What `compute_barycentric_weights` returns for every point. -/
theorem value_rows (hm : GoodMesh env vertices faces fill) (ht : Makes env vertices faces fill nBuckets cellsPerLeaf t)
    (hsq : IsSqrt env.sqrt)
    (hconv : ∀ r ∈ faces.rows, ConvexFace (facePts vertices fill r) ∧ ∀ s ∈ sides (facePts vertices fill r), s.1 ≠ s.2)
    {points : List (Pt K)} {tol : Option K} {τ : K} (htol : t.tolerance env tol = .ok τ) (hτ : 0 < τ)
    (hon : ∀ p ∈ points, ∀ r ∈ faces.rows, Accepts τ (facePts vertices fill r) p →
      ∀ s ∈ sides (facePts vertices fill r), NearLine τ s.1 s.2 p → OnSide p s)
    {sched sched1 : List Nat} (hs : sched.Perm (List.range points.length)) (hs1 : sched1.Perm (List.range points.length)) :
    ∃ idx rows, t.barycentricWeights env points tol sched sched1 = .ok (idx, rows) ∧ idx.length = points.length ∧
      rows.length = points.length ∧
      ∀ (i : Nat) p v row, points[i]? = some p → idx[i]? = some v → rows[i]? = some row →
        (v = -1 ↔ ∀ r ∈ faces.rows, ¬ InFace (facePts vertices fill r) p) ∧
        (v ≠ -1 → ∃ (j : Nat) (r B : List Int), v = j ∧ faces.rows[j]? = some r ∧
          t.data.elements[j]? = some (B ++ List.replicate (faces.ncol - B.length) (-1)) ∧
          (B = rowIndices fill r ∨ B = (rowIndices fill r).reverse) ∧
          storedPts vertices fill faces.ncol r = B.map (posOf vertices) ∧ ConvexPoly (B.map (posOf vertices)) ∧
          Interpolates (B.map (posOf vertices)) p row ∧ InFace (facePts vertices fill r) p ∧
          faceRow env faces.ncol (storedPts vertices fill faces.ncol r) p τ = .ok row ∧
          ∀ f : Int → K, interpolated f (B ++ List.replicate (faces.ncol - B.length) (-1)) row =
            ((row.zip B).map fun q => q.1 * f q.2).sum) := by
  obtain ⟨idx, rows, h1, h2, h3, h4, h5⟩ := barycentric_rows hm ht htol hs hs1 fun p hp r hr hacc => by
    obtain ⟨j, hj⟩ := List.mem_iff_getElem?.1 hr
    obtain ⟨row, h, _⟩ := face_interpolates hm ht hsq hconv hτ (hon p hp) hj hacc
    exact ⟨row, h⟩
  refine ⟨idx, rows, h1, h3, h4, ?_⟩
  intro i p v row hp hv hrow
  have hfound : ∀ r ∈ faces.rows, InFace (facePts vertices fill r) p → v ≠ -1 := by
    intro r hr hin
    obtain ⟨j, hj⟩ := List.mem_iff_getElem?.1 hr
    obtain ⟨_, _, _, _, _, _, g5⟩ := stored_row hm ht hj
    obtain ⟨c1, c2⟩ := (hconv r hr).1.stored g5
    have hin' := ((hconv r hr).1.inFace g5 p).2 hin
    obtain ⟨res, v', k1, k2, k3⟩ := C24_located hm ht hs hτ hp hr c1 (by
      rcases c2 with c2 | c2
      · exact Or.inl c2.symm
      · exact Or.inr (by rw [c2]; simp)) hin'
    rw [locatePoints_tol htol] at h2
    rw [k1] at h2
    obtain rfl := Except.ok.inj h2
    rw [hv] at k2
    obtain rfl := Option.some.inj k2
    exact k3
  have hface : v ≠ -1 → ∃ (j : Nat) (r B : List Int), v = j ∧ faces.rows[j]? = some r ∧
      t.data.elements[j]? = some (B ++ List.replicate (faces.ncol - B.length) (-1)) ∧
      (B = rowIndices fill r ∨ B = (rowIndices fill r).reverse) ∧
      storedPts vertices fill faces.ncol r = B.map (posOf vertices) ∧ ConvexPoly (B.map (posOf vertices)) ∧
      Interpolates (B.map (posOf vertices)) p row ∧ InFace (facePts vertices fill r) p ∧
      faceRow env faces.ncol (storedPts vertices fill faces.ncol r) p τ = .ok row ∧
      ∀ f : Int → K, interpolated f (B ++ List.replicate (faces.ncol - B.length) (-1)) row =
        ((row.zip B).map fun q => q.1 * f q.2).sum := by
    intro hne
    rcases h5 i p v row hp hv hrow with ⟨e1, _⟩ | ⟨j, r, e1, e2, e3, e4⟩
    · exact (hne e1).elim
    · obtain ⟨row', f1, f2⟩ := face_interpolates hm ht hsq hconv hτ (hon p (List.mem_of_getElem? hp)) e2 e3
      rw [f1] at e4
      cases e4
      obtain ⟨B, b1, b2, b3, b4⟩ := stored_indices hm ht e2
      obtain ⟨_, _, _, _, _, _, g5⟩ := stored_row hm ht e2
      have hc := (hconv r (List.mem_of_getElem? e2)).1
      have c1 := (hc.stored g5).1
      refine ⟨j, r, B, e1, e2, b1, b2, b3, b3 ▸ c1, b3 ▸ f2, ?_, f1, b4 _ _ f2⟩
      exact (hc.inFace g5 p).1 (f2.inPoly b3.symm c1)
  refine ⟨⟨fun h r hr hin => hfound r hr hin h, fun h => ?_⟩, hface⟩
  by_contra hne
  obtain ⟨j, r, _, _, k2, _, _, _, _, _, k3, _⟩ := hface hne
  exact h r (List.mem_of_getElem? k2) k3

/-- **C99** (exact arithmetic): on a mesh of convex faces, a value that is interpolated with the weights of a located point is
between the smallest and the largest value at the vertices of the face, and affine functions of the coordinates are
reproduced. The point is in the face, and a point is not located only if it is in no face. (The condition on the points is that of `C61_located_partial`.) -/
theorem C99_values (hm : GoodMesh env vertices faces fill) (ht : Makes env vertices faces fill nBuckets cellsPerLeaf t)
    (hsq : IsSqrt env.sqrt)
    (hconv : ∀ r ∈ faces.rows, ConvexFace (facePts vertices fill r) ∧ ∀ s ∈ sides (facePts vertices fill r), s.1 ≠ s.2)
    {points : List (Pt K)} {tol : Option K} {τ : K} (htol : t.tolerance env tol = .ok τ) (hτ : 0 < τ)
    (hon : ∀ p ∈ points, ∀ r ∈ faces.rows, Accepts τ (facePts vertices fill r) p →
      ∀ s ∈ sides (facePts vertices fill r), NearLine τ s.1 s.2 p → OnSide p s)
    {sched sched1 : List Nat} (hs : sched.Perm (List.range points.length)) (hs1 : sched1.Perm (List.range points.length)) :
    ∃ idx rows, t.barycentricWeights env points tol sched sched1 = .ok (idx, rows) ∧ idx.length = points.length ∧
      rows.length = points.length ∧
      ∀ (i : Nat) p v row, points[i]? = some p → idx[i]? = some v → rows[i]? = some row →
        (v = -1 ↔ ∀ r ∈ faces.rows, ¬ InFace (facePts vertices fill r) p) ∧
        (v ≠ -1 → ∃ (j : Nat) (r face : List Int), v = j ∧ faces.rows[j]? = some r ∧ t.data.elements[j]? = some face ∧
          InFace (facePts vertices fill r) p ∧
          (∀ (f : Int → K) (lo hi : K), (∀ k ∈ rowIndices fill r, lo ≤ f k ∧ f k ≤ hi) →
            lo ≤ interpolated f face row ∧ interpolated f face row ≤ hi) ∧
          ∀ (f : Int → K) (α β γ : K), (∀ k ∈ rowIndices fill r, ∀ q, vertices[k.toNat]? = some q → f k = α * q.x + β * q.y + γ) →
            interpolated f face row = α * p.x + β * p.y + γ) := by
  obtain ⟨idx, rows, h1, h2, h3, h4⟩ := value_rows hm ht hsq hconv htol hτ hon hs hs1
  refine ⟨idx, rows, h1, h2, h3, fun i p v row hp hv hrow => ?_⟩
  obtain ⟨g1, g2⟩ := h4 i p v row hp hv hrow
  refine ⟨g1, fun hne => ?_⟩
  obtain ⟨j, r, B, k1, k2, k3, k4, _, _, k5, k6, _, k7⟩ := g2 hne
  have hmem : ∀ k, k ∈ B ↔ k ∈ rowIndices fill r := by
    intro k
    rcases k4 with rfl | rfl <;> simp
  have hone : ((row.zip B).map fun q => q.1).sum = 1 := (zip_fst_sum (n := B.length) (by simpa using k5.pad) rfl).trans k5.sum
  refine ⟨j, r, _, k1, k2, k3, k6, fun f lo hi hb => ?_, fun f α β γ hf => ?_⟩
  · rw [k7]
    have hb' : ∀ q ∈ row.zip B, 0 ≤ q.1 ∧ lo ≤ f q.2 ∧ f q.2 ≤ hi := fun q hq =>
      ⟨k5.nonneg' hq, hb _ ((hmem _).1 (List.of_mem_zip hq).2)⟩
    have key : ∀ l : List (K × Int), (∀ q ∈ l, 0 ≤ q.1 ∧ lo ≤ f q.2 ∧ f q.2 ≤ hi) →
        lo * (l.map fun q => q.1).sum ≤ (l.map fun q => q.1 * f q.2).sum ∧
        (l.map fun q => q.1 * f q.2).sum ≤ hi * (l.map fun q => q.1).sum := by
      intro l hl
      induction l with
      | nil => simp
      | cons q l ih =>
        obtain ⟨i1, i2⟩ := ih fun x hx => hl x (List.mem_cons_of_mem _ hx)
        obtain ⟨j1, j2, j3⟩ := hl q (by simp)
        simp only [List.map_cons, List.sum_cons]
        constructor <;> nlinarith [mul_le_mul_of_nonneg_left j2 j1, mul_le_mul_of_nonneg_left j3 j1]
    have := key _ hb'
    rw [hone, mul_one, mul_one] at this
    exact this
  · rw [k7, ← k5.affine α β γ]
    congr 1
    refine List.map_congr_left fun q hq => ?_
    have hq' := (hmem _).1 (List.of_mem_zip hq).2
    have hr := (hm.valid.rows r (List.mem_of_getElem? k2)).range _ hq'
    have hlt : q.2.toNat < vertices.length := by omega
    rw [hf _ hq' (posOf vertices q.2) (by unfold posOf; rw [List.getElem?_eq_getElem hlt]; rfl)]

/-- **C99** (exact arithmetic): on a conforming mesh of strictly convex faces, the interpolated values do not depend on the
tuning parameters of the tree and on the schedules, also for points on a side or vertex that several faces share, which may
be located in any of these. -/
theorem C99_same_values (hm : GoodMesh env vertices faces fill) (ht : Makes env vertices faces fill nBuckets cellsPerLeaf t)
    {nBuckets' cellsPerLeaf' : Int} {t' : CellTree K} (ht' : Makes env vertices faces fill nBuckets' cellsPerLeaf' t')
    (hsq : IsSqrt env.sqrt)
    (hconv : ∀ r ∈ faces.rows, StrictlyConvex (facePts vertices fill r) ∨ StrictlyConvex (facePts vertices fill r).reverse)
    (hconf : Conforming vertices fill faces)
    {points : List (Pt K)} {tol : Option K} {τ : K} (htol : t.tolerance env tol = .ok τ) (hτ : 0 < τ)
    (hon : ∀ p ∈ points, ∀ r ∈ faces.rows, Accepts τ (facePts vertices fill r) p →
      ∀ s ∈ sides (facePts vertices fill r), NearLine τ s.1 s.2 p → OnSide p s)
    {sched sched1 sched' sched1' : List Nat} (hs : sched.Perm (List.range points.length))
    (hs1 : sched1.Perm (List.range points.length)) (hs' : sched'.Perm (List.range points.length))
    (hs1' : sched1'.Perm (List.range points.length)) :
    ∃ idx rows idx' rows', t.barycentricWeights env points tol sched sched1 = .ok (idx, rows) ∧
      t'.barycentricWeights env points tol sched' sched1' = .ok (idx', rows') ∧
      idx.length = points.length ∧ rows.length = points.length ∧ idx'.length = points.length ∧ rows'.length = points.length ∧
      ∀ (i : Nat) p v row v' row', points[i]? = some p → idx[i]? = some v → rows[i]? = some row → idx'[i]? = some v' →
        rows'[i]? = some row' → (v = -1 ↔ v' = -1) ∧
        (v ≠ -1 → ∃ (j j' : Nat) (face face' : List Int), v = j ∧ v' = j' ∧ t.data.elements[j]? = some face ∧
          t'.data.elements[j']? = some face' ∧ ∀ f : Int → K, interpolated f face row = interpolated f face' row') := by
  have hconv' : ∀ r ∈ faces.rows, ConvexFace (facePts vertices fill r) ∧ ∀ s ∈ sides (facePts vertices fill r), s.1 ≠ s.2 :=
    fun r hr => StrictFace.sides_ok (hconv r hr)
  obtain ⟨idx, rows, h1, h2, h3, h4⟩ := value_rows hm ht hsq hconv' htol hτ hon hs hs1
  obtain ⟨idx', rows', h1', h2', h3', h4'⟩ := value_rows hm ht' hsq hconv' ((tolerance_same hm ht ht' tol).trans htol) hτ hon hs' hs1'
  refine ⟨idx, rows, idx', rows', h1, h1', h2, h3, h2', h3', fun i p v row v' row' hp hv hrow hv' hrow' => ?_⟩
  obtain ⟨g1, g2⟩ := h4 i p v row hp hv hrow
  obtain ⟨g1', g2'⟩ := h4' i p v' row' hp hv' hrow'
  refine ⟨g1.trans g1'.symm, fun hne => ?_⟩
  obtain ⟨j, r, B, k1, k2, k3, k4, k5, k6, k7, k8, k9, k10⟩ := g2 hne
  obtain ⟨j', r', B', l1, l2, l3, l4, l5, l6, l7, l8, l9, l10⟩ := g2' fun e => hne (g1.2 (g1'.1 e))
  refine ⟨j, j', _, _, k1, l1, k3, l3, fun f => ?_⟩
  by_cases hj : j = j'
  · subst hj
    rw [k2] at l2; cases l2
    rw [k9] at l9; cases l9
    obtain ⟨C, c1, _, c3⟩ := (C22_only_reverses hm ht).2 j r k2
    obtain ⟨C', c1', _, c3'⟩ := (C22_only_reverses hm ht').2 j r k2
    rw [c3] at c3'
    have e := Except.ok.inj c3'
    rw [k3] at c1
    rw [l3] at c1'
    rw [Option.some.inj c1, Option.some.inj c1', e]
  · have strict : ∀ {r B : List Int}, r ∈ faces.rows → (B = rowIndices fill r ∨ B = (rowIndices fill r).reverse) →
        ConvexPoly (B.map (posOf vertices)) → StrictlyConvex (B.map (posOf vertices)) := by
      intro r B hr hB hc
      have e := facePts_posOf (hm.valid.rows r hr)
      have hd := hconv r hr
      rw [e, ← List.map_reverse] at hd
      have : StrictlyConvex (B.map (posOf vertices)) ∨ StrictlyConvex (B.map (posOf vertices)).reverse := by
        rcases hB with rfl | rfl
        · rw [← List.map_reverse]; exact hd
        · rw [← List.map_reverse, List.reverse_reverse]; exact hd.symm
      rcases this with h | h
      · exact h
      · exact absurd hc.nondeg (by
          rintro ⟨a, b, c, hsub, ho⟩
          have := h.turn c b a (by simpa using List.reverse_sublist.2 hsub)
          rw [show orient c b a = - orient a b c from by unfold orient; ring] at this
          linarith)
    have hB : ∀ {r B : List Int}, (B = rowIndices fill r ∨ B = (rowIndices fill r).reverse) →
        (∀ v, v ∈ B ↔ v ∈ rowIndices fill r) ∧
        ∀ v w, ((v, w) ∈ sides (rowIndices fill r) ∨ (w, v) ∈ sides (rowIndices fill r)) → ((v, w) ∈ sides B ∨ (w, v) ∈ sides B) := by
      rintro r B (rfl | rfl)
      · exact ⟨fun _ => Iff.rfl, fun _ _ h => h⟩
      · refine ⟨fun _ => by simp, fun v w h => ?_⟩
        have : ∀ a b : Int, (a, b) ∈ sides (rowIndices fill r) → (b, a) ∈ sides (rowIndices fill r).reverse := by
          intro a b hab
          rw [(sides_reverse _).mem_iff]
          exact List.mem_map.2 ⟨_, hab, rfl⟩
        exact h.elim (fun h => Or.inr (this _ _ h)) fun h => Or.inl (this _ _ h)
    have m := List.mem_of_getElem? k2
    have m' := List.mem_of_getElem? l2
    have rg : ∀ v ∈ B, 0 ≤ v ∧ v < vertices.length := fun v hv => (hm.valid.rows r m).range v (((hB k4).1 v).1 hv)
    have rg' : ∀ v ∈ B', 0 ≤ v ∧ v < vertices.length := fun v hv => (hm.valid.rows r' m').range v (((hB l4).1 v).1 hv)
    obtain ⟨a1, a2⟩ := shared_value (strict m k4 k6) rg k7 f
    obtain ⟨b1, b2⟩ := shared_value (strict m' l4 l6) rg' l7 f
    rw [k10, l10]
    rcases hconf j j' r r' hj k2 l2 p k8 l8 with ⟨v, v1, v2, v3⟩ | ⟨v, w, a, b, v1, v2, v3, v4, u, _, _, v5⟩
    · rw [a1 v (((hB k4).1 v).2 v1) v3, b1 v (((hB l4).1 v).2 v2) v3]
    · have e1 : posOf vertices v = a := by unfold posOf; rw [v3]; rfl
      have e2 : posOf vertices w = b := by unfold posOf; rw [v4]; rfl
      have e : p = lineAt (posOf vertices v) (posOf vertices w) u := by rw [e1, e2]; exact v5
      rw [a2 v w ((hB k4).2 v w v1) u e, b2 v w ((hB l4).2 v w v2) u e]

namespace Ex

/-- The two triangles and the square of the example mesh share sides or vertices wherever they meet. -/
theorem real_conforming : Conforming realVerts (-1) realFaces := by
  have in0 : ∀ p, InFace (facePts realVerts (-1) [0, 1, 2, 3]) p → 0 ≤ p.x ∧ p.x ≤ 2 ∧ 0 ≤ p.y ∧ p.y ≤ 2 := by
    intro p h
    replace h : InFace [⟨0, 0⟩, ⟨2, 0⟩, ⟨2, 2⟩, ⟨0, 2⟩] p := h
    simp only [InFace, InPoly, sides, pairs, List.reverse_cons, List.reverse_nil, List.nil_append, List.cons_append,
      List.mem_cons, List.not_mem_nil, forall_eq_or_imp, or_false, forall_eq, orient, List.head?, List.getLast?] at h
    norm_num at h
    rcases h with h | h <;> refine ⟨?_, ?_, ?_, ?_⟩ <;> linarith [h.1, h.2.1, h.2.2.1, h.2.2.2]
  have in1 : ∀ p, InFace (facePts realVerts (-1) [1, 2, 4, -1]) p → 2 ≤ p.x ∧ p.x + 2 * p.y ≤ 6 ∧ p.x - 2 * p.y ≤ 2 := by
    intro p h
    replace h : InFace [⟨2, 0⟩, ⟨2, 2⟩, ⟨4, 1⟩] p := h
    simp only [InFace, InPoly, sides, pairs, List.reverse_cons, List.reverse_nil, List.nil_append, List.cons_append,
      List.mem_cons, List.not_mem_nil, forall_eq_or_imp, or_false, forall_eq, orient, List.head?, List.getLast?] at h
    norm_num at h
    rcases h with h | h <;> refine ⟨?_, ?_, ?_⟩ <;> linarith [h.1, h.2.1, h.2.2]
  have in2 : ∀ p, InFace (facePts realVerts (-1) [2, 4, 5, -1]) p → p.x ≤ 4 ∧ 6 ≤ p.x + 2 * p.y ∧ 2 * p.y - p.x ≤ 2 := by
    intro p h
    replace h : InFace [⟨2, 2⟩, ⟨4, 1⟩, ⟨4, 3⟩] p := h
    simp only [InFace, InPoly, sides, pairs, List.reverse_cons, List.reverse_nil, List.nil_append, List.cons_append,
      List.mem_cons, List.not_mem_nil, forall_eq_or_imp, or_false, forall_eq, orient, List.head?, List.getLast?] at h
    norm_num at h
    rcases h with h | h <;> refine ⟨?_, ?_, ?_⟩ <;> linarith [h.1, h.2.1, h.2.2]
  have swap : ∀ {l m p}, SharedAt realVerts l m p → SharedAt realVerts m l p := by
    rintro l m p (⟨v, h1, h2, h3⟩ | ⟨v, w, a, b, h1, h2, h⟩)
    · exact Or.inl ⟨v, h2, h1, h3⟩
    · exact Or.inr ⟨v, w, a, b, h2, h1, h⟩
  have s01 : ∀ p, InFace (facePts realVerts (-1) [0, 1, 2, 3]) p → InFace (facePts realVerts (-1) [1, 2, 4, -1]) p →
      SharedAt realVerts (rowIndices (-1) [0, 1, 2, 3]) (rowIndices (-1) [1, 2, 4, -1]) p := by
    intro p h h'
    obtain ⟨a1, a2, a3, a4⟩ := in0 p h
    obtain ⟨b1, b2, b3⟩ := in1 p h'
    refine Or.inr ⟨1, 2, ⟨2, 0⟩, ⟨2, 2⟩, by decide, by decide, rfl, rfl, p.y / 2, by linarith, by linarith, ?_⟩
    apply Pt.ext' <;> simp only [lineAt] <;> linarith
  have s02 : ∀ p, InFace (facePts realVerts (-1) [0, 1, 2, 3]) p → InFace (facePts realVerts (-1) [2, 4, 5, -1]) p →
      SharedAt realVerts (rowIndices (-1) [0, 1, 2, 3]) (rowIndices (-1) [2, 4, 5, -1]) p := by
    intro p h h'
    obtain ⟨a1, a2, a3, a4⟩ := in0 p h
    obtain ⟨b1, b2, b3⟩ := in2 p h'
    refine Or.inl ⟨2, by decide, by decide, ?_⟩
    show some (⟨2, 2⟩ : Pt ℝ) = some p
    congr 1
    apply Pt.ext' <;> simp only <;> linarith
  have s12 : ∀ p, InFace (facePts realVerts (-1) [1, 2, 4, -1]) p → InFace (facePts realVerts (-1) [2, 4, 5, -1]) p →
      SharedAt realVerts (rowIndices (-1) [1, 2, 4, -1]) (rowIndices (-1) [2, 4, 5, -1]) p := by
    intro p h h'
    obtain ⟨a1, a2, a3⟩ := in1 p h
    obtain ⟨b1, b2, b3⟩ := in2 p h'
    refine Or.inr ⟨2, 4, ⟨2, 2⟩, ⟨4, 1⟩, by decide, by decide, rfl, rfl, (p.x - 2) / 2, by linarith, by linarith, ?_⟩
    apply Pt.ext' <;> simp only [lineAt] <;> linarith
  intro i j r s hne hi hj p hp hq
  have three : ∀ {k r}, realFaces.rows[k]? = some r →
      (k = 0 ∧ r = [0, 1, 2, 3]) ∨ (k = 1 ∧ r = [1, 2, 4, -1]) ∨ (k = 2 ∧ r = [2, 4, 5, -1]) := by
    intro k r hk
    match k, hk with
    | 0, hk => exact Or.inl ⟨rfl, (Option.some.inj hk).symm⟩
    | 1, hk => exact Or.inr (Or.inl ⟨rfl, (Option.some.inj hk).symm⟩)
    | 2, hk => exact Or.inr (Or.inr ⟨rfl, (Option.some.inj hk).symm⟩)
    | k + 3, hk => simp [realFaces] at hk
  rcases three hi with ⟨rfl, rfl⟩ | ⟨rfl, rfl⟩ | ⟨rfl, rfl⟩ <;> rcases three hj with ⟨rfl, rfl⟩ | ⟨rfl, rfl⟩ | ⟨rfl, rfl⟩
  · exact (hne rfl).elim
  · exact s01 p hp hq
  · exact s02 p hp hq
  · exact swap (s01 p hq hp)
  · exact (hne rfl).elim
  · exact s12 p hp hq
  · exact swap (s02 p hq hp)
  · exact swap (s12 p hq hp)
  · exact (hne rfl).elim

/-- A point on the side that the square and a triangle share, and one inside the square. -/
theorem real_on : ∀ p ∈ [(⟨2, 1⟩ : Pt ℝ), ⟨1, 1⟩], ∀ r ∈ realFaces.rows, Accepts (1 / 100) (facePts realVerts (-1) r) p →
    ∀ s ∈ sides (facePts realVerts (-1) r), NearLine (1 / 100) s.1 s.2 p → OnSide p s := by
  intro p hp
  simp only [List.mem_cons, List.not_mem_nil, or_false] at hp
  rcases hp with rfl | rfl
  · refine real_pts (P := fun l => Accepts (1 / 100) l _ → ∀ s ∈ sides l, NearLine (1 / 100) s.1 s.2 _ → OnSide _ s)
      ?_ ?_ ?_ <;> (intro _; norm_num [sides, pairs, NearLine, orient, dist2])
    · exact ⟨1 / 2, by norm_num, by norm_num, by norm_num [lineAt]⟩
    · exact ⟨1 / 2, by norm_num, by norm_num, by norm_num [lineAt]⟩
  · refine real_pts (P := fun l => Accepts (1 / 100) l _ → ∀ s ∈ sides l, NearLine (1 / 100) s.1 s.2 _ → OnSide _ s)
      ?_ ?_ ?_ <;> (intro _; norm_num [sides, pairs, NearLine, orient, dist2])

end Ex

/-- The example mesh and the two points meet the conditions of C99, for all tuning parameters with which trees are made. -/
example {nBuckets cellsPerLeaf : Int} {t' : CellTree ℝ} (ht' : Makes Ex.realEnv Ex.realVerts Ex.realFaces (-1) nBuckets cellsPerLeaf t') :
    ∃ t idx rows idx' rows', Makes Ex.realEnv Ex.realVerts Ex.realFaces (-1) 4 1 t ∧
      t.barycentricWeights Ex.realEnv [⟨2, 1⟩, ⟨1, 1⟩] (some (1 / 100)) [0, 1] [1, 0] = .ok (idx, rows) ∧
      t'.barycentricWeights Ex.realEnv [⟨2, 1⟩, ⟨1, 1⟩] (some (1 / 100)) [1, 0] [0, 1] = .ok (idx', rows') := by
  obtain ⟨t, ht⟩ := Ex.real_makes
  obtain ⟨idx, rows, idx', rows', h1, h2, _⟩ := C99_same_values Ex.real_good ht ht'
    (fun x hx => ⟨Real.sqrt_nonneg x, Real.mul_self_sqrt hx⟩) Ex.real_strict Ex.real_conforming (tol := some (1 / 100))
    (τ := 1 / 100) rfl (by norm_num) Ex.real_on (sched := [0, 1]) (sched1 := [1, 0]) (sched' := [1, 0]) (sched1' := [0, 1])
    (by decide) (by decide) (by decide) (by decide)
  exact ⟨t, idx, rows, idx', rows', ht, h1, h2⟩

namespace Ex

/-- Three squares in a row. -/
def rowVerts : List (Pt Fl) := [flPt 0 0, flPt 2 0, flPt 2 2, flPt 0 2, flPt 4 0, flPt 4 2, flPt 6 0, flPt 6 2, flPt 6 1, flPt 4 1]
def rowFaces : IntArr := ⟨4, [[4, 6, 7, 5], [0, 1, 2, 3], [1, 4, 5, 2]]⟩

/-- The last of the squares is divided in two, which leaves a hanging node in the side of the one in the middle. -/
def rowHanging : IntArr := ⟨4, [[4, 6, 8, 9], [0, 1, 2, 3], [1, 4, 5, 2], [9, 8, 7, 5]]⟩

end Ex

/-- The face in which a point on a shared side is located does depend on the tuning parameters; the interpolated value,
(f(4) + f(5)) / 2, does not. -/
theorem C99_faces_differ :
    (∃ t : CellTree Fl, Makes Fl.env Ex.rowVerts Ex.rowFaces (-1) 2 1 t ∧
      t.data.elements[0]? = some [4, 6, 7, 5] ∧
      t.barycentricWeights Fl.env [Ex.flPt 4 1] none [0] [0] = .ok ([0], [[.fin (1 / 2), .fin 0, .fin 0, .fin (1 / 2)]])) ∧
    (∃ t : CellTree Fl, Makes Fl.env Ex.rowVerts Ex.rowFaces (-1) 4 2 t ∧
      t.data.elements[2]? = some [1, 4, 5, 2] ∧
      t.barycentricWeights Fl.env [Ex.flPt 4 1] none [0] [0] = .ok ([2], [[.fin 0, .fin (1 / 2), .fin (1 / 2), .fin 0]])) := by
  constructor
  · obtain ⟨t, h1, h2⟩ := bind_eq_ok.1 (show (CellTree.init Fl.env Ex.rowVerts Ex.rowFaces (-1) 2 1 [0, 1, 2] >>=
      fun t => t.barycentricWeights Fl.env [Ex.flPt 4 1] none [0] [0] >>= fun x => .ok (t.data.elements[0]?, x)) =
        .ok (some [4, 6, 7, 5], [0], [[.fin (1 / 2), .fin 0, .fin 0, .fin (1 / 2)]]) by decide +kernel)
    obtain ⟨x, h3, h4⟩ := bind_eq_ok.1 h2
    obtain ⟨h5, rfl⟩ := Prod.mk.inj (Except.ok.inj h4)
    exact ⟨t, ⟨_, by decide, h1⟩, h5, h3⟩
  · obtain ⟨t, h1, h2⟩ := bind_eq_ok.1 (show (CellTree.init Fl.env Ex.rowVerts Ex.rowFaces (-1) 4 2 [0, 1, 2] >>=
      fun t => t.barycentricWeights Fl.env [Ex.flPt 4 1] none [0] [0] >>= fun x => .ok (t.data.elements[2]?, x)) =
        .ok (some [1, 4, 5, 2], [2], [[.fin 0, .fin (1 / 2), .fin (1 / 2), .fin 0]]) by decide +kernel)
    obtain ⟨x, h3, h4⟩ := bind_eq_ok.1 h2
    obtain ⟨h5, rfl⟩ := Prod.mk.inj (Except.ok.inj h4)
    exact ⟨t, ⟨_, by decide, h1⟩, h5, h3⟩

/-- On a mesh that is not conforming the interpolated value depends on the tuning parameters: next to a hanging node it is
(f(4) + f(9)) / 2 for one tree and (3 f(4) + f(5)) / 4 for another. -/
theorem C99_hanging_node_differs :
    (∃ t : CellTree Fl, Makes Fl.env Ex.rowVerts Ex.rowHanging (-1) 2 1 t ∧
      t.data.elements[0]? = some [4, 6, 8, 9] ∧
      t.barycentricWeights Fl.env [Ex.flPt 4 (1 / 2)] none [0] [0] =
        .ok ([0], [[.fin (1 / 2), .fin 0, .fin 0, .fin (1 / 2)]])) ∧
    (∃ t : CellTree Fl, Makes Fl.env Ex.rowVerts Ex.rowHanging (-1) 4 2 t ∧
      t.data.elements[2]? = some [1, 4, 5, 2] ∧
      t.barycentricWeights Fl.env [Ex.flPt 4 (1 / 2)] none [0] [0] =
        .ok ([2], [[.fin 0, .fin (3 / 4), .fin (1 / 4), .fin 0]])) := by
  constructor
  · obtain ⟨t, h1, h2⟩ := bind_eq_ok.1 (show (CellTree.init Fl.env Ex.rowVerts Ex.rowHanging (-1) 2 1 [0, 1, 2, 3] >>=
      fun t => t.barycentricWeights Fl.env [Ex.flPt 4 (1 / 2)] none [0] [0] >>= fun x => .ok (t.data.elements[0]?, x)) =
        .ok (some [4, 6, 8, 9], [0], [[.fin (1 / 2), .fin 0, .fin 0, .fin (1 / 2)]]) by decide +kernel)
    obtain ⟨x, h3, h4⟩ := bind_eq_ok.1 h2
    obtain ⟨h5, rfl⟩ := Prod.mk.inj (Except.ok.inj h4)
    exact ⟨t, ⟨_, by decide, h1⟩, h5, h3⟩
  · obtain ⟨t, h1, h2⟩ := bind_eq_ok.1 (show (CellTree.init Fl.env Ex.rowVerts Ex.rowHanging (-1) 4 2 [0, 1, 2, 3] >>=
      fun t => t.barycentricWeights Fl.env [Ex.flPt 4 (1 / 2)] none [0] [0] >>= fun x => .ok (t.data.elements[2]?, x)) =
        .ok (some [1, 4, 5, 2], [2], [[.fin 0, .fin (3 / 4), .fin (1 / 4), .fin 0]]) by decide +kernel)
    obtain ⟨x, h3, h4⟩ := bind_eq_ok.1 h2
    obtain ⟨h5, rfl⟩ := Prod.mk.inj (Except.ok.inj h4)
    exact ⟨t, ⟨_, by decide, h1⟩, h5, h3⟩

end Celltree
